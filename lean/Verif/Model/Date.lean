import Verif.Model.Bytes

/-!
# The cached `Date` value: `src/common/date.rs`

Times are nanoseconds since the Unix epoch.  (Clock readings before the epoch, for which
`duration_since` fails, are not modelled.)
-/

namespace Hyper

/-- One second in nanoseconds. -/
def nanosPerSec : Nat := 1000000000

/-- `CachedDate` (date.rs 36-42).  `render` is `HttpDate`'s formatting of a whole second (crate `httpdate`), a
parameter. -/
structure CachedDate where
  /-- `bytes`, 29 of them. -/
  bytes : Bytes
  nextUpdate : Nat
  deriving DecidableEq, Repr

/-- `CachedDate::update` and `render` (date.rs 70-85). -/
def CachedDate.update (render : Nat → Bytes) (now : Nat) : CachedDate :=
  ⟨render (now / nanosPerSec), now + nanosPerSec - now % nanosPerSec⟩

/-- `CachedDate::new` (date.rs 47-57). -/
def CachedDate.new (render : Nat → Bytes) (now : Nat) : CachedDate := CachedDate.update render now

/-- `CachedDate::check` (date.rs 63-68). -/
def CachedDate.check (render : Nat → Bytes) (c : CachedDate) (now : Nat) : CachedDate :=
  if now > c.nextUpdate then CachedDate.update render now else c

end Hyper
