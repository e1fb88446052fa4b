import Verif.Model.ReadBuf

/-!
# `Compat` (`src/common/io/compat.rs`): hyper's transports as Tokio's, for h2

Tokio's `ReadBuf` has the same three parts as hyper's, so the type `ReadBuf` serves for both; the two operations of Tokio's
that are used are given here after its documentation.
-/

namespace Hyper

/-- Tokio's `ReadBuf::assume_init`: the first `n` bytes after the filled ones are initialised; nothing happens if that was known. -/
def ReadBuf.tokioAssumeInit (b : ReadBuf) (n : Nat) : ReadBuf := if b.init < b.filled + n then { b with init := b.filled + n } else b

/-- Tokio's `ReadBuf::set_filled`: panics when more would be filled than is known to be initialised. -/
def ReadBuf.tokioSetFilled (b : ReadBuf) (n : Nat) : OrPanic ReadBuf := if n ≤ b.init then ⟨false, { b with filled := n }⟩ else ⟨true, b⟩

/-- `ReadBuf::set_init` (rt/io.rs 278-282). -/
def ReadBuf.setInit (b : ReadBuf) (n : Nat) : ReadBuf := { b with init := max b.init n }

/-- `ReadBuf::set_filled` (rt/io.rs 284-288). -/
def ReadBuf.setFilled (b : ReadBuf) (n : Nat) : ReadBuf := { b with filled := max b.filled n }

/-- The cursor handed to hyper's transport (compat.rs 39-41). -/
def compatCursor (t : ReadBuf) : ReadBuf := ((ReadBuf.mk t.raw 0 0).setInit t.init).setFilled t.filled

/-- `<Compat as tokio::io::AsyncRead>::poll_read` (compat.rs 27-64); `inner` is the transport's `poll_read`.  The memory is shared, so it is
as the transport left it whatever the transport answered.  The subtraction does not wrap: `init` never shrinks (`C72_read`). -/
def compatPollRead (inner : ReadBuf → PollIo × ReadBuf) (t : ReadBuf) : PollIo × OrPanic ReadBuf :=
  let r := inner (compatCursor t)
  let t' := { t with raw := r.2.raw }
  if r.1 = .ready then (.ready, (t'.tokioAssumeInit (r.2.init - t.init)).tokioSetFilled r.2.filled)
  else (r.1, ⟨false, t'⟩)

end Hyper
