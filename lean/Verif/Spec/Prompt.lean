import Verif.Spec.Input
import Verif.Spec.Buffered

/-! # What has arrived and is not yet read -/

namespace Hyper.Input

open Hyper.Spec

/-- What is asked of the parser of heads besides `Stable`: a head it recognises ends with an empty line, is recognised as soon as its last byte is
there, and whether one has to wait for more does not depend on the method the connection remembers. -/
structure Ending {α : Type} (H : HeadFn α) : Prop where
  ends : ∀ {m b x b'}, H.parse m b = (.ok (some x), b') → HeadEndsAt b (b.length - b'.length)
  soon : ∀ {m b x b'}, H.parse m b = (.ok (some x), b') → ∀ n, b.length - b'.length ≤ n → ∃ x' b'', H.parse m (b.take n) = (.ok (some x'), b'')
  blind : ∀ {m b b'}, H.parse m b = (.ok none, b') → ∀ m' x b'', H.parse m' b ≠ (.ok (some x), b'')

/-- The bytes do not begin with a complete head. -/
def NoHead {α : Type} (H : HeadFn α) (b : Bytes) : Prop := ∀ m x b', H.parse m b ≠ (.ok (some x), b')

/-- From `r` to `r'` all the transport had to give was taken, up to an answer that there is nothing yet. -/
def Waited (r r' : Rd) : Prop :=
  ∃ pre, (∀ s ∈ pre, s ≠ Seg.pending) ∧ (r.net = pre ++ Seg.pending :: r'.net ∨ (r.net = pre ∧ r'.net = [] ∧ r.fin = .silent))

/-- The assumption about the tokeniser of requests: a head it has recognised ends with an empty line, and what follows it does not matter. -/
def RequestLocal (Q : Bytes → Except ParseErr (Option (RawRequest × Nat))) : Prop :=
  ∀ buf r n, Q buf = .ok (some (r, n)) → HeadEndsAt buf n ∧ ∀ k, n ≤ k → Q (buf.take k) = .ok (some (r, n))

/-- The same about the tokeniser of responses. -/
def ResponseLocal (Q : Bytes → RespParse) : Prop :=
  ∀ buf len r, Q buf = .complete len r → HeadEndsAt buf len ∧ ∀ k, len ≤ k → Q (buf.take k) = .complete len r

end Hyper.Input
