import Verif.Spec.Input

/-! # Where the messages of a connection end -/

namespace Hyper.Input

open Hyper.Spec

/-- What is asked of the parser of heads: a message that asks for an upgrade does not allow the connection to be used for another. -/
def NoReuse {α : Type} (H : HeadFn α) : Prop :=
  ∀ {m b x b'}, H.parse m b = (.ok (some x), b') → (H.view m x).wantsUpgrade = true → (H.view m x).keepAlive = false

/-- `Stops H P mh fin s ws r left`: of the bytes `s` the messages `ws` and then `r` have been taken, and nothing more; `left` are the others.  If
`r` was read to its end they are those directly after it, otherwise `r` has a body and they are some end of the bytes after its head. -/
def Stops {α : Type} (H : HeadFn α) (P : TrailerParser) (mh : Option Nat) (fin : NetEnd) (s : Bytes) (ws : List (Received α)) (r : Received α)
    (left : Bytes) : Prop :=
  ∃ t body, Reads H P mh fin s ws t ∧ H.parse r.method t = (.ok (some r.head), body) ∧ body <:+ t ∧
    ((r.whole = true ∧ Body P mh fin (H.view r.method r.head).decode body r.data r.trailers left) ∨
     (r.whole = false ∧ (H.view r.method r.head).decode ≠ DecodedLength.ZERO ∧ left <:+ body))

end Hyper.Input
