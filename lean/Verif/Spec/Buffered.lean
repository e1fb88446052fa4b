import Verif.Model.Bytes

/-! # Specification vocabulary for the read buffer: C30-C32 -/

namespace Hyper.Spec

/-- A line end followed by an empty line, a line being ended by LF or CR LF.  (CR LF CR LF and CR LF LF
end in one of these.) -/
def Terminator (t : Bytes) : Prop := t = [10, 10] ∨ t = [10, 13, 10]

/-- A head terminator ends exactly after the first `k` bytes. -/
def HeadEndsAt (bytes : Bytes) (k : Nat) : Prop :=
  k ≤ bytes.length ∧ ∃ pre t, Terminator t ∧ bytes.take k = pre ++ t

/-- A tokeniser of heads: gives the length of the head the bytes begin with, if it is complete. What is asked of `httparse`: a
complete head ends with a terminator, and whether it is complete does not depend on what follows
it. -/
structure Tokeniser (T : Bytes → Option Nat) : Prop where
  ends : ∀ bytes k, T bytes = some k → HeadEndsAt bytes k
  local_ : ∀ bytes k n, T bytes = some k → k ≤ n → T (bytes.take n) = some k

/-- `p` is the largest power of two that is at most half of `n`. -/
def HalfPower (n p : Nat) : Prop := (∃ k, p = 2 ^ k) ∧ 2 * p ≤ n ∧ n < 4 * p

end Hyper.Spec
