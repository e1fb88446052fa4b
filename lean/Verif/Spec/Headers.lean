import Verif.Model.Bytes

/-!
# Header values as lists of elements (RFC 9110 section 5.6.1), written without the model's parsers
-/

namespace Hyper.Spec

/-- A byte that may appear in a value read as text: tab, space, visible ASCII. -/
def Visible (b : Byte) : Prop := b = 9 ∨ (32 ≤ b.toNat ∧ b.toNat ≤ 126)

/-- `e` is one of the comma-separated elements of `v`. -/
def Element (v e : Bytes) : Prop :=
  ∃ pre post : Bytes, v = pre ++ e ++ post ∧ 44 ∉ e ∧
    (pre = [] ∨ ∃ p, pre = p ++ [44]) ∧ (post = [] ∨ ∃ p, post = 44 :: p)

/-- `e` is the last comma-separated element of `v`. -/
def LastElement (v e : Bytes) : Prop :=
  ∃ pre : Bytes, v = pre ++ e ∧ 44 ∉ e ∧ (pre = [] ∨ ∃ p, pre = p ++ [44])

/-- `e` is `t` surrounded by any number of spaces and tabs. -/
def Padded (e t : Bytes) : Prop :=
  ∃ a b : Bytes, (∀ x ∈ a, x = 32 ∨ x = 9) ∧ (∀ x ∈ b, x = 32 ∨ x = 9) ∧ e = a ++ t ++ b

/-- The lower-case form of an ASCII letter, other bytes unchanged. -/
def foldCase (b : Byte) : Byte := if 65 ≤ b.toNat ∧ b.toNat ≤ 90 then UInt8.ofNat (b.toNat + 32) else b

/-- Equal ignoring ASCII case. -/
def SameToken (a b : Bytes) : Prop := a.map foldCase = b.map foldCase

/-- Some value lists the option `tok`. -/
def HasOption (values : List Bytes) (tok : Bytes) : Prop :=
  ∃ v ∈ values, (∀ b ∈ v, Visible b) ∧ ∃ e t, Element v e ∧ Padded e t ∧ SameToken t tok

/-- The final transfer coding of these fields is `chunked`. -/
def FinalChunked (values : List Bytes) : Prop :=
  ∃ vs v e t, values = vs ++ [v] ∧ (∀ b ∈ v, Visible b) ∧ LastElement v e ∧ Padded e t ∧
    SameToken t (ascii "chunked")

/-- A decimal digit. -/
def IsDigit (b : Byte) : Prop := 48 ≤ b.toNat ∧ b.toNat ≤ 57

/-- The number denoted by decimal digits. -/
def decNum (ds : Bytes) : Nat := ds.foldl (fun a d => 10 * a + (d.toNat - 48)) 0

/-- `v` is a Content-Length value denoting `n`. -/
def IsLength (v : Bytes) (n : Nat) : Prop :=
  v ≠ [] ∧ (∀ b ∈ v, IsDigit b) ∧ decNum v = n ∧ n < 2 ^ 64

/-- Every element of every value is the same length `n`. -/
def AgreedLength (values : List Bytes) (n : Nat) : Prop :=
  values ≠ [] ∧ ∀ v ∈ values, (∀ b ∈ v, Visible b) ∧
    ∀ e, Element v e → ∃ t, Padded e t ∧ IsLength t n

end Hyper.Spec
