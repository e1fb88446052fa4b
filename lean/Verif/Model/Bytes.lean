/-!
# Bytes

Shared vocabulary of the model: bytes, byte strings, polling results.
-/

namespace Hyper

/-- A Rust `u8`. -/
abbrev Byte := UInt8

/-- A Rust `Bytes`/`&[u8]`/`Vec<u8>`: the model keeps only the contents. -/
abbrev Bytes := List UInt8

/-- ASCII text as a byte string (Rust byte-string literals such as `b"chunked"`). -/
def ascii (s : String) : Bytes := s.toList.map (fun c => UInt8.ofNat c.toNat)

/-- `b'\r'`. -/
abbrev CR : Byte := 13
/-- `b'\n'`. -/
abbrev LF : Byte := 10
/-- `b"\r\n"`. -/
abbrev CRLF : Bytes := [CR, LF]

/-- `u64::MAX` (Rust core). -/
def u64Max : Nat := 2 ^ 64 - 1

/-- `std::task::Poll`. -/
inductive Poll (α : Type) where
  | pending
  | ready (a : α)
  deriving DecidableEq, Repr

/-- `u64::checked_mul` (Rust core). -/
def checkedMul (a b : Nat) : Option Nat := if a * b ≤ u64Max then some (a * b) else none

/-- `u64::checked_add` (Rust core). -/
def checkedAdd (a b : Nat) : Option Nat := if a + b ≤ u64Max then some (a + b) else none

end Hyper
