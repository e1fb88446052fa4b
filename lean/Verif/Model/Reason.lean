import Verif.Model.Bytes

/-! # Reason phrases: `src/ext/h1_reason_phrase.rs` -/

namespace Hyper

/-- `is_vchar` (h1_reason_phrase.rs 143-145). -/
def isVchar (b : Byte) : Bool := 0x21 ≤ b && b ≤ 0x7E

/-- `is_obs_text` (h1_reason_phrase.rs 152-154). -/
def isObsText (b : Byte) : Bool := 0x80 ≤ b && b ≤ 0xFF

/-- `is_valid_byte` (h1_reason_phrase.rs 141-158). -/
def isReasonByte (b : Byte) : Bool := b == 9 || b == 32 || isVchar b || isObsText b

/-- `find_invalid_byte` (h1_reason_phrase.rs 160-170). -/
def findInvalidByte : Bytes → Option Byte
  | [] => none
  | b :: bs => if isReasonByte b then findInvalidByte bs else some b

/-- `TryFrom<&[u8]>`, `TryFrom<Vec<u8>>`, `TryFrom<String>`, `TryFrom<Bytes>` for `ReasonPhrase`
(h1_reason_phrase.rs 63-109), which are the same up to ownership; the error carries the bad byte.
(`from_static`, 43-50, panics in the error case.) -/
def reasonTryFrom (bs : Bytes) : Except Byte Bytes :=
  match findInvalidByte bs with
  | some b => .error b
  | none => .ok bs

end Hyper
