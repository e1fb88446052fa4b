import Verif.Model.Decode

/-!
# A reference header-block parser

`httparse` is an external crate and is a *parameter* of the model.  This small parser is used only to
show that the assumptions made about the parameter are satisfiable by something concrete; it follows
what `httparse::parse_headers` followed by `HeaderName::try_from` / `HeaderValue::from_bytes`
(`src/proto/h1/decode.rs` 639-671) does on well-formed blocks.
-/

namespace Hyper

/-- `tchar` of RFC 9110: the bytes allowed in a field name. -/
def isTchar (b : Byte) : Bool :=
  (48 ≤ b && b ≤ 57) || (65 ≤ b && b ≤ 90) || (97 ≤ b && b ≤ 122) ||
  (ascii "!#$%&'*+-.^_`|~").contains b

/-- Bytes allowed in a field value (`HeaderValue::from_bytes`): tab, 0x20..0x7e, 0x80..0xff. -/
def isValueByte (b : Byte) : Bool := b == 9 || (32 ≤ b && b != 127)

/-- Space or tab. -/
def isBlankByte (b : Byte) : Bool := b == 32 || b == 9

/-- `u8::to_ascii_lowercase` (Rust core). -/
def lowerByte (b : Byte) : Byte := if 65 ≤ b ∧ b ≤ 90 then b + 32 else b

/-- Strip spaces and tabs on both sides. -/
def trimBlanks (bs : Bytes) : Bytes :=
  ((bs.dropWhile isBlankByte).reverse.dropWhile isBlankByte).reverse

/-- One header line: name, colon, optional blanks, value, end of line. -/
def parseField (bs : Bytes) : Option ((Bytes × Bytes) × Bytes) :=
  let name := bs.takeWhile isTchar
  if name = [] then none
  else
    match bs.dropWhile isTchar with
    | 58 :: r =>
      let value := r.takeWhile isValueByte
      match r.dropWhile isValueByte with
      | 13 :: 10 :: rest => some ((name.map lowerByte, trimBlanks value), rest)
      | 10 :: rest => some ((name.map lowerByte, trimBlanks value), rest)
      | _ => none
    | _ => none

/-- A header block with room for `n` fields. -/
def parseBlock : TrailerParser
  | 13 :: 10 :: _, _ => some []
  | 10 :: _, _ => some []
  | _, 0 => none
  | bs, n + 1 =>
    match parseField bs with
    | none => none
    | some (f, rest) => (parseBlock rest n).map (f :: ·)

end Hyper
