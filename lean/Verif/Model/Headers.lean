import Verif.Model.HeaderMap
import Verif.Model.Httparse

/-!
# Header helpers: `src/headers.rs`
-/

namespace Hyper

/-- `HeaderValue::to_str` (crate `http`): succeeds iff every byte is a tab or in 0x20..0x7e; the
string has the same bytes. -/
def isVisible (b : Byte) : Bool := b == 9 || (32 ≤ b && b < 127)

/-- `HeaderValue::to_str`. -/
def toStr (v : Bytes) : Option Bytes := if v.all isVisible then some v else none

/-- `str::split(',')`: always at least one piece. -/
def splitComma : Bytes → List Bytes
  | [] => [[]]
  | b :: bs =>
    if b = 44 then [] :: splitComma bs
    else match splitComma bs with
      | [] => [[b]]
      | p :: ps => (b :: p) :: ps

/-- `slice::eq_ignore_ascii_case` / `str::eq_ignore_ascii_case`. -/
def eqIgnoreCase (a b : Bytes) : Bool := a.map lowerByte == b.map lowerByte

/-- `connection_has` (headers.rs 34-43).  `str::trim` strips Unicode white space; in a string that
passed `to_str` only space and tab can occur. -/
def connectionHas (value : Bytes) (needle : Bytes) : Bool :=
  match toStr value with
  | some s => (splitComma s).any (fun v => eqIgnoreCase (trimBlanks v) needle)
  | none => false

/-- `connection_keep_alive` (headers.rs 13-15). -/
def connectionKeepAlive (value : Bytes) : Bool := connectionHas value (ascii "keep-alive")

/-- `connection_close` (headers.rs 18-20). -/
def connectionClose (value : Bytes) : Bool := connectionHas value (ascii "close")

/-- `connection_any_close` (headers.rs 26-31). -/
def connectionAnyClose (headers : HeaderMap) : Bool :=
  (headers.getAll (ascii "connection")).any connectionClose

/-- `header_value_list_has` (headers.rs 51-63). -/
def headerValueListHas : List Bytes → Bytes → Bool
  | [], _ => false
  | value :: values, needle =>
    match toStr value with
    | some line =>
      if (splitComma line).any (fun t => eqIgnoreCase (trimBlanks t) needle) then true
      else headerValueListHas values needle
    | none => headerValueListHas values needle

/-- `te_is_trailers` (headers.rs 46-48). -/
def teIsTrailers (headers : HeaderMap) : Bool :=
  headerValueListHas (headers.getAll (ascii "te")) (ascii "trailers")

/-- The loop of `from_digits` (headers.rs 110-123). -/
def fromDigitsLoop : Nat → Bytes → Option Nat
  | result, [] => some result
  | result, b :: bs =>
    if 48 ≤ b ∧ b ≤ 57 then
      match checkedMul result 10 with
      | none => none
      | some m =>
        match checkedAdd m (b - 48).toNat with
        | none => none
        | some r => fromDigitsLoop r bs
    else none

/-- `from_digits` (headers.rs 101-126). -/
def fromDigits (bytes : Bytes) : Option Nat := if bytes = [] then none else fromDigitsLoop 0 bytes

/-- `content_length_parse` (headers.rs 66-68). -/
def contentLengthParse (value : Bytes) : Option Nat := fromDigits value

/-- The inner loop of `content_length_parse_all_values` (headers.rs 84-92): `none` is `return None`. -/
def clElems : Option Nat → List Bytes → Option (Option Nat)
  | cl, [] => some cl
  | cl, v :: vs =>
    match fromDigits (trimBlanks v) with
    | none => none
    | some n =>
      match cl with
      | none => clElems (some n) vs
      | some m => if m = n then clElems (some m) vs else none

/-- The outer loop of `content_length_parse_all_values` (headers.rs 82-96). -/
def clValues : Option Nat → List Bytes → Option (Option Nat)
  | cl, [] => some cl
  | cl, h :: hs =>
    match toStr h with
    | none => none
    | some line =>
      match clElems cl (splitComma line) with
      | none => none
      | some cl => clValues cl hs

/-- `content_length_parse_all_values` (headers.rs 76-99). -/
def contentLengthParseAllValues (values : List Bytes) : Option Nat :=
  match clValues none values with
  | none => none
  | some cl => cl

/-- `content_length_parse_all` (headers.rs 71-73). -/
def contentLengthParseAll (headers : HeaderMap) : Option Nat :=
  contentLengthParseAllValues (headers.getAll (ascii "content-length"))

/-- `is_chunked_` (headers.rs 159-168): `rsplit(',').next()` is the last piece. -/
def isChunkedValue (value : Bytes) : Bool :=
  match toStr value with
  | some s =>
    match (splitComma s).getLast? with
    | some encoding => eqIgnoreCase (trimBlanks encoding) (ascii "chunked")
    | none => false
  | none => false

/-- `is_chunked` (headers.rs 149-156). -/
def isChunked (encodings : List Bytes) : Bool :=
  match encodings.getLast? with
  | some line => isChunkedValue line
  | none => false

/-- `transfer_encoding_is_chunked` (headers.rs 144-146). -/
def transferEncodingIsChunked (headers : HeaderMap) : Bool :=
  isChunked (headers.getAll (ascii "transfer-encoding"))

/-- `add_chunked` (headers.rs 171-188) on the values of the occupied entry. -/
def addChunked (values : List Bytes) : List Bytes :=
  match values.getLast? with
  | some line => values.dropLast ++ [line ++ ascii ", " ++ ascii "chunked"]
  | none => [ascii "chunked"]

/-- `set_content_length_if_missing` (headers.rs 137-141); `num` renders the number. -/
def setContentLengthIfMissing (headers : HeaderMap) (value : Bytes) : HeaderMap :=
  if headers.contains (ascii "content-length") then headers
  else headers.insert (ascii "content-length") value

/-- `HeaderName::from_bytes` (crate `http`): a non-empty token shorter than 2^16, made lower case. -/
def headerName (bs : Bytes) : Option Bytes :=
  if bs ≠ [] ∧ bs.all isTchar ∧ bs.length < 2 ^ 16 then some (bs.map lowerByte) else none

/-- The names listed by a `Trailer` value (`src/proto/h1/role.rs` 885-889, 1414-1420). -/
def trailerNames (value : Bytes) : List Bytes :=
  match toStr value with
  | some s => (splitComma s).filterMap (fun p => headerName (trimBlanks p))
  | none => []

end Hyper
