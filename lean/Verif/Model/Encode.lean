import Verif.Model.HeaderMap

/-!
# Body encoders: `src/proto/h1/encode.rs`

Encoded buffers (`EncodedBuf`, `Chain`, `Take`) are represented by the bytes they hold; `Model/EncodedBuf.lean` has the buffers themselves, and C86
proves that these are the bytes.
-/

namespace Hyper

/-- An upper-case hexadecimal digit (`{:X}` in `core::fmt`). -/
def hexUpperDigit (n : Nat) : Byte := if n < 10 then UInt8.ofNat (48 + n) else UInt8.ofNat (55 + n)

/-- `format!("{n:X}")` (`core::fmt`): upper-case hexadecimal without leading zeros. -/
def hexUpper (n : Nat) : Bytes :=
  if n < 16 then [hexUpperDigit n] else hexUpper (n / 16) ++ [hexUpperDigit (n % 16)]
termination_by n
decreasing_by omega

/-- `ChunkSize::new` (encode.rs 348-357): `"{len:X}\r\n"`. -/
def chunkSize (len : Nat) : Bytes := hexUpper len ++ CRLF

/-- `CHUNK_SIZE_MAX_BYTES + 2` on a 64-bit target (encode.rs 335-342): room in a `ChunkSize`. -/
def CHUNK_SIZE_ROOM : Nat := 8 * 2 + 2

/-- `Kind` (encode.rs 36-49). -/
inductive EncKind where
  | chunked (trailers : Option (List Bytes))
  | length (n : Nat)
  | closeDelimited
  deriving DecidableEq, Repr

/-- `Encoder` (encode.rs 22-25). -/
structure Encoder where
  kind : EncKind
  isLast : Bool
  deriving DecidableEq, Repr

/-- `Encoder::chunked` (encode.rs 67). -/
def Encoder.chunked : Encoder := ⟨.chunked none, false⟩
/-- `Encoder::length` (encode.rs 71). -/
def Encoder.length (n : Nat) : Encoder := ⟨.length n, false⟩
/-- `Encoder::close_delimited` (encode.rs 76). -/
def Encoder.closeDelimited : Encoder := ⟨.closeDelimited, false⟩

/-- `Encoder::into_chunked_with_trailing_fields` (encode.rs 80-88). -/
def Encoder.intoChunkedWithTrailingFields (e : Encoder) (ts : List Bytes) : Encoder :=
  match e.kind with
  | .chunked _ => { e with kind := .chunked (some ts) }
  | _ => e

/-- `Encoder::is_eof` (encode.rs 90-92). -/
def Encoder.isEof (e : Encoder) : Bool :=
  match e.kind with
  | .length n => n == 0
  | _ => false

/-- `Encoder::set_last` (encode.rs 95-98). -/
def Encoder.setLast (e : Encoder) (b : Bool) : Encoder := { e with isLast := b }

/-- `Encoder::is_close_delimited` (encode.rs 104-110). -/
def Encoder.isCloseDelimited (e : Encoder) : Bool :=
  match e.kind with
  | .closeDelimited => true
  | _ => false

/-- `Encoder::is_chunked` (encode.rs 112-114). -/
def Encoder.isChunked (e : Encoder) : Bool :=
  match e.kind with
  | .chunked _ => true
  | _ => false

/-- `Encoder::end` (encode.rs 116-126): bytes to write, or `NotEof(n)`. -/
def Encoder.finish (e : Encoder) : Except Nat (Option Bytes) :=
  match e.kind with
  | .length 0 => .ok none
  | .chunked _ => .ok (some (ascii "0\r\n\r\n"))
  | .closeDelimited => .ok none
  | .length n => .error n

/-- `Encoder::encode` (encode.rs 128-161). -/
def Encoder.encode (e : Encoder) (msg : Bytes) : Bytes × Encoder :=
  let len := msg.length
  match e.kind with
  | .chunked _ => (chunkSize len ++ msg ++ CRLF, e)
  | .length remaining =>
    if len > remaining then (msg.take remaining, { e with kind := .length 0 })
    else (msg, { e with kind := .length (remaining - len) })
  | .closeDelimited => (msg, e)

/-- `is_valid_trailer_field` (encode.rs 264-280): the forbidden names. -/
def forbiddenTrailers : List Bytes :=
  [ascii "authorization", ascii "cache-control", ascii "content-encoding", ascii "content-length",
   ascii "content-range", ascii "content-type", ascii "host", ascii "max-forwards",
   ascii "set-cookie", ascii "trailer", ascii "transfer-encoding", ascii "te"]

/-- `is_valid_trailer_field` (encode.rs 264-280). -/
def isValidTrailerField (name : Bytes) : Bool := !forbiddenTrailers.contains name

/-- `u8::to_ascii_uppercase` (Rust core). -/
def upperByte (b : Byte) : Byte := if 97 ≤ b ∧ b ≤ 122 then b - 32 else b

/-- The loop of `title_case` (`src/proto/h1/role.rs` 1590-1596); note that `prev` is the byte as
pushed. -/
def titleCaseFrom : Byte → Bytes → Bytes
  | _, [] => []
  | prev, c :: cs =>
    let c := if prev = 45 then upperByte c else c
    c :: titleCaseFrom c cs

/-- `title_case` (`src/proto/h1/role.rs` 1585-1597). -/
def titleCase (name : Bytes) : Bytes := titleCaseFrom 45 name

/-- `write_headers` (`src/proto/h1/role.rs` 1608-1615). -/
def writeHeaders (m : HeaderMap) : Bytes :=
  m.fields.flatMap (fun f => f.1 ++ ascii ": " ++ f.2 ++ CRLF)

/-- `write_headers_title_case` (`src/proto/h1/role.rs` 1599-1606). -/
def writeHeadersTitleCase (m : HeaderMap) : Bytes :=
  m.fields.flatMap (fun f => titleCase f.1 ++ ascii ": " ++ f.2 ++ CRLF)

/-- The filtering loop of `Encoder::encode_trailers` (encode.rs 173-191): `cur` is `cur_name`, which
is always set because `into_iter` gives the name with the first value; `none` is the panic of
`expect("current header name")`. -/
def filterTrailers (allowed : List Bytes) :
    Option Bytes → HeaderMap → List (Option Bytes × Bytes) → Option HeaderMap
  | _, acc, [] => some acc
  | cur, acc, (opt, v) :: rest =>
    match opt.or cur with
    | none => none
    | some name =>
      let acc :=
        if allowed.contains name then
          (if isValidTrailerField name then acc.append name v else acc)
        else acc
      filterTrailers allowed (some name) acc rest

/-- `Encoder::encode_trailers` (encode.rs 163-217): the bytes to write, if any. -/
def Encoder.encodeTrailers (e : Encoder) (trailers : HeaderMap) (title : Bool) : Option Bytes :=
  match e.kind with
  | .chunked (some allowed) =>
    match filterTrailers allowed none [] trailers.drain with
    | none => none
    | some kept =>
      let buf := if title then writeHeadersTitleCase kept else writeHeaders kept
      if buf = [] then none else some (ascii "0\r\n" ++ buf ++ CRLF)
  | _ => none

/-- `Encoder::encode_and_end` (encode.rs 219-261): the bytes buffered and whether the connection may
be kept alive. -/
def Encoder.encodeAndEnd (e : Encoder) (msg : Bytes) : Bytes × Bool :=
  let len := msg.length
  match e.kind with
  | .chunked _ => (chunkSize len ++ msg ++ ascii "\r\n0\r\n\r\n", !e.isLast)
  | .length remaining =>
    if len = remaining then (msg, !e.isLast)
    else if len > remaining then (msg.take remaining, !e.isLast)
    else (msg, false)
  | .closeDelimited => (msg, false)

end Hyper
