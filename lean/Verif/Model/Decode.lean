import Verif.Model.Transport

/-!
# Body decoders: `src/proto/h1/decode.rs`

`u64` and `usize` quantities are `Nat`s guarded by the same checks the code makes
(64-bit target, so `usize::try_from(u64)` never fails).
-/

namespace Hyper

/-- `CHUNKED_EXTENSIONS_LIMIT` (decode.rs 20). -/
def CHUNKED_EXTENSIONS_LIMIT : Nat := 1024 * 16

/-- `TRAILER_LIMIT` (decode.rs 25). -/
def TRAILER_LIMIT : Nat := 1024 * 16

/-- `DEFAULT_MAX_HEADERS` (`src/proto/h1/role.rs` 31). -/
def DEFAULT_MAX_HEADERS : Nat := 100

/-- `ChunkedState` (decode.rs 70-84). -/
inductive CState where
  | start | size | sizeLws | extension | sizeLf | body | bodyCr | bodyLf
  | trailer | trailerLf | endCr | endLf | finished
  deriving DecidableEq, Repr

/-- The fields of `Kind::Chunked` (decode.rs 41-49). -/
structure Chunked where
  state : CState
  /-- `chunk_len` -/
  len : Nat
  /-- `extensions_cnt` -/
  ext : Nat
  /-- `trailers_buf` -/
  tbuf : Option Bytes
  /-- `trailers_cnt` -/
  tcnt : Nat
  /-- `h1_max_headers` -/
  maxHeaders : Option Nat
  /-- `h1_max_header_size` -/
  maxHeaderSize : Option Nat
  deriving DecidableEq, Repr

/-- The effective header count limit (decode.rs 180). -/
def Chunked.maxCnt (c : Chunked) : Nat := c.maxHeaders.getD DEFAULT_MAX_HEADERS

/-- The effective trailer byte limit (decode.rs 181). -/
def Chunked.maxBytes (c : Chunked) : Nat := c.maxHeaderSize.getD TRAILER_LIMIT

/-- The result of a `ChunkedState` handler: new state or error, and the decoder fields as the
handler left them. -/
abbrev StepOut := Except DErr CState × Chunked

/-- The digit arms shared by `read_start` and `read_size` (decode.rs 351-362, 383-394):
`size = size * 16 + digit` with checked arithmetic, `d` being the value of the digit. -/
def Chunked.pushDigit (c : Chunked) (d : Nat) : StepOut :=
  match checkedMul c.len 16 with
  | none => (.error .overflow, c)
  | some m =>
    match checkedAdd m d with
    | none => (.error .overflow, { c with len := m })
    | some s => (.ok .size, { c with len := s })

/-- `ChunkedState::read_start` (decode.rs 342-372) after its byte has been read. -/
def Chunked.readStart (c : Chunked) (b : Byte) : StepOut :=
  if 48 ≤ b ∧ b ≤ 57 then c.pushDigit (b - 48).toNat
  else if 97 ≤ b ∧ b ≤ 102 then c.pushDigit (b + 10 - 97).toNat
  else if 65 ≤ b ∧ b ≤ 70 then c.pushDigit (b + 10 - 65).toNat
  else (.error .missingSizeDigit, c)

/-- `ChunkedState::read_size` (decode.rs 374-406). -/
def Chunked.readSize (c : Chunked) (b : Byte) : StepOut :=
  if 48 ≤ b ∧ b ≤ 57 then c.pushDigit (b - 48).toNat
  else if 97 ≤ b ∧ b ≤ 102 then c.pushDigit (b + 10 - 97).toNat
  else if 65 ≤ b ∧ b ≤ 70 then c.pushDigit (b + 10 - 65).toNat
  else if b = 9 ∨ b = 32 then (.ok .sizeLws, c)
  else if b = 59 then (.ok .extension, c)
  else if b = CR then (.ok .sizeLf, c)
  else (.error .invalidSize, c)

/-- `ChunkedState::read_size_lws` (decode.rs 407-422). -/
def Chunked.readSizeLws (c : Chunked) (b : Byte) : StepOut :=
  if b = 9 ∨ b = 32 then (.ok .sizeLws, c)
  else if b = 59 then (.ok .extension, c)
  else if b = CR then (.ok .sizeLf, c)
  else (.error .invalidLws, c)

/-- `ChunkedState::read_extension` (decode.rs 423-453). -/
def Chunked.readExtension (c : Chunked) (b : Byte) : StepOut :=
  if b = CR then (.ok .sizeLf, c)
  else if b = LF then (.error .extNewline, c)
  else
    let c := { c with ext := c.ext + 1 }
    if c.ext ≥ CHUNKED_EXTENSIONS_LIMIT then (.error .extLimit, c) else (.ok .extension, c)

/-- `ChunkedState::read_size_lf` (decode.rs 454-474). -/
def Chunked.readSizeLf (c : Chunked) (b : Byte) : StepOut :=
  if b = LF then (if c.len = 0 then (.ok .endCr, c) else (.ok .body, c))
  else (.error .invalidSizeLf, c)

/-- `ChunkedState::read_body_cr` (decode.rs 505-516). -/
def Chunked.readBodyCr (c : Chunked) (b : Byte) : StepOut :=
  if b = CR then (.ok .bodyLf, c) else (.error .invalidBodyCr, c)

/-- `ChunkedState::read_body_lf` (decode.rs 517-528). -/
def Chunked.readBodyLf (c : Chunked) (b : Byte) : StepOut :=
  if b = LF then (.ok .start, c) else (.error .invalidBodyLf, c)

/-- The `put_u8!` macro (decode.rs 276-287) on an existing trailer buffer, then state `s`. -/
def Chunked.putU8 (c : Chunked) (t : Bytes) (b : Byte) (s : CState) : StepOut :=
  let t := t ++ [b]
  let c := { c with tbuf := some t }
  if t.length ≥ c.maxBytes then (.error .trailerBytes, c) else (.ok s, c)

/-- `ChunkedState::read_trailer` (decode.rs 530-549). -/
def Chunked.readTrailer (c : Chunked) (b : Byte) : StepOut :=
  match c.tbuf with
  | none => (.error .panic, c)
  | some t => c.putU8 t b (if b = CR then .trailerLf else .trailer)

/-- `ChunkedState::read_trailer_lf` (decode.rs 551-583). -/
def Chunked.readTrailerLf (c : Chunked) (b : Byte) : StepOut :=
  if b = LF then
    if c.tcnt ≥ c.maxCnt then (.error .trailerCount, c)
    else
      let c := { c with tcnt := c.tcnt + 1 }
      match c.tbuf with
      | none => (.error .panic, c)
      | some t => c.putU8 t b .endCr
  else (.error .trailerLf, c)

/-- `ChunkedState::read_end_cr` (decode.rs 585-615). -/
def Chunked.readEndCr (c : Chunked) (b : Byte) : StepOut :=
  if b = CR then
    match c.tbuf with
    | some t => c.putU8 t b .endLf
    | none => (.ok .endLf, c)
  else
    match c.tbuf with
    | none => (.ok .trailer, { c with tbuf := some [b] })
    | some t => c.putU8 t b .trailer

/-- `ChunkedState::read_end_lf` (decode.rs 616-635). -/
def Chunked.readEndLf (c : Chunked) (b : Byte) : StepOut :=
  if b = LF then
    match c.tbuf with
    | some t => c.putU8 t b .finished
    | none => (.ok .finished, c)
  else (.error .endLf, c)

/-- The byte-consuming arms of `ChunkedState::step` (decode.rs 318-339); `Body` and `End` do not
read a single byte and are handled in `Chunked.step`. -/
def Chunked.onByte (c : Chunked) (b : Byte) : StepOut :=
  match c.state with
  | .start => c.readStart b
  | .size => c.readSize b
  | .sizeLws => c.readSizeLws b
  | .extension => c.readExtension b
  | .sizeLf => c.readSizeLf b
  | .bodyCr => c.readBodyCr b
  | .bodyLf => c.readBodyLf b
  | .trailer => c.readTrailer b
  | .trailerLf => c.readTrailerLf b
  | .endCr => c.readEndCr b
  | .endLf => c.readEndLf b
  | .body => (.error .panic, c)
  | .finished => (.ok .finished, c)

/-- Everything `ChunkedState::step` produces: the poll result, the fields, `chunk_buf`, the reader. -/
structure StepRes where
  res : Poll (Except DErr CState)
  ch : Chunked
  chunkBuf : Option Bytes
  rd : Rd

/-- `ChunkedState::read_body` (decode.rs 476-504). -/
def Chunked.readBody (c : Chunked) (r : Rd) : StepRes :=
  match r.readMem c.len with
  | (.pending, r) => ⟨.pending, c, none, r⟩
  | (.ready (.error e), r) => ⟨.ready (.error e), c, none, r⟩
  | (.ready (.ok slice), r) =>
    if slice.length = 0 then ⟨.ready (.error .incompleteBody), { c with len := 0 }, none, r⟩
    else
      let c := { c with len := c.len - slice.length }
      ⟨.ready (.ok (if c.len > 0 then .body else .bodyCr)), c, some slice, r⟩

/-- The `byte!` macro (decode.rs 252-262) followed by the handler of the current state. -/
def Chunked.readByte (c : Chunked) (r : Rd) : StepRes :=
  match r.readMem 1 with
  | (.pending, r) => ⟨.pending, c, none, r⟩
  | (.ready (.error e), r) => ⟨.ready (.error e), c, none, r⟩
  | (.ready (.ok []), r) => ⟨.ready (.error .eofInLine), c, none, r⟩
  | (.ready (.ok (b :: _)), r) => ⟨.ready (c.onByte b).1, (c.onByte b).2, none, r⟩

/-- `ChunkedState::step` (decode.rs 303-340). -/
def Chunked.step (c : Chunked) (r : Rd) : StepRes :=
  match c.state with
  | .finished => ⟨.ready (.ok .finished), c, none, r⟩
  | .body => c.readBody r
  | _ => c.readByte r

/-- A parsed trailer section: field name and value pairs in wire order
(`http::HeaderMap` keeps the values of a name in order). -/
abbrev Fields := List (Bytes × Bytes)

/-- A body frame (`http_body::Frame`): data or trailers. -/
inductive Frame where
  | data (bs : Bytes)
  | trailers (fs : Fields)
  deriving DecidableEq, Repr

/-- The trailer parser: `decode_trailers` (decode.rs 639-678) is `httparse::parse_headers` with room
for `count` fields followed by conversion to `HeaderMap`; it is a parameter of the model. -/
abbrev TrailerParser := Bytes → Nat → Option Fields

/-- `Kind` (decode.rs 37-67). -/
inductive Decoder where
  | length (remaining : Nat)
  | chunked (c : Chunked)
  | eof (seen : Bool)
  deriving DecidableEq, Repr

/-- `Decoder::chunked` (decode.rs 95-110). -/
def Chunked.new (maxHeaders maxHeaderSize : Option Nat) : Chunked :=
  { state := .start, len := 0, ext := 0, tbuf := none, tcnt := 0, maxHeaders, maxHeaderSize }

/-- `Decoder::is_eof` (decode.rs 132-142). -/
def Decoder.isEof : Decoder → Bool
  | .length n => n == 0
  | .chunked c => c.state == .finished
  | .eof b => b

/-- The loop of the `Chunked` arm of `Decoder::decode` (decode.rs 182-222).  The Rust loop is not
bounded; `fuel` is shown to be irrelevant once it exceeds the number of bytes available
(`Proof/Decode.lean`), and running out of it yields `pending`. -/
def Chunked.decodeLoop (P : TrailerParser) :
    Nat → Chunked → Rd → Poll (Except DErr Frame) × Chunked × Rd
  | 0, c, r => (.pending, c, r)
  | fuel + 1, c, r =>
    match c.step r with
    | ⟨.pending, c, _, r⟩ => (.pending, c, r)
    | ⟨.ready (.error e), c, _, r⟩ => (.ready (.error e), c, r)
    | ⟨.ready (.ok s), c, buf, r⟩ =>
      let c := { c with state := s }
      if s = .finished then
        match c.tbuf with
        | some t =>
          let c := { c with tbuf := none }
          match P t c.tcnt with
          | some fs => (.ready (.ok (.trailers fs)), c, r)
          | none => (.ready (.error .badTrailers), c, r)
        | none => (.ready (.ok (.data [])), c, r)
      else
        match buf with
        | some bs => (.ready (.ok (.data bs)), c, r)
        | none => Chunked.decodeLoop P fuel c r

/-- `Decoder::decode` (decode.rs 144-238). -/
def Decoder.decode (P : TrailerParser) (d : Decoder) (r : Rd) :
    Poll (Except DErr Frame) × Decoder × Rd :=
  match d with
  | .length remaining =>
    if remaining = 0 then (.ready (.ok (.data [])), d, r)
    else
      match r.readMem remaining with
      | (.pending, r) => (.pending, d, r)
      | (.ready (.error e), r) => (.ready (.error e), d, r)
      | (.ready (.ok buf), r) =>
        let num := buf.length
        if num > remaining then (.ready (.ok (.data buf)), .length 0, r)
        else if num = 0 then (.ready (.error .incompleteBody), d, r)
        else (.ready (.ok (.data buf)), .length (remaining - num), r)
  | .chunked c =>
    match c.decodeLoop P (r.size + 1) r with
    | (res, c, r) => (res, .chunked c, r)
  | .eof seen =>
    if seen then (.ready (.ok (.data [])), d, r)
    else
      match r.readMem 8192 with
      | (.pending, r) => (.pending, d, r)
      | (.ready (.error e), r) => (.ready (.error e), d, r)
      | (.ready (.ok slice), r) => (.ready (.ok (.data slice)), .eof slice.isEmpty, r)

/-- What a body consumer has seen so far. -/
inductive BodyOut where
  /-- End of body was signalled after `data`, with these trailers; `rd` is where the next message starts. -/
  | complete (data : Bytes) (trailers : Option Fields) (rd : Rd)
  /-- The body ended with an error after `data`. -/
  | failed (data : Bytes) (e : DErr)
  /-- `Conn::poll_read_body` would report an end it calls unexpected (conn.rs 381-386). -/
  | unexpectedEnd (data : Bytes)
  /-- Still waiting after `data`. -/
  | waiting (data : Bytes)
  deriving DecidableEq, Repr

/-- Polling a body `n` times through `Conn::poll_read_body` (`src/proto/h1/conn.rs` 365-404),
collecting the data: a frame with the decoder at its end finishes the body (370-380), an empty frame
otherwise is an unexpected end (381-386), trailers finish it (391-393), an error closes it (399-402). -/
def Decoder.poll (P : TrailerParser) : Nat → Decoder → Rd → Bytes → BodyOut
  | 0, _, _, acc => .waiting acc
  | n + 1, d, r, acc =>
    match d.decode P r with
    | (.pending, d, r) => Decoder.poll P n d r acc
    | (.ready (.error e), _, _) => .failed acc e
    | (.ready (.ok (.trailers fs)), _, r) => .complete acc (some fs) r
    | (.ready (.ok (.data bs)), d, r) =>
      if d.isEof then .complete (acc ++ bs) none r
      else if bs = [] then .unexpectedEnd acc
      else Decoder.poll P n d r (acc ++ bs)

/-- A consumer that keeps polling until nothing can change any more.  `size + 1` polls always
suffice (`Proof/Decode.lean`): each poll but the last consumes a byte or a transport answer. -/
def Decoder.readAll (P : TrailerParser) (d : Decoder) (r : Rd) : BodyOut :=
  d.poll P (r.size + 1) r []

end Hyper
