import Verif.Model.ClientParse

/-!
# `Server::encode` and `Server::encode_headers`: `src/proto/h1/role.rs` 382-992

Release-mode behaviour: the `debug_assert`s (671-676, 712-723, 751, 774, 905-908) are not executed.
`StatusCode::canonical_reason` and the cached date are parameters.
-/

namespace Hyper

/-- `MessageHead<StatusCode>` to send; `reason` is the `ReasonPhrase` extension and `caseMap` the
`HeaderCaseMap` extension: the record of a received head (src/proto/mod.rs 22-31). -/
abbrev OutHead := RespHead

/-- `Encode<'_, StatusCode>` (src/proto/h1/mod.rs 85-95). -/
structure EncodeMsg where
  head : OutHead
  body : Option BodyLength
  keepAlive : Bool
  reqMethod : Option Bytes
  titleCase : Bool
  dateHeader : Bool

/-- External inputs: `canonical_reason` and the value `date::extend` writes. -/
structure EncodeEnv where
  canonicalReason : Nat → Option Bytes
  date : Bytes

/-- `Server::can_chunked` (role.rs 518-528). -/
def canChunked (method : Option Bytes) (status : Nat) : Bool :=
  if method = some mHEAD ∨ (method = some mCONNECT ∧ isSuccess status) ∨ isInformational status then false
  else !(status == 204 || status == 304)

/-- `Server::can_have_body` (role.rs 515-517). -/
def canHaveBody (method : Option Bytes) (status : Nat) : Bool := canChunked method status

/-- `Server::can_have_content_length` (role.rs 530-536). -/
def canHaveContentLength (method : Option Bytes) (status : Nat) : Bool :=
  if isInformational status ∨ (method = some mCONNECT ∧ isSuccess status) then false
  else !(status == 204 || status == 304)

/-- `Server::can_have_implicit_zero_content_length` (role.rs 538-541). -/
def canHaveImplicitZero (method : Option Bytes) (status : Nat) : Bool :=
  canHaveContentLength method status && decide (method ≠ some mHEAD)

/-- The two implementations of `HeaderNameWriter`: `LowercaseWriter` (role.rs 550-584) and
`OrigCaseWriter` (role.rs 596-641), whose `current` is the last name with the spellings not yet
used. -/
inductive NameWriter where
  | lower
  | orig (map : HeaderMap) (current : Option (Bytes × List Bytes)) (titleCase : Bool)
  deriving DecidableEq, Repr

/-- The spellings still available for `name` (role.rs 625-630): those left of the current name, or
all recorded ones when the name changes. -/
def spellingsLeft (map : HeaderMap) (current : Option (Bytes × List Bytes)) (name : Bytes) : List Bytes :=
  match current with
  | some (last, vs) => if last = name then vs else map.getAll name
  | none => map.getAll name

/-- `write_header_name` (role.rs 573-575, 619-640): bytes written and the new writer. -/
def NameWriter.writeName (w : NameWriter) (name : Bytes) : Bytes × NameWriter :=
  match w with
  | .lower => (name, .lower)
  | .orig map current title =>
    match spellingsLeft map current name with
    | spelling :: rest => (spelling, .orig map (some (name, rest)) title)
    | [] => (if title then titleCase name else name, .orig map (some (name, [])) title)

/-- `write_header_name_with_colon` (role.rs 563-570, 610-617); `lit` is the literal passed. -/
def NameWriter.writeNameColon (w : NameWriter) (lit name : Bytes) : Bytes × NameWriter :=
  match w with
  | .lower => (lit, .lower)
  | w => let r := w.writeName name; (r.1 ++ ascii ": ", r.2)

/-- `write_full_header_line` (role.rs 553-560, 600-608). -/
def NameWriter.writeFullLine (w : NameWriter) (line name rest : Bytes) : Bytes × NameWriter :=
  match w with
  | .lower => (line, .lower)
  | w => let r := w.writeName name; (r.1 ++ rest, r.2)

/-- The local variables of `encode_headers` (role.rs 653-686). -/
structure HSt where
  dst : Bytes
  w : NameWriter
  encoder : Encoder
  allowed : Option (List Bytes)
  wroteLen : Bool
  wroteDate : Bool
  curName : Option Bytes
  isNameWritten : Bool
  mustChunked : Bool
  isLast : Bool
  prevConLen : Option Nat
  deriving DecidableEq, Repr

/-- Why `encode_headers` stops early: `Error::new_user_header` or the panic of
`expect("current header name")`. -/
inductive HStop where
  | userHeader
  | panic
  deriving DecidableEq, Repr

/-- `handle_is_name_written!` (role.rs 688-706). -/
def HSt.handle (s : HSt) : HSt :=
  if s.isNameWritten then
    { s with dst := s.dst ++ (if s.mustChunked then ascii ", chunked\r\n" else CRLF) }
  else s

/-- Writing a generic line (role.rs 904-914). -/
def HSt.generic (s : HSt) (name value : Bytes) : HSt :=
  let r := s.w.writeName name
  { s with dst := s.dst ++ r.1 ++ ascii ": " ++ value ++ CRLF, w := r.2 }

/-- Opening a special line: name with colon and first value, no line end yet. -/
def HSt.openLine (s : HSt) (lit name value : Bytes) : HSt :=
  let r := s.w.writeNameColon lit name
  { s with dst := s.dst ++ r.1 ++ value, w := r.2, isNameWritten := true }

/-- Open the line, or continue it with `", "` (role.rs 833-843, 848-860, 871-880). -/
def HSt.joinLine (s : HSt) (lit name value : Bytes) : HSt :=
  if !s.isNameWritten then s.openLine lit name value
  else { s with dst := s.dst ++ ascii ", " ++ value }

/-- The `CONTENT_LENGTH` arm (role.rs 718-812). -/
def clArm (m : EncodeMsg) (s : HSt) (value : Bytes) : Except HStop HSt :=
  if s.wroteLen && !s.isNameWritten then .error .userHeader
  else
    match m.body with
    | some (.known k) =>
      if !s.isNameWritten then
        .ok { ({ s with encoder := Encoder.length k } : HSt).openLine (ascii "content-length: ") hCL value
              with wroteLen := true }
      else .ok s
    | some .unknown =>
      match contentLengthParse value with
      | some len =>
        match s.prevConLen with
        | some prev => if prev ≠ len then .error .userHeader else .ok s
        | none =>
          .ok { ({ s with encoder := Encoder.length len } : HSt).openLine
                  (ascii "content-length: ") hCL value
                with wroteLen := true, prevConLen := some len }
      | none => .error .userHeader
    | none =>
      if m.reqMethod = some mHEAD then
        .ok (({ s with wroteLen := true } : HSt).generic hCL value)
      else .ok s

/-- The `TRANSFER_ENCODING` arm (role.rs 813-845). -/
def teArm (m : EncodeMsg) (s : HSt) (value : Bytes) : Except HStop HSt :=
  if s.wroteLen && !s.isNameWritten then .error .userHeader
  else if m.head.version = .h10 ∨ canChunked m.reqMethod m.head.status = false then .ok s
  else
    let s := { s with wroteLen := true, mustChunked := !isChunkedValue value }
    let s := if !s.isNameWritten then { s with encoder := Encoder.chunked } else s
    .ok (s.joinLine (ascii "transfer-encoding: ") hTE value)

/-- The `CONNECTION` arm (role.rs 846-861). -/
def connArm (s : HSt) (value : Bytes) : HSt :=
  let s := if !s.isLast && connectionClose value then { s with isLast := true } else s
  s.joinLine (ascii "connection: ") hCONN value

/-- The `TRAILER` arm (role.rs 865-902). -/
def trailerArm (m : EncodeMsg) (s : HSt) (value : Bytes) : HSt :=
  if m.head.version = .h10 ∨ canChunked m.reqMethod m.head.status = false then s
  else
    let s := s.joinLine (ascii "trailer: ") hTRAILER value
    match toStr value with
    | some _ =>
      match s.allowed with
      | some fields => { s with allowed := some (fields ++ trailerNames value) }
      | none => { s with allowed := some (trailerNames value) }
    | none => s

/-- Start of a turn of the `'headers` loop (role.rs 709-713): a new name closes the open line. -/
def HSt.enter (s : HSt) (o : Option Bytes) : HSt :=
  match o with
  | some n => { ({ s with curName := some n } : HSt).handle with isNameWritten := false }
  | none => s

/-- The `match *name` of the `'headers` loop (role.rs 715-914). -/
def harm (m : EncodeMsg) (s : HSt) (name value : Bytes) : Except HStop HSt :=
  if name = hCL then clArm m s value
  else if name = hTE then teArm m s value
  else if name = hCONN then .ok (connArm s value)
  else if name = hDATE then .ok (({ s with wroteDate := true } : HSt).generic name value)
  else if name = hTRAILER then .ok (trailerArm m s value)
  else .ok (s.generic name value)

/-- One turn of the `'headers` loop (role.rs 708-915). -/
def hstep (m : EncodeMsg) (s : HSt) (f : Option Bytes × Bytes) : Except HStop HSt :=
  match (s.enter f.1).curName with
  | none => .error .panic
  | some name => harm m (s.enter f.1) name f.2

/-- The `'headers` loop (role.rs 708-915). -/
def hrun (m : EncodeMsg) : HSt → List (Option Bytes × Bytes) → Except HStop HSt
  | s, [] => .ok s
  | s, f :: fs =>
    match hstep m s f with
    | .error e => .error e
    | .ok s => hrun m s fs

/-- The implicit framing line (role.rs 919-962). -/
def implicitLen (m : EncodeMsg) (s : HSt) : HSt :=
  if s.wroteLen then s
  else
    match m.body with
    | some .unknown =>
      if m.head.version = .h10 ∨ canChunked m.reqMethod m.head.status = false then
        { s with encoder := Encoder.closeDelimited }
      else
        let r := s.w.writeFullLine (ascii "transfer-encoding: chunked\r\n") hTE (ascii ": chunked\r\n")
        { s with dst := s.dst ++ r.1, w := r.2, encoder := Encoder.chunked }
    | none | some (.known 0) =>
      if canHaveImplicitZero m.reqMethod m.head.status then
        let r := s.w.writeFullLine (ascii "content-length: 0\r\n") hCL (ascii ": 0\r\n")
        { s with dst := s.dst ++ r.1, w := r.2, encoder := Encoder.length 0 }
      else { s with encoder := Encoder.length 0 }
    | some (.known len) =>
      if canHaveContentLength m.reqMethod m.head.status = false then
        { s with encoder := Encoder.length 0 }
      else
        let r := s.w.writeNameColon (ascii "content-length: ") hCL
        { s with dst := s.dst ++ r.1 ++ decimal len ++ CRLF, w := r.2, encoder := Encoder.length len }

/-- `can_have_body` forcing (role.rs 964-971). -/
def forceBody (m : EncodeMsg) (s : HSt) : HSt :=
  if canHaveBody m.reqMethod m.head.status = false then { s with encoder := Encoder.length 0 } else s

/-- The date line and the end of the block (role.rs 973-982). -/
def dateAndEnd (env : EncodeEnv) (m : EncodeMsg) (s : HSt) : HSt :=
  if !s.wroteDate && m.dateHeader then
    let r := s.w.writeNameColon (ascii "date: ") hDATE
    { s with dst := s.dst ++ r.1 ++ env.date ++ CRLF ++ CRLF, w := r.2 }
  else { s with dst := s.dst ++ CRLF }

/-- The encoder returned (role.rs 984-991). -/
def finalEncoder (s : HSt) : Encoder :=
  let e :=
    if s.encoder.isChunked then
      match s.allowed with
      | some names => s.encoder.intoChunkedWithTrailingFields names
      | none => s.encoder
    else s.encoder
  e.setLast s.isLast

/-- What `Server::encode` returns. -/
inductive EncodeRes where
  | ok (e : Encoder)
  | userHeader
  | unsupportedStatus
  | panic
  deriving DecidableEq, Repr

/-- `encode_headers` (role.rs 653-992): `dst` after the call and the result.  `origLen` is where
`rewind` truncates to (everything after that point was appended, so truncating the argument is the
same). -/
def encodeHeaders (env : EncodeEnv) (m : EncodeMsg) (dst : Bytes) (isLast : Bool) (origLen : Nat)
    (wroteLen : Bool) (w : NameWriter) : Bytes × EncodeRes :=
  match hrun m ⟨dst, w, Encoder.length 0, none, wroteLen, false, none, false, false, isLast, none⟩
      m.head.headers.drain with
  | .error .userHeader => (dst.take origLen, .userHeader)
  | .error .panic => (dst, .panic)
  | .ok s =>
    let s := dateAndEnd env m (forceBody m (implicitLen m s.handle))
    (s.dst, .ok (finalEncoder s))

/-- The status line (role.rs 424-461): `none` is the panic on an unexpected version. -/
def statusLine (env : EncodeEnv) (head : OutHead) : Option Bytes :=
  if head.version = .h11 ∧ head.status = 200 ∧ head.reason = none then some (ascii "HTTP/1.1 200 OK\r\n")
  else
    let v := match head.version with
      | .h10 => some (ascii "HTTP/1.0 ")
      | .h11 => some (ascii "HTTP/1.1 ")
      | .h2 => some (ascii "HTTP/1.1 ")
      | _ => none
    v.map (fun v => v ++ decimal head.status ++ ascii " " ++
      (match head.reason with
       | some r => r
       | none => (env.canonicalReason head.status).getD (ascii "<none>")) ++ CRLF)

/-- `MessageHead::default()` with status 500 (role.rs 407-408). -/
def head500 : OutHead := ⟨.h11, 500, [], none, none⟩

/-- The first part of `Server::encode` (role.rs 390-414): the message to write, `ret.is_err()`,
`is_last`, `wrote_len`. -/
def encodePrep (m : EncodeMsg) : EncodeMsg × Bool × Bool × Bool :=
  if m.head.status = 101 then (m, false, true, false)
  else if m.reqMethod = some mCONNECT ∧ isSuccess m.head.status then (m, false, true, true)
  else if isInformational m.head.status then
    ({ m with head := head500, body := none }, true, true, false)
  else (m, false, !m.keepAlive, false)

/-- The header name writer chosen (role.rs 463-479). -/
def nameWriterOf (m : EncodeMsg) : NameWriter :=
  match m.head.caseMap with
  | some map => .orig map none m.titleCase
  | none => if m.titleCase then .orig [] none m.titleCase else .lower

/-- `Server::encode` (role.rs 382-482). -/
def serverEncode (env : EncodeEnv) (m : EncodeMsg) (dst : Bytes) : Bytes × EncodeRes :=
  let (m, bad, isLast, wroteLen) := encodePrep m
  match statusLine env m.head with
  | none => (dst, .panic)
  | some line =>
    match encodeHeaders env m (dst ++ line) isLast dst.length wroteLen (nameWriterOf m) with
    | (dst, .ok e) => (dst, if bad then .unsupportedStatus else .ok e)
    | (dst, r) => (dst, r)

end Hyper
