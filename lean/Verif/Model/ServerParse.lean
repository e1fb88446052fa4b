import Verif.Model.Message

/-!
# `Server::parse`: `src/proto/h1/role.rs` 146-380

`httparse` is external: its tokenised request (method, target, minor version, fields with names as
received) is the input, and so is `http::Uri` parsing (`uriOk`).
-/

namespace Hyper

/-- What `httparse::Request` holds after `Status::Complete` (role.rs 174-204). -/
structure RawRequest where
  method : Bytes
  target : Bytes
  /-- `req.version == 1` -/
  http11 : Bool
  fields : List (Bytes × Bytes)
  deriving DecidableEq, Repr

/-- The variables of the header loop (role.rs 239-262). -/
structure ReqSt where
  keepAlive : Bool
  decoder : DecodedLength
  expectContinue : Bool
  conLen : Option Nat
  isCl : Bool
  isTe : Bool
  isTeChunked : Bool
  wantsUpgrade : Bool
  headers : HeaderMap
  caseMap : Option HeaderMap
  deriving DecidableEq, Repr

/-- The end of the loop body (role.rs 333-343): record the name's case and append the field. -/
def ReqSt.push (s : ReqSt) (rawName name value : Bytes) : ReqSt :=
  { s with
    caseMap := s.caseMap.map (fun m => m.append name rawName)
    headers := s.headers.append name value }

/-- The `TRANSFER_ENCODING` arm (role.rs 269-287). -/
def ReqSt.onTe (http11 : Bool) (s : ReqSt) (value : Bytes) : Except ParseErr ReqSt :=
  if !http11 then .error (.header .transferEncodingUnexpected)
  else
    let s := { s with isTe := true }
    let s :=
      if s.isCl && s.conLen.isSome then
        { s with conLen := none, headers := s.headers.remove hCL }
      else if s.isCl then { s with conLen := none }
      else s
    if isChunkedValue value then
      .ok { s with isTeChunked := true, decoder := DecodedLength.CHUNKED }
    else .ok { s with isTeChunked := false }

/-- The `CONTENT_LENGTH` arm (role.rs 288-309); the flag says whether the field is appended. -/
def ReqSt.onCl (s : ReqSt) (value : Bytes) : Except ParseErr (ReqSt × Bool) :=
  let s := { s with isCl := true }
  if s.isTe then .ok (s, false)
  else
    match contentLengthParse value with
    | none => .error (.header .contentLengthInvalid)
    | some len =>
      match s.conLen with
      | some prev =>
        if prev ≠ len then .error (.header .contentLengthInvalid) else .ok (s, false)
      | none =>
        match DecodedLength.checkedNew len with
        | .error e => .error e
        | .ok d => .ok ({ s with decoder := d, conLen := some len }, true)

/-- The `CONNECTION` arm (role.rs 310-319). -/
def connectionArm (keepAlive : Bool) (value : Bytes) : Bool :=
  if keepAlive then !connectionClose value else connectionKeepAlive value

/-- One turn of the header loop (role.rs 262-344). -/
def ReqSt.step (http11 : Bool) (s : ReqSt) (f : Bytes × Bytes) : Except ParseErr ReqSt :=
  match headerName f.1 with
  | none => .error .internal
  | some name =>
    if name = hTE then
      match s.onTe http11 f.2 with
      | .error e => .error e
      | .ok s => .ok (s.push f.1 name f.2)
    else if name = hCL then
      match s.onCl f.2 with
      | .error e => .error e
      | .ok (s, true) => .ok (s.push f.1 name f.2)
      | .ok (s, false) => .ok s
    else if name = hCONN then
      .ok ({ s with keepAlive := connectionArm s.keepAlive f.2 }.push f.1 name f.2)
    else if name = hEXPECT then
      .ok ({ s with expectContinue := eqIgnoreCase f.2 (ascii "100-continue") }.push f.1 name f.2)
    else if name = hUPGRADE then
      .ok ({ s with wantsUpgrade := http11 }.push f.1 name f.2)
    else .ok (s.push f.1 name f.2)

/-- The header loop (role.rs 262-344). -/
def ReqSt.run (http11 : Bool) : ReqSt → List (Bytes × Bytes) → Except ParseErr ReqSt
  | s, [] => .ok s
  | s, f :: fs =>
    match s.step http11 f with
    | .error e => .error e
    | .ok s => ReqSt.run http11 s fs

/-- The variables before the loop (role.rs 190-198, 239-259). -/
def ReqSt.start (preserveCase : Bool) (r : RawRequest) : ReqSt where
  keepAlive := r.http11
  decoder := DecodedLength.ZERO
  expectContinue := false
  conLen := none
  isCl := false
  isTe := false
  isTeChunked := false
  wantsUpgrade := r.method == mCONNECT
  headers := []
  caseMap := if preserveCase then some [] else none

/-- `record_header_indices` (role.rs 1558-1582): refuses names of 64 KiB or more. -/
def namesTooLong (fields : List (Bytes × Bytes)) : Bool := fields.any (fun f => 2 ^ 16 ≤ f.1.length)

/-- `Server::parse` after `httparse` completed (role.rs 178-380).  `uriOk` is `http::Uri` parsing,
`methodOk` is `Method::from_bytes`. -/
def serverParse (methodOk uriOk : Bytes → Bool) (preserveCase : Bool) (r : RawRequest) :
    Except ParseErr RequestMsg :=
  if r.target.length > MAX_URI_LEN then .error .uriTooLong
  else if !methodOk r.method then .error .method
  else if namesTooLong r.fields then .error .tooLarge
  else if !uriOk r.target then .error .uri
  else
    match (ReqSt.start preserveCase r).run r.http11 r.fields with
    | .error e => .error e
    | .ok s =>
      if s.isTe && !s.isTeChunked then .error (.header .transferEncodingInvalid)
      else
        .ok {
          method := r.method
          target := r.target
          version := if r.http11 then .h11 else .h10
          headers := s.headers
          caseMap := s.caseMap
          decode := s.decoder
          expectContinue := s.expectContinue
          keepAlive := if s.isTe && s.isCl then false else s.keepAlive
          wantsUpgrade := s.wantsUpgrade }

/-- `Server::on_error` (role.rs 484-502): the status of the automatic response. -/
def serverOnError : ParseErr → Option Nat
  | .method | .header _ | .uri | .version => some 400
  | .tooLarge => some 431
  | .uriTooLong => some 414
  | _ => none

end Hyper
