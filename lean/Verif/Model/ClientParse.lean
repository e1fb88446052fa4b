import Verif.Model.ServerParse

/-!
# `Client::parse`, `Client::decoder`, `Client::obs_fold_line`: `src/proto/h1/role.rs` 1028-1324,
1458-1515

`httparse` is external: what it says about the buffer is a parameter of the loop.
-/

namespace Hyper

/-- What `httparse::Response` holds after `Status::Complete` (role.rs 1053-1078). -/
structure RawResponse where
  status : Nat
  /-- `res.version == 1` -/
  http11 : Bool
  reason : Bytes
  fields : List (Bytes × Bytes)
  deriving DecidableEq, Repr

/-- The result of `parse_response_with_uninit_headers` (role.rs 1048-1087). -/
inductive RespParse where
  | complete (len : Nat) (r : RawResponse)
  | incomplete
  | versionErr
  | err (e : ParseErr)
  deriving DecidableEq, Repr

/-- `u8::is_ascii_whitespace` (Rust core): space, tab, LF, FF, CR. -/
def isAsciiWs (b : Byte) : Bool := b == 32 || b == 9 || b == 10 || b == 12 || b == 13

/-- `trim_end` (role.rs 1491-1500). -/
def wsTrimEnd (s : Bytes) : Bytes := (s.reverse.dropWhile isAsciiWs).reverse

/-- `trim` (role.rs 1502-1504). -/
def wsTrim (s : Bytes) : Bytes := (wsTrimEnd s).dropWhile isAsciiWs

/-- `slice::split(|b| *b == b'\n')`. -/
def splitLf : Bytes → List Bytes
  | [] => [[]]
  | b :: bs =>
    if b = 10 then [] :: splitLf bs
    else match splitLf bs with
      | [] => [[b]]
      | p :: ps => (b :: p) :: ps

/-- `Client::obs_fold_line` (role.rs 1458-1515) on the bytes of one value: the new value. -/
def obsFold (value : Bytes) : Bytes :=
  if 10 ∈ value then
    let first := value.takeWhile (fun b => b != 10)
    let rest := (value.dropWhile (fun b => b != 10)).drop 1
    wsTrimEnd first ++ (splitLf rest).flatMap (fun l => 32 :: wsTrim l)
  else value

/-- `MessageHead<StatusCode>` (src/proto/mod.rs 22-31); `reason` is the `ReasonPhrase` extension, set
only when it is not the canonical one (role.rs 1059-1067). -/
structure RespHead where
  version : Version
  status : Nat
  headers : HeaderMap
  caseMap : Option HeaderMap
  reason : Option Bytes
  deriving DecidableEq, Repr

/-- Options of the client parser (`ParseContext`, src/proto/h1/mod.rs 71-83) and the external
`StatusCode::canonical_reason`. -/
structure ClientCfg where
  obsFoldAllowed : Bool
  preserveCase : Bool
  h09 : Bool
  canonicalReason : Nat → Option Bytes

/-- The values after optional unfolding (role.rs 1091-1101). -/
def ClientCfg.unfold (cfg : ClientCfg) (fields : List (Bytes × Bytes)) : List (Bytes × Bytes) :=
  if cfg.obsFoldAllowed then fields.map (fun f => (f.1, obsFold f.2)) else fields

/-- The header loop (role.rs 1122-1151): keep-alive flag, headers, case map. -/
def respLoop : Bool → HeaderMap → Option HeaderMap → List (Bytes × Bytes) →
    Except ParseErr (Bool × HeaderMap × Option HeaderMap)
  | ka, hs, cm, [] => .ok (ka, hs, cm)
  | ka, hs, cm, f :: fs =>
    match headerName f.1 with
    | none => .error .internal
    | some name =>
      let ka := if name = hCONN then connectionArm ka f.2 else ka
      respLoop ka (hs.append name f.2) (cm.map (fun m => m.append name f.1)) fs

/-- One turn of the parse loop up to the built head (role.rs 1050-1176): the head and the
keep-alive flag. -/
def clientHead (cfg : ClientCfg) (r : RawResponse) : Except ParseErr (RespHead × Bool) :=
  if ¬ (100 ≤ r.status ∧ r.status ≤ 999) then .error .status
  else if namesTooLong r.fields then .error .tooLarge
  else
    let reason := if some r.reason ≠ cfg.canonicalReason r.status then some r.reason else none
    match respLoop r.http11 [] (if cfg.preserveCase then some [] else none) (cfg.unfold r.fields) with
    | .error e => .error e
    | .ok (ka, hs, cm) =>
      .ok (⟨if r.http11 then .h11 else .h10, r.status, hs, cm, reason⟩, ka)

/-- The head of an HTTP/0.9 response (role.rs 1080-1085): nothing was consumed. -/
def h09Head (cfg : ClientCfg) : RespHead :=
  ⟨.h09, 200, [], if cfg.preserveCase then some [] else none, none⟩

/-- `Client::decoder` (role.rs 1262-1324). -/
def clientDecoder (head : RespHead) (method : Option Bytes) :
    Except ParseErr (Option (DecodedLength × Bool)) :=
  let st := head.status
  if st = 101 then .ok (some (DecodedLength.ZERO, true))
  else if st = 100 ∨ (102 ≤ st ∧ st ≤ 199) then .ok none
  else if st = 204 ∨ st = 304 then .ok (some (DecodedLength.ZERO, false))
  else if method = some mHEAD then .ok (some (DecodedLength.ZERO, false))
  else if method = some mCONNECT ∧ 200 ≤ st ∧ st ≤ 299 then .ok (some (DecodedLength.ZERO, true))
  else if head.headers.contains hTE then
    if head.version = .h10 then .error (.header .transferEncodingUnexpected)
    else if transferEncodingIsChunked head.headers then .ok (some (DecodedLength.CHUNKED, false))
    else .ok (some (DecodedLength.CLOSE_DELIMITED, false))
  else
    match contentLengthParseAll head.headers with
    | some len =>
      match DecodedLength.checkedNew len with
      | .error e => .error e
      | .ok d => .ok (some (d, false))
    | none =>
      if head.headers.contains hCL then .error (.header .contentLengthInvalid)
      else .ok (some (DecodedLength.CLOSE_DELIMITED, false))

/-- A response given to the caller (`ParsedMessage`, role.rs 1178-1187). -/
structure ResponseMsg where
  head : RespHead
  decode : DecodedLength
  keepAlive : Bool
  wantsUpgrade : Bool
  deriving DecidableEq, Repr

/-- The outcome of one call of `Client::parse`: the result, the bytes left in the buffer, and the
heads given to the informational callback. -/
structure ClientOut where
  res : Except ParseErr (Option ResponseMsg)
  buf : Bytes
  informed : List RespHead
  deriving DecidableEq, Repr

/-- `Client::parse` (role.rs 1028-1196).  The fuel bounds the number of turns; every turn that loops
removes a complete head from the buffer. -/
def clientParse (cfg : ClientCfg) (H : Bytes → RespParse) (method : Option Bytes) :
    Nat → Bytes → List RespHead → ClientOut
  | 0, buf, inf => ⟨.ok none, buf, inf⟩
  | fuel + 1, buf, inf =>
    match H buf with
    | .incomplete => ⟨.ok none, buf, inf⟩
    | .err e => ⟨.error e, buf, inf⟩
    | .versionErr =>
      if cfg.h09 then
        match clientDecoder (h09Head cfg) method with
        | .error e => ⟨.error e, buf, inf⟩
        | .ok (some (d, up)) => ⟨.ok (some ⟨h09Head cfg, d, false && !up, up⟩), buf, inf⟩
        | .ok none => ⟨.ok none, buf, inf⟩
      else ⟨.error .version, buf, inf⟩
    | .complete len r =>
      match clientHead cfg r with
      | .error e => ⟨.error e, buf.drop len, inf⟩
      | .ok (head, ka) =>
        match clientDecoder head method with
        | .error e => ⟨.error e, buf.drop len, inf⟩
        | .ok (some (d, up)) => ⟨.ok (some ⟨head, d, ka && !up, up⟩), buf.drop len, inf⟩
        | .ok none =>
          let inf := if isInformational head.status then inf ++ [head] else inf
          if buf.drop len = [] then ⟨.ok none, [], inf⟩
          else clientParse cfg H method fuel (buf.drop len) inf

end Hyper
