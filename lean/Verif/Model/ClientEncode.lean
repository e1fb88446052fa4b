import Verif.Model.ConnHead

/-!
# `Client::encode`: `src/proto/h1/role.rs` 1198-1245, 1325-1456, 1517-1652

Release-mode behaviour (the debug branch of `set_content_length` inserts the same value).
-/

namespace Hyper

/-- `RequestHead` (src/proto/mod.rs 22-38): `target` is what `Display for Uri` prints. -/
structure ReqHead where
  method : Bytes
  target : Bytes
  version : Version
  headers : HeaderMap
  caseMap : Option HeaderMap
  deriving DecidableEq, Repr

/-- Replace the values of a name (`ValueIterMut` of an occupied entry). -/
def HeaderMap.setAll : HeaderMap → Bytes → List Bytes → HeaderMap
  | [], _, _ => []
  | (n', vs) :: m, n, ws => if n' = n then (n', ws) :: m else (n', vs) :: HeaderMap.setAll m n ws

/-- `set_content_length` (role.rs 1517-1550). -/
def setContentLength (headers : HeaderMap) (len : Nat) : HeaderMap × Encoder :=
  (headers.insert hCL (decimal len), Encoder.length len)

/-- The trailer names attached to a chunked encoder (role.rs 1408-1432). -/
def withTrailers (headers : HeaderMap) (e : Encoder) : Encoder :=
  let names := (headers.getAll hTRAILER).flatMap trailerNames
  if names = [] then e else e.intoChunkedWithTrailingFields names

/-- `Client::set_length` (role.rs 1325-1456). -/
def setLength (method : Bytes) (version : Version) (headers : HeaderMap) (body : Option BodyLength) :
    HeaderMap × Encoder :=
  match body with
  | none => (headers.remove hTE, Encoder.length 0)
  | some body =>
    let existing := contentLengthParseAll headers
    if version ≠ .h11 then
      let headers := headers.remove hTE
      match existing, body with
      | some len, _ => (headers, Encoder.length len)
      | none, .known len => setContentLength headers len
      | none, .unknown => (headers, Encoder.length 0)
    else if headers.contains hTE then
      let te := headers.getAll hTE
      let hs := if isChunked te then headers else headers.setAll hTE (addChunked te)
      (if existing.isSome then hs.remove hCL else hs, withTrailers hs Encoder.chunked)
    else
      match existing, body with
      | some len, _ => (headers, Encoder.length len)
      | none, .unknown =>
        if method = mGET ∨ method = mHEAD ∨ method = mCONNECT then (headers, Encoder.length 0)
        else
          let hs := headers.insert hTE (ascii "chunked")
          (hs, withTrailers hs Encoder.chunked)
      | none, .known len => setContentLength headers len

/-- The name written for the next value (role.rs 1635-1641). -/
def origName (title : Bool) (name : Bytes) : List Bytes → Bytes
  | orig :: _ => orig
  | [] => if title then titleCase name else name

/-- The inner loop of `write_headers_original_case` (role.rs 1634-1650). -/
def writeOrigValues (title : Bool) (name : Bytes) : List Bytes → List Bytes → Bytes
  | _, [] => []
  | names, value :: values =>
    origName title name names ++
    (if value = [] then ascii ":\r\n" else ascii ": " ++ value ++ CRLF) ++
    writeOrigValues title name names.tail values

/-- `write_headers_original_case` (role.rs 1619-1652); `keys()` with `get_all` visits the groups of
the map. -/
def writeHeadersOriginalCase (title : Bool) (orig : HeaderMap) (m : HeaderMap) : Bytes :=
  m.flatMap (fun g => writeOrigValues title g.1 (orig.getAll g.1) g.2)

/-- The header block (role.rs 1227-1239). -/
def clientHeaders (title : Bool) (caseMap : Option HeaderMap) (headers : HeaderMap) : Bytes :=
  match caseMap with
  | some orig => writeHeadersOriginalCase title orig headers
  | none => if title then writeHeadersTitleCase headers else writeHeaders headers

/-- The version part of the request line (role.rs 1216-1225); `none` is the panic. -/
def versionText : Version → Option Bytes
  | .h10 => some (ascii "HTTP/1.0")
  | .h11 => some (ascii "HTTP/1.1")
  | .h2 => some (ascii "HTTP/1.1")
  | _ => none

/-- `Client::encode` (role.rs 1198-1245): the bytes and the encoder, `none` is the panic. -/
def clientEncode (title : Bool) (h : ReqHead) (body : Option BodyLength) (dst : Bytes) :
    Option (Bytes × Encoder) :=
  let r := setLength h.method h.version h.headers body
  (versionText h.version).map (fun v =>
    (dst ++ h.method ++ ascii " " ++ h.target ++ ascii " " ++ v ++ CRLF ++
      clientHeaders title h.caseMap r.1 ++ CRLF, r.2))

/-- The client's side of `Conn::encode_head` (conn.rs 608-663): keep-alive status and the head given to
the encoder; `peer` is the version of the last response (1.1 before any). -/
def connReq (peer : Version) (ka : KA) (h : ReqHead) : KA × ReqHead :=
  let ka := if ka = .disabled then .disabled else .busy
  let ka := if connectionAnyClose h.headers then .disabled else ka
  let r := enforceVersion peer ka h.version h.headers
  (r.1, { h with version := r.2.1, headers := r.2.2 })

end Hyper
