import Verif.Model.FfiHeaders
import Verif.Model.ClientEncode
import Verif.Model.ClientParse

/-!
# Requests and responses of the C API: `src/ffi/http_types.rs` 86-440, `src/ffi/client.rs` 146-165

Null pointers are not modelled, except those that leave out a part of the URI.  What the crate `http` takes for a method or a URI is a parameter; a
method is its bytes, a URI is `U`.  Bodies are `B`, callbacks for informational responses `C`.
`Model/FfiBody` has the calls of C82, without the fields and what becomes of the request.
-/

namespace Hyper.CReq

open Ffi

/-- The parsers of the crate `http`: `Method::from_bytes` (whether it succeeds), `Uri::from_maybe_shared`, `uri::Builder::build` for the parts that
were given, the URI of `Request::new`, and `Display for Uri`. -/
structure HttpFns (U : Type) where
  methodOk : Bytes → Bool
  uri : Bytes → Option U
  parts : Option Bytes → Option Bytes → Option Bytes → Option U
  root : U
  text : U → Bytes

/-- `hyper_request` (http_types.rs 31): the request, with `hyper_headers` and the callback among its extensions. -/
structure Request (U B C : Type) where
  method : Bytes
  uri : U
  version : Version
  headers : Option Headers
  body : B
  callback : Option C

/-- `hyper_request_new` (http_types.rs 90-92); `empty` is `IncomingBody::empty()`. -/
def Request.new {U B C : Type} (H : HttpFns U) (empty : B) : Request U B C := ⟨ascii "GET", H.root, .h11, none, empty, none⟩

/-- A call that changes a request.  `headers op` is `hyper_request_headers` followed by a call with what it gives. -/
inductive Call (B C : Type) where
  | setMethod (m : Bytes)
  | setUri (u : Bytes)
  | setUriParts (scheme authority path : Option Bytes)
  | setVersion (v : Int)
  | headers (op : Op)
  | setBody (b : B)
  | onInformational (c : C)

/-- The table of `hyper_request_set_version` (http_types.rs 216-225, the constants from ffi/mod.rs 71-77). -/
def versionOf (v : Int) : Option Version :=
  if v = 0 then some .h11
  else if v = 10 then some .h10
  else if v = 11 then some .h11
  else if v = 20 then some .h2
  else none

/-- A call: the request, and whether the code is `HYPERE_OK` and not `HYPERE_INVALID_ARG`
(http_types.rs 107-124, 139-154, 164-203, 212-228, 235-238, 248-253, 272-289; the headers 435-443, 515-547). -/
def Request.call {U B C : Type} (H : HttpFns U) (r : Request U B C) : Call B C → Request U B C × Bool
  | .setMethod m => if H.methodOk m then ({ r with method := m }, true) else (r, false)
  | .setUri u =>
    match H.uri u with
    | some x => ({ r with uri := x }, true)
    | none => (r, false)
  | .setUriParts s a p =>
    match H.parts s a p with
    | some x => ({ r with uri := x }, true)
    | none => (r, false)
  | .setVersion v =>
    match versionOf v with
    | some x => ({ r with version := x }, true)
    | none => (r, false)
  | .headers op =>
    ({ r with headers := some ((r.headers.getD Headers.empty).step op) },
      match op with | .set raw value => (rawNameValue raw value).isSome | .add raw value => (rawNameValue raw value).isSome)
  | .setBody b => ({ r with body := b }, true)
  | .onInformational c => ({ r with callback := some c }, true)

/-- A sequence of calls, one after another. -/
def Request.run {U B C : Type} (H : HttpFns U) (r : Request U B C) (cs : List (Call B C)) : Request U B C := cs.foldl (fun r c => (r.call H c).1) r

/-- `hyper_request::finalize_request` (http_types.rs 292-299) in `hyper_clientconn_send` (client.rs 146-165): the head an HTTP/1 connection gets.
`OriginalHeaderOrder` is not used in writing. -/
def Request.finalize {U B C : Type} (H : HttpFns U) (r : Request U B C) : ReqHead :=
  match r.headers with
  | some h => ⟨r.method, H.text r.uri, r.version, h.headers, some h.casing⟩
  | none => ⟨r.method, H.text r.uri, r.version, [], none⟩

/-- `hyper_response` (http_types.rs 51): the head without its fields, and the body. -/
structure Response (B : Type) where
  status : Nat
  version : Version
  reason : Option Bytes
  body : B

/-- `hyper_response::wrap` (http_types.rs 391-408); for the fields see `Headers.received`. -/
def Response.wrap {B : Type} (h : RespHead) (body : B) : Response B := ⟨h.status, h.version, h.reason, body⟩

/-- `hyper_response::reason_phrase` (http_types.rs 410-420), of which `hyper_response_reason_phrase` and `hyper_response_reason_phrase_len`
(331-343) give the address and the length. -/
def Response.reasonPhrase {B : Type} (canonical : Nat → Option Bytes) (r : Response B) : Bytes :=
  match r.reason with
  | some x => x
  | none => (canonical r.status).getD []

/-- `hyper_response_version` (http_types.rs 354-363). -/
def Response.versionCode {B : Type} (r : Response B) : Int :=
  match r.version with
  | .h10 => 10
  | .h11 => 11
  | .h2 => 20
  | _ => 0

/-- `hyper_response_body` (http_types.rs 384-387). -/
def Response.takeBody {B : Type} (empty : B) (r : Response B) : B × Response B := (r.body, { r with body := empty })

/-- Several calls of it: the bodies they give. -/
def Response.takeBodies {B : Type} (empty : B) : Nat → Response B → List B
  | 0, _ => []
  | n + 1, r => (r.takeBody empty).1 :: Response.takeBodies empty n (r.takeBody empty).2

end Hyper.CReq
