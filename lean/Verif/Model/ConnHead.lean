import Verif.Model.ServerEncode
import Verif.Model.BodyWriter

/-!
# Sending a message head: `src/proto/h1/conn.rs` 596-712
-/

namespace Hyper

/-- `KA` (conn.rs 1033-1038). -/
inductive KA where
  | idle | busy | disabled
  deriving DecidableEq, Repr

/-- `State::wants_keep_alive` (conn.rs 1078-1080). -/
def KA.wants (k : KA) : Bool := k != .disabled

/-- `Conn::fix_keep_alive` (conn.rs 666-688): the connection's keep-alive status and the headers. -/
def fixKeepAlive (ka : KA) (version : Version) (headers : HeaderMap) : KA × HeaderMap :=
  let outgoing := match headers.get hCONN with
    | some v => connectionKeepAlive v
    | none => false
  if outgoing then (ka, headers)
  else if version = .h10 then (.disabled, headers)
  else if version = .h11 ∧ ka.wants then (ka, headers.insert hCONN (ascii "keep-alive"))
  else (ka, headers)

/-- `Conn::enforce_version` (conn.rs 692-712); `peer` is `state.version`. -/
def enforceVersion (peer : Version) (ka : KA) (version : Version) (headers : HeaderMap) :
    KA × Version × HeaderMap :=
  match peer with
  | .h10 =>
    let r := fixKeepAlive ka version headers
    (r.1, .h10, r.2)
  | .h11 => if ka = .disabled then (ka, version, headers.insert hCONN (ascii "close")) else (ka, version, headers)
  | _ => (ka, version, headers)

/-- `Conn::write_head` (conn.rs 596-606, 655-660): the write state once the head is encoded. -/
def Writing.ofHead : EncodeRes → Writing
  | .ok e => if !e.isEof then .body e else .afterBody e.isLast
  | _ => .closed

/-- The server's side of `Conn::encode_head` (conn.rs 608-663): what is handed to the role's
encoder. -/
def connMsg (peer : Version) (ka : KA) (m : EncodeMsg) : KA × EncodeMsg :=
  let r := enforceVersion peer ka m.head.version m.head.headers
  (r.1, { m with head := { m.head with version := r.2.1, headers := r.2.2 }, keepAlive := r.1.wants })

/-- A whole response as the dispatcher writes it (dispatch.rs 366-446): the head, then the body's
frames while the connection is in `Writing::Body`.  `allow` is whether the request had
`TE: trailers`. -/
def respond (env : EncodeEnv) (peer : Version) (ka : KA) (m : EncodeMsg) (allow : Bool) (dst : Bytes)
    (frames : List UserFrame) : WriteRes :=
  let r := serverEncode env (connMsg peer ka m).2 dst
  writeFrames allow m.titleCase r.1 (Writing.ofHead r.2) frames

end Hyper
