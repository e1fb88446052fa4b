import Verif.Model.Forward
import Verif.Model.H2Client
import Verif.Model.H2Server

/-!
# Handing a message on between HTTP/1 and HTTP/2

As `Verif.Model.Forward`, but the next connection speaks HTTP/2.  The request's target and version, which become pseudo-header fields, are
left out, as they are in `Rq.Req`.
-/

namespace Hyper

/-- `size_hint().exact()` of a body that was received with this framing and not read from yet: 0 for `Incoming::empty`, else that of the
channel (src/body/incoming.rs 302-322). -/
def forwardExact (d : DecodedLength) : Option Nat :=
  match forwardBody d with
  | none => some 0
  | some (.known n) => some n
  | some .unknown => none

/-- A received request as the sender of an HTTP/2 connection gets it (src/proto/h2/client.rs 702-716). -/
def forwardUpRequest (m : RequestMsg) : Rq.Req := ⟨m.method, m.headers, (forwardBody m.decode).isNone, forwardExact m.decode⟩

/-- A received response as the service's answer on an HTTP/2 stream (src/proto/h2/server.rs 466-517). -/
def forwardUpResponse (m : ResponseMsg) : Strm.Resp := ⟨m.head.status, m.head.headers, (forwardBody m.decode).isNone, forwardExact m.decode⟩

/-- What an HTTP/1 connection takes for the length of a body that arrives over HTTP/2: `is_end_stream` and `size_hint` of it
(src/body/incoming.rs 293, 317), and the use made of them (src/proto/h1/dispatch.rs 367-377).  `ended`: by now the peer has ended the
stream and nothing of it is left to read. -/
def forwardDownBody (ended : Bool) (x : H2Body) : Option BodyLength :=
  if ended then none
  else
    match x.sizeHint with
    | .exact n => some (.known n)
    | .unknown => some .unknown

/-- The head of a request that arrived over HTTP/2 as an HTTP/1 connection gets it (dispatch.rs 687-693).  It is marked as HTTP/2, unless the
proxy changes that; `target` is how `http::Uri` prints what was put together from the pseudo-header fields. -/
def forwardDownRequest (version : Version) (target : Bytes) (r : Srv.Req) : ReqHead := ⟨r.method, target, version, r.headers, none⟩

/-- A response that arrived over HTTP/2 as the HTTP/1 connection of the request gets it (dispatch.rs 604-610): it is marked as HTTP/2 and has
no reason and no record of the names' case. -/
def forwardDownResponse (r : Rq.Resp) (ended : Bool) (x : H2Body) : RespOut := ⟨⟨.h2, r.status, r.headers, none, none⟩, forwardDownBody ended x⟩

end Hyper
