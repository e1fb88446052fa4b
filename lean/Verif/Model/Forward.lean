import Verif.Model.Incoming
import Verif.Model.ClientEncode

/-!
# Handing a received message on

A proxy gives the request it received to a connection of its own, and the response that comes back to the connection the request came
from, without touching them.  What hyper then writes is decided by what the body says of its length.
-/

namespace Hyper

/-- What a connection takes for the length of a body that was received with this framing and not read from yet: `Incoming::empty` or
`Incoming::new_channel` (src/proto/h1/dispatch.rs 313-321), `is_end_stream` and `size_hint` of these (src/body/incoming.rs 288-322), and
the use made of them (dispatch.rs 367-377). -/
def forwardBody (d : DecodedLength) : Option BodyLength :=
  if d = DecodedLength.ZERO then none
  else if (ChanBody.mk d 0 false).isEndStream then none
  else
    match (ChanBody.mk d 0 false).sizeHint with
    | .exact n => some (.known n)
    | .unknown => some .unknown

/-- The head of a received request as the next connection gets it (`RequestHead`, src/proto/mod.rs 22-38; `Client::poll_msg`, dispatch.rs
687-693): nothing is changed, the record of the names' case is in the extensions.  `shown` is how `http::Uri` prints what it parsed. -/
def forwardRequest (shown : Bytes → Bytes) (m : RequestMsg) : ReqHead := ⟨m.method, shown m.target, m.version, m.headers, m.caseMap⟩

/-- The trailers as the next connection gets them: `decode_trailers` appends the fields it read to a map, in order (src/proto/h1/decode.rs 645-670), and
the frame of the received body is given on as it is (src/body/incoming.rs 217-232; dispatch.rs 426-430). -/
def forwardTrailers (fs : List (Bytes × Bytes)) : HeaderMap := fs.foldl (fun m f => m.append f.1 f.2) []

/-- A received response as the connection of the request gets it (`Server::poll_msg`, dispatch.rs 604-610). -/
def forwardResponse (m : ResponseMsg) : RespOut := ⟨m.head, forwardBody m.decode⟩

end Hyper
