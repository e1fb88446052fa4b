import Verif.Model.Headers
import Verif.Model.Message

/-! # Connection headers in HTTP/2: `strip_connection_headers` of `src/proto/h2/mod.rs` -/

namespace Hyper

/-- `CONNECTION_HEADERS` (h2/mod.rs 36-41). -/
def connectionHeaders : List Bytes := [ascii "keep-alive", ascii "proxy-connection", hTE, hUPGRADE]

/-- `http::header::TE`. -/
def hTeField : Bytes := ascii "te"

/-- `MessageKind` (h2/mod.rs 43-48). -/
inductive MessageKind where
  | request
  | response
  deriving DecidableEq, Repr

/-- `headers.remove(name)` for a string (crate `http`): the name is read as a header name, ignoring
case; a string that is none removes nothing. -/
def HeaderMap.removeStr (m : HeaderMap) (name : Bytes) : HeaderMap :=
  match headerName name with
  | some n => m.remove n
  | none => m

/-- The `TE` part (h2/mod.rs 57-70). -/
def stripTe (kind : MessageKind) (m : HeaderMap) : HeaderMap :=
  match kind with
  | .request => if (m.get hTeField).any (fun v => v != ascii "trailers") then m.remove hTeField else m
  | .response => m.remove hTeField

/-- The names listed in the removed `Connection` value (h2/mod.rs 83-88). -/
def stripListed (m : HeaderMap) (value : Bytes) : HeaderMap :=
  match toStr value with
  | some s => (splitComma s).foldl (fun m name => m.removeStr (trimBlanks name)) m
  | none => m

/-- The `Connection` part (h2/mod.rs 72-89); `remove` gives back the first value. -/
def stripConnection (m : HeaderMap) : HeaderMap :=
  match m.get hCONN with
  | some v => stripListed (m.remove hCONN) v
  | none => m

/-- `strip_connection_headers` (h2/mod.rs 49-90). -/
def stripConnectionHeaders (kind : MessageKind) (m : HeaderMap) : HeaderMap :=
  stripConnection (stripTe kind (connectionHeaders.foldl HeaderMap.remove m))

end Hyper
