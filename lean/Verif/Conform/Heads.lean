import Verif.Model.HeadParse
import Verif.Model.ClientEncode
import Verif.Model.ServerEncode
import Verif.Model.Buffered

/-!
# The repository's own tests of heads, run on the model: `src/proto/h1/role.rs` 1683-3010

These are tests, not proofs: each `example` evaluates the model on the input of a unit test of hyper
and compares with what the test expects.  They guard the model against having been copied wrongly.
Tests of `httparse` options (spaces before colons, several spaces in the request line) and of
`http::Uri` are left out, since both are parameters of the model.
-/

namespace Hyper.Conform

/-- `Server::parse` on a complete head. -/
def srv (s : String) (max : Nat := 100) (case : Bool := false) : Option (Except ParseErr RequestMsg) :=
  (refRequest max (ascii s)).map (fun p => serverParse (fun _ => true) (fun _ => true) case p.1)

/-- The body length a request head announces; `none` when it is refused. -/
def srvLen (s : String) : Option DecodedLength :=
  match srv s with
  | some (.ok m) => some m.decode
  | _ => none

/-- Is the head refused? -/
def srvErr (s : String) : Bool :=
  match srv s with
  | some (.error _) => true
  | _ => false

/-- The canonical reasons the tests use. -/
def canon : Nat → Option Bytes
  | 200 => some (ascii "OK")
  | _ => none

/-- The client's configuration. -/
def cfg (h09 : Bool := false) : ClientCfg := ⟨false, false, h09, canon⟩

/-- `Client::parse` on complete heads. -/
def cli (s : String) (method : String := "GET") : ClientOut :=
  clientParse (cfg) (refResponse 100) (some (ascii method)) 10 (ascii s) []

/-- The body length a response head announces. -/
def cliLen (s : String) (method : String := "GET") : Option DecodedLength :=
  match (cli s method).res with
  | .ok (some m) => some m.decode
  | _ => none

/-- Its keep-alive and upgrade flags. -/
def cliFlags (s : String) (method : String := "GET") : Option (Bool × Bool) :=
  match (cli s method).res with
  | .ok (some m) => some (m.keepAlive, m.wantsUpgrade)
  | _ => none

/-- Is the head refused? -/
def cliErr (s : String) : Bool :=
  match (cli s).res with
  | .error _ => true
  | _ => false

/-! ## `test_parse_request`, `test_parse_response`, `parse_header_htabs` -/

example : srv "GET /echo HTTP/1.1\r\nHost: hyper.rs\r\n\r\n" =
    some (.ok ⟨ascii "GET", ascii "/echo", .h11, [(ascii "host", [ascii "hyper.rs"])], none,
      DecodedLength.ZERO, false, true, false⟩) := by decide +kernel

example : cli "HTTP/1.1 200 OK\r\nContent-Length: 0\r\n\r\n" =
    ⟨.ok (some ⟨⟨.h11, 200, [(ascii "content-length", [ascii "0"])], none, none⟩,
      DecodedLength.ZERO, true, false⟩), [], []⟩ := by decide +kernel

example : (match (cli "HTTP/1.1 200 OK\r\nserver: hello\tworld\r\n\r\n").res with
    | .ok (some m) => some m.head.headers
    | _ => none) = some [(ascii "server", [ascii "hello\tworld"])] := by decide +kernel

/-! ## `test_parse_response_h09_allowed`, `test_parse_response_h09_rejected`

`httparse` answers `Error::Version`. -/

def baguettes : Bytes := ascii "Baguettes are super delicious, don't you agree?"

example : clientParse (cfg true) (fun _ => .versionErr) (some (ascii "GET")) 10 baguettes [] =
    ⟨.ok (some ⟨⟨.h09, 200, [], none, none⟩, DecodedLength.CLOSE_DELIMITED, false, false⟩), baguettes, []⟩ := by
  decide +kernel

example : clientParse (cfg) (fun _ => .versionErr) (some (ascii "GET")) 10 baguettes [] =
    ⟨.error .version, baguettes, []⟩ := by decide +kernel

/-! ## `test_parse_preserve_header_case_in_request` -/

example : (match srv "GET / HTTP/1.1\r\nHost: hyper.rs\r\nX-BREAD: baguette\r\n\r\n" 100 true with
    | some (.ok m) => m.caseMap.map (fun c => (c.getAll (ascii "host"), c.getAll (ascii "x-bread")))
    | _ => none) = some ([ascii "Host"], [ascii "X-BREAD"]) := by decide +kernel

/-! ## `test_decoder_request` -/

example : srvLen "GET / HTTP/1.1\r\n\r\n" = some DecodedLength.ZERO := by decide +kernel
example : srvLen "POST / HTTP/1.1\r\n\r\n" = some DecodedLength.ZERO := by decide +kernel
example : srvLen "POST / HTTP/1.1\r\ntransfer-encoding: chunked\r\n\r\n" =
    some DecodedLength.CHUNKED := by decide +kernel
example : srvLen "POST / HTTP/1.1\r\ntransfer-encoding: gzip, chunked\r\n\r\n" =
    some DecodedLength.CHUNKED := by decide +kernel
example : srvLen "POST / HTTP/1.1\r\ntransfer-encoding: gzip\r\ntransfer-encoding: chunked\r\n\r\n" =
    some DecodedLength.CHUNKED := by decide +kernel
example : srvLen "POST / HTTP/1.1\r\ncontent-length: 10\r\n\r\n" = some ⟨10⟩ := by decide +kernel

/-- Chunked, without `content-length` and without keep-alive. -/
def srvBoth (s : String) : Bool :=
  match srv s with
  | some (.ok m) => m.decode == DecodedLength.CHUNKED && !m.headers.contains hCL && !m.keepAlive
  | _ => false

example : srvBoth "POST / HTTP/1.1\r\ncontent-length: 10\r\ntransfer-encoding: chunked\r\n\r\n" := by decide +kernel
example : srvBoth "POST / HTTP/1.1\r\ntransfer-encoding: chunked\r\ncontent-length: 10\r\n\r\n" := by decide +kernel
example : srvBoth
    "POST / HTTP/1.1\r\ntransfer-encoding: gzip\r\ncontent-length: 10\r\ntransfer-encoding: chunked\r\n\r\n" := by
  decide +kernel
example : srvBoth
    "POST / HTTP/1.1\r\nconnection: keep-alive\r\ncontent-length: 10\r\ntransfer-encoding: chunked\r\n\r\n" := by
  decide +kernel

example : srvLen "POST / HTTP/1.1\r\ncontent-length: 10\r\ncontent-length: 10\r\n\r\n" = some ⟨10⟩ := by
  decide +kernel
example : srvErr "POST / HTTP/1.1\r\ncontent-length: 10\r\ncontent-length: 11\r\n\r\n" := by decide +kernel
example : srvErr "POST / HTTP/1.1\r\ncontent-length: +10\r\n\r\n" := by decide +kernel
example : srvErr "POST / HTTP/1.1\r\ntransfer-encoding: gzip\r\n\r\n" := by decide +kernel
example : srvErr "POST / HTTP/1.1\r\ntransfer-encoding: chunked, gzip\r\n\r\n" := by decide +kernel
example : srvErr "POST / HTTP/1.1\r\ntransfer-encoding: chunked\r\ntransfer-encoding: afterlol\r\n\r\n" := by
  decide +kernel
example : srvLen "POST / HTTP/1.0\r\ncontent-length: 10\r\n\r\n" = some ⟨10⟩ := by decide +kernel
example : srvErr "POST / HTTP/1.0\r\ntransfer-encoding: chunked\r\n\r\n" := by decide +kernel

/-! ## `test_decoder_response` -/

example : cliLen "HTTP/1.1 200 OK\r\n\r\n" = some DecodedLength.CLOSE_DELIMITED := by decide +kernel
example : cliLen "HTTP/1.1 204 No Content\r\n\r\n" = some DecodedLength.ZERO := by decide +kernel
example : cliLen "HTTP/1.1 304 Not Modified\r\n\r\n" = some DecodedLength.ZERO := by decide +kernel
example : cliLen "HTTP/1.1 200 OK\r\ncontent-length: 8\r\n\r\n" = some ⟨8⟩ := by decide +kernel
example : cliLen "HTTP/1.1 200 OK\r\ncontent-length: 8\r\ncontent-length: 8\r\n\r\n" = some ⟨8⟩ := by decide +kernel
example : cliErr "HTTP/1.1 200 OK\r\ncontent-length: 8\r\ncontent-length: 9\r\n\r\n" := by decide +kernel
example : cliErr "HTTP/1.1 200 OK\r\ncontent-length: +8\r\n\r\n" := by decide +kernel
example : cliLen "HTTP/1.1 200 OK\r\ntransfer-encoding: chunked\r\n\r\n" = some DecodedLength.CHUNKED := by
  decide +kernel
example : cliLen "HTTP/1.1 200 OK\r\ntransfer-encoding: yolo\r\n\r\n" = some DecodedLength.CLOSE_DELIMITED := by
  decide +kernel
example : cliLen "HTTP/1.1 200 OK\r\ncontent-length: 10\r\ntransfer-encoding: chunked\r\n\r\n" =
    some DecodedLength.CHUNKED := by decide +kernel
example : cliLen "HTTP/1.1 200 OK\r\ncontent-length: 8\r\n\r\n" "HEAD" = some DecodedLength.ZERO := by decide +kernel
example : cliLen "HTTP/1.1 200 OK\r\n\r\n" "CONNECT" = some DecodedLength.ZERO := by decide +kernel
example : cliFlags "HTTP/1.1 200 OK\r\n\r\n" "CONNECT" = some (false, true) := by decide +kernel
example : cliLen "HTTP/1.1 400 Bad Request\r\n\r\n" "CONNECT" = some DecodedLength.CLOSE_DELIMITED := by
  decide +kernel
example : (cli "HTTP/1.1 100 Continue\r\n\r\n").res = .ok none := by decide +kernel
example : (cli "HTTP/1.1 103 Early Hints\r\n\r\n").res = .ok none := by decide +kernel
example : cliLen "HTTP/1.1 101 Switching Protocols\r\n\r\n" = some DecodedLength.ZERO := by decide +kernel
example : cliFlags "HTTP/1.1 101 Switching Protocols\r\n\r\n" = some (false, true) := by decide +kernel
example : cliLen "HTTP/1.0 200 OK\r\n\r\n" = some DecodedLength.CLOSE_DELIMITED := by decide +kernel
example : cliErr "HTTP/1.0 200 OK\r\ntransfer-encoding: chunked\r\n\r\n" := by decide +kernel
example : cliFlags "HTTP/1.1 200 OK\r\ncontent-length: 0\r\n\r\n" = some (true, false) := by decide +kernel
example : cliFlags "HTTP/1.1 200 OK\r\ncontent-length: 0\r\nconnection: foo, close, bar\r\n\r\n" =
    some (false, false) := by decide +kernel
example : cliFlags "HTTP/1.0 200 OK\r\ncontent-length: 0\r\n\r\n" = some (false, false) := by decide +kernel
example : cliFlags "HTTP/1.0 200 OK\r\ncontent-length: 0\r\nconnection: foo, keep-alive, bar\r\n\r\n" =
    some (true, false) := by decide +kernel

/-! ## `test_client_obs_fold_line` -/

example : obsFold (ascii "a normal line") = ascii "a normal line" := by decide +kernel
example : obsFold (ascii "obs\r\n fold\r\n\t line") = ascii "obs fold line" := by decide +kernel

/-! ## `test_client_request_encode_*` -/

/-- A `GET /` with these headers. -/
def getHead (hs : HeaderMap) (case : Option HeaderMap) : ReqHead := ⟨ascii "GET", ascii "/", .h11, hs, case⟩

def jsonHeaders : HeaderMap :=
  [(ascii "content-length", [ascii "10"]), (ascii "content-type", [ascii "application/json"])]

def loudCase : HeaderMap := [(ascii "content-length", [ascii "CONTENT-LENGTH"])]

def cliBytes (title : Bool) (h : ReqHead) : Option Bytes :=
  (clientEncode title h (some (.known 10)) []).map (·.1)

example : cliBytes true (getHead (jsonHeaders ++ [(ascii "*-*", [ascii "o_o"])]) none) =
    some (ascii
      "GET / HTTP/1.1\r\nContent-Length: 10\r\nContent-Type: application/json\r\n*-*: o_o\r\n\r\n") := by
  decide +kernel
example : cliBytes false (getHead jsonHeaders (some loudCase)) =
    some (ascii "GET / HTTP/1.1\r\nCONTENT-LENGTH: 10\r\ncontent-type: application/json\r\n\r\n") := by
  decide +kernel
example : cliBytes true (getHead jsonHeaders (some loudCase)) =
    some (ascii "GET / HTTP/1.1\r\nCONTENT-LENGTH: 10\r\nContent-Type: application/json\r\n\r\n") := by
  decide +kernel

/-! ## `test_server_*` -/

def env : EncodeEnv := ⟨canon, ascii "Sun, 06 Nov 1994 08:49:37 GMT"⟩

/-- The response of these tests. -/
def okMsg (hs : HeaderMap) (case : Option HeaderMap) (body : Option BodyLength) (method : Option Bytes)
    (title date : Bool) : EncodeMsg :=
  ⟨⟨.h11, 200, hs, case, none⟩, body, true, method, title, date⟩

example : (match (serverEncode env (okMsg [] none none (some mCONNECT) false true) []).2 with
    | .ok e => e.isLast
    | _ => false) = true := by decide +kernel

/-- Do the bytes written start with `s`? -/
def srvStarts (m : EncodeMsg) (s : String) : Bool := (ascii s).isPrefixOf (serverEncode env m []).1

example : srvStarts
    (okMsg (jsonHeaders ++ [(ascii "weird--header", [[]])]) none (some (.known 10)) none true true)
    "HTTP/1.1 200 OK\r\nContent-Length: 10\r\nContent-Type: application/json\r\nWeird--Header: \r\n" := by
  decide +kernel
example : srvStarts (okMsg jsonHeaders (some loudCase) (some (.known 10)) none false true)
    "HTTP/1.1 200 OK\r\nCONTENT-LENGTH: 10\r\ncontent-type: application/json\r\ndate: " := by decide +kernel
example : srvStarts (okMsg jsonHeaders (some loudCase) (some (.known 10)) none true true)
    "HTTP/1.1 200 OK\r\nCONTENT-LENGTH: 10\r\nContent-Type: application/json\r\nDate: " := by decide +kernel
example : (serverEncode env (okMsg jsonHeaders (some loudCase) (some (.known 10)) none true false) []).1 =
    ascii "HTTP/1.1 200 OK\r\nCONTENT-LENGTH: 10\r\nContent-Type: application/json\r\n\r\n" := by decide +kernel

/-! ## `test_is_complete_fast` -/

/-- The answers for every earlier length. -/
def fastAll (s : String) : List (Option Bool) :=
  (List.range (ascii s).length).map (isCompleteFast (ascii s))

example : (fastAll "GET / HTTP/1.1\r\na: b\r\n\r\n").all (· == some true) := by decide +kernel
example : (fastAll "GET / HTTP/1.1\na: b\n\n").all (· == some true) := by decide +kernel
example : (fastAll "GET / HTTP/1.1\r\na: b\n\r\n").all (· == some true) := by decide +kernel
example : (fastAll "GET / HTTP/1.1\r\na: b\r\n\r").all (· == some false) := by decide +kernel
example : (fastAll "GET / HTTP/1.1\na: b\n").all (· == some false) := by decide +kernel
example : (fastAll "GET / HTTP/1.1\r\na: b\n\r").all (· == some false) := by decide +kernel

end Hyper.Conform
