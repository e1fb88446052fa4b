import Verif.Model.Inlet
import Verif.Model.HeadParse
import Verif.Model.Httparse

/-!
# The repository's integration tests of the HTTP/1 server, run on the model: `tests/server.rs`

A driver plays the part of the event loop, the client's socket and the service of `tests/server.rs`
3480-3760: everything the client sends is there from the beginning, the service reads the whole body
and then answers.  These are tests, not proofs (see `Conform/Heads.lean`): they compare what the whole
connection model puts on the wire with what the tests expect of hyper.
-/

namespace Hyper.Conform

/-- What the service answers. -/
structure Reply where
  headers : List (String × List String) := []
  body : Option BodyLength := none
  frames : List UserFrame := []
  status : Nat := 200
  version : Version := .h11
  reason : Option String := none

/-- `reply.body(b)`: a `Full`, which is at its end when it is empty. -/
def full (headers : List (String × List String)) (b : String) : Reply :=
  if (ascii b).isEmpty then { headers := headers }
  else { headers := headers, body := some (.known (ascii b).length), frames := [.data (ascii b) true] }

/-- `reply.body_stream(once(b))`. -/
def stream (headers : List (String × List String)) (b : String) : Reply :=
  { headers := headers, body := some .unknown, frames := [.data (ascii b) false] }

def hmap (fs : List (String × List String)) : HeaderMap := fs.map (fun f => (ascii f.1, f.2.map ascii))

def Reply.out (r : Reply) : RespOut :=
  ⟨⟨r.version, r.status, hmap r.headers, none, r.reason.map ascii⟩, r.body⟩

def reasons : Nat → Option Bytes
  | 200 => some (ascii "OK")
  | 304 => some (ascii "Not Modified")
  | 400 => some (ascii "Bad Request")
  | 414 => some (ascii "URI Too Long")
  | 431 => some (ascii "Request Header Fields Too Large")
  | 500 => some (ascii "Internal Server Error")
  | _ => none

def senv : EncodeEnv := ⟨reasons, ascii "D"⟩

def heads : HeadFn RequestMsg :=
  serverHeads (fun bs => .ok (refRequest 100 bs)) (fun _ => true) (fun _ => true) false

/-- The connection and what its service has still to say. -/
structure Sim where
  fed : Fed RequestMsg
  replies : List Reply
  frames : List UserFrame := []

def Sim.act (s : Sim) (a : Act) : Sim := { s with fed := s.fed.step senv parseBlock heads (.act a) }

/-- What `maybe_notify` finds: bytes in the buffer or nothing. -/
def Sim.notify (s : Sim) : NotifyIn := if s.fed.inlet.rd.buf = [] then .pending else .bytes

def Sim.takes (s : Sim) : FlushIn := ⟨[.wrote 1000000], [.ok, .ok], s.fed.inlet.rd.buf⟩

def Sim.read (s : Sim) : Sim :=
  s.act (.read ⟨true, 0, 0, .pending, s.notify, false, false, s.fed.inlet.rd, s.fed.inlet.rd.buf = [], .pending⟩)

/-- The service asks for the body while there is one. -/
def Sim.want (s : Sim) : Sim :=
  match s.fed.disp.bodyTx with
  | some k => s.act (.want k)
  | none => s

/-- A turn of `poll_write`: the service answers when it has the whole body. -/
def Sim.write (s : Sim) : Sim :=
  let busy := s.fed.disp.bodyTx.isSome
  let msg : MsgOut := match busy, s.replies with
    | false, r :: _ => .resp r.out
    | _, _ => .pending
  let frame : FrameIn := match s.frames with
    | f :: _ => .frame f
    | [] => .eof
  let s' := s.act (.write ⟨msg, frame, s.takes, s.notify⟩)
  if s.fed.disp.inFlight.isSome && s'.fed.disp.inFlight.isNone then
    { s' with replies := s.replies.tail, frames := (s.replies.head?.map Reply.frames).getD [] }
  else if s.fed.disp.bodyRx && s.fed.disp.conn.canWriteBody then { s' with frames := s.frames.tail }
  else s'

def Sim.round (s : Sim) : Sim :=
  let s := s.read.want.read.write.write.write
  let s := s.act (.flush s.takes s.notify)
  let s := s.act .readAgain
  s.act (.finish true s.takes)

def Sim.rounds : Nat → Sim → Sim
  | 0, s => s
  | n + 1, s => s.round.rounds n

/-- A connection on which the client sends `input` and stays. -/
def start (input : String) (replies : List Reply) (fin : NetEnd := .silent) (ka : Bool := true) (pipeline : Bool := false) : Sim :=
  { fed := { disp := { conn := { client := false, ka := if ka then .busy else .disabled, out := WriteSide.start .queue pipeline ⟨[], [], [], false⟩ } },
             inlet := { rd := ⟨[], match ascii input with | [] => [] | b :: t => [.data b t], fin⟩, max := defaultMaxBuf } },
    replies := replies }

def Sim.sent (s : Sim) : Bytes := s.fed.disp.conn.out.sink.sent

def Sim.bodies (s : Sim) : List ((Bytes × Bool) × Option Fields) := s.fed.got.map (fun r => ((r.data, r.whole), r.trailers))

/-- What the client reads, and whether the server closed the connection. -/
def served (s : Sim) : Bytes × Bool := ((s.rounds 8).sent, (s.rounds 8).fed.disp.done)

def bodies (s : Sim) : List ((Bytes × Bool) × Option Fields) := (s.rounds 8).bodies

/-! ## Request bodies -/

/-! `get_should_ignore_body`, `get_with_body`, `post_with_content_length_body`, `post_with_chunked_body` -/

example : bodies (start "GET / HTTP/1.1\r\nHost: example.domain\r\nConnection: close\r\n\r\nI shouldn't be read.\r\n" [{}]) =
    [(([], true), none)] := by decide +kernel
example : bodies (start "GET / HTTP/1.1\r\nHost: example.domain\r\nContent-Length: 19\r\n\r\nI'm a good request.\r\n" [{}]) =
    [((ascii "I'm a good request.", true), none)] := by decide +kernel
example : bodies (start "POST / HTTP/1.1\r\nContent-Length: 5\r\n\r\nhello" [{}]) =
    [((ascii "hello", true), none)] := by decide +kernel
example : bodies (start
      "POST / HTTP/1.1\r\nHost: example.domain\r\nTransfer-Encoding: chunked\r\n\r\n1\r\nq\r\n2\r\nwe\r\n2\r\nrt\r\n0\r\n\r\n" [{}]) =
    [((ascii "qwert", true), none)] := by decide +kernel

/-- Whether the reader of the first body gets an error. -/
def bodyErr (s : Sim) : Bool :=
  match (s.rounds 8).fed.disp.chans with
  | ch :: _ => ch.items.any (fun i => match i with | .error => true | _ => false)
  | [] => false

/-! `post_with_chunked_overflow` (the request that follows is not read), `post_with_incomplete_body`,
`post_with_chunked_missing_final_digit` -/

def overflow : Sim := start
  "POST / HTTP/1.1\r\nHost: example.domain\r\nTransfer-Encoding: chunked\r\n\r\nf0000000000000003\r\nabc\r\n0\r\n\r\nGET /sneaky HTTP/1.1\r\n\r\n" [{}, {}]

example : bodyErr overflow := by decide +kernel
example : (bodies overflow).length = 1 := by decide +kernel
example : bodyErr (start "POST / HTTP/1.1\r\nHost: example.domain\r\nContent-Length: 10\r\n\r\n12345" [{}] .eof) := by decide +kernel
example : bodyErr (start "POST / HTTP/1.1\r\nHost: example.domain\r\ntransfer-encoding: chunked\r\n\r\n1\r\nZ\r\n\r\n\r\n" [{}]) := by
  decide +kernel

/-! `http1_trailer_recv_fields`, `http1_trailer_recv_keep_alive` -/

def trailerPost : String :=
  "POST / HTTP/1.1\r\ntrailer: chunky-trailer\r\nhost: example.domain\r\ntransfer-encoding: chunked\r\n\r\n5\r\nhello\r\n0\r\nchunky-trailer: header data\r\n\r\n"

example : bodies (start trailerPost [{}]) =
    [((ascii "hello", true), some [(ascii "chunky-trailer", ascii "header data")])] := by decide +kernel
example : served (start (trailerPost ++ "GET /quux HTTP/1.1\r\nHost: example.domain\r\nConnection: close\r\n\r\n")
      [full [("content-length", ["2"])] "ok", full [("content-length", ["8"])] "zar quux"]) =
    (ascii "HTTP/1.1 200 OK\r\ncontent-length: 2\r\ndate: D\r\n\r\nokHTTP/1.1 200 OK\r\ncontent-length: 8\r\nconnection: close\r\ndate: D\r\n\r\nzar quux", true) := by
  decide +kernel

/-! ## Response lengths (`mod response_body_lengths`) -/

/-- The answer to a request that asks to close. -/
def answer (version : String) (r : Reply) : Bytes × Bool :=
  served (start ("GET / HTTP/1." ++ version ++ "\r\nHost: example.domain\r\nConnection: close\r\n\r\n") [r])

/-- The wire, closed at the end. -/
def closes (s : String) : Bytes × Bool := (ascii s, true)

example : answer "1" (full [("content-length", ["11"])] "foo bar baz") =
    closes "HTTP/1.1 200 OK\r\ncontent-length: 11\r\nconnection: close\r\ndate: D\r\n\r\nfoo bar baz" := by decide +kernel
example : answer "1" (stream [("content-length", ["11"])] "foo bar baz") =
    closes "HTTP/1.1 200 OK\r\ncontent-length: 11\r\nconnection: close\r\ndate: D\r\n\r\nfoo bar baz" := by decide +kernel
example : answer "1" (full [("content-length", ["0"])] "") =
    closes "HTTP/1.1 200 OK\r\nconnection: close\r\ncontent-length: 0\r\ndate: D\r\n\r\n" := by decide +kernel
example : answer "1" (full [("transfer-encoding", ["chunked"])] "foo bar baz") =
    closes "HTTP/1.1 200 OK\r\ntransfer-encoding: chunked\r\nconnection: close\r\ndate: D\r\n\r\nB\r\nfoo bar baz\r\n0\r\n\r\n" := by
  decide +kernel
example : answer "1" (full [("transfer-encoding", ["chunked"])] "") =
    closes "HTTP/1.1 200 OK\r\ntransfer-encoding: chunked\r\nconnection: close\r\ndate: D\r\n\r\n0\r\n\r\n" := by decide +kernel
example : answer "1" (stream [("transfer-encoding", ["chunked"])] "foo bar baz") =
    closes "HTTP/1.1 200 OK\r\ntransfer-encoding: chunked\r\nconnection: close\r\ndate: D\r\n\r\nB\r\nfoo bar baz\r\n0\r\n\r\n" := by
  decide +kernel
-- `te_response_adds_chunked` looks for the encoding only; the `connection` line is that of finding 5 of DESIGN.md
example : answer "1" (stream [("transfer-encoding", ["gzip"])] "foo bar baz") =
    closes "HTTP/1.1 200 OK\r\ntransfer-encoding: gzip, chunked\r\nconnection: close, chunked\r\ndate: D\r\n\r\nB\r\nfoo bar baz\r\n0\r\n\r\n" := by
  decide +kernel
example : answer "1" (stream [] "foo bar baz") =
    closes "HTTP/1.1 200 OK\r\nconnection: close\r\ntransfer-encoding: chunked\r\ndate: D\r\n\r\nB\r\nfoo bar baz\r\n0\r\n\r\n" := by
  decide +kernel
example : answer "1" (full [] "foo bar baz") =
    closes "HTTP/1.1 200 OK\r\nconnection: close\r\ncontent-length: 11\r\ndate: D\r\n\r\nfoo bar baz" := by decide +kernel
example : answer "1" (full [] "") =
    closes "HTTP/1.1 200 OK\r\nconnection: close\r\ncontent-length: 0\r\ndate: D\r\n\r\n" := by decide +kernel
example : answer "0" (stream [] "foo bar baz") = closes "HTTP/1.0 200 OK\r\ndate: D\r\n\r\nfoo bar baz" := by decide +kernel
example : answer "0" (stream [("transfer-encoding", ["chunked"])] "foo bar baz") =
    closes "HTTP/1.0 200 OK\r\ndate: D\r\n\r\nfoo bar baz" := by decide +kernel

/-! `get_response_custom_reason_phrase`, `head_response_*`, `response_does_not_set_chunked_if_body_not_allowed`,
`skips_content_length_*_for_304_responses`, `no_implicit_zero_content_length_for_head_responses` -/

example : answer "1" { reason := some "Cool" } =
    closes "HTTP/1.1 200 Cool\r\nconnection: close\r\ncontent-length: 0\r\ndate: D\r\n\r\n" := by decide +kernel

def headAnswer (r : Reply) : Bytes × Bool :=
  served (start "HEAD / HTTP/1.1\r\nHost: example.domain\r\nConnection: close\r\n\r\n" [r])

example : headAnswer { headers := [("content-length", ["1024"])] } =
    closes "HTTP/1.1 200 OK\r\ncontent-length: 1024\r\nconnection: close\r\ndate: D\r\n\r\n" := by decide +kernel
example : headAnswer (full [] "foo bar baz") =
    closes "HTTP/1.1 200 OK\r\nconnection: close\r\ncontent-length: 11\r\ndate: D\r\n\r\n" := by decide +kernel
example : headAnswer (full [] "") = closes "HTTP/1.1 200 OK\r\nconnection: close\r\ndate: D\r\n\r\n" := by decide +kernel
example : answer "1" { status := 304, headers := [("transfer-encoding", ["chunked"])] } =
    closes "HTTP/1.1 304 Not Modified\r\nconnection: close\r\ndate: D\r\n\r\n" := by decide +kernel
example : answer "1" { full [] "foo" with status := 304 } =
    closes "HTTP/1.1 304 Not Modified\r\nconnection: close\r\ndate: D\r\n\r\n" := by decide +kernel

/-! ## Persistence -/

/-! `keep_alive`, `get_chunked_response_with_ka`, `http_10_keep_alive`, `http_10_close_on_no_ka`,
`disable_keep_alive`, `header_connection_close`, `http_10_request_receives_http_10_response` -/

def ka11 : String := "GET / HTTP/1.1\r\nHost: example.domain\r\nConnection: keep-alive\r\n\r\n"

def quux : String := "GET /quux HTTP/1.1\r\nHost: example.domain\r\nConnection: close\r\n\r\n"

example : served (start ("GET / HTTP/1.1\r\nHost: example.domain\r\n\r\n" ++ quux)
      [full [("content-length", ["11"])] "foo bar baz", full [("content-length", ["8"])] "zar quux"]) =
    closes "HTTP/1.1 200 OK\r\ncontent-length: 11\r\ndate: D\r\n\r\nfoo bar bazHTTP/1.1 200 OK\r\ncontent-length: 8\r\nconnection: close\r\ndate: D\r\n\r\nzar quux" := by
  decide +kernel
example : served (start (ka11 ++ quux)
      [full [("transfer-encoding", ["chunked"])] "foo bar baz", full [("content-length", ["8"])] "zar quux"]) =
    closes "HTTP/1.1 200 OK\r\ntransfer-encoding: chunked\r\ndate: D\r\n\r\nB\r\nfoo bar baz\r\n0\r\n\r\nHTTP/1.1 200 OK\r\ncontent-length: 8\r\nconnection: close\r\ndate: D\r\n\r\nzar quux" := by
  decide +kernel
example : served (start
      "GET / HTTP/1.0\r\nHost: example.domain\r\nConnection: keep-alive\r\n\r\nGET /quux HTTP/1.0\r\nHost: example.domain\r\n\r\n"
      [full [("content-length", ["11"])] "foo bar baz", full [("content-length", ["8"])] "zar quux"]) =
    closes "HTTP/1.0 200 OK\r\ncontent-length: 11\r\nconnection: keep-alive\r\ndate: D\r\n\r\nfoo bar bazHTTP/1.0 200 OK\r\ncontent-length: 8\r\ndate: D\r\n\r\nzar quux" := by
  decide +kernel
example : served (start "GET / HTTP/1.0\r\nHost: example.domain\r\nConnection: keep-alive\r\n\r\n"
      [{ full [("content-length", ["11"])] "foo bar baz" with version := .h10 }]) =
    closes "HTTP/1.0 200 OK\r\ncontent-length: 11\r\ndate: D\r\n\r\nfoo bar baz" := by decide +kernel
example : served (start ka11 [full [("content-length", ["11"])] "foo bar baz"] .silent false) =
    closes "HTTP/1.1 200 OK\r\ncontent-length: 11\r\nconnection: close\r\ndate: D\r\n\r\nfoo bar baz" := by decide +kernel
example : served (start ka11 [full [("content-length", ["11"]), ("connection", ["close"])] "foo bar baz"]) =
    closes "HTTP/1.1 200 OK\r\ncontent-length: 11\r\nconnection: close\r\ndate: D\r\n\r\nfoo bar baz" := by decide +kernel
example : served (start "GET / HTTP/1.0\r\n\r\n" [{}]) =
    closes "HTTP/1.0 200 OK\r\ncontent-length: 0\r\ndate: D\r\n\r\n" := by decide +kernel

/-! `pipeline_enabled`: both answers are there after the last flush, and nothing was written before. -/

def pipelined : Sim := start
  ("GET / HTTP/1.1\r\nHost: example.domain\r\n\r\nGET / HTTP/1.1\r\nHost: example.domain\r\nConnection: close\r\n\r\n")
  [full [("content-length", ["12"])] "Hello World\n", full [("content-length", ["12"])] "Hello World\n"] .silent true true

example : served pipelined =
    closes "HTTP/1.1 200 OK\r\ncontent-length: 12\r\ndate: D\r\n\r\nHello World\nHTTP/1.1 200 OK\r\ncontent-length: 12\r\nconnection: close\r\ndate: D\r\n\r\nHello World\n" := by
  decide +kernel
example : (pipelined.rounds 1).sent = [] := by decide +kernel

/-! ## Expectations -/

/-! `expect_continue_sends_100`, `expect_continue_accepts_upper_cased_expectation`,
`expect_continue_but_http_10_is_ignored`, `expect_continue_but_no_body_is_ignored` -/

example : served (start
      "POST /foo HTTP/1.1\r\nHost: example.domain\r\nExpect: 100-continue\r\nContent-Length: 5\r\nConnection: Close\r\n\r\nhello" [{}]) =
    closes "HTTP/1.1 100 Continue\r\n\r\nHTTP/1.1 200 OK\r\nconnection: close\r\ncontent-length: 0\r\ndate: D\r\n\r\n" := by
  decide +kernel
example : served (start
      "POST /foo HTTP/1.1\r\nHost: example.domain\r\nExpect: 100-Continue\r\nContent-Length: 5\r\nConnection: Close\r\n\r\nhello" [{}]) =
    closes "HTTP/1.1 100 Continue\r\n\r\nHTTP/1.1 200 OK\r\nconnection: close\r\ncontent-length: 0\r\ndate: D\r\n\r\n" := by
  decide +kernel
example : served (start
      "POST /foo HTTP/1.0\r\nHost: example.domain\r\nExpect: 100-Continue\r\nContent-Length: 5\r\nConnection: Close\r\n\r\nhello" [{}]) =
    closes "HTTP/1.0 200 OK\r\ncontent-length: 0\r\ndate: D\r\n\r\n" := by decide +kernel
example : served (start "POST /foo HTTP/1.1\r\nHost: example.domain\r\nExpect: 100-continue\r\nConnection: Close\r\n\r\n" [{}]) =
    closes "HTTP/1.1 200 OK\r\nconnection: close\r\ncontent-length: 0\r\ndate: D\r\n\r\n" := by decide +kernel

/-! ## Errors -/

/-! `post_with_invalid_prefix_content_length`, `illegal_request_length_returns_400_response`,
`returning_1xx_response_is_error`, `http1_response_with_http2_version`, `empty_parse_eof_does_not_return_error` -/

example : served (start "POST / HTTP/1.1\r\nContent-Length: +5\r\n\r\nhello" [{}]) =
    closes "HTTP/1.1 400 Bad Request\r\nconnection: close\r\ncontent-length: 0\r\ndate: D\r\n\r\n" := by decide +kernel
example : served (start "POST / HTTP/1.1\r\nContent-Length: foo\r\n\r\n" [{}]) =
    closes "HTTP/1.1 400 Bad Request\r\nconnection: close\r\ncontent-length: 0\r\ndate: D\r\n\r\n" := by decide +kernel
example : served (start "GET / HTTP/1.1\r\n\r\n" [{ status := 100 }]) =
    closes "HTTP/1.1 500 Internal Server Error\r\ncontent-length: 0\r\ndate: D\r\n\r\n" := by decide +kernel
example : served (start "GET / HTTP/1.1\r\n\r\n" [{ version := .h2 }]) =
    (ascii "HTTP/1.1 200 OK\r\ncontent-length: 0\r\ndate: D\r\n\r\n", false) := by decide +kernel
example : served (start "" [{}] .eof) = ([], true) := by decide +kernel

/-! ## Trailers: `http1_trailer_*` -/

/-- One data frame, then trailers. -/
def trailing (names : String) : Reply :=
  { headers := [("transfer-encoding", ["chunked"]), ("trailer", [names])], body := some .unknown,
    frames := [.data (ascii "hello") false,
      .trailers (hmap [("chunky-trailer", ["header data"]), ("host", ["www.example.com"]), ("foo", ["bar"])])] }

def teRequest (te : String) : String :=
  "GET / HTTP/1.1\r\nHost: example.domain\r\nConnection: keep-alive\r\n" ++ te ++ "\r\n"

example : served (start (teRequest "TE: trailers\r\n") [trailing "chunky-trailer"]) =
    (ascii "HTTP/1.1 200 OK\r\ntransfer-encoding: chunked\r\ntrailer: chunky-trailer\r\ndate: D\r\n\r\n5\r\nhello\r\n0\r\nchunky-trailer: header data\r\n\r\n", false) := by
  decide +kernel
example : served (start (teRequest "TE: trailers\r\n") [trailing "Chunky-Trailer"]) =
    (ascii "HTTP/1.1 200 OK\r\ntransfer-encoding: chunked\r\ntrailer: Chunky-Trailer\r\ndate: D\r\n\r\n5\r\nhello\r\n0\r\nchunky-trailer: header data\r\n\r\n", false) := by
  decide +kernel
example : served (start (teRequest "") [trailing "chunky-trailer"]) =
    (ascii "HTTP/1.1 200 OK\r\ntransfer-encoding: chunked\r\ntrailer: chunky-trailer\r\ndate: D\r\n\r\n5\r\nhello\r\n0\r\n\r\n", false) := by
  decide +kernel
example : served (start (teRequest "TE: gzip, Trailers\r\n") [trailing "chunky-trailer"]) =
    (ascii "HTTP/1.1 200 OK\r\ntransfer-encoding: chunked\r\ntrailer: chunky-trailer\r\ndate: D\r\n\r\n5\r\nhello\r\n0\r\nchunky-trailer: header data\r\n\r\n", false) := by
  decide +kernel
example : served (start (teRequest "TE: gzip\r\nTE: trailers\r\n") [trailing "chunky-trailer"]) =
    (ascii "HTTP/1.1 200 OK\r\ntransfer-encoding: chunked\r\ntrailer: chunky-trailer\r\ndate: D\r\n\r\n5\r\nhello\r\n0\r\nchunky-trailer: header data\r\n\r\n", false) := by
  decide +kernel

end Hyper.Conform
