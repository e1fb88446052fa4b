import Verif.Conform.Server

/-!
# The repository's integration tests of the HTTP/1 client, run on the model: `tests/client.rs` 455-1560

The peer of these tests reads the whole request, compares it, replies and hangs up; so does the driver.
Tests, not proofs (see `Conform/Heads.lean`).  Left out: the tests of the wrapper around the client
(`client_requires_absolute_uri`, `client_h1_rejects_http2`, `client_always_rejects_http09`) and of title case
(in `Conform/Heads.lean`).
-/

namespace Hyper.Conform

/-- The request of a test; its `host` goes last, as the wrapper appends it. -/
structure Ask where
  method : String := "GET"
  target : String := "/"
  headers : List (String × List String) := []
  body : Option BodyLength := none
  frames : List UserFrame := []
  version : Version := .h11

def Ask.full (a : Ask) (b : String) : Ask :=
  if (ascii b).isEmpty then a
  else { a with body := some (.known (ascii b).length), frames := [.data (ascii b) true] }

def Ask.stream (a : Ask) (b : String) : Ask := { a with body := some .unknown, frames := [.data (ascii b) false] }

def Ask.head (a : Ask) : ReqHead := ⟨ascii a.method, ascii a.target, a.version, hmap (a.headers ++ [("host", ["A"])]), none⟩

def answers (h09 obs : Bool) : HeadFn ResponseMsg :=
  clientHeads ⟨obs, false, h09, reasons⟩ (if h09 then fun _ => .versionErr else refResponse 100)

/-- The connection and what its user has still to say. -/
structure CSim where
  fed : Fed ResponseMsg
  asks : List Ask
  frames : List UserFrame := []

def CSim.act (H : HeadFn ResponseMsg) (s : CSim) (a : Act) : CSim := { s with fed := s.fed.step senv parseBlock H (.act a) }

def CSim.notify (s : CSim) : NotifyIn := if s.fed.inlet.rd.buf = [] then .pending else .bytes

def CSim.takes (s : CSim) : FlushIn := ⟨[.wrote 1000000], [.ok, .ok], s.fed.inlet.rd.buf⟩

def CSim.read (H : HeadFn ResponseMsg) (s : CSim) : CSim :=
  s.act H (.read ⟨true, 0, 0, .pending, s.notify, false, false, s.fed.inlet.rd, s.fed.inlet.rd.buf = [], .pending⟩)

def CSim.want (H : HeadFn ResponseMsg) (s : CSim) : CSim :=
  match s.fed.disp.bodyTx with
  | some k => s.act H (.want k)
  | none => s

def CSim.write (H : HeadFn ResponseMsg) (s : CSim) : CSim :=
  let msg : MsgOut := match s.asks with
    | a :: _ => .req a.head a.body
    | [] => .pending
  let frame : FrameIn := match s.frames with
    | f :: _ => .frame f
    | [] => .eof
  let s' := s.act H (.write ⟨msg, frame, s.takes, s.notify⟩)
  if s.fed.disp.inFlight.isNone && s'.fed.disp.inFlight.isSome then
    { s' with asks := s.asks.tail, frames := (s.asks.head?.map Ask.frames).getD [] }
  else if s.fed.disp.bodyRx && s.fed.disp.conn.canWriteBody then { s' with frames := s.frames.tail }
  else s'

def CSim.round (H : HeadFn ResponseMsg) (s : CSim) : CSim :=
  let s := (((((s.read H).want H).read H).write H).write H).write H
  let s := s.act H (.flush s.takes s.notify)
  let s := s.act H .readAgain
  s.act H (.finish true s.takes)

def CSim.rounds (H : HeadFn ResponseMsg) : Nat → CSim → CSim
  | 0, s => s
  | n + 1, s => (s.round H).rounds H n

/-- A new connection with one request. -/
def asking (a : Ask) : CSim :=
  { fed := { disp := { conn := { client := true, out := WriteSide.start .queue false ⟨[], [], [], false⟩ } },
             inlet := { rd := ⟨[], [], .silent⟩, max := defaultMaxBuf } },
    asks := [a] }

/-- What the peer reads. -/
def asked (a : Ask) : Bytes := ((asking a).rounds (answers false false) 3).fed.disp.conn.out.sink.sent

/-- The reply arrives, and the end behind it. -/
def CSim.reply (s : CSim) (r : String) : CSim :=
  { s with fed := { s.fed with inlet := { s.fed.inlet with rd :=
      ⟨[], match ascii r with | [] => [] | b :: t => [.data b t], .eof⟩ } } }

/-- Status, body and trailers of the response; `none` when there was none. -/
def response (a : Ask) (r : String) (h09 obs : Bool := false) : Option ((Nat × Bytes × Bool) × Option Fields) :=
  match ((((asking a).rounds (answers h09 obs) 3).reply r).rounds (answers h09 obs) 5).fed.got with
  | [g] => some ((g.head.head.status, g.data, g.whole), g.trailers)
  | _ => none

def replyOk : String := "HTTP/1.1 200 OK\r\nContent-Length: 0\r\n\r\n"

def chunkedHello : String := "HTTP/1.1 200 OK\r\nTransfer-Encoding: chunked\r\n\r\n5\r\nhello\r\n0\r\n"

def trailingAsk (names : String) : Ask :=
  { method := "POST", headers := [("trailer", [names])], body := some .unknown,
    frames := [.data (ascii "hello") false, .trailers (hmap [("chunky-trailer", ["header data"])])] }

/-! ## What is sent -/

example : asked {} = ascii "GET / HTTP/1.1\r\nhost: A\r\n\r\n" := by decide +kernel
example : asked { target := "/foo?key=val" } = ascii "GET /foo?key=val HTTP/1.1\r\nhost: A\r\n\r\n" := by decide +kernel
example : asked (Ask.full {} "") = ascii "GET / HTTP/1.1\r\nhost: A\r\n\r\n" := by decide +kernel
example : asked (Ask.full { headers := [("transfer-encoding", ["chunked"])] } "hello") =
    ascii "GET / HTTP/1.1\r\ntransfer-encoding: chunked\r\nhost: A\r\n\r\n5\r\nhello\r\n0\r\n\r\n" := by decide +kernel
example : asked (Ask.full { headers := [("transfer-encoding", ["foo"])] } "hello") =
    ascii "GET / HTTP/1.1\r\ntransfer-encoding: foo, chunked\r\nhost: A\r\n\r\n5\r\nhello\r\n0\r\n\r\n" := by decide +kernel
example : asked (Ask.full { headers := [("transfer-encoding", ["chunked"])], version := .h10 } "hello") =
    ascii "GET / HTTP/1.0\r\nhost: A\r\ncontent-length: 5\r\n\r\nhello" := by decide +kernel
example : asked (trailingAsk "chunky-trailer") =
    ascii "POST / HTTP/1.1\r\ntrailer: chunky-trailer\r\nhost: A\r\ntransfer-encoding: chunked\r\n\r\n5\r\nhello\r\n0\r\nchunky-trailer: header data\r\n\r\n" := by
  decide +kernel
example : asked (trailingAsk "Chunky-Trailer") =
    ascii "POST / HTTP/1.1\r\ntrailer: Chunky-Trailer\r\nhost: A\r\ntransfer-encoding: chunked\r\n\r\n5\r\nhello\r\n0\r\nchunky-trailer: header data\r\n\r\n" := by
  decide +kernel
example : asked (Ask.stream { headers := [("content-length", ["5"])] } "hello") =
    ascii "GET / HTTP/1.1\r\ncontent-length: 5\r\nhost: A\r\n\r\nhello" := by decide +kernel
example : asked (Ask.stream {} "hello") = ascii "GET / HTTP/1.1\r\nhost: A\r\n\r\n" := by decide +kernel
example : asked (Ask.stream { headers := [("transfer-encoding", ["chunked"])], version := .h10 } "hello") =
    ascii "GET / HTTP/1.0\r\nhost: A\r\n\r\n" := by decide +kernel
example : asked (Ask.full { method := "POST", target := "/length", headers := [("content-length", ["7"])] } "foo bar") =
    ascii "POST /length HTTP/1.1\r\ncontent-length: 7\r\nhost: A\r\n\r\nfoo bar" := by decide +kernel
example : asked (Ask.full { method := "POST", target := "/chunks", headers := [("transfer-encoding", ["chunked"])] } "foo bar baz") =
    ascii "POST /chunks HTTP/1.1\r\ntransfer-encoding: chunked\r\nhost: A\r\n\r\nB\r\nfoo bar baz\r\n0\r\n\r\n" := by decide +kernel
example : asked (Ask.stream { method := "POST", target := "/chunks" } "foo bar baz") =
    ascii "POST /chunks HTTP/1.1\r\nhost: A\r\ntransfer-encoding: chunked\r\n\r\nB\r\nfoo bar baz\r\n0\r\n\r\n" := by decide +kernel
example : asked { method := "POST", target := "/empty", headers := [("content-length", ["0"])] } =
    ascii "POST /empty HTTP/1.1\r\ncontent-length: 0\r\nhost: A\r\n\r\n" := by decide +kernel

/-! ## What is received -/

example : response {} replyOk = some ((200, [], true), none) := by decide +kernel
example : response {} (chunkedHello ++ "Trailer: value\r\n\r\n") =
    some ((200, ascii "hello", true), some [(ascii "trailer", ascii "value")]) := by decide +kernel
example : response {} (chunkedHello ++ "Trailer: value\r\nanother-trainer: another-value\r\n\r\n") =
    some ((200, ascii "hello", true),
      some [(ascii "trailer", ascii "value"), (ascii "another-trainer", ascii "another-value")]) := by decide +kernel
example : response { headers := [("te", ["trailers"])] }
      (chunkedHello ++ "chunky-trailer1: header data1\r\nsneaky-trailer: not in trailer header\r\ntransfer-encoding: chunked\r\ncontent-length: 5\r\ntrailer: foo\r\n\r\n") =
    some ((200, ascii "hello", true),
      some [(ascii "chunky-trailer1", ascii "header data1"), (ascii "sneaky-trailer", ascii "not in trailer header"),
        (ascii "transfer-encoding", ascii "chunked"), (ascii "content-length", ascii "5"), (ascii "trailer", ascii "foo")]) := by
  decide +kernel
example : response { method := "HEAD", target := "/head" } "HTTP/1.1 200 OK\r\ncontent-Length: 11\r\n\r\nHello World" =
    some ((200, [], true), none) := by decide +kernel
example : response {} "HTTP/1.1 200 OK\r\ntransfer-encoding: yolo\r\n\r\nhallo" =
    some ((200, ascii "hallo", true), none) := by decide +kernel
example : response {} (replyOk ++ replyOk) = some ((200, [], true), none) := by decide +kernel
example : response (Ask.full { method := "POST", headers := [("content-length", ["7"])] } "foo bar")
      ("HTTP/1.1 100 Continue\r\n\r\n" ++ replyOk) = some ((200, [], true), none) := by decide +kernel
example : response { method := "CONNECT", target := "A" } "HTTP/1.1 200 OK\r\n\r\n" = some ((200, [], true), none) := by
  decide +kernel
example : response {} "HTTP/1.1 200 OK\r\nContent-Length: 3,3\r\nContent-Length: 3,3\r\n\r\nabc\r\n" =
    some ((200, ascii "abc", true), none) := by decide +kernel
example : response {} "Mmmmh, baguettes." true = some ((200, ascii "Mmmmh, baguettes.", true), none) := by decide +kernel

/-! ## Errors -/

/-- There is no response and the connection is gone. -/
def refused (r : String) : Bool :=
  let s := (((asking {}).rounds (answers false false) 3).reply r).rounds (answers false false) 5
  s.fed.got.isEmpty && s.fed.disp.done

example : refused "HTTP/1.1 200 OK\r\n" := by decide +kernel
example : refused "HEAT/1.1 200 OK\r\n\r\n" := by decide +kernel
example : refused "HTTP/1.1 001 OK\r\n\r\n" := by decide +kernel
example : refused "HTTP/1.1 1 OK\r\n\r\n" := by decide +kernel

end Hyper.Conform
