import Verif.Model.ConnHead
import Verif.Model.ClientEncode
import Verif.Model.ServerParse
import Verif.Model.WriteBuf

/-!
# `Conn`: `src/proto/h1/conn.rs`

The connection's state machine.  The read buffer and the transport's read half are not part of the state: what a read or a
parse finds there is an input of each operation, so a statement about all inputs covers every transport.  The write buffer
and the bytes given to the transport are part of the state.  `log` is not in the code: it records what happened, for the
statements of the properties.

Debug assertions are not executed.  Header-map recycling (`cached_headers`), informational callbacks, parser
configuration and HTTP/0.9 mode do not influence the state machine and are left out.
-/

namespace Hyper

/-- What happened on a connection. -/
inductive Ev where
  /-- A message head was read; `n` is the number of the exchange, `expect` whether `Reading::Continue` follows,
  `persist` whether the message allows reuse (`ParsedMessage::keep_alive`). -/
  | readHead (n : Nat) (expect persist : Bool)
  /-- The body of the message was read to its end. -/
  | readEnd
  /-- The reader of the body of exchange `n` asked for data for the first time. -/
  | wanted (n : Nat)
  /-- `HTTP/1.1 100 Continue` was put on the write buffer. -/
  | continue100
  /-- A message head was put on the write buffer for exchange `n`; `last` whether the connection ends with this message. -/
  | writeHead (n : Nat) (last : Bool)
  /-- The message was written to its end. -/
  | writeEnd
  /-- The answer to an unparsable request was put on the write buffer. -/
  | errorHead
  /-- Reuse was switched off by the user (`disable_keep_alive`). -/
  | shutdown
  deriving DecidableEq, Repr

/-- `Reading` (conn.rs 973-980). -/
inductive Reading where
  | init
  | cont (d : Decoder)
  | body (d : Decoder)
  | keepAlive
  | closed
  deriving DecidableEq, Repr

/-- `Conn` with its `State` (conn.rs 37-42, 922-971). -/
structure Conn where
  /-- `!T::should_read_first()`. -/
  client : Bool
  reading : Reading := .init
  writing : Writing := .init
  ka : KA := .busy
  version : Version := .h11
  method : Option Bytes := none
  /-- `error.is_some()`. -/
  error : Bool := false
  halfClose : Bool := false
  titleCase : Bool := false
  dateHeader : Bool := true
  maxHeaders : Option Nat := none
  /-- `h1_header_read_timeout`. -/
  timeout : Option Nat := none
  /-- `h1_header_read_timeout_fut`: when it fires. -/
  deadline : Option Nat := none
  /-- `h1_header_read_timeout_running`. -/
  timing : Bool := false
  notify : Bool := false
  /-- `upgrade.is_some()`. -/
  upgrade : Bool := false
  allowTrailers : Bool := false
  out : WriteSide Bytes
  log : List Ev := []
  deriving DecidableEq, Repr

namespace Conn

/-- `State::close` (conn.rs 1059-1064). -/
def closeAll (c : Conn) : Conn := { c with reading := .closed, writing := .closed, ka := .disabled }

/-- `State::close_read` (conn.rs 1066-1070). -/
def closeRead (c : Conn) : Conn := { c with reading := .closed, ka := .disabled }

/-- `State::close_write` (conn.rs 1072-1076). -/
def closeWrite (c : Conn) : Conn := { c with writing := .closed, ka := .disabled }

/-- `State::idle` (conn.rs 1114-1144); the test at 1120 cannot fail. -/
def goIdle (c : Conn) : Conn :=
  { c with method := none, ka := .idle, reading := .init, writing := .init,
           notify := c.notify || c.client || c.timeout.isSome }

/-- `State::try_keep_alive` (conn.rs 1082-1101). -/
def stateKeepAlive (c : Conn) : Conn :=
  match c.reading with
  | .keepAlive =>
    match c.writing with
    | .keepAlive => if c.ka = .busy then c.goIdle else c.closeAll
    | .closed => c.closeAll
    | _ => c
  | .closed =>
    match c.writing with
    | .keepAlive => c.closeAll
    | _ => c
  | _ => c

end Conn

/-- What `Conn::maybe_notify` finds (conn.rs 535-559): the transport known to have nothing, bytes waiting, its end, nothing
yet, or an error. -/
inductive NotifyIn where
  | blocked | bytes | eof | pending | error
  deriving DecidableEq, Repr

namespace Conn

/-- The part of `Conn::maybe_notify` that looks at the transport (conn.rs 535-561). -/
def notifyFrom (c : Conn) (i : NotifyIn) : Conn :=
  match i with
  | .blocked => c
  | .pending => c
  | .bytes => { c with notify := true }
  | .eof => if c.ka = .idle then c.closeAll else c.closeRead
  | .error => { c.closeAll with error := true, notify := true }

/-- `Conn::maybe_notify` (conn.rs 517-562). -/
def maybeNotify (c : Conn) (i : NotifyIn) : Conn :=
  match c.reading with
  | .init =>
    match c.writing with
    | .body _ => c
    | _ => c.notifyFrom i
  | _ => c

/-- `Conn::try_keep_alive` (conn.rs 564-567). -/
def tryKeepAlive (c : Conn) (i : NotifyIn) : Conn := c.stateKeepAlive.maybeNotify i

/-- `Conn::can_read_head` (conn.rs 175-185). -/
def canReadHead (c : Conn) : Bool := c.reading == .init && (!c.client || c.writing != .init)

/-- `Conn::can_read_body` (conn.rs 187-192). -/
def canReadBody (c : Conn) : Bool :=
  match c.reading with
  | .body _ => true
  | .cont _ => true
  | _ => false

/-- `Conn::can_write_head` (conn.rs 569-578). -/
def canWriteHead (c : Conn) : Bool :=
  !(c.client && c.reading == .closed) && (c.writing == .init && WriteBuf.canHeadersBuf bytesBuf c.out.wbuf)

/-- `Conn::can_write_body` (conn.rs 580-585). -/
def canWriteBody (c : Conn) : Bool :=
  match c.writing with
  | .body _ => true
  | _ => false

/-- `Conn::can_buffer_body` (conn.rs 587-590, io.rs 157-159). -/
def canBufferBody (c : Conn) : Bool := c.out.flushPipeline || WriteBuf.canBuffer bytesBuf c.out.wbuf

/-- Changing the read state at the end of a message. -/
def readDone (c : Conn) : Conn := { c with reading := .keepAlive, log := c.log ++ [.readEnd] }

/-- Changing the write state; reaching `Writing::KeepAlive` is the end of a message. -/
def setWriting (c : Conn) (w : Writing) : Conn :=
  { c with writing := w, log := if w = .keepAlive then c.log ++ [.writeEnd] else c.log }

/-- `Buffered::buffer` (io.rs 148-155) of an encoded piece of body.  The vector of the flatten strategy is taken to have room:
compaction does not change the bytes (`Props/WriteBuf.lean`).  Where the model has an empty piece the code buffers nothing. -/
def put (c : Conn) (bs : Bytes) : Conn :=
  if bs = [] then c
  else
    match c.out.wbuf.buffer bytesBuf true bs with
    | some w => { c with out := { c.out with wbuf := w } }
    | none => c

/-- Replacing the contents of `headers_buf()` after something was appended to it. -/
def putHeaders (c : Conn) (bs : Bytes) : Conn :=
  { c with out := { c.out with wbuf := { c.out.wbuf with headers := { c.out.wbuf.headers with bytes := bs } } } }

end Conn

/-- A response from the service, or the one made for a parse error. -/
structure RespOut where
  head : OutHead
  body : Option BodyLength

namespace Conn

/-- What the server hands to its encoder (conn.rs 628-643). -/
def respMsg (c : Conn) (m : RespOut) : KA × EncodeMsg :=
  connMsg c.version c.ka ⟨m.head, m.body, c.ka.wants, c.method, c.titleCase, c.dateHeader⟩

/-- The encoded response head (conn.rs 630-643). -/
def respEnc (env : EncodeEnv) (c : Conn) (m : RespOut) : Bytes × EncodeRes :=
  serverEncode env (c.respMsg m).2 c.out.wbuf.headers.bytes

end Conn

/-- Whether the encoder marks the message as the last one; a failed head closes the connection as well. -/
def EncodeRes.isLast : EncodeRes → Bool
  | .ok e => e.isLast
  | _ => true

/-- Whether encoding the head succeeded. -/
def EncodeRes.isOk : EncodeRes → Bool
  | .ok _ => true
  | _ => false

namespace Conn

/-- `Conn::write_head` for the server (conn.rs 596-663), logging `ev`.  A panic of the encoder ends the task; the model closes
the write side instead. -/
def writeResp (env : EncodeEnv) (c : Conn) (m : RespOut) (ev : Bool → Ev) : Conn :=
  let r := c.respEnc env m
  let c' := { c.putHeaders r.1 with ka := (c.respMsg m).1, error := c.error || !r.2.isOk,
                                    log := c.log ++ [ev (r.2.isLast || (c.respMsg m).1 == KA.disabled)] }
  c'.setWriting (Writing.ofHead r.2)

/-- The request as it is encoded (conn.rs 615-643). -/
def reqEnc (c : Conn) (h : ReqHead) (body : Option BodyLength) : Bytes × EncodeRes :=
  match clientEncode c.titleCase (connReq c.version c.ka h).2 body c.out.wbuf.headers.bytes with
  | some r => (r.1, .ok r.2)
  | none => (c.out.wbuf.headers.bytes, .panic)

/-- `Conn::write_head` for the client (conn.rs 596-663, role.rs 1206: the method is remembered). -/
def writeReq (c : Conn) (h : ReqHead) (body : Option BodyLength) (n : Nat) : Conn :=
  let r := c.reqEnc h body
  let c' := { c.putHeaders r.1 with ka := (connReq c.version c.ka h).1, method := some h.method, error := c.error || !r.2.isOk,
                                    log := c.log ++ [Ev.writeHead n (r.2.isLast || (connReq c.version c.ka h).1 == KA.disabled)] }
  c'.setWriting (Writing.ofHead r.2)

/-- `Conn::write_body` (conn.rs 714-737). -/
def writeBody (c : Conn) (bs : Bytes) : Conn := (c.put (c.writing.writeBody bs).1).setWriting (c.writing.writeBody bs).2

/-- `Conn::write_body_and_end` (conn.rs 764-782). -/
def writeBodyAndEnd (c : Conn) (bs : Bytes) : Conn :=
  (c.put (c.writing.writeBodyAndEnd bs).1).setWriting (c.writing.writeBodyAndEnd bs).2

/-- `Conn::write_trailers` (conn.rs 739-762). -/
def writeTrailers (c : Conn) (m : HeaderMap) : Conn :=
  let r := c.writing.writeTrailers (c.client || c.allowTrailers) c.titleCase m
  (c.put r.1).setWriting r.2

/-- `Conn::end_body` (conn.rs 784-812): the bytes missing, if the body was too short. -/
def endBody (c : Conn) : Option Nat × Conn :=
  (c.writing.endBody.2.2, (c.put c.writing.endBody.1).setWriting c.writing.endBody.2.1)

end Conn

/-- A message head as `Server::parse`/`Client::parse` return it (`ParsedMessage`, src/proto/h1/mod.rs 77-83), as far as the connection looks at it;
`method` is what the parser leaves in the connection's `method`, `teTrailers` what `te_is_trailers` says of the headers. -/
structure MsgIn where
  decode : DecodedLength
  expect : Bool
  keepAlive : Bool
  wantsUpgrade : Bool
  version : Version
  method : Option Bytes
  teTrailers : Bool
  deriving DecidableEq, Repr

/-- The result of `Buffered::parse` (io.rs 174-222): an error is a parse error (`some`) or not (`none`: the transport failed or
ended); `rest` whether bytes remain after leading empty lines are skipped, `h2` whether they are the HTTP/2 preface. -/
inductive ParseIn where
  | pending
  | error (e : Option ParseErr) (rest h2 : Bool)
  | msg (m : MsgIn)
  deriving DecidableEq, Repr

/-- The result of `Conn::poll_read_head`. -/
inductive HeadOut where
  | pending
  | eof
  | err
  | timeout
  | msg (m : MsgIn)
  deriving DecidableEq, Repr

namespace Conn

/-- Starting the header read timeout (conn.rs 218-235). -/
def startTimer (c : Conn) (now : Nat) : Conn :=
  if c.timing then c
  else
    match c.timeout with
    | some t => { c with timing := true, deadline := some (now + t) }
    | none => c

/-- Whether the running timeout has fired (conn.rs 256-260). -/
def timedOut (c : Conn) (now : Nat) : Bool :=
  c.timing && (match c.deadline with | some t => decide (t ≤ now) | none => false)

/-- The response made for a parse error (role.rs 484-502). -/
def errorResp (status : Nat) : RespOut := ⟨{ version := .h11, status := status, headers := [], reason := none, caseMap := none }, none⟩

/-- `T::on_error` (role.rs 484-502; the client's is `None`, role.rs 1247-1250). -/
def onError (c : Conn) (e : Option ParseErr) : Option Nat := if c.client then none else e.bind serverOnError

/-- `Conn::on_parse_error` (conn.rs 819-836), then the match of `on_read_head_error` (conn.rs 348-351). -/
def onParseError (env : EncodeEnv) (c : Conn) (e : Option ParseErr) (h2 : Bool) : HeadOut × Conn :=
  if c.writing = .init then
    if h2 then (.err, c)
    else
      match c.onError e with
      | some status => (.pending, { c.writeResp env (errorResp status) (fun _ => .errorHead) with error := true })
      | none => (.err, c)
  else (.err, c)

/-- `Conn::on_read_head_error` (conn.rs 333-357). -/
def onReadHeadError (env : EncodeEnv) (c : Conn) (e : Option ParseErr) (rest h2 : Bool) : HeadOut × Conn :=
  if e.isSome || rest || (c.client && c.ka != .idle) then c.closeRead.onParseError env e h2
  else (.eof, c.closeRead.closeWrite)

/-- Whether `100 Continue` will be wanted (conn.rs 303-311). -/
def _root_.Hyper.MsgIn.continues (m : MsgIn) : Bool :=
  m.decode != DecodedLength.ZERO && m.expect && (m.version == .h11 || m.version == .h2 || m.version == .h3)

/-- The state after a complete head but for the read state (conn.rs 273-295, 328; `State::busy`, 1107-1112), `n` numbering the exchange. -/
def headState (c : Conn) (m : MsgIn) (n : Nat) : Conn :=
  { c with timing := false, deadline := none, method := m.method,
           ka := if m.keepAlive then (if c.ka = .disabled then .disabled else .busy) else .disabled,
           version := m.version, allowTrailers := m.teTrailers,
           log := c.log ++ [Ev.readHead n m.continues m.keepAlive] }

/-- The state after a complete head (conn.rs 273-328). -/
def acceptHead (c : Conn) (m : MsgIn) (n : Nat) (i : NotifyIn) : Conn :=
  if m.decode = DecodedLength.ZERO then
    if c.client then (c.headState m n).readDone.tryKeepAlive i else (c.headState m n).readDone
  else if m.continues then { c.headState m n with reading := .cont (Decoder.ofLength m.decode c.maxHeaders none) }
  else { c.headState m n with reading := .body (Decoder.ofLength m.decode c.maxHeaders none) }

/-- `Conn::poll_read_head` (conn.rs 211-331); `t0` and `t1` are the clock when the timeout is started and when it is polled. -/
def pollReadHead (env : EncodeEnv) (c : Conn) (t0 t1 : Nat) (i : ParseIn) (nt : NotifyIn) (n : Nat) : HeadOut × Conn :=
  match i with
  | .pending =>
    if (c.startTimer t0).timedOut t1 then (.timeout, { c.startTimer t0 with timing := false }) else (.pending, c.startTimer t0)
  | .error e rest h2 => (c.startTimer t0).onReadHeadError env e rest h2
  | .msg m => (.msg m, (c.startTimer t0).acceptHead m n nt)

end Conn

/-- The result of `Conn::poll_read_body`.  `fin` is not in the code: whether the decoder is at the end of the body. -/
inductive BodyRes where
  | pending
  | data (bs : Bytes) (fin : Bool)
  | trailers (fs : Fields)
  | ended (fin : Bool)
  | err
  deriving DecidableEq, Repr

namespace Conn

/-- The arm of a body being read (conn.rs 366-404, 420-422). -/
def decodeBody (P : TrailerParser) (c : Conn) (d : Decoder) (r : Rd) (i : NotifyIn) : BodyRes × Conn :=
  match (d.decode P r).1 with
  | .pending => (.pending, { c with reading := .body (d.decode P r).2.1 })
  | .ready (.error _) => (.err, { c with reading := .closed }.tryKeepAlive i)
  | .ready (.ok (.trailers fs)) => (.trailers fs, c.readDone.tryKeepAlive i)
  | .ready (.ok (.data bs)) =>
    if (d.decode P r).2.1.isEof then (if bs = [] then .ended true else .data bs true, c.readDone.tryKeepAlive i)
    else if bs = [] then (.ended false, { c with reading := .closed }.tryKeepAlive i)
    else (.data bs false, { c with reading := .body (d.decode P r).2.1 })

/-- `HTTP/1.1 100 Continue` (conn.rs 409). -/
def continueLine : Bytes := ascii "HTTP/1.1 100 Continue\r\n\r\n"

/-- Sending `100 Continue` (conn.rs 407-411). -/
def sendContinue (c : Conn) : Conn :=
  if c.writing = .init then
    { c.putHeaders (c.out.wbuf.headers.bytes ++ continueLine) with log := c.log ++ [.continue100] }
  else c

/-- `Conn::poll_read_body` (conn.rs 359-423); other read states are unreachable. -/
def pollReadBody (P : TrailerParser) (c : Conn) (r : Rd) (i : NotifyIn) : BodyRes × Conn :=
  match c.reading with
  | .body d => c.decodeBody P d r i
  | .cont d => c.sendContinue.decodeBody P d r i
  | _ => (.pending, c)

/-- `Conn::poll_drain_or_close_read` (conn.rs 859-875): first `Continue` becomes `Body`. -/
def drainStart (c : Conn) : Conn :=
  match c.reading with
  | .cont d => { c with reading := .body d }
  | _ => c

/-- The end of `Conn::poll_drain_or_close_read` (conn.rs 868-874). -/
def drainEnd (c : Conn) : Conn :=
  match c.reading with
  | .init => c
  | .keepAlive => c
  | _ => c.closeRead

/-- `Conn::poll_drain_or_close_read` (conn.rs 859-875). -/
def drainOrClose (P : TrailerParser) (c : Conn) (r : Rd) (i : NotifyIn) : Conn := (c.drainStart.pollReadBody P r i).2.drainEnd

end Conn

/-- One read of the transport by `Conn::force_io_read` (conn.rs 506-515). -/
inductive IoIn where
  | pending | error | eof | bytes
  deriving DecidableEq, Repr

/-- Result of `Conn::poll_read_keep_alive`. -/
inductive IdleOut where
  | pending | ok | err
  deriving DecidableEq, Repr

namespace Conn

/-- `Conn::mid_message_detect_eof` (conn.rs 487-504). -/
def midMessageEof (c : Conn) (bufEmpty : Bool) (i : IoIn) : IdleOut × Conn :=
  if c.halfClose || !bufEmpty then (.pending, c)
  else
    match i with
    | .pending => (.pending, c)
    | .error => (.err, c.closeAll)
    | .eof => (.err, c.closeRead)
    | .bytes => (.ok, c)

/-- `Conn::require_empty_read` (conn.rs 454-485). -/
def requireEmpty (c : Conn) (bufEmpty : Bool) (i : IoIn) : IdleOut × Conn :=
  if !bufEmpty then (.err, c)
  else
    match i with
    | .pending => (.pending, c)
    | .error => (.err, c.closeAll)
    | .eof => (if c.client && c.ka != .idle then .err else .ok, c.closeRead)
    | .bytes => (.err, c)

/-- `Conn::poll_read_keep_alive` (conn.rs 431-448). -/
def pollReadKeepAlive (c : Conn) (bufEmpty : Bool) (i : IoIn) : IdleOut × Conn :=
  if c.reading = .closed then (.pending, c)
  else if c.reading = .init ∧ c.writing = .init then c.requireEmpty bufEmpty i
  else c.midMessageEof bufEmpty i

end Conn

/-- How the transport answers during a flush, and the read buffer at that time. -/
structure FlushIn where
  writes : List IoWrite
  flushes : List IoFlush
  readBuf : Bytes

namespace Conn

/-- Letting the transport answer as `f` says. -/
def scripted (c : Conn) (f : FlushIn) : WriteSide Bytes :=
  { c.out with sink := { c.out.sink with writes := f.writes, flushes := f.flushes } }

/-- `Conn::poll_flush` (conn.rs 838-843). -/
def pollFlush (c : Conn) (f : FlushIn) (i : NotifyIn) : FlushRes × Conn :=
  let r := (c.scripted f).pollFlush bytesBuf f.readBuf
  if r.1 = .ok then (r.1, { c with out := r.2 }.tryKeepAlive i) else (r.1, { c with out := r.2 })

/-- `Conn::poll_shutdown` (conn.rs 845-856). -/
def pollShutdown (c : Conn) (f : FlushIn) : FlushRes × Conn :=
  let r := (c.scripted f).pollShutdown bytesBuf f.readBuf
  (r.1, { c with out := r.2 })

/-- `Conn::disable_keep_alive` (conn.rs 886-894). -/
def disableKeepAlive (c : Conn) : Conn :=
  let c := { c with log := c.log ++ [Ev.shutdown] }
  if c.ka = .idle then c.closeAll else { c with ka := .disabled }

/-- `Conn::has_initial_read_write_state` (conn.rs 195-199). -/
def initialState (c : Conn) (bufEmpty : Bool) : Bool := c.reading == .init && c.writing == .init && bufEmpty

end Conn

end Hyper
