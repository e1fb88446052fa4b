import Verif.Model.Conn

/-!
# `Dispatcher`: `src/proto/h1/dispatch.rs`

The loops of `poll_read` and `poll_write` are modelled one turn at a time; `Disp.step` performs one turn, one flush, the end of a
poll, or something done from outside (the user reading or dropping a body, asking for shutdown, dropping the connection).
Statements are about all sequences of such acts; every schedule of `poll_loop` (dispatch.rs 166-223) is one of them.

The `Dispatch` implementations for server (dispatch.rs 586-645) and client (663-767) are both represented by `inFlight`: the
service's future, or the callback of the request that awaits its response.  The queue of requests of the client is modelled in
`Model/ClientChan.lean`; here what it yields is an input.
-/

namespace Hyper

/-- The value of the `want` channel of a body (src/body/incoming.rs 95-100). -/
inductive Want where
  | pending | ready | closed
  deriving DecidableEq, Repr

/-- What the connection sends to the reader of a body. -/
inductive Item where
  | data (bs : Bytes)
  | error
  deriving DecidableEq, Repr

/-- The channel of one received body (`Incoming::new_channel`, src/body/incoming.rs 114-137).  `items` is everything ever sent on the
data channel; `sender` whether the connection still holds the sending half; `want` is `closed` once the reader has been dropped.
`len` is the `content_length` the body starts with.  `id` and `complete` are not in the code: the number of the exchange, and whether
the whole body has been received. -/
structure Chan where
  id : Nat
  len : DecodedLength
  want : Want
  items : List Item := []
  trailers : Option Fields := none
  sender : Bool := true
  complete : Bool := false
  deriving DecidableEq, Repr

/-- `Dispatcher` (dispatch.rs 22-28). -/
structure Disp where
  conn : Conn
  /-- `body_tx`: the number of the body. -/
  bodyTx : Option Nat := none
  /-- `body_rx.is_some()`. -/
  bodyRx : Bool := false
  closing : Bool := false
  /-- `Server::in_flight` or `Client::callback`: the number of the exchange. -/
  inFlight : Option Nat := none
  /-- Not in the code: the number of the next exchange. -/
  next : Nat := 0
  /-- All bodies received so far. -/
  chans : List Chan := []
  /-- The future has completed, or was dropped. -/
  done : Bool := false
  deriving DecidableEq, Repr

/-- Changing one body channel. -/
def updChan (cs : List Chan) (k : Nat) (f : Chan → Chan) : List Chan := cs.modify k f

/-- `SenderDropGuard::take`, then the sender is dropped (dispatch.rs 231, 551-553). -/
def Chan.dropSender (ch : Chan) : Chan := { ch with sender := false }

/-- `Sender::send_error` (src/body/incoming.rs 438-444): works even when the channel is full; then the sender is dropped. -/
def Chan.fail (ch : Chan) : Chan := { ch with items := ch.items ++ [.error], sender := false }

namespace Disp

/-- `Dispatcher::close` (dispatch.rs 457-461). -/
def close (d : Disp) : Disp := { d with closing := true, conn := d.conn.closeRead.closeWrite }

/-- Sending an error to the reader of the current body, if there is one (dispatch.rs 131-133, 556-562). -/
def failBody (d : Disp) : Disp :=
  match d.bodyTx with
  | some k => { d with bodyTx := none, chans := updChan d.chans k Chan.fail }
  | none => d

/-- An error returned from `poll_inner`, as `poll_catch` treats it (dispatch.rs 128-140).  A client's callback receives the error; what
happens to queued requests is in `Model/ClientChan.lean`. -/
def fail (d : Disp) : Disp :=
  { d.failBody with done := true, inFlight := if d.conn.client then none else d.inFlight }

end Disp

/-- Inputs of one turn of `poll_read`. -/
structure ReadIn where
  /-- Whether the client's callback is still awaited (dispatch.rs 753-758). -/
  ready : Bool
  t0 : Nat
  t1 : Nat
  parse : ParseIn
  notify : NotifyIn
  /-- Whether the data channel has no room (src/body/incoming.rs 362). -/
  full : Bool
  /-- Whether the reader is dropped after that check and before data is sent. -/
  gone : Bool
  rd : Rd
  bufEmpty : Bool
  io : IoIn

namespace Disp

/-- Dropping the sender of the current body without an error. -/
def dropBody (d : Disp) (k : Nat) : Disp := { d with bodyTx := none, chans := updChan d.chans k Chan.dropSender }

/-- The number under which a head is logged: a new one for a server, that of the request for a client. -/
def headId (d : Disp) : Nat :=
  if d.conn.client then d.inFlight.getD d.next else d.next

/-- The channels once the sender of the current body is replaced (dispatch.rs 321): it is dropped. -/
def replaced (d : Disp) : List Chan :=
  match d.bodyTx with
  | some k => updChan d.chans k Chan.dropSender
  | none => d.chans

/-- A new body channel (dispatch.rs 313-321). -/
def newBody (d : Disp) (m : MsgIn) : Disp :=
  if m.decode = DecodedLength.ZERO then d
  else
    { d with bodyTx := some d.replaced.length,
             chans := d.replaced ++ [{ id := d.headId, len := m.decode, want := if m.continues then .pending else .ready }] }

/-- A complete head has been read (dispatch.rs 312-333). -/
def recvHead (d : Disp) (m : MsgIn) : Disp :=
  let d := d.newBody m
  let d := { d with conn := { d.conn with upgrade := d.conn.upgrade || m.wantsUpgrade } }
  if d.conn.client then
    match d.inFlight with
    | some _ => { d with inFlight := none }
    | none => d.fail
  else { d with inFlight := some d.next, next := d.next + 1 }

/-- An error while reading a head (dispatch.rs 334-342): the server fails, the client gives it to its callback and closes. -/
def recvErr (d : Disp) : Disp :=
  if d.conn.client then
    match d.inFlight with
    | some _ => { d with inFlight := none }.close
    | none => d.fail
  else d.fail

/-- What follows the connection's `poll_read_head` (dispatch.rs 311-353). -/
def afterHead (d : Disp) (o : HeadOut) : Disp :=
  match o with
  | .pending => d
  | .msg m => d.recvHead m
  | .err => d.recvErr
  | .timeout => d.recvErr
  | .eof => if d.conn.writing = .closed then d.close else d

/-- `Dispatcher::poll_read_head` (dispatch.rs 301-354) once the dispatch is ready. -/
def readHeadReady (env : EncodeEnv) (d : Disp) (i : ReadIn) : Disp :=
  { d with conn := (d.conn.pollReadHead env i.t0 i.t1 i.parse i.notify d.headId).2 }.afterHead
    (d.conn.pollReadHead env i.t0 i.t1 i.parse i.notify d.headId).1

/-- `Dispatcher::poll_read_head` (dispatch.rs 301-354) with `poll_ready` of server and client (dispatch.rs 634-640, 751-762). -/
def readHead (env : EncodeEnv) (d : Disp) (i : ReadIn) : Disp :=
  match d.inFlight with
  | some _ => if d.conn.client then (if i.ready then d.readHeadReady env i else d.close) else d
  | none => if d.conn.client then d.close else d.readHeadReady env i

/-- What is sent to a reader that is still there. -/
def sendItem (d : Disp) (k : Nat) (f : Chan → Chan) : Disp := { d with chans := updChan d.chans k f }

/-- `try_send_data`/`try_send_trailers` (dispatch.rs 249-275): if the reader is gone the sender is dropped and, unless the body is
complete, reading stops. -/
def deliver (d : Disp) (k : Nat) (gone : Bool) (f : Chan → Chan) : Disp :=
  if gone then
    let d := d.dropBody k
    if d.conn.canReadBody then { d with conn := d.conn.closeRead } else d
  else d.sendItem k f

/-- Marking a channel whose reader is dropped. -/
def loseReader (d : Disp) (k : Nat) : Disp := { d with chans := updChan d.chans k (fun ch => { ch with want := .closed }) }

/-- Noting that the body has been received completely. -/
def markComplete (d : Disp) (k : Nat) (fin : Bool) : Disp :=
  if fin then { d with chans := updChan d.chans k (fun ch => { ch with complete := true }) } else d

/-- What follows the connection's `poll_read_body` (dispatch.rs 247-291). -/
def afterPiece (d : Disp) (k : Nat) (gone : Bool) (o : BodyRes) : Disp :=
  match o with
  | .pending => d
  | .data bs fin => (d.markComplete k fin).deliver k gone (fun ch => { ch with items := ch.items ++ [.data bs] })
  | .trailers fs => (d.markComplete k true).deliver k gone (fun ch => { ch with trailers := some fs })
  | .ended fin => (d.markComplete k fin).dropBody k
  | .err => { d with bodyTx := none, chans := updChan d.chans k Chan.fail }

/-- The reader is dropped at this point, or not. -/
def maybeLose (d : Disp) (k : Nat) (gone : Bool) : Disp := if gone then d.loseReader k else d

/-- Reading a piece of body for a reader that has room (dispatch.rs 247-291). -/
def readPiece (P : TrailerParser) (d : Disp) (i : ReadIn) (k : Nat) : Disp :=
  ({ d with conn := (d.conn.pollReadBody P i.rd i.notify).2 }.maybeLose k i.gone).afterPiece k i.gone
    (d.conn.pollReadBody P i.rd i.notify).1

/-- The arm of `poll_read` for the current body (dispatch.rs 231-294). -/
def readBody (P : TrailerParser) (d : Disp) (i : ReadIn) (k : Nat) : Disp :=
  if d.conn.canReadBody then
    match (d.chans[k]?).map Chan.want with
    | some .ready => if i.full then d else d.readPiece P i k
    | some .pending => d
    | _ => { d.dropBody k with conn := d.conn.drainOrClose P i.rd i.notify }
  else d.dropBody k

/-- The last arm of `poll_read` (dispatch.rs 295-297). -/
def readIdle (d : Disp) (i : ReadIn) : Disp :=
  let r := d.conn.pollReadKeepAlive i.bufEmpty i.io
  if r.1 = .err then { d with conn := r.2 }.fail else { d with conn := r.2 }

/-- One turn of the loop of `Dispatcher::poll_read` (dispatch.rs 225-299). -/
def readTurn (env : EncodeEnv) (P : TrailerParser) (d : Disp) (i : ReadIn) : Disp :=
  if d.closing then d
  else if d.conn.canReadHead then d.readHead env i
  else
    match d.bodyTx with
    | some k => d.readBody P i k
    | none => d.readIdle i

end Disp

/-- What `Dispatch::poll_msg` yields: for a client `none` means that the sender is gone or the request was cancelled. -/
inductive MsgOut where
  | pending
  | none
  | err
  | resp (m : RespOut)
  | req (h : ReqHead) (body : Option BodyLength)

/-- What the user's body yields. -/
inductive FrameIn where
  | pending
  | eof
  | frame (f : UserFrame)

/-- Inputs of one turn of `poll_write`. -/
structure WriteIn where
  msg : MsgOut
  frame : FrameIn
  flush : FlushIn
  notify : NotifyIn

namespace Disp

/-- `should_poll` (dispatch.rs 642-644, 764-766). -/
def shouldPoll (d : Disp) : Bool := if d.conn.client then d.inFlight.isNone else d.inFlight.isSome

/-- Taking a message from the service or the user and writing its head (dispatch.rs 364-383).  Inputs of the other role do not occur and
are ignored. -/
def writeHead (env : EncodeEnv) (d : Disp) (m : MsgOut) : Disp :=
  match m with
  | .pending => d
  | .none => if d.conn.client then d.close else d
  | .err => if d.conn.client then d else d.fail
  | .resp m =>
    if d.conn.client then d
    else { d with inFlight := none, bodyRx := m.body.isSome, conn := d.conn.writeResp env m (.writeHead (d.inFlight.getD d.next)) }
  | .req h body =>
    if d.conn.client then
      { d with inFlight := some d.next, next := d.next + 1, bodyRx := body.isSome, conn := d.conn.writeReq h body d.next }
    else d

/-- `Dispatcher::poll_flush` (dispatch.rs 450-455). -/
def flushTurn (d : Disp) (f : FlushIn) (i : NotifyIn) : Disp :=
  let r := d.conn.pollFlush f i
  if r.1 = .ok ∨ r.1 = .pending then { d with conn := r.2 } else { d with conn := r.2 }.fail

/-- `Conn::end_body` with its error (dispatch.rs 415, 436, 441). -/
def endBody (d : Disp) : Disp :=
  let d' := { d with conn := d.conn.endBody.2 }
  if d.conn.endBody.1.isSome then d'.fail else d'

/-- A frame of the user's body (dispatch.rs 401-437). -/
def writeFrame (d : Disp) (f : FrameIn) : Disp :=
  match f with
  | .pending => d
  | .eof => { d with bodyRx := false }.endBody
  | .frame (.data bs true) =>
    if bs = [] then { d with bodyRx := false }.endBody
    else { d with bodyRx := false, conn := d.conn.writeBodyAndEnd bs }
  | .frame (.data bs false) => if bs = [] then d else { d with conn := d.conn.writeBody bs }
  | .frame (.trailers m) => { d with bodyRx := false, conn := d.conn.writeTrailers m }
  | .frame .unknown => d
  | .frame .error => { d with bodyRx := false }.fail

/-- One turn of the loop of `Dispatcher::poll_write` (dispatch.rs 356-448). -/
def writeTurn (env : EncodeEnv) (d : Disp) (i : WriteIn) : Disp :=
  if d.closing then d
  else if !d.bodyRx && d.conn.canWriteHead && d.shouldPoll then d.writeHead env i.msg
  else if !d.conn.canBufferBody then d.flushTurn i.flush i.notify
  else if d.bodyRx then
    if d.conn.canWriteBody then d.writeFrame i.frame else { d with bodyRx := false }
  else if d.conn.canWriteBody then d.endBody
  else d

/-- `Dispatcher::is_done` (dispatch.rs 469-484). -/
def isDone (d : Disp) : Bool :=
  if d.closing then true
  else if d.conn.client && d.conn.reading == .closed then true
  else d.conn.reading == .closed && (d.conn.writing == .closed || (!d.shouldPoll && !d.bodyRx))

/-- Completing (dispatch.rs 154, 159-160): an error kept in the state is returned. -/
def complete (d : Disp) : Disp := if d.conn.error then { d with conn := { d.conn with error := false } }.fail else { d with done := true }

/-- The end of a poll (dispatch.rs 152-163); `shutdown` is `should_shutdown`. -/
def finishTurn (d : Disp) (shutdown : Bool) (f : FlushIn) : Disp :=
  if !d.isDone then d
  else if d.conn.upgrade then { d with conn := { d.conn with upgrade := false } }.complete
  else if shutdown then
    let r := d.conn.pollShutdown f
    let d' := { d with conn := r.2 }
    if r.1 = .pending then d' else if r.1 = .ok then d'.complete else d'.fail
  else d.complete

/-- `Dispatcher::disable_keep_alive` (dispatch.rs 91-100); `bufEmpty` whether the read buffer is empty. -/
def disableKeepAlive (d : Disp) (bufEmpty : Bool) : Disp :=
  let d := { d with conn := d.conn.disableKeepAlive }
  if d.conn.writing = .closed ∨ d.conn.initialState bufEmpty then d.close else d

/-- The reader of body `k` asks for data (`want_tx.send(WANT_READY)`, src/body/incoming.rs 210). -/
def want (d : Disp) (k : Nat) : Disp :=
  match d.chans[k]? with
  | some ch =>
    if ch.want = .pending then
      { d with chans := updChan d.chans k (fun ch => { ch with want := .ready }), conn := { d.conn with log := d.conn.log ++ [.wanted ch.id] } }
    else d
  | none => d

end Disp

/-- Everything that can happen to a connection. -/
inductive Act where
  /-- A turn of `poll_read`. -/
  | read (i : ReadIn)
  /-- A turn of `poll_write`. -/
  | write (i : WriteIn)
  /-- The flush after writing (dispatch.rs 175, 215). -/
  | flush (f : FlushIn) (i : NotifyIn)
  /-- `wants_read_again` (dispatch.rs 191). -/
  | readAgain
  /-- The end of a poll. -/
  | finish (shutdown : Bool) (f : FlushIn)
  /-- `graceful_shutdown`. -/
  | disable (bufEmpty : Bool)
  /-- The reader of body `k` asks for data. -/
  | want (k : Nat)
  /-- The reader of body `k` is dropped. -/
  | dropReader (k : Nat)
  /-- The connection is dropped. -/
  | drop

namespace Disp

/-- One act.  A future that has completed is not polled again. -/
def step (env : EncodeEnv) (P : TrailerParser) (d : Disp) (a : Act) : Disp :=
  match a with
  | .read i => if d.done then d else d.readTurn env P i
  | .write i => if d.done then d else d.writeTurn env i
  | .flush f i => if d.done then d else d.flushTurn f i
  | .readAgain => if d.done then d else { d with conn := { d.conn with notify := false } }
  | .finish s f => if d.done then d else d.finishTurn s f
  | .disable b => if d.done then d else d.disableKeepAlive b
  | .want k => d.want k
  | .dropReader k => d.loseReader k
  | .drop => { d.failBody with done := true }

/-- A run. -/
def run (env : EncodeEnv) (P : TrailerParser) (d : Disp) (as : List Act) : Disp := as.foldl (fun d a => d.step env P a) d

/-- The start (`Dispatcher::new`, dispatch.rs 80-88; `Conn::new`, conn.rs 50-89). -/
structure Start (d : Disp) : Prop where
  reading : d.conn.reading = .init
  writing : d.conn.writing = .init
  ka : d.conn.ka = .busy
  error : d.conn.error = false
  deadline : d.conn.deadline = none
  timing : d.conn.timing = false
  upgrade : d.conn.upgrade = false
  log : d.conn.log = []
  bodyTx : d.bodyTx = none
  bodyRx : d.bodyRx = false
  closing : d.closing = false
  inFlight : d.inFlight = none
  next : d.next = 0
  chans : d.chans = []
  done : d.done = false

end Disp

end Hyper
