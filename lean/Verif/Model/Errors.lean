import Verif.Model.Dispatch

/-!
# Errors: `src/error.rs`, `src/ffi/error.rs`, and which of them a HTTP/1 connection gives to whom

`Model/Conn.lean` and `Model/Dispatch.lean` only say that something failed.  Here the errors themselves are followed: the one kept in the
state of the connection, the result of the connection's future, the errors given to the callbacks of requests and to the readers of bodies.
`Report.step` takes the same act as `Disp.step`, together with what the act does not say (`Why`).
-/

namespace Hyper

namespace Errors

/-- `User` (src/error.rs 115-168). -/
inductive User where
  | body | bodyWriteAborted | invalidConnectWithBody | service | unexpectedHeader | unsupportedStatusCode
  | noUpgrade | manualUpgrade | dispatchGone | abortedByCallback
  deriving DecidableEq, Repr

/-- `Kind` (src/error.rs 40-84), with `Parse` being `ParseErr`.  `panicked` is not in the code: an encoder or a buffer panicked, which ends the task. -/
inductive Kind where
  | parse (e : ParseErr)
  | user (u : User)
  | incompleteMessage | unexpectedMessage | canceled | channelClosed | io | headerTimeout | body | bodyWrite | shutdown | http2
  | panicked
  deriving DecidableEq, Repr

/-- An error in the chain of sources of another: a `hyper::Error`, the mark `TimedOut` (src/error.rs 170-172), an `h2::Error` with its reason,
or any other, such as an `io::Error` or an error of the user's. -/
inductive Src where
  | hyper (k : Kind)
  | timedOut
  | h2 (reason : Option Nat)
  | other
  deriving DecidableEq, Repr

/-- `Error` (src/error.rs 31-38): the kind and the chain of `source()`s, outermost first. -/
structure Err where
  kind : Kind
  sources : List Src := []
  deriving DecidableEq, Repr

namespace Err

/-- The error as a source of another: itself, then its own sources (src/error.rs 618-626). -/
def chain (e : Err) : List Src := .hyper e.kind :: e.sources

/-- `Error::with` (src/error.rs 329-332); a cause is given by its own chain. -/
def because (e : Err) (cause : List Src) : Err := { e with sources := cause }

/-- `is_parse` (src/error.rs 181-183). -/
def isParse (e : Err) : Bool := match e.kind with | .parse _ => true | _ => false

/-- `is_parse_too_large` (src/error.rs 193-198). -/
def isParseTooLarge (e : Err) : Bool :=
  match e.kind with
  | .parse .tooLarge => true
  | .parse .uriTooLong => true
  | _ => false

/-- `is_parse_status` (src/error.rs 202-204). -/
def isParseStatus (e : Err) : Bool := match e.kind with | .parse .status => true | _ => false

/-- `is_parse_version_h2` (src/error.rs 212-214). -/
def isParseVersionH2 (e : Err) : Bool := match e.kind with | .parse .versionH2 => true | _ => false

/-- `is_user` (src/error.rs 222-224). -/
def isUser (e : Err) : Bool := match e.kind with | .user _ => true | _ => false

/-- `is_canceled` (src/error.rs 231-233). -/
def isCanceled (e : Err) : Bool := match e.kind with | .canceled => true | _ => false

/-- `is_closed` (src/error.rs 240-252). -/
def isClosed (e : Err) : Bool := match e.kind with | .channelClosed => true | _ => false

/-- `is_incomplete_message` (src/error.rs 271-277). -/
def isIncompleteMessage (e : Err) : Bool := match e.kind with | .incompleteMessage => true | _ => false

/-- `is_body_write_aborted` (src/error.rs 284-296). -/
def isBodyWriteAborted (e : Err) : Bool := match e.kind with | .user .bodyWriteAborted => true | _ => false

/-- `is_shutdown` (src/error.rs 302-308). -/
def isShutdown (e : Err) : Bool := match e.kind with | .shutdown => true | _ => false

/-- `find_source::<TimedOut>` (src/error.rs 339-350): the loop over the sources. -/
def findTimedOut : List Src → Bool
  | [] => false
  | .timedOut :: _ => true
  | _ :: t => findTimedOut t

/-- `is_timeout` (src/error.rs 315-321). -/
def isTimeout (e : Err) : Bool := match e.kind with | .headerTimeout => true | _ => findTimedOut e.sources

/-- `find_source::<h2::Error>` (src/error.rs 339-350). -/
def findH2 : List Src → Option (Option Nat)
  | [] => none
  | .h2 r :: _ => some r
  | _ :: t => findH2 t

/-- `h2_reason` (src/error.rs 353-357); 2 is `INTERNAL_ERROR`. -/
def h2Reason (e : Err) : Nat := ((findH2 e.sources).bind id).getD 2

end Err

/-- `new_h2` (src/error.rs 492-498): an `h2::Error` that is an `io::Error` is given as such. -/
def newH2 (isIo : Bool) (reason : Option Nat) (cause : List Src) : Err :=
  if isIo then ⟨.io, .other :: cause⟩ else ⟨.http2, .h2 reason :: cause⟩

/-- `KeepAliveTimedOut::crate_error` and its source (src/proto/h2/ping.rs 499-515). -/
def keepAliveTimedOut : Err := ⟨.http2, [.other, .timedOut]⟩

/-- `hyper_code` (src/ffi/error.rs 17-36). -/
inductive Code where
  | ok | error | invalidArg | unexpectedEof | abortedByCallback | featureNotEnabled | invalidPeerMessage
  deriving DecidableEq, Repr

/-- `hyper_error::code` (src/ffi/error.rs 41-52). -/
def Err.code (e : Err) : Code :=
  match e.kind with
  | .parse _ => .invalidPeerMessage
  | .incompleteMessage => .unexpectedEof
  | .user .abortedByCallback => .abortedByCallback
  | _ => .error

/-- `hyper_error_code` (src/ffi/error.rs 76-79). -/
def errorCode : Option Err → Code
  | none => .invalidArg
  | some e => e.code

/-- `hyper_error::print_to` (src/ffi/error.rs 54-63) of a message of `msg` bytes: a `Cursor` takes what fits. -/
def printTo (msg : Bytes) (room : Nat) : Bytes := msg.take room

end Errors

open Errors

/-- What an act does not say about a failure. -/
structure Why where
  /-- Whether the parse that failed without a parse error met the end of the transport (io.rs 217-220), or else an error of it. -/
  ended : Bool := true
  /-- The error of the transport, the service, or the body, as a chain. -/
  cause : List Src := [.other]
  /-- For a client: whether the queue is not known to be closed and holds a request (dispatch.rs 728-730). -/
  queued : Bool := false
  deriving DecidableEq, Repr

namespace Conn

/-- The error in the state after `Conn::maybe_notify` (conn.rs 517-562), `old` being the one before. -/
def notifyKept (c : Conn) (i : NotifyIn) (w : Why) (old : Option Err) : Option Err :=
  match c.reading with
  | .init =>
    match c.writing with
    | .body _ => old
    | _ => if i = .error then some ⟨.io, w.cause⟩ else old
  | _ => old

/-- The same after `Conn::try_keep_alive` (conn.rs 564-567). -/
def keepAliveKept (c : Conn) (i : NotifyIn) (w : Why) (old : Option Err) : Option Err := c.stateKeepAlive.notifyKept i w old

/-- The error of `Buffered::parse` (io.rs 193, 207, 217-220). -/
def parseErr (e : Option ParseErr) (w : Why) : Err :=
  match e with
  | some e => ⟨.parse e, []⟩
  | none => if w.ended then ⟨.incompleteMessage, []⟩ else ⟨.io, w.cause⟩

/-- The error `Conn::on_parse_error` gives back (conn.rs 819-836). -/
def onParseFault (c : Conn) (e : Option ParseErr) (h2 : Bool) (w : Why) : Option Err :=
  if c.writing = .init then
    if h2 then some ⟨.parse .versionH2, []⟩
    else
      match c.onError e with
      | some _ => none
      | none => some (parseErr e w)
  else some (parseErr e w)

/-- The error in the state after `Conn::on_parse_error` (conn.rs 825-830). -/
def onParseKept (c : Conn) (e : Option ParseErr) (h2 : Bool) (w : Why) (old : Option Err) : Option Err :=
  if c.writing = .init then
    if h2 then old
    else
      match c.onError e with
      | some _ => some (parseErr e w)
      | none => old
  else old

/-- The error `Conn::poll_read_head` gives (conn.rs 211-357). -/
def headFault (c : Conn) (i : ReadIn) (w : Why) : Option Err :=
  match i.parse with
  | .pending => if (c.startTimer i.t0).timedOut i.t1 then some ⟨.headerTimeout, []⟩ else none
  | .error e rest h2 =>
    if e.isSome || rest || (c.client && c.ka != .idle) then (c.startTimer i.t0).closeRead.onParseFault e h2 w else none
  | .msg _ => none

/-- The error in the state after `Conn::poll_read_head` (conn.rs 211-357). -/
def headKept (c : Conn) (i : ReadIn) (w : Why) (n : Nat) (old : Option Err) : Option Err :=
  match i.parse with
  | .pending => old
  | .error e rest h2 =>
    if e.isSome || rest || (c.client && c.ka != .idle) then (c.startTimer i.t0).closeRead.onParseKept e h2 w old else old
  | .msg m =>
    if m.decode = DecodedLength.ZERO then
      if c.client then ((c.startTimer i.t0).headState m n).readDone.keepAliveKept i.notify w old else old
    else old

/-- The error in the state after `Conn::poll_read_body` (conn.rs 359-423). -/
def decodeKept (P : TrailerParser) (c : Conn) (d : Decoder) (i : ReadIn) (w : Why) (old : Option Err) : Option Err :=
  match (d.decode P i.rd).1 with
  | .pending => old
  | .ready (.error _) => { c with reading := .closed }.keepAliveKept i.notify w old
  | .ready (.ok (.trailers _)) => c.readDone.keepAliveKept i.notify w old
  | .ready (.ok (.data bs)) =>
    if (d.decode P i.rd).2.1.isEof then c.readDone.keepAliveKept i.notify w old
    else if bs = [] then { c with reading := .closed }.keepAliveKept i.notify w old
    else old

/-- The same for both read states of a body (conn.rs 366, 406-416). -/
def bodyKept (P : TrailerParser) (c : Conn) (i : ReadIn) (w : Why) (old : Option Err) : Option Err :=
  match c.reading with
  | .body d => c.decodeKept P d i w old
  | .cont d => c.sendContinue.decodeKept P d i w old
  | _ => old

/-- The error of `Conn::poll_read_keep_alive` (conn.rs 431-504). -/
def idleFault (c : Conn) (bufEmpty : Bool) (i : IoIn) (w : Why) : Option Err :=
  if c.reading = .closed then none
  else if c.reading = .init ∧ c.writing = .init then
    if !bufEmpty then some ⟨.unexpectedMessage, []⟩
    else
      match i with
      | .pending => none
      | .error => some ⟨.io, w.cause⟩
      | .eof => if c.client && c.ka != .idle then some ⟨.incompleteMessage, []⟩ else none
      | .bytes => some ⟨.unexpectedMessage, []⟩
  else if c.halfClose || !bufEmpty then none
  else
    match i with
    | .pending => none
    | .error => some ⟨.io, w.cause⟩
    | .eof => some ⟨.incompleteMessage, []⟩
    | .bytes => none

/-- The error in the state after a head has been written (conn.rs 657-661, role.rs 408, 710, 760, 781, 810). -/
def encodeKept (r : EncodeRes) (old : Option Err) : Option Err :=
  match r with
  | .ok _ => old
  | .userHeader => some ⟨.user .unexpectedHeader, []⟩
  | .unsupportedStatus => some ⟨.user .unsupportedStatusCode, []⟩
  | .panic => some ⟨.panicked, []⟩

end Conn

/-- The error of a flush or shutdown, of the given kind (dispatch.rs 157, 450-455; io.rs 300, 324 for `WriteZero`). -/
def FlushRes.fault (k : Kind) (w : Why) : FlushRes → Option Err
  | .ok => none
  | .pending => none
  | .error => some ⟨k, w.cause⟩
  | .writeZero => some ⟨k, [.other]⟩
  | .panic => some ⟨.panicked, []⟩

namespace Disp

/-- Whether `poll_read_head` gets as far as asking the connection (dispatch.rs 301-308, 634-640, 751-762). -/
def asksHead (d : Disp) (i : ReadIn) : Bool := if d.conn.client then d.inFlight.isSome && i.ready else d.inFlight.isNone

/-- Whether a turn of `poll_read` does. -/
def readsHead (d : Disp) (i : ReadIn) : Bool := !d.closing && d.conn.canReadHead && d.asksHead i

/-- The error of a turn of `poll_read` that ends the poll (dispatch.rs 225-354): a server's error of a head, and those of
`poll_read_keep_alive`. -/
def readFault (d : Disp) (i : ReadIn) (w : Why) : Option Err :=
  if d.closing then none
  else if d.conn.canReadHead then
    if d.asksHead i && !d.conn.client then d.conn.headFault i w else none
  else
    match d.bodyTx with
    | some _ => none
    | none => d.conn.idleFault i.bufEmpty i.io w

/-- The error in the state after a turn of `poll_read`. -/
def readKept (P : TrailerParser) (d : Disp) (i : ReadIn) (w : Why) (old : Option Err) : Option Err :=
  if d.closing then old
  else if d.conn.canReadHead then
    if d.asksHead i then d.conn.headKept i w d.headId old else old
  else
    match d.bodyTx with
    | some k =>
      if d.conn.canReadBody then
        match (d.chans[k]?).map Chan.want with
        | some .ready => if i.full then old else d.conn.bodyKept P i w old
        | some .pending => old
        | _ => d.conn.drainStart.bodyKept P i w old
      else old
    | none => old

/-- The error of a turn of `poll_write` (dispatch.rs 356-448). -/
def writeFault (d : Disp) (i : WriteIn) (w : Why) : Option Err :=
  if d.closing then none
  else if !d.bodyRx && d.conn.canWriteHead && d.shouldPoll then
    match i.msg with
    | .err => if d.conn.client then none else some ⟨.user .service, w.cause⟩
    | _ => none
  else if !d.conn.canBufferBody then (d.conn.pollFlush i.flush i.notify).1.fault .bodyWrite w
  else if d.bodyRx then
    if d.conn.canWriteBody then
      match i.frame with
      | .eof => if d.conn.endBody.1.isSome then some ⟨.user .bodyWriteAborted, [.other]⟩ else none
      | .frame (.data bs true) => if bs = [] ∧ d.conn.endBody.1.isSome then some ⟨.user .bodyWriteAborted, [.other]⟩ else none
      | .frame .error => some ⟨.user .body, w.cause⟩
      | _ => none
    else none
  else if d.conn.canWriteBody then
    if d.conn.endBody.1.isSome then some ⟨.user .bodyWriteAborted, [.other]⟩ else none
  else none

/-- The error in the state after a flush (conn.rs 838-843). -/
def flushKept (d : Disp) (f : FlushIn) (i : NotifyIn) (w : Why) (old : Option Err) : Option Err :=
  if ((d.conn.scripted f).pollFlush bytesBuf f.readBuf).1 = .ok then
    { d.conn with out := ((d.conn.scripted f).pollFlush bytesBuf f.readBuf).2 }.keepAliveKept i w old
  else old

/-- The error in the state after a turn of `poll_write`. -/
def writeKept (env : EncodeEnv) (d : Disp) (i : WriteIn) (w : Why) (old : Option Err) : Option Err :=
  if d.closing then old
  else if !d.bodyRx && d.conn.canWriteHead && d.shouldPoll then
    match i.msg with
    | .resp m => if d.conn.client then old else Conn.encodeKept (d.conn.respEnc env m).2 old
    | .req h body => if d.conn.client then Conn.encodeKept (d.conn.reqEnc h body).2 old else old
    | _ => old
  else if !d.conn.canBufferBody then d.flushKept i.flush i.notify w old
  else old

/-- The error at the end of a poll (dispatch.rs 152-163): one of the shutdown, else the one kept. -/
def finishFault (d : Disp) (s : Bool) (f : FlushIn) (w : Why) (kept : Option Err) : Option Err :=
  if !d.isDone then none
  else if d.conn.upgrade then kept
  else if s then
    if (d.conn.pollShutdown f).1 = .pending then none
    else if (d.conn.pollShutdown f).1 = .ok then kept
    else (d.conn.pollShutdown f).1.fault .shutdown w
  else kept

/-- The error in the state after the end of a poll (`take_error`, conn.rs 896-902). -/
def finishKept (d : Disp) (s : Bool) (f : FlushIn) (kept : Option Err) : Option Err :=
  if !d.isDone then kept
  else if d.conn.upgrade then none
  else if s then if (d.conn.pollShutdown f).1 = .ok then none else kept
  else none

/-- The error an act makes `poll_inner` return. -/
def fault (d : Disp) (a : Act) (w : Why) (kept : Option Err) : Option Err :=
  if d.done then none
  else
    match a with
    | .read i => d.readFault i w
    | .write i => d.writeFault i w
    | .flush f i => (d.conn.pollFlush f i).1.fault .bodyWrite w
    | .finish s f => d.finishFault s f w kept
    | _ => none

/-- The error in the state after an act. -/
def kept (env : EncodeEnv) (P : TrailerParser) (d : Disp) (a : Act) (w : Why) (old : Option Err) : Option Err :=
  if d.done then old
  else
    match a with
    | .read i => d.readKept P i w old
    | .write i => d.writeKept env i w old
    | .flush f i => d.flushKept f i w old
    | .finish s f => d.finishKept s f old
    | _ => old

/-- The error of a head a client gives to the callback of the request that waits (dispatch.rs 334-342, 720-726). -/
def handed (d : Disp) (a : Act) (w : Why) : Option Err :=
  if d.done then none
  else
    match a with
    | .read i => if d.readsHead i && d.conn.client then d.conn.headFault i w else none
    | _ => none

/-- The error of a body that is sent to its reader by `poll_read` (dispatch.rs 288-290). -/
def bodyFault (P : TrailerParser) (d : Disp) (a : Act) (w : Why) : Option Err :=
  if d.done then none
  else
    match a with
    | .read i =>
      if d.closing || d.conn.canReadHead then none
      else
        match d.bodyTx with
        | some k =>
          if d.conn.canReadBody && decide ((d.chans[k]?).map Chan.want = some .ready) && !i.full &&
            decide ((d.conn.pollReadBody P i.rd i.notify).1 = .err) then some ⟨.body, w.cause⟩
          else none
        | none => none
    | _ => none

end Disp

/-- A connection with all errors given so far. -/
structure Report where
  disp : Disp
  /-- `State::error`. -/
  kept : Option Err := none
  /-- What the future of the connection gave. -/
  result : Option (Except Err Unit) := none
  /-- The errors given to the requests in flight. -/
  calls : List (Nat × Err) := []
  /-- The errors with which queued requests were given back. -/
  canceled : List Err := []
  /-- The errors sent to the readers of bodies. -/
  bodies : List (Nat × Err) := []

namespace Report

/-- Sending an error to the reader of the current body. -/
def tellBody (r : Report) (e : Err) : Report :=
  match r.disp.bodyTx with
  | some k => { r with bodies := r.bodies ++ [(k, e)] }
  | none => r

/-- `recv_msg(Err(e))` at the end of `poll_catch` (dispatch.rs 137-139, 618, 719-745). -/
def tellUser (r : Report) (e : Err) (w : Why) : Report :=
  if r.disp.conn.client then
    match r.disp.inFlight with
    | some n => { r with calls := r.calls ++ [(n, e)], result := some (.ok ()) }
    | none =>
      if w.queued then { r with canceled := r.canceled ++ [⟨.canceled, e.chain⟩], result := some (.ok ()) }
      else { r with result := some (.error e) }
  else { r with result := some (.error e) }

/-- `poll_catch` with an error (dispatch.rs 128-140). -/
def caught (r : Report) (e : Err) (w : Why) : Report := (r.tellBody ⟨.body, [.other]⟩).tellUser e w

/-- A client's callback receives the error of a head. -/
def tellCall (r : Report) (e : Option Err) : Report :=
  match e with
  | some e => { r with calls := r.calls ++ [(r.disp.inFlight.getD 0, e)] }
  | none => r

/-- An act without an error of `poll_inner`: the future may complete (dispatch.rs 155, 160), or be dropped with the sender of a body
(dispatch.rs 556-562). -/
def uncaught (r : Report) (a : Act) (over : Bool) : Report :=
  match a with
  | .drop => r.tellBody ⟨.incompleteMessage, []⟩
  | _ => if !r.disp.done && over then { r with result := some (.ok ()) } else r

/-- One act. -/
def step (env : EncodeEnv) (P : TrailerParser) (r : Report) (a : Act) (w : Why) : Report :=
  let r' :=
    match r.disp.fault a w r.kept with
    | some e => r.caught e w
    | none => (match r.disp.bodyFault P a w with | some e => r.tellBody e | none => r.tellCall (r.disp.handed a w)).uncaught a (r.disp.step env P a).done
  { r' with disp := r.disp.step env P a, kept := r.disp.kept env P a w r.kept }

/-- A run. -/
def run (env : EncodeEnv) (P : TrailerParser) (r : Report) (as : List (Act × Why)) : Report := as.foldl (fun r a => r.step env P a.1 a.2) r

end Report

end Hyper
