import Verif.Model.Dispatch

/-!
# One poll of an HTTP/1 connection: `Dispatcher::poll_loop`

The turns of `Model/Dispatch.lean` are put together as the loops of `poll_read`, `poll_write` and `poll_loop` do (dispatch.rs 166-448), and it is
noted who was asked with the task's waker and answered that it is not ready: whoever did so during a poll wakes the task when it becomes ready at
any later time.

The loops take what the outside answers from lists; a poll which needs more answers than it is given has no result.
-/

namespace Hyper

/-- Who holds the task's waker. -/
structure Wakers where
  /-- The transport, for reading. -/
  ioRead : Bool := false
  /-- The transport, for writing. -/
  ioWrite : Bool := false
  /-- The service's future, or the queue of requests. -/
  msg : Bool := false
  /-- The body being sent. -/
  frame : Bool := false
  /-- The reader of the body being received. -/
  reader : Bool := false
  /-- The task has been woken already: by itself (`task::yield_now`), or by somebody who got the waker earlier in this poll and has become ready
  since (not noted for reading, where bytes may have been buffered). -/
  self : Bool := false
  deriving DecidableEq, Repr

/-- How a turn of a loop ends. -/
inductive Turn where
  | again | pending | ready
  deriving DecidableEq, Repr

namespace Conn

/-- Whether `Conn::try_keep_alive` finds the transport not readable in `maybe_notify` (conn.rs 517-562); `blocked` means that the last read was
already answered so, and that nothing was read since. -/
def arms (c : Conn) (i : NotifyIn) : Bool :=
  (match c.stateKeepAlive.reading with | .init => true | _ => false) &&
  (match c.stateKeepAlive.writing with | .body _ => false | _ => true) && (i == .pending || i == .blocked)

/-- The same for `Conn::poll_read_head` (conn.rs 211-331): the head is not complete, or the response has no body (conn.rs 296-301). -/
def headArms (c : Conn) (p : ParseIn) (n : Nat) (i : NotifyIn) : Bool :=
  match p with
  | .pending => true
  | .error _ _ _ => false
  | .msg m => decide (m.decode = DecodedLength.ZERO) && c.client && (c.headState m n).readDone.arms i

/-- The same for a body being read (conn.rs 366-404). -/
def pieceArms (P : TrailerParser) (c : Conn) (d : Decoder) (r : Rd) (i : NotifyIn) : Bool :=
  match (d.decode P r).1 with
  | .pending => true
  | .ready (.error _) => false
  | .ready (.ok (.trailers _)) => c.readDone.arms i
  | .ready (.ok (.data _)) => (d.decode P r).2.1.isEof && c.readDone.arms i

/-- The same for `Conn::poll_read_body` (conn.rs 359-423). -/
def bodyArms (P : TrailerParser) (c : Conn) (r : Rd) (i : NotifyIn) : Bool :=
  match c.reading with
  | .body d => c.pieceArms P d r i
  | .cont d => c.pieceArms P d r i
  | _ => false

/-- The same for `Conn::poll_read_keep_alive` (conn.rs 431-504). -/
def idleArms (c : Conn) (bufEmpty : Bool) (i : IoIn) : Bool :=
  c.reading != .closed && ((c.reading == .init && c.writing == .init) || !c.halfClose) && bufEmpty && i == .pending

/-- The same for `Conn::poll_flush` (conn.rs 838-843). -/
def flushArms (c : Conn) (f : FlushIn) (i : NotifyIn) : Bool :=
  decide ((c.pollFlush f i).1 = .ok) && { c with out := ((c.scripted f).pollFlush bytesBuf f.readBuf).2 }.arms i

/-- `Conn::has_buffered_write` (conn.rs 592-594, io.rs 153-155). -/
def hasBufferedWrite (c : Conn) : Bool := decide (0 < WriteBuf.remaining bytesBuf c.out.wbuf)

end Conn

namespace Disp

/-- Whether `Dispatcher::poll_read_head` (dispatch.rs 301-354) is over at once: the service is busy (dispatch.rs 634-640), or the head is not
complete.  Everything else goes on. -/
def headTurn (env : EncodeEnv) (d : Disp) (i : ReadIn) : Turn :=
  match d.inFlight with
  | some _ =>
    if d.conn.client then
      if i.ready then (if (d.conn.pollReadHead env i.t0 i.t1 i.parse i.notify d.headId).1 = .pending then .pending else .again) else .again
    else .pending
  | none =>
    if d.conn.client then .again
    else if (d.conn.pollReadHead env i.t0 i.t1 i.parse i.notify d.headId).1 = .pending then .pending else .again

/-- Who is left with the waker by it. -/
def headWakes (d : Disp) (i : ReadIn) (w : Wakers) : Wakers :=
  match d.inFlight with
  | some _ => if d.conn.client && i.ready then { w with ioRead := w.ioRead || (d.conn.startTimer i.t0).headArms i.parse d.headId i.notify } else w
  | none => if d.conn.client then w else { w with ioRead := w.ioRead || (d.conn.startTimer i.t0).headArms i.parse d.headId i.notify }

/-- The arm of `poll_read` for a body (dispatch.rs 231-294). -/
def bodyTurn (P : TrailerParser) (d : Disp) (i : ReadIn) (k : Nat) : Turn :=
  if d.conn.canReadBody then
    match (d.chans[k]?).map Chan.want with
    | some .ready => if i.full then .pending else if (d.conn.pollReadBody P i.rd i.notify).1 = .pending then .pending else .again
    | some .pending => .pending
    | _ => .again
  else .again

def bodyWakes (P : TrailerParser) (d : Disp) (i : ReadIn) (k : Nat) (w : Wakers) : Wakers :=
  if d.conn.canReadBody then
    match (d.chans[k]?).map Chan.want with
    | some .ready => if i.full then { w with reader := true } else { w with ioRead := w.ioRead || d.conn.bodyArms P i.rd i.notify }
    | some .pending => { w with reader := true }
    | _ => { w with ioRead := w.ioRead || d.conn.drainStart.bodyArms P i.rd i.notify }
  else w

/-- One turn of `Dispatcher::poll_read` (dispatch.rs 225-299). -/
def readTurnRes (env : EncodeEnv) (P : TrailerParser) (d : Disp) (i : ReadIn) : Turn :=
  if d.closing then .ready
  else if d.conn.canReadHead then d.headTurn env i
  else
    match d.bodyTx with
    | some k => d.bodyTurn P i k
    | none => if (d.conn.pollReadKeepAlive i.bufEmpty i.io).1 = .pending then .pending else .ready

def readWakes (P : TrailerParser) (d : Disp) (i : ReadIn) (w : Wakers) : Wakers :=
  if d.closing then w
  else if d.conn.canReadHead then d.headWakes i w
  else
    match d.bodyTx with
    | some k => d.bodyWakes P i k w
    | none => { w with ioRead := w.ioRead || d.conn.idleArms i.bufEmpty i.io }

/-- `Dispatcher::poll_read` (dispatch.rs 225-299).  An error ends the future. -/
def readLoop (env : EncodeEnv) (P : TrailerParser) : List ReadIn → Disp → Wakers → Option (Disp × Wakers)
  | [], _, _ => none
  | i :: is, d, w =>
    if (d.readTurn env P i).done then some (d.readTurn env P i, d.readWakes P i w)
    else if d.readTurnRes env P i = .again then readLoop env P is (d.readTurn env P i) (d.readWakes P i w)
    else some (d.readTurn env P i, d.readWakes P i w)

/-- Who is left with the waker by `Dispatcher::poll_flush` (dispatch.rs 450-455). -/
def flushWakes (d : Disp) (f : FlushIn) (i : NotifyIn) (w : Wakers) : Wakers :=
  { w with ioRead := w.ioRead || d.conn.flushArms f i, ioWrite := w.ioWrite || decide ((d.conn.pollFlush f i).1 = .pending),
           self := w.self || (w.ioWrite && decide ((d.conn.pollFlush f i).1 ≠ .pending)) }

/-- One turn of `Dispatcher::poll_write` (dispatch.rs 356-448). -/
def writeTurnRes (d : Disp) (i : WriteIn) : Turn :=
  if d.closing then .ready
  else if !d.bodyRx && d.conn.canWriteHead && d.shouldPoll then
    match i.msg with
    | .pending => .pending
    | .none => if d.conn.client then .ready else .again
    | _ => .again
  else if !d.conn.canBufferBody then (if (d.conn.pollFlush i.flush i.notify).1 = .pending then .pending else .again)
  else if d.bodyRx then
    if d.conn.canWriteBody then (match i.frame with | .pending => .pending | _ => .again) else .again
  else if d.conn.canWriteBody then .again
  else .pending

def writeWakes (d : Disp) (i : WriteIn) (w : Wakers) : Wakers :=
  if d.closing then w
  else if !d.bodyRx && d.conn.canWriteHead && d.shouldPoll then (match i.msg with | .pending => { w with msg := true } | _ => { w with self := w.self || w.msg })
  else if !d.conn.canBufferBody then d.flushWakes i.flush i.notify w
  else if d.bodyRx then
    if d.conn.canWriteBody then (match i.frame with | .pending => { w with frame := true } | _ => { w with self := w.self || w.frame }) else w
  else w

/-- `Dispatcher::poll_write` (dispatch.rs 356-448); the last part says whether it is ready. -/
def writeLoop (env : EncodeEnv) : List WriteIn → Disp → Wakers → Option (Disp × Wakers × Bool)
  | [], _, _ => none
  | i :: is, d, w =>
    if (d.writeTurn env i).done then some (d.writeTurn env i, d.writeWakes i w, false)
    else if d.writeTurnRes i = .again then writeLoop env is (d.writeTurn env i) (d.writeWakes i w)
    else some (d.writeTurn env i, d.writeWakes i w, decide (d.writeTurnRes i = .ready))

/-- `Dispatcher::can_write_again` (dispatch.rs 463-467). -/
def canWriteAgain (d : Disp) : Bool := !d.closing && d.bodyRx && d.conn.canWriteBody

end Disp

/-- How the loop ends. -/
inductive LoopEnd where
  /-- With an error. -/
  | failed
  /-- Nothing to do again (dispatch.rs 193-197). -/
  | settled
  /-- The second write is pending (dispatch.rs 203-218). -/
  | late
  /-- After 16 turns (dispatch.rs 221-222). -/
  | yielded
  deriving DecidableEq, Repr

/-- What the outside answers during one turn of `poll_loop`. -/
structure Round where
  reads : List ReadIn
  writes : List WriteIn
  flush : FlushIn
  notify : NotifyIn
  writes2 : List WriteIn := []
  flush2 : FlushIn := { writes := [], flushes := [], readBuf := [] }
  notify2 : NotifyIn := .pending

namespace Disp

/-- The flush before yielding (dispatch.rs 210-217). -/
def lateFlush (d : Disp) (r : Round) : Disp := if d.conn.hasBufferedWrite then d.flushTurn r.flush2 r.notify2 else d

def lateWakes (d : Disp) (r : Round) (w : Wakers) : Wakers := if d.conn.hasBufferedWrite then d.flushWakes r.flush2 r.notify2 w else w

/-- `Conn::wants_read_again` (conn.rs 425-429) resets the flag. -/
def clearNotify (d : Disp) : Disp := { d with conn := { d.conn with notify := false } }

/-- The end of a poll, or the state with which the loop goes on. -/
inductive Next where
  | stop (e : LoopEnd) (d : Disp) (w : Wakers)
  | go (d : Disp) (w : Wakers)

/-- The second write (dispatch.rs 199-218). -/
def secondWrite (env : EncodeEnv) (r : Round) (d : Disp) (w : Wakers) : Option Next :=
  match writeLoop env r.writes2 d w with
  | none => none
  | some (d, w, ready) =>
    if d.done then some (.stop .failed d w)
    else if ready then some (.go d w)
    else some (.stop (if (d.lateFlush r).done then .failed else .late) (d.lateFlush r) (d.lateWakes r w))

/-- What follows the flush (dispatch.rs 177-219); `ready` whether writing or flushing was. -/
def afterFlush (env : EncodeEnv) (r : Round) (d : Disp) (w : Wakers) (ready : Bool) : Option Next :=
  if d.conn.notify then some (.go d.clearNotify w)
  else if d.canWriteAgain && ready then secondWrite env r d.clearNotify w
  else some (.stop .settled d.clearNotify w)

/-- The flush (dispatch.rs 175). -/
def flushStage (env : EncodeEnv) (r : Round) (d : Disp) (w : Wakers) (ready : Bool) : Option Next :=
  if (d.flushTurn r.flush r.notify).done then some (.stop .failed (d.flushTurn r.flush r.notify) (d.flushWakes r.flush r.notify w))
  else afterFlush env r (d.flushTurn r.flush r.notify) (d.flushWakes r.flush r.notify w) (ready || decide ((d.conn.pollFlush r.flush r.notify).1 = .ok))

/-- The write (dispatch.rs 174). -/
def writeStage (env : EncodeEnv) (r : Round) (d : Disp) (w : Wakers) : Option Next :=
  match writeLoop env r.writes d w with
  | none => none
  | some (d, w, ready) => if d.done then some (.stop .failed d w) else flushStage env r d w ready

/-- One turn of `Dispatcher::poll_loop` (dispatch.rs 172-220). -/
def round (env : EncodeEnv) (P : TrailerParser) (r : Round) (d : Disp) (w : Wakers) : Option Next :=
  match readLoop env P r.reads d w with
  | none => none
  | some (d, w) => if d.done then some (.stop .failed d w) else writeStage env r d w

/-- `Dispatcher::poll_loop` (dispatch.rs 166-223), with `n` turns left. -/
def loopFrom (env : EncodeEnv) (P : TrailerParser) : Nat → List Round → Disp → Wakers → Option (LoopEnd × Disp × Wakers)
  | 0, _, d, w => some (.yielded, d, { w with self := true })
  | _ + 1, [], _, _ => none
  | n + 1, r :: rs, d, w =>
    match d.round env P r w with
    | none => none
    | some (.stop e d w) => some (e, d, w)
    | some (.go d w) => loopFrom env P n rs d w

/-- `Dispatcher::poll_loop` (dispatch.rs 166-223). -/
def pollLoop (env : EncodeEnv) (P : TrailerParser) (rs : List Round) (d : Disp) : Option (LoopEnd × Disp × Wakers) := loopFrom env P 16 rs d {}

end Disp

end Hyper
