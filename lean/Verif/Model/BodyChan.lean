import Verif.Model.Bytes

/-!
# The channel of a body: `Sender` and `Incoming` of kind `Chan` (src/body/incoming.rs)

Two threads: the connection's task, which holds the `Sender` (incoming.rs 91-95), and the reader of the body, who holds the `Incoming` (`Kind::Chan`,
incoming.rs 59-64).  They share a `watch` (src/common/watch.rs), a bounded channel with no buffer of its own, and a oneshot for the trailers.  The channels are those of
`futures-channel` 0.3, modelled after its published source: every atomic load, store, exchange, every section under a lock and every operation of a queue
is one step, and the steps of the two threads interleave freely (sequentially consistent; the source says `SeqCst`).

* `mpsc::channel(0)`: the word `state` (`isOpen`, `num`), the queue of messages, the queue of parked senders (`parkedQ`: `true` for the `Sender` itself, `false` for
  a clone of it), the `SenderTask` (`parked`, `task`), the receiver's waker.  With a buffer of 0 every message parks its sender.
* The two queues' `pop_spin` waits for a push that has begun; a push is one step here, so that it need not.
* `AtomicWaker::register` and `wake` are one step each; their own steps are followed in `Verif.Model.Watch` (C43).

Every call of `poll_ready` and of `poll_frame` brings its own waker, numbered by `tgen` and `rgen`; `twoken` and `rwoken` are those that were woken.
-/

namespace Hyper

namespace BodyChan

/-- What goes through the channel: `Result<Bytes, Error>`. -/
inductive Msg where
  | data (bs : Bytes)
  | error
  deriving DecidableEq, Repr

/-- Data are sent by the `Sender`, errors by a clone of it (incoming.rs 438-444). -/
def Msg.main : Msg → Bool
  | .data _ => true
  | .error => false

/-- The value of the `watch` (incoming.rs 98, 100; watch.rs 16). -/
inductive Val where
  | pending
  | ready
  | closed
  deriving DecidableEq, Repr

/-- What the calls of the `Sender` returned. -/
inductive TEv where
  /-- `poll_ready` was ready. -/
  | ready
  /-- `poll_ready` has to wait; its waker. -/
  | wait (g : Nat)
  /-- `poll_ready` was an error: the reader is gone. -/
  | closed
  /-- `try_send_data`, or `send_error`, has sent. -/
  | sent (m : Msg)
  /-- `try_send_data` failed because there is no room. -/
  | full
  /-- `try_send_data` failed, or `send_error` did nothing, because the reader is gone. -/
  | lost (m : Msg)
  /-- `try_send_trailers` has sent them, or failed because the reader is gone. -/
  | trailers (t : Nat) (ok : Bool)
  /-- `try_send_trailers` failed because trailers were sent before. -/
  | twice
  deriving DecidableEq, Repr

/-- What `poll_frame` returned. -/
inductive REv where
  /-- Data, or an error. -/
  | frame (m : Msg)
  | trailers (t : Nat)
  /-- The end of the body. -/
  | ended
  /-- To be woken with this waker. -/
  | wait (g : Nat)
  deriving DecidableEq, Repr

/-- Where the connection's task is; the comments say what it does next. -/
inductive TPc where
  | idle
  /-- `poll_want` registers (watch.rs 66). -/
  | wantReg
  /-- `poll_want` loads (watch.rs 67). -/
  | wantLoad
  /-- `mpsc::Sender::poll_ready` loads the state. -/
  | readyLoad
  /-- `poll_unparked` with the waker, under the lock. -/
  | readyLock
  /-- `try_send`: `poll_unparked` without a waker, under the lock. -/
  | trying (m : Msg)
  /-- `inc_num_messages`. -/
  | inc (m : Msg)
  /-- `park`: sets the flag under the lock. -/
  | parkSet (m : Msg)
  /-- `park`: pushes itself to the parked senders. -/
  | parkPush (m : Msg)
  /-- `park`: looks whether the channel is still open. -/
  | parkLoad (m : Msg)
  /-- Pushes the message. -/
  | push (m : Msg)
  /-- Wakes the reader. -/
  | wake (m : Msg)
  /-- `oneshot::Sender::send` looks whether the reader is there. -/
  | trCheck (t : Nat)
  /-- Stores the trailers. -/
  | trStore (t : Nat)
  /-- Looks again. -/
  | trAgain (t : Nat)
  /-- The oneshot's sender is dropped: says so.  (`some`: at the end of `send`, with what that returns; `none`: when the `Sender` is dropped.) -/
  | complete (r : Option (Nat × Bool))
  /-- Takes the waker of the reader, if it gets the lock. -/
  | trLock (r : Option (Nat × Bool))
  /-- Releases the lock and wakes it. -/
  | trWake (r : Option (Nat × Bool)) (w : Option Nat)
  /-- The `Sender` is dropped: closes the channel. -/
  | closing
  /-- Wakes the reader. -/
  | closeWake
  | gone
  deriving DecidableEq, Repr

/-- Where the reader is; the comments say what it does next. -/
inductive RPc where
  | idle
  /-- `want_tx.send(WANT_READY)` (incoming.rs 215): exchanges the value. -/
  | wantSwap
  /-- Wakes the connection's task (watch.rs 53). -/
  | wantWake
  /-- `next_message` pops a message; for the second time after registering. -/
  | pop (again : Bool)
  /-- `unpark_one` pops a parked sender. -/
  | unpark (m : Msg)
  /-- `notify`, under the lock of that sender's task. -/
  | notify (m : Msg) (main : Bool)
  /-- `dec_num_messages`; the message is returned. -/
  | dec (m : Msg)
  /-- No message: loads the state. -/
  | load (again : Bool)
  /-- Registers its waker. -/
  | register
  /-- `oneshot::Receiver`: looks whether it is complete. -/
  | trLoad
  /-- Stores its waker, if it gets the lock. -/
  | trLock
  /-- Releases the lock. -/
  | trUnlock
  /-- Looks again. -/
  | trAgain
  /-- Takes what is there. -/
  | trTake
  /-- The `Incoming` is dropped: exchanges the `watch`'s value for `CLOSED` (watch.rs 58-62). -/
  | dropSwap
  /-- Wakes the connection's task. -/
  | dropWake
  /-- `close`: closes the channel. -/
  | closing
  /-- Pops the next parked sender. -/
  | freePark
  /-- Notifies it. -/
  | freeNotify (main : Bool)
  /-- Drains: pops the next message. -/
  | drain
  /-- `unpark_one`. -/
  | drainUnpark
  | drainNotify (main : Bool)
  /-- `dec_num_messages`. -/
  | drainDec
  /-- No message: loads the state, and looks again if a message is on its way. -/
  | drainLoad
  /-- The oneshot's receiver is dropped: says so. -/
  | dropTrailers
  | gone
  deriving DecidableEq, Repr

structure St where
  /-- The `watch`: its value and its waker. -/
  want : Val
  wantSlot : Option Nat := none
  /-- The channel's word `state`. -/
  isOpen : Bool := true
  num : Nat := 0
  queue : List Msg := []
  parkedQ : List Bool := []
  /-- The `SenderTask` of the `Sender`. -/
  parked : Bool := false
  task : Option Nat := none
  /-- The `Sender`'s own `maybe_parked`. -/
  maybeParked : Bool := false
  recvSlot : Option Nat := none
  /-- The oneshot: `complete`, its data, the reader's waker, and who holds the lock of that. -/
  done : Bool := false
  trailers : Option Nat := none
  trSlot : Option Nat := none
  tHolds : Bool := false
  rHolds : Bool := false
  /-- Whether `trailers_tx` is there still. -/
  hasTx : Bool := true
  /-- Whether the reader's `data_rx` has terminated. -/
  terminated : Bool := false
  tpc : TPc := .idle
  rpc : RPc := .idle
  tgen : Nat := 0
  rgen : Nat := 0
  twoken : List Nat := []
  rwoken : List Nat := []
  tlog : List TEv := []
  rlog : List REv := []
  /-- The trailers that were sent. -/
  given : Option Nat := none
  /-- What was pushed to the queue, in order. -/
  pushed : List Msg := []
  /-- What was taken from it, in order. -/
  popped : List Msg := []
  deriving DecidableEq, Repr

inductive Act where
  /-- `Sender::poll_ready` (incoming.rs 358-364) begins. -/
  | pollReady
  /-- `Sender::try_send_data` (incoming.rs 413-418) begins. -/
  | trySend (bs : Bytes)
  /-- `Sender::try_send_trailers` (incoming.rs 420-431) begins; the trailers are told apart by a number. -/
  | trySendTrailers (t : Nat)
  /-- `Sender::send_error` (incoming.rs 438-444) begins. -/
  | sendError
  /-- The `Sender` is dropped. -/
  | dropSender
  /-- The connection's task goes on. -/
  | tx
  /-- `Incoming::poll_frame` (incoming.rs 209-230) begins. -/
  | poll
  /-- The `Incoming` is dropped. -/
  | dropReader
  /-- The reader goes on. -/
  | rx
  deriving DecidableEq, Repr

namespace St

/-- A call of the `Sender` returns. -/
def tret (s : St) (e : TEv) : St := { s with tpc := .idle, tlog := s.tlog ++ [e] }

/-- `poll_frame` returns. -/
def rret (s : St) (e : REv) : St := { s with rpc := .idle, rlog := s.rlog ++ [e] }

def twake (s : St) (w : Option Nat) : St := { s with twoken := s.twoken ++ w.toList }

def rwake (s : St) (w : Option Nat) : St := { s with rwoken := s.rwoken ++ w.toList }

/-- `SenderTask::notify`: if it is the `Sender`'s own, it is not parked any more, and its waker is woken. -/
def notified (s : St) (main : Bool) : St :=
  if main then { s.twake s.task with parked := false, task := none } else s

/-- The end of a oneshot's sender: at the end of `try_send_trailers` it returns, otherwise the `Sender` is gone. -/
def trEnd (s : St) (r : Option (Nat × Bool)) : St :=
  match r with
  | some r => s.tret (.trailers r.1 r.2)
  | none => { s with tpc := .gone }

/-- The steps of the connection's task. -/
def txStep (s : St) : St :=
  match s.tpc with
  | .idle => s
  | .wantReg => { s with wantSlot := some s.tgen, tpc := .wantLoad }
  | .wantLoad =>
    match s.want with
    | .ready => { s with tpc := .readyLoad }
    | .pending => s.tret (.wait s.tgen)
    | .closed => s.tret .closed
  | .readyLoad => if s.isOpen then { s with tpc := .readyLock } else s.tret .closed
  | .readyLock =>
    if s.maybeParked then
      if s.parked then { s with task := some s.tgen }.tret (.wait s.tgen)
      else { s with maybeParked := false }.tret .ready
    else s.tret .ready
  | .trying m =>
    if s.maybeParked then
      if s.parked then { s with task := none }.tret .full
      else { s with maybeParked := false, tpc := .inc m }
    else { s with tpc := .inc m }
  | .inc m => if s.isOpen then { s with num := s.num + 1, tpc := .parkSet m } else s.tret (.lost m)
  | .parkSet m => if m.main then { s with parked := true, task := none, tpc := .parkPush m } else { s with tpc := .parkPush m }
  | .parkPush m => { s with parkedQ := s.parkedQ ++ [m.main], tpc := .parkLoad m }
  | .parkLoad m => if m.main then { s with maybeParked := s.isOpen, tpc := .push m } else { s with tpc := .push m }
  | .push m => { s with queue := s.queue ++ [m], pushed := s.pushed ++ [m], tpc := .wake m }
  | .wake m => { s.rwake s.recvSlot with recvSlot := none }.tret (.sent m)
  | .trCheck t => if s.done then { s with tpc := .complete (some (t, false)) } else { s with tpc := .trStore t }
  | .trStore t => { s with trailers := some t, given := some t, tpc := .trAgain t }
  | .trAgain t =>
    if s.done && s.trailers.isSome then { s with trailers := none, given := none, tpc := .complete (some (t, false)) }
    else { s with tpc := .complete (some (t, true)) }
  | .complete r => { s with done := true, tpc := .trLock r }
  | .trLock r => if s.rHolds then s.trEnd r else { s with tHolds := true, trSlot := none, tpc := .trWake r s.trSlot }
  | .trWake r w => { s.rwake w with tHolds := false }.trEnd r
  | .closing => { s with isOpen := false, tpc := .closeWake }
  | .closeWake =>
    { s.rwake s.recvSlot with recvSlot := none, hasTx := false, tpc := if s.hasTx then .complete none else .gone }
  | .gone => s

/-- The steps of the reader. -/
def rxStep (s : St) : St :=
  match s.rpc with
  | .idle => s
  | .wantSwap => { s with want := .ready, rpc := if s.want = .ready then (if s.terminated then .trLoad else .pop false) else .wantWake }
  | .wantWake => { s.twake s.wantSlot with wantSlot := none, rpc := if s.terminated then .trLoad else .pop false }
  | .pop again =>
    match s.queue with
    | m :: ms => { s with queue := ms, popped := s.popped ++ [m], rpc := .unpark m }
    | [] => { s with rpc := .load again }
  | .unpark m =>
    match s.parkedQ with
    | p :: ps => { s with parkedQ := ps, rpc := .notify m p }
    | [] => { s with rpc := .dec m }
  | .notify m p => { s.notified p with rpc := .dec m }
  | .dec m => { s with num := s.num - 1 }.rret (.frame m)
  | .load again =>
    if s.isOpen = false ∧ s.num = 0 then { s with terminated := true, rpc := .trLoad }
    else if again then s.rret (.wait s.rgen)
    else { s with rpc := .register }
  | .register => { s with recvSlot := some s.rgen, rpc := .pop true }
  | .trLoad => if s.done then { s with rpc := .trTake } else { s with rpc := .trLock }
  | .trLock => if s.tHolds then { s with rpc := .trTake } else { s with rHolds := true, trSlot := some s.rgen, rpc := .trUnlock }
  | .trUnlock => { s with rHolds := false, rpc := .trAgain }
  | .trAgain => if s.done then { s with rpc := .trTake } else s.rret (.wait s.rgen)
  | .trTake =>
    match s.trailers with
    | some t => { s with trailers := none }.rret (.trailers t)
    | none => s.rret .ended
  | .dropSwap => { s with want := .closed, rpc := if s.want = .closed then .closing else .dropWake }
  | .dropWake => { s.twake s.wantSlot with wantSlot := none, rpc := .closing }
  | .closing => if s.terminated then { s with rpc := .dropTrailers } else { s with isOpen := false, rpc := .freePark }
  | .freePark =>
    match s.parkedQ with
    | p :: ps => { s with parkedQ := ps, rpc := .freeNotify p }
    | [] => { s with rpc := .drain }
  | .freeNotify p => { s.notified p with rpc := .freePark }
  | .drain =>
    match s.queue with
    | m :: ms => { s with queue := ms, popped := s.popped ++ [m], rpc := .drainUnpark }
    | [] => { s with rpc := .drainLoad }
  | .drainUnpark =>
    match s.parkedQ with
    | p :: ps => { s with parkedQ := ps, rpc := .drainNotify p }
    | [] => { s with rpc := .drainDec }
  | .drainNotify p => { s.notified p with rpc := .drainDec }
  | .drainDec => { s with num := s.num - 1, rpc := .drain }
  | .drainLoad => if s.num = 0 then { s with rpc := .dropTrailers } else { s with rpc := .drain }
  | .dropTrailers => { s with done := true, rpc := .gone }
  | .gone => s

/-- A call of the `Sender` begins, if none is under way. -/
def tbegin (s : St) (pc : TPc) : St := if s.tpc = .idle then { s with tpc := pc } else s

def step (s : St) (a : Act) : St :=
  match a with
  | .pollReady => if s.tpc = .idle then { s with tgen := s.tgen + 1, tpc := .wantReg } else s
  | .trySend bs => s.tbegin (.trying (.data bs))
  | .trySendTrailers t =>
    if s.tpc = .idle then (if s.hasTx then { s with hasTx := false, tpc := .trCheck t } else s.tret .twice) else s
  | .sendError => s.tbegin (.inc .error)
  | .dropSender => s.tbegin .closing
  | .tx => s.txStep
  | .poll => if s.rpc = .idle then { s with rgen := s.rgen + 1, rpc := .wantSwap } else s
  | .dropReader => if s.rpc = .idle then { s with rpc := .dropSwap } else s
  | .rx => s.rxStep

def run (s : St) (as : List Act) : St := as.foldl step s

end St

/-- `Incoming::new_channel` (incoming.rs 113-137); a `wanter` waits for the reader to ask. -/
def init (wanter : Bool) : St := { want := if wanter then .pending else .ready }

end BodyChan

end Hyper
