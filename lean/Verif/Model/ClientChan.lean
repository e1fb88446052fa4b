/-!
# The queue of requests of a client connection: `src/client/dispatch.rs`

Both halves run concurrently, so the model's acts are atomic steps: operations on the state shared by the halves (the word of the
crate `want`, tokio's unbounded queue) are one step each, and the steps of either half may be interleaved in any way.  What a half
does between two of them is remembered in the state (`granted`, `sending`, `phase`).

`tokio::sync::mpsc` is taken to be a FIFO queue with a closed flag: sending first checks the flag and only then pushes (two
steps); dropping the receiver drops what is queued, and what is pushed later is dropped with the last sender.
`tokio::sync::oneshot` delivers one value; sending to a dropped receiver has no effect beyond that.

`log`, `next` and the numbers of requests are not in the code.
-/

namespace Hyper

/-- The state of the crate `want`. -/
inductive WantSt where
  | idle | want | give | closed
  deriving DecidableEq, Repr

/-- A request with its callback: `Callback::Retry` or `Callback::NoRetry` (dispatch.rs 230-234). -/
structure CReq where
  id : Nat
  retry : Bool
  deriving DecidableEq, Repr

/-- What the caller's future gets: a response, or an error, with the request given back or not. -/
inductive Answer where
  | response
  | error (back : Bool)
  deriving DecidableEq, Repr

inductive CEv where
  /-- The caller handed a request to the sender. -/
  | submitted (id : Nat)
  /-- The request was accepted (`Sender::can_send`). -/
  | accepted (id : Nat)
  /-- The connection asked for a request (`Taker::want`). -/
  | asked
  /-- The request was taken from the queue to be written. -/
  | encoded (id : Nat)
  | outcome (id : Nat) (o : Answer)
  deriving DecidableEq, Repr

/-- Where the receiving half is. -/
inductive Phase where
  | idle
  /-- The queue was found empty; `want` comes next (dispatch.rs 187-190). -/
  | wanting
  /-- In `Receiver::close`, after `taker.cancel` (dispatch.rs 195-198). -/
  | closing
  /-- Before `try_recv` in `Client::recv_msg` (src/proto/h1/dispatch.rs 732). -/
  | trying
  /-- In the drop of the receiver, after `taker.cancel` (dispatch.rs 209-215). -/
  | dropping
  | gone
  deriving DecidableEq, Repr

structure CSt where
  want : WantSt := .idle
  /-- `buffered_once`. -/
  buffered : Bool := false
  /-- Accepted by `can_send`, not yet sent on the queue. -/
  granted : List CReq := []
  /-- Past the closed check of the queue. -/
  sending : List CReq := []
  queue : List CReq := []
  closed : Bool := false
  txGone : Bool := false
  phase : Phase := .idle
  /-- `Client::callback` (src/proto/h1/dispatch.rs 57). -/
  callback : Option CReq := none
  /-- `Client::rx_closed`. -/
  rxClosed : Bool := false
  /-- HTTP/2: callbacks held by `FutCtx` or `SendWhen` (src/proto/h2/client.rs 411-421, dispatch.rs 335-344). -/
  tasks : List CReq := []
  next : Nat := 0
  log : List CEv := []
  deriving DecidableEq, Repr

namespace CReq

/-- `Callback::send` (dispatch.rs 284-299): a caller that did not ask for its request back does not get it. -/
def done (r : CReq) (o : Answer) : CEv :=
  .outcome r.id (match o with | .response => .response | .error back => .error (back && r.retry))

/-- `Callback::drop` (dispatch.rs 237-253). -/
def drop (r : CReq) : CEv := r.done (.error false)

/-- `Envelope::drop` (dispatch.rs 220-227). -/
def dropEnvelope (r : CReq) : CEv := r.done (.error true)

end CReq

namespace CSt

/-- `want::Giver::give`: whether the receiver wanted something. -/
def give (s : CSt) : Bool := s.want == .want

/-- `Sender::can_send` (dispatch.rs 93-104) for a new request. -/
def submit (s : CSt) (retry : Bool) : CSt :=
  let r : CReq := ⟨s.next, retry⟩
  if s.give || !s.buffered then
    { s with want := if s.give then .idle else s.want, buffered := true, granted := s.granted ++ [r], next := s.next + 1,
             log := s.log ++ [.submitted r.id, .accepted r.id] }
  else { s with next := s.next + 1, log := s.log ++ [.submitted r.id, r.done (.error true)] }

/-- `UnboundedSender::try_send`/`send` (dispatch.rs 149-167): always accepted. -/
def submitUnbounded (s : CSt) (retry : Bool) : CSt :=
  let r : CReq := ⟨s.next, retry⟩
  { s with granted := s.granted ++ [r], next := s.next + 1, log := s.log ++ [.submitted r.id, .accepted r.id] }

/-- The closed check of the queue (dispatch.rs 112-115); the request is given back to the caller. -/
def permit (s : CSt) (r : CReq) : CSt :=
  if r ∈ s.granted then
    if s.closed then { s with granted := s.granted.erase r, log := s.log ++ [r.done (.error true)] }
    else { s with granted := s.granted.erase r, sending := s.sending ++ [r] }
  else s

/-- The push on the queue. -/
def push (s : CSt) (r : CReq) : CSt :=
  if r ∈ s.sending then { s with sending := s.sending.erase r, queue := s.queue ++ [r] } else s

/-- Dropping everything queued. -/
def drain (s : CSt) : CSt := { s with queue := [], log := s.log ++ s.queue.map CReq.dropEnvelope }

/-- The last sender is dropped; it is not in the middle of sending. -/
def dropTx (s : CSt) : CSt :=
  if s.granted = [] ∧ s.sending = [] then
    if s.phase = .gone then { s.drain with txGone := true } else { s with txGone := true }
  else s

/-- `Poll::Ready(None)` of the queue: nothing queued, and nothing can follow. -/
def ended (s : CSt) : Bool := s.txGone || (s.closed && s.sending.isEmpty)

/-- Replacing `Client::callback`; an old one is dropped. -/
def setCallback (s : CSt) (r : CReq) : CSt :=
  { s with callback := some r, log := s.log ++ s.callback.toList.map CReq.drop ++ [.encoded r.id] }

/-- `Client::poll_msg` (src/proto/h1/dispatch.rs 672-707) with `Receiver::poll_recv` (dispatch.rs 182-192) up to `taker.want`;
`canceled` whether the caller's future is gone. -/
def pollMsg (s : CSt) (canceled : Bool) : CSt :=
  match s.queue with
  | r :: q => if canceled then { s with queue := q, log := s.log ++ [r.drop] } else { s with queue := q }.setCallback r
  | [] => if s.ended then { s with rxClosed := true } else { s with phase := .wanting }

/-- `taker.want()` (dispatch.rs 188). -/
def asksFor (s : CSt) : CSt := { s with want := .want, phase := .idle, log := s.log ++ [.asked] }

/-- HTTP/2: taking a request from the queue (src/proto/h2/client.rs 700-770): canceled, refused (with an error), or sent. -/
def pollTask (s : CSt) (canceled refused : Bool) : CSt :=
  match s.queue with
  | r :: q =>
    if canceled then { s with queue := q, log := s.log ++ [r.drop] }
    else if refused then { s with queue := q, log := s.log ++ [r.done (.error false)] }
    else { s with queue := q, tasks := s.tasks ++ [r], log := s.log ++ [.encoded r.id] }
  | [] => if s.ended then s else { s with phase := .wanting }

/-- HTTP/2: a `SendWhen` (dispatch.rs 346-386) completes, or is dropped. -/
def finishTask (s : CSt) (r : CReq) (o : Option Bool) : CSt :=
  if r ∈ s.tasks then
    { s with tasks := s.tasks.erase r,
             log := s.log ++ [match o with | some true => r.done .response | some false => r.done (.error false) | none => r.drop] }
  else s

/-- `Client::recv_msg` with a response (src/proto/h1/dispatch.rs 709-722). -/
def recvOk (s : CSt) : CSt :=
  match s.callback with
  | some r => { s with callback := none, log := s.log ++ [r.done .response] }
  | none => s

/-- `Client::recv_msg` with an error (src/proto/h1/dispatch.rs 723-746) up to `taker.cancel`. -/
def recvErr (s : CSt) : CSt :=
  match s.callback with
  | some r => { s with callback := none, log := s.log ++ [r.done (.error false)] }
  | none => if s.rxClosed then s else { s with want := .closed, phase := .closing }

/-- `inner.close()` (dispatch.rs 197). -/
def closeInner (s : CSt) : CSt := { s with closed := true, phase := .trying }

/-- `try_recv` and the answer (src/proto/h1/dispatch.rs 732-743). -/
def tryRecv (s : CSt) : CSt :=
  match s.queue with
  | r :: q => { s with queue := q, phase := .idle, log := s.log ++ [r.done (.error true)] }
  | [] => { s with phase := .idle }

/-- The connection is dropped: the callback first, then `Receiver::drop` (dispatch.rs 210-214). -/
def dropRx (s : CSt) : CSt :=
  { s with want := .closed, phase := .dropping, callback := none, log := s.log ++ s.callback.toList.map CReq.drop }

/-- The drop of the queue's receiving half. -/
def dropInner (s : CSt) : CSt := { s.drain with closed := true, phase := .gone }

end CSt

/-- Atomic steps. -/
inductive CAct where
  | submit (retry : Bool)
  | submitUnbounded (retry : Bool)
  | permit (r : CReq)
  | push (r : CReq)
  | dropTx
  | pollMsg (canceled : Bool)
  | pollTask (canceled refused : Bool)
  /-- The queue says that it is empty because the task used up its budget (tokio's cooperative scheduling). -/
  | pollSpurious
  /-- The same in `try_recv`. -/
  | trySpurious
  | finishTask (r : CReq) (o : Option Bool)
  | recvOk
  | recvErr
  | dropRx
  /-- The receiving half goes on with what it was doing. -/
  | continue
  deriving DecidableEq, Repr

namespace CSt

/-- One step; the receiving half does one thing at a time, senders are gone after the last one, and the bounded sender is borrowed
while it sends (it is not `Clone`). -/
def step (s : CSt) (a : CAct) : CSt :=
  match a with
  | .submit b => if s.txGone ∨ s.granted ≠ [] ∨ s.sending ≠ [] then s else s.submit b
  | .submitUnbounded b => if s.txGone then s else s.submitUnbounded b
  | .permit r => s.permit r
  | .push r => s.push r
  | .dropTx => if s.txGone then s else s.dropTx
  | .pollMsg c => if s.phase = .idle then s.pollMsg c else s
  | .pollTask c f => if s.phase = .idle then s.pollTask c f else s
  | .pollSpurious => if s.phase = .idle then { s with phase := .wanting } else s
  | .trySpurious => if s.phase = .trying then { s with phase := .idle } else s
  | .finishTask r o => s.finishTask r o
  | .recvOk => if s.phase = .idle then s.recvOk else s
  | .recvErr => if s.phase = .idle then s.recvErr else s
  | .dropRx => if s.phase = .idle then s.dropRx else s
  | .continue =>
    match s.phase with
    | .wanting => s.asksFor
    | .closing => s.closeInner
    | .trying => s.tryRecv
    | .dropping => s.dropInner
    | _ => s

def run (s : CSt) (as : List CAct) : CSt := as.foldl step s

/-- Everything is over. -/
def over (s : CSt) : Bool := s.phase == .gone && s.txGone && s.tasks.isEmpty

end CSt

end Hyper
