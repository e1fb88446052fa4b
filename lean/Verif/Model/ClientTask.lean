import Verif.Model.Inlet
import Verif.Model.H1Upgrade
import Verif.Model.ClientChan

/-!
# A client's HTTP/1 connection with its queue of requests

`Model/Dispatch.lean` takes what `Client::poll_msg` yields as an input, and `Model/ClientChan.lean` takes what the connection reads as an
input.  Here the two are put together as in `src/proto/h1/dispatch.rs` 663-767: what is written comes from the queue, and what is read goes
to the callback of the request that waits.  While the receiving half is in the middle of an operation on the queue (`CSt.phase`), the
connection does nothing else; the sender may do anything meanwhile.
-/

namespace Hyper

/-- The connection's task, and the queue with both its halves. -/
structure ClientTask where
  fed : Fed ResponseMsg
  chan : CSt := {}

/-- What may happen. -/
inductive TaskAct where
  /-- The sender is given a request (`Sender::can_send`, src/client/dispatch.rs 93-104). -/
  | submit (retry : Bool)
  /-- The two steps of sending on the queue (src/client/dispatch.rs 106-139). -/
  | permit (r : CReq)
  | push (r : CReq)
  /-- The sender is dropped. -/
  | dropTx
  /-- The connection looks at the transport. -/
  | pull
  /-- An act of the connection or of a body's reader.  `canceled` whether the caller of the request that is taken from the queue is gone,
  `spurious` whether tokio makes the queue look empty. -/
  | act (a : Act) (canceled spurious : Bool)
  /-- The receiving half goes on with what it was doing. -/
  | continue (spurious : Bool)

namespace Disp

/-- Whether this turn of `poll_write` asks for the next message (dispatch.rs 360-364). -/
def polls (d : Disp) : Bool := !d.done && !d.closing && !d.bodyRx && d.conn.canWriteHead && d.shouldPoll

end Disp

namespace CSt

/-- What `Client::poll_msg` yields (dispatch.rs 672-707); `what` is the content of a request. -/
def yields (s : CSt) (what : Nat → ReqHead × Option BodyLength) (canceled spurious : Bool) : MsgOut :=
  if spurious then .pending
  else
    match s.queue with
    | r :: _ => if canceled then .none else .req (what r.id).1 (what r.id).2
    | [] => if s.ended then .none else .pending

end CSt

namespace ClientTask

/-- The act with what `poll_msg` yields put in. -/
def given (what : Nat → ReqHead × Option BodyLength) (t : ClientTask) (a : Act) (canceled spurious : Bool) : Act :=
  match a with
  | .write i => .write { i with msg := t.chan.yields what canceled spurious }
  | a => a

/-- The head that this turn of `poll_read` gets from the connection (dispatch.rs 311). -/
def headOut (env : EncodeEnv) (H : HeadFn ResponseMsg) (t : ClientTask) (i : ReadIn) : HeadOut :=
  (t.fed.disp.conn.pollReadHead env i.t0 i.t1 (t.fed.readIn H i).parse i.notify t.fed.disp.headId).1

/-- What an act of the connection does to the queue and the callback: `poll_msg` (dispatch.rs 364), `recv_msg` with a response (332), with the
error of a head (336), with the error that ends the connection (138), and the drop of the connection. -/
def effect (env : EncodeEnv) (P : TrailerParser) (H : HeadFn ResponseMsg) (t : ClientTask) (a : Act) (canceled spurious : Bool) : Option CAct :=
  if t.fed.disp.done then
    match a with
    | .drop => some .dropRx
    | _ => none
  else
    match a with
    | .read i =>
      if t.fed.disp.parses i then
        match t.headOut env H i with
        | .msg _ => some .recvOk
        | .err => some .recvErr
        | .timeout => some .recvErr
        | _ => none
      else if (t.fed.step env P H (.act a)).disp.done then some .recvErr else none
    | .write _ =>
      if t.fed.disp.polls then some (if spurious then .pollSpurious else .pollMsg canceled)
      else if (t.fed.step env P H (.act a)).disp.done then some .recvErr else none
    | .flush _ _ => if (t.fed.step env P H (.act a)).disp.done then some .recvErr else none
    | .finish s f => if t.fed.disp.result s f = .error then some .recvErr else none
    | .drop => some .dropRx
    | _ => none

/-- Whether an act is one of a body's reader, which may come at any time. -/
def readers : Act → Bool
  | .want _ => true
  | .dropReader _ => true
  | _ => false

/-- The queue after an operation, if there was one. -/
def onQueue (s : CSt) (c : Option CAct) : CSt :=
  match c with
  | some c => s.step c
  | none => s

/-- One act. -/
def step (env : EncodeEnv) (P : TrailerParser) (H : HeadFn ResponseMsg) (what : Nat → ReqHead × Option BodyLength) (t : ClientTask) (a : TaskAct) :
    ClientTask :=
  match a with
  | .submit b => { t with chan := t.chan.step (.submit b) }
  | .permit r => { t with chan := t.chan.step (.permit r) }
  | .push r => { t with chan := t.chan.step (.push r) }
  | .dropTx => { t with chan := t.chan.step .dropTx }
  | .pull => if t.chan.phase = .idle then { t with fed := t.fed.step env P H .pull } else t
  | .act a c s =>
    if t.chan.phase = .idle ∨ readers a then
      { fed := t.fed.step env P H (.act (t.given what a c s)), chan := onQueue t.chan (t.effect env P H (t.given what a c s) c s) }
    else t
  | .continue s => { t with chan := t.chan.step (if s && t.chan.phase == .trying then .trySpurious else .continue) }

def run (env : EncodeEnv) (P : TrailerParser) (H : HeadFn ResponseMsg) (what : Nat → ReqHead × Option BodyLength) (t : ClientTask) (as : List TaskAct) :
    ClientTask := as.foldl (fun t a => t.step env P H what a) t

end ClientTask

end Hyper
