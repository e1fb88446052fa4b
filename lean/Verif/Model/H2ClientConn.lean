/-!
# The client's side of an HTTP/2 connection, with all its requests

`ClientTask` and `ConnTask` (`src/proto/h2/client.rs` 297-365, 424-435, 528-599, 666-795), the channel through which the requests come
(`src/client/dispatch.rs` 108-260) and the tasks that are started for each request: `PipeMap`, which sends its body, and `SendWhen`, which waits for its
response.  What is inside those two is the subject of Model/H2Client; here they are there until they end, and what they end with is the adversary's choice, as
is everything h2 says.
-/

namespace Hyper

namespace H2Conn

/-- What is known of a request: whether it is a CONNECT, a CONNECT that announces a body, and whether its body is empty from the beginning. -/
structure Kind where
  connect : Bool := false
  invalid : Bool := false
  eos : Bool := false
  deriving DecidableEq, Repr

/-- What the caller of a request is told (client.rs 614-657, 727-732, 740-748, 766-772; dispatch.rs 218-254). -/
inductive Told where
  /-- what `SendWhen` was given -/
  | response
  | failed
  /-- a CONNECT with a body -/
  | refused
  /-- `send_request` or the `poll_ready` after it failed -/
  | notSent
  /-- the envelope was dropped; the request comes back -/
  | returned
  /-- the callback was dropped -/
  | gone
  deriving DecidableEq, Repr

/-- How the `ClientTask` ended: well, with an error, or because it was dropped. -/
inductive End where
  | shutdown
  | failed
  | dropped
  deriving DecidableEq, Repr

/-- What happened.  Not in the code. -/
inductive Ev where
  /-- the request was put into the channel -/
  | queued (i : Nat)
  /-- its caller stopped waiting -/
  | left (i : Nat)
  /-- it was taken from the channel and dropped, for its caller was gone -/
  | passed (i : Nat)
  /-- h2 was given it: `send_request` was called -/
  | opened (i : Nat)
  /-- its tasks were started -/
  | started (i : Nat)
  /-- its caller was told -/
  | told (i : Nat) (t : Told)
  /-- the `ClientTask` ended -/
  | ended (e : End)
  /-- the `ConnTask` learned that no one uses the connection -/
  | unused
  /-- the `ConnTask` ended -/
  | closed
  deriving DecidableEq, Repr

/-- The connection.  `task` is `none` while the `ClientTask` runs; `held` is its `fut_ctx`; `pipes` and `sends` are the tasks it started; `conn` whether
the `ConnTask` runs, `dropped` whether its `drop_rx` is terminated, `eofTx` whether its `cancel_tx` is there; `panicked` whether one of the two `expect`s
failed. -/
structure Cl where
  sent : Nat := 0
  senders : Bool := true
  queue : List Nat := []
  left : List Nat := []
  held : Option Nat := none
  sends : List Nat := []
  pipes : List Nat := []
  task : Option End := none
  conn : Bool := true
  dropped : Bool := false
  eofTx : Bool := true
  panicked : Bool := false
  log : List Ev := []
  deriving DecidableEq, Repr

/-- What `poll_ready` of h2 says: an error with reason NO_ERROR (`graceful`) or another; `timedOut` what `ensure_not_timed_out` says. -/
inductive Ready where
  | pending
  | ok
  | err (graceful timedOut : Bool)
  deriving DecidableEq, Repr

/-- What h2 and the body of the request say in one turn of the `ClientTask`'s loop: the first `poll_ready`, whether `send_request` succeeds, the second
`poll_ready`, and whether the first poll of the body's pipe ends it. -/
structure Turn where
  ready : Ready
  sendOk : Bool := true
  again : Ready := .ok
  piped : Bool := false
  deriving DecidableEq, Repr

namespace Cl

def note (c : Cl) (e : Ev) : Cl := { c with log := c.log ++ [e] }

/-- The caller is told. -/
def tell (c : Cl) (i : Nat) (t : Told) : Cl := c.note (.told i t)

/-- `UnboundedSender::try_send` and `send` (dispatch.rs 148-164).  If the receiver is gone the request comes back at once. -/
def send (c : Cl) : Cl :=
  if c.senders = false then c
  else if c.task = none then { c with sent := c.sent + 1, queue := c.queue ++ [c.sent], log := c.log ++ [.queued c.sent] }
  else { c with sent := c.sent + 1, log := c.log ++ [.queued c.sent, .told c.sent .returned] }

/-- The caller of a request drops its future. -/
def leave (c : Cl) (i : Nat) : Cl :=
  if i < c.sent then { c with left := i :: c.left, log := c.log ++ [.left i] } else c

/-- All that is in the channel is dropped, in order (dispatch.rs 215-225). -/
def returnAll (l : List Nat) : List Ev := l.map (fun i => .told i .returned)

/-- The callback of a saved `FutCtx` is dropped (dispatch.rs 234-254). -/
def dropHeld : Option Nat → List Ev
  | none => []
  | some i => [.told i .gone]

/-- The `ClientTask` ends and is dropped, with the receiver, the saved `FutCtx` and the `conn_drop_ref`.  The order in which its fields are dropped is that of
their declaration (client.rs 429-435). -/
def finish (c : Cl) (e : End) : Cl :=
  { c with task := some e, queue := [], held := none, log := c.log ++ [.ended e] ++ returnAll c.queue ++ dropHeld c.held }

/-- `poll_pipe` (client.rs 536-598). -/
def start (kind : Nat → Kind) (c : Cl) (i : Nat) (piped : Bool) : Cl :=
  { c with
    pipes := if (kind i).connect || (kind i).eos || piped then c.pipes else c.pipes ++ [i]
    sends := c.sends ++ [i]
    log := c.log ++ [.started i] }

/-- A request is taken from the channel (client.rs 698-774); the flag is whether the loop goes on. -/
def take (kind : Nat → Kind) (c : Cl) (i : Nat) (q : List Nat) (t : Turn) : Bool × Cl :=
  if i ∈ c.left then (true, { c with queue := q, log := c.log ++ [.passed i] })
  else if (kind i).invalid then (true, { c with queue := q, log := c.log ++ [.told i .refused] })
  else if t.sendOk = false then (true, { c with queue := q, log := c.log ++ [.opened i, .told i .notSent] })
  else
    match t.again with
    | .pending => (false, { c with queue := q, held := some i, log := c.log ++ [.opened i] })
    | .ok => (true, start kind { c with queue := q, log := c.log ++ [.opened i] } i t.piped)
    | .err _ _ => (true, { c with queue := q, log := c.log ++ [.opened i, .told i .notSent] })

/-- One turn of the loop (client.rs 676-793). -/
def turn (kind : Nat → Kind) (c : Cl) (t : Turn) : Bool × Cl :=
  match t.ready with
  | .pending => (false, c)
  | .err graceful timedOut => (false, c.finish (if graceful && !timedOut then .shutdown else .failed))
  | .ok =>
    match c.held with
    | some i => (true, start kind { c with held := none } i t.piped)
    | none =>
      match c.queue with
      | i :: q => take kind c i q t
      | [] =>
        if c.senders = false then (false, c.finish .shutdown)
        else if c.eofTx then (false, c)
        else (false, c.finish .shutdown)

/-- `ClientTask::poll` (client.rs 675-794); where the given turns end, `poll_ready` is pending. -/
def pollTask (kind : Nat → Kind) : Cl → List Turn → Cl
  | c, [] => c
  | c, t :: ts =>
    match turn kind c t with
    | (true, c') => pollTask kind c' ts
    | (false, c') => c'

/-- `SendWhen::poll` when it ends (dispatch.rs 356-385), or its being dropped. -/
def endSend (c : Cl) (i : Nat) (t : Told) : Cl :=
  if i ∈ c.sends then { c with sends := c.sends.erase i, log := c.log ++ [.told i t] } else c

/-- `PipeMap::poll` when it ends (client.rs 476-512), or its being dropped. -/
def endPipe (c : Cl) (i : Nat) : Cl :=
  if i ∈ c.pipes then { c with pipes := c.pipes.erase i } else c

/-- Whether someone holds a `conn_drop_ref`: the `ClientTask` or a `PipeMap`. -/
def inUse (c : Cl) : Bool := c.task.isNone || !c.pipes.isEmpty

/-- `ConnTask::poll` (client.rs 343-364); `over` whether the connection's poll is ready.  When it ends it is dropped, and its `cancel_tx` with it. -/
def pollConn (c : Cl) (over : Bool) : Cl :=
  if c.conn = false then c
  else if over then { c with conn := false, eofTx := false, log := c.log ++ [.closed] }
  else if c.dropped || c.inUse then c
  else { c with dropped := true, panicked := c.panicked || !c.eofTx, eofTx := false, log := c.log ++ [.unused] }

end Cl

/-- What may happen, in any order. -/
inductive Op where
  | send
  | leave (i : Nat)
  | dropSenders
  | pollTask (ts : List Turn)
  | dropTask
  | endSend (i : Nat) (t : Told)
  | endPipe (i : Nat)
  | pollConn (over : Bool)
  deriving DecidableEq, Repr

namespace Cl

/-- One event; a `ClientTask` that has ended is not polled. -/
def step (kind : Nat → Kind) (c : Cl) (op : Op) : Cl :=
  match op with
  | .send => c.send
  | .leave i => c.leave i
  | .dropSenders => { c with senders := false }
  | .pollTask ts => if c.task = none then pollTask kind c ts else c
  | .dropTask => if c.task = none then c.finish .dropped else c
  | .endSend i t => c.endSend i t
  | .endPipe i => c.endPipe i
  | .pollConn over => c.pollConn over

def run (kind : Nat → Kind) (c : Cl) (ops : List Op) : Cl := ops.foldl (step kind) c

end Cl

end H2Conn

end Hyper
