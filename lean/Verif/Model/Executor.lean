/-!
# The executor of the C API

`hyper_executor` (`src/ffi/task.rs` 40-75, 189-263, 308-351): a set of tasks driven by `hyper_executor_poll`.  The futures of the tasks are
the adversary's: what polling one does (waking tasks, spawning tasks through `WeakExec`, completing, panicking) is given by an oracle.

`FuturesUnordered` of futures-util (0.3) is modelled after its source: a queue of tasks that are to be polled, a set of all tasks, and the waker
registered by the last `poll_next`.  Simplified: a task that completes after it was woken leaves an empty node in the queue, which the code
passes over; here the node is removed at once.  The inconsistent state of the queue, seen when another thread is just enqueueing, is left out: the
executor is single threaded.
-/

namespace Hyper

/-- What polling a task may do on the way. -/
inductive Eff where
  | wake (i : Nat)
  | spawn
  deriving DecidableEq, Repr

/-- How the poll of a task ends. -/
inductive TaskRes where
  | pending
  | ready (output : Nat)
  | panic
  deriving DecidableEq, Repr

/-- One poll of a task. -/
structure XTurn where
  effs : List Eff
  res : TaskRes
  deriving DecidableEq, Repr

/-- What happened.  Not in the code. -/
inductive XEv where
  | pushed (i : Nat)
  | woken (i : Nat)
  | polled (i : Nat)
  | returned (i : Nat) (output : Nat)
  deriving DecidableEq, Repr

/-- `hyper_executor` (task.rs 54-75) with the tasks numbered as they come: `driver` and `ready` are the `FuturesUnordered` (all its tasks, and the queue
of those to be polled), `registered` whether its `AtomicWaker` holds the executor's waker. -/
structure Exec where
  next : Nat := 0
  driver : List Nat := []
  ready : List Nat := []
  registered : Bool := false
  queue : List Nat := []
  woken : Bool := false
  polls : Nat := 0
  driverPoisoned : Bool := false
  queuePoisoned : Bool := false
  log : List XEv := []
  deriving DecidableEq, Repr

/-- What `FuturesUnordered::poll_next` returns. -/
inductive DOut where
  | done (i : Nat) (output : Nat)
  | empty
  | pending
  | panic
  deriving DecidableEq, Repr

/-- What `hyper_executor_poll` returns; `busy` if it has not returned within the given number of turns of its loop. -/
inductive XOut where
  | task (i : Nat) (output : Nat)
  | null
  | busy
  deriving DecidableEq, Repr

namespace Exec

/-- `hyper_executor::spawn` (task.rs 198-203), when its lock is not poisoned. -/
def spawn (x : Exec) : Exec :=
  { x with next := x.next + 1, queue := x.queue ++ [x.next], log := x.log ++ [.pushed x.next] }

/-- `hyper_executor_push` (task.rs 314-319): `false` if the process is aborted, for the lock is poisoned and the panic is caught without a value
to return (macros.rs 18-23). -/
def push (x : Exec) : Bool × Exec := if x.queuePoisoned then (false, x) else (true, x.spawn)

/-- Waking a task (`Task::wake_by_ref` of futures-util): a task not yet in the queue is put there and the executor's waker is taken and
called, which sets `is_woken` (task.rs 258-262).  The waker of a task that is gone does nothing. -/
def wake (x : Exec) (i : Nat) : Exec :=
  if i ∈ x.driver then
    if i ∈ x.ready then { x with log := x.log ++ [.woken i] }
    else { x with ready := x.ready ++ [i], woken := x.woken || x.registered, registered := false, log := x.log ++ [.woken i] }
  else x

/-- What a poll does on the way. -/
def eff (x : Exec) (e : Eff) : Exec :=
  match e with
  | .wake i => x.wake i
  | .spawn => x.spawn

/-- All of it. -/
def effs (x : Exec) (es : List Eff) : Exec := es.foldl eff x

/-- A task leaves the queue to be polled. -/
def take (x : Exec) (i : Nat) (r : List Nat) : Exec :=
  { x with ready := r, polls := x.polls + 1, log := x.log ++ [.polled i] }

/-- The loop of `FuturesUnordered::poll_next`; `len` is the number of tasks at its beginning.  It polls at most `len` tasks, so it takes no
more turns than that and one. -/
def driverLoop (turns : Nat → XTurn) (len : Nat) : Nat → Nat → Nat → Exec → DOut × Exec
  | 0, _, _, x => (.pending, x)
  | fuel + 1, polled, yielded, x =>
    match x.ready with
    | [] => (if x.driver = [] then .empty else .pending, x)
    | i :: r =>
      match (turns x.polls).res with
      | .ready o =>
        (.done i o, { (x.take i r).effs (turns x.polls).effs with
                      driver := ((x.take i r).effs (turns x.polls).effs).driver.erase i,
                      ready := ((x.take i r).effs (turns x.polls).effs).ready.erase i })
      | .panic => (.panic, (x.take i r).effs (turns x.polls).effs)
      | .pending =>
        if 2 ≤ yielded + (if .wake i ∈ (turns x.polls).effs then 1 else 0) ∨ polled + 1 = len then
          (.pending, { (x.take i r).effs (turns x.polls).effs with woken := true })
        else
          driverLoop turns len fuel (polled + 1) (yielded + if .wake i ∈ (turns x.polls).effs then 1 else 0)
            ((x.take i r).effs (turns x.polls).effs)

/-- `FuturesUnordered::poll_next`. -/
def driverPoll (turns : Nat → XTurn) (x : Exec) : DOut × Exec :=
  driverLoop turns x.driver.length (x.driver.length + 1) 0 0 { x with registered := true }

/-- `hyper_executor::drain_queue` (task.rs 242-255) with a queue that is not empty. -/
def drain (x : Exec) : Exec := { x with driver := x.driver ++ x.queue, ready := x.ready ++ x.queue, queue := [] }

/-- The loop of `hyper_executor::poll_next` (task.rs 216-238). -/
def pollLoop (turns : Nat → XTurn) : Nat → Exec → XOut × Exec
  | 0, x => (.busy, x)
  | fuel + 1, x =>
    match x.driverPoll turns with
    | (.done i o, y) => (.task i o, { y with log := y.log ++ [.returned i o] })
    | (.empty, y) => (.null, y)
    | (.panic, y) => (.null, { y with driverPoisoned := true })
    | (.pending, y) =>
      if y.queue ≠ [] then pollLoop turns fuel y.drain
      else if y.woken then pollLoop turns fuel { y with woken := false }
      else (.null, y)

/-- `hyper_executor_poll` (task.rs 333-339) with `hyper_executor::poll_next` (task.rs 205-238).  Locking a poisoned mutex panics, and the panic is turned
into a null pointer; while the queue is being drained the panic poisons the queue's mutex too. -/
def poll (turns : Nat → XTurn) (fuel : Nat) (x : Exec) : XOut × Exec :=
  if x.queuePoisoned then (.null, x)
  else if x.driverPoisoned then (.null, { x with queuePoisoned := !x.queue.isEmpty })
  else pollLoop turns fuel x.drain

end Exec

/-- The calls of the C program; `poll` with the number of turns it is watched for. -/
inductive XOp where
  | push
  | poll (fuel : Nat)
  | wake (i : Nat)
  deriving DecidableEq, Repr

namespace Exec

/-- One call. -/
def step (turns : Nat → XTurn) (x : Exec) (op : XOp) : Exec :=
  match op with
  | .push => x.push.2
  | .poll fuel => (x.poll turns fuel).2
  | .wake i => x.wake i

/-- A C program.  A call of `hyper_executor_poll` that does not return within its number of turns is cut off there; what is said of the executor afterwards
is said of a moment within that call. -/
def run (turns : Nat → XTurn) (x : Exec) (ops : List XOp) : Exec := ops.foldl (step turns) x

end Exec

end Hyper
