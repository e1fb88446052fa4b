import Verif.Model.Bytes

/-!
# `src/proto/h2/upgrade.rs`: the write side of an upgraded stream

Two threads: the user (`H2Upgraded` with its `UpgradedSendStreamBridge`) and the task that owns the stream (`UpgradedSendStreamTask`).
`UpgradedCloseNotify` goes by single atomic operations, with `AtomicWaker` as in `Verif.Model.Watch`.  One call of the channel
(`futures_channel::mpsc`) is one step: what is accepted is queued, sending and closing wake the waker left by the last pending
`poll_next`, `size_hint` is the number of queued items.  The channel is taken to be unbounded, which allows more than the real one.
The stream of the `h2` crate has capacity or not, as the environment decides at any moment; gaining it wakes the waker of the last
pending `poll_capacity`.  It may fail at any time.  Every `poll` of the task brings its own waker, numbered by `gen`.
-/

namespace Hyper

namespace Up

/-- Where the user's thread is. -/
inductive UPc where
  | idle
  /-- `close` stores `closed` next (upgrade.rs 81). -/
  | store
  /-- `close` wakes next (upgrade.rs 82); the four steps of `AtomicWaker::wake`. -/
  | wake
  | taking
  | clearing (w : Option Nat)
  | waking (w : Option Nat)
  /-- `UpgradedSendStreamBridge` is dropped: after `drop` (upgrade.rs 62-64) its field `tx` goes. -/
  | dropTx
  | gone
  deriving DecidableEq, Repr

/-- Where the task is in `tick` (upgrade.rs 118-204). -/
inductive TPc where
  | idle
  /-- Head of the loop: capacity and reset (upgrade.rs 129-166). -/
  | head
  /-- No capacity: `size_hint` next (upgrade.rs 177). -/
  | hint
  /-- `poll_closed`: first load next (upgrade.rs 86). -/
  | closed1
  /-- `AtomicWaker::register` (upgrade.rs 90). -/
  | start
  | storing
  | releasing
  | retaking
  | clearing (w : Option Nat)
  | waking (w : Option Nat)
  /-- `poll_closed`: second load next (upgrade.rs 92). -/
  | closed2
  /-- Capacity: `poll_next` next (upgrade.rs 187). -/
  | next
  /-- The final frame is sent next (upgrade.rs 178-181, 194-197). -/
  | finish
  deriving DecidableEq, Repr

/-- How the last `poll` came to return `Pending`; only the proofs look at it. -/
inductive Ended where
  | never | queued | open | waiting
  deriving DecidableEq, Repr

structure St where
  queue : List Bytes := []
  txOpen : Bool := true
  closed : Bool := false
  registering : Bool := false
  wakingBit : Bool := false
  slot : Option Nat := none
  upc : UPc := .idle
  dropping : Bool := false
  tpc : TPc := .idle
  gen : Nat := 0
  ended : Ended := .never
  cap : Bool := false
  /-- The waker left with the stream for capacity. -/
  capReg : Option Nat := none
  /-- The waker left with the channel. -/
  rxReg : Option Nat := none
  /-- The task is over, with or without an error. -/
  done : Bool := false
  /-- What the writes accepted. -/
  accepted : List Bytes := []
  /-- The data frames given to the stream. -/
  sent : List Bytes := []
  /-- The number of frames with the end of stream given to it. -/
  eos : Nat := 0
  woken : List Nat := []
  deriving DecidableEq, Repr

inductive Act where
  /-- `poll_write` (upgrade.rs 264-305) with a channel that is ready. -/
  | write (bs : Bytes)
  /-- `poll_shutdown` (upgrade.rs 326-337) begins: `close_channel`. -/
  | shutdown
  /-- The user drops the stream. -/
  | drop
  /-- The user's thread goes on. -/
  | user
  /-- The task is polled. -/
  | poll
  /-- The task goes on. -/
  | task
  /-- The stream fails under the task, or is reset. -/
  | fail
  /-- The stream gains or loses capacity. -/
  | capacity (b : Bool)
  deriving DecidableEq, Repr

namespace St

def wake (s : St) (w : Option Nat) : St := { s with woken := s.woken ++ w.toList }

/-- A send or a close on the channel wakes its receiver. -/
def wakeRx (s : St) : St := { s.wake s.rxReg with rxReg := none }

def userStep (s : St) : St :=
  match s.upc with
  | .idle => s
  | .store => { s with closed := true, upc := .wake }
  | .wake =>
    if s.registering = false ∧ s.wakingBit = false then { s with wakingBit := true, upc := .taking }
    else { s with wakingBit := true, upc := if s.dropping then .dropTx else .idle }
  | .taking => { s with slot := none, upc := .clearing s.slot }
  | .clearing w => { s with wakingBit := false, upc := .waking w }
  | .waking w => { s.wake w with upc := if s.dropping then .dropTx else .idle }
  | .dropTx => { s.wakeRx with txOpen := false, upc := .gone }
  | .gone => s

/-- `UpgradedSendStreamTask::tick` (upgrade.rs 118-204) and `UpgradedCloseNotify::poll_closed` (upgrade.rs 85-97). -/
def taskStep (s : St) : St :=
  match s.tpc with
  | .idle => s
  | .head => if s.cap then { s with tpc := .next } else { s with capReg := some s.gen, tpc := .hint }
  | .hint => if s.queue = [] then { s with tpc := .closed1 } else { s with ended := .queued, tpc := .idle }
  | .closed1 => if s.closed then { s with tpc := .finish } else { s with tpc := .start }
  | .start =>
    if s.registering = false ∧ s.wakingBit = false then { s with registering := true, tpc := .storing }
    else if s.registering = false then { s.wake (some s.gen) with tpc := .closed2 }
    else { s with tpc := .closed2 }
  | .storing => { s with slot := some s.gen, tpc := .releasing }
  | .releasing => if s.wakingBit = false then { s with registering := false, tpc := .closed2 } else { s with tpc := .retaking }
  | .retaking => { s with slot := none, tpc := .clearing s.slot }
  | .clearing w => { s with registering := false, wakingBit := false, tpc := .waking w }
  | .waking w => { s.wake w with tpc := .closed2 }
  | .closed2 => if s.closed then { s with tpc := .finish } else { s with ended := .waiting, tpc := .idle }
  | .next =>
    match s.queue with
    | bs :: rest => { s with queue := rest, sent := s.sent ++ [bs], tpc := .head }
    | [] => if s.txOpen then { s with rxReg := some s.gen, ended := .open, tpc := .idle } else { s with tpc := .finish }
  | .finish => { s with eos := s.eos + 1, done := true, tpc := .idle }

def step (s : St) (a : Act) : St :=
  match a with
  | .write bs =>
    if s.upc = .idle ∧ s.txOpen = true ∧ s.done = false then
      { s.wakeRx with queue := s.queue ++ [bs], accepted := s.accepted ++ [bs] }
    else s
  | .shutdown => if s.upc = .idle then { s.wakeRx with txOpen := false, upc := .store } else s
  | .drop => if s.upc = .idle then { s with dropping := true, upc := .store } else s
  | .user => s.userStep
  | .poll => if s.tpc = .idle ∧ s.done = false then { s with gen := s.gen + 1, tpc := .head } else s
  | .task => s.taskStep
  | .fail => if s.tpc = .head ∨ s.tpc = .finish ∨ s.tpc = .next then { s with done := true, tpc := .idle } else s
  | .capacity b => if b then { s.wake s.capReg with capReg := none, cap := true } else { s with cap := false }

def run (s : St) (as : List Act) : St := as.foldl step s

end St

/-- `pair` (upgrade.rs 19-46). -/
def init : St := {}

end Up

end Hyper
