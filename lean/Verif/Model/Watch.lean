/-!
# `src/common/watch.rs`

Two threads, one atomic operation per step: the sender (`watch::Sender`, held by the reader of a body) and the receiver
(`watch::Receiver`, held by the connection's task).  `AtomicWaker` is modelled by the atomic steps of the crate `atomic-waker` 1.1:
a word with the bits `REGISTERING` and `WAKING`, and a slot for the waker that is touched only by whoever holds the bits.
All operations on the value and on the word are taken to be sequentially consistent (watch.rs 52, 67 say so for the value; the
word uses `AcqRel`, of which only the order on that one word is needed).

Every call of `load` brings its own waker, numbered by `gen`; `woken` are the wakers that were woken.
-/

namespace Hyper

namespace Watch

/-- Where the sender is. -/
inductive SPc where
  | idle
  /-- The value was changed; `wake` comes next (watch.rs 52-54). -/
  | changed
  /-- `AtomicWaker::take`: got the bit, takes the waker next. -/
  | taking
  /-- Clears the bit next. -/
  | clearing (w : Option Nat)
  /-- Wakes next. -/
  | waking (w : Option Nat)
  deriving DecidableEq, Repr

/-- Where the receiver is. -/
inductive RPc where
  | idle
  /-- `AtomicWaker::register`: tries to get the bit next (watch.rs 66). -/
  | start
  /-- Stores the waker next. -/
  | storing
  /-- Tries to release the bit next. -/
  | releasing
  /-- Was overtaken by `wake`: takes the waker back next. -/
  | retaking
  /-- Clears the word next. -/
  | clearing (w : Option Nat)
  /-- Wakes it next. -/
  | waking (w : Option Nat)
  /-- Loads the value next (watch.rs 67). -/
  | loading
  deriving DecidableEq, Repr

structure St where
  value : Nat
  registering : Bool := false
  wakingBit : Bool := false
  slot : Option Nat := none
  spc : SPc := .idle
  rpc : RPc := .idle
  /-- The number of the last call of `load`; 0 before the first. -/
  gen : Nat := 0
  /-- What that call returned. -/
  seen : Nat := 0
  woken : List Nat := []
  deriving DecidableEq, Repr

inductive Act where
  /-- `Sender::send` starts (watch.rs 51-55); dropping the sender sends `CLOSED` (watch.rs 58-62). -/
  | send (v : Nat)
  /-- The sender goes on. -/
  | sender
  /-- `Receiver::load` starts (watch.rs 65-68). -/
  | load
  /-- The receiver goes on. -/
  | receiver
  deriving DecidableEq, Repr

namespace St

def wake (s : St) (w : Option Nat) : St := { s with woken := s.woken ++ w.toList }

/-- Steps of the sender. -/
def senderStep (s : St) : St :=
  match s.spc with
  | .idle => s
  | .changed =>
    if s.registering = false ∧ s.wakingBit = false then { s with wakingBit := true, spc := .taking }
    else { s with wakingBit := true, spc := .idle }
  | .taking => { s with slot := none, spc := .clearing s.slot }
  | .clearing w => { s with wakingBit := false, spc := .waking w }
  | .waking w => { s.wake w with spc := .idle }

/-- Steps of the receiver. -/
def receiverStep (s : St) : St :=
  match s.rpc with
  | .idle => s
  | .start =>
    if s.registering = false ∧ s.wakingBit = false then { s with registering := true, rpc := .storing }
    else if s.registering = false then { s.wake (some s.gen) with rpc := .loading }
    else { s with rpc := .loading }
  | .storing => { s with slot := some s.gen, rpc := .releasing }
  | .releasing => if s.wakingBit = false then { s with registering := false, rpc := .loading } else { s with rpc := .retaking }
  | .retaking => { s with slot := none, rpc := .clearing s.slot }
  | .clearing w => { s with registering := false, wakingBit := false, rpc := .waking w }
  | .waking w => { s.wake w with rpc := .loading }
  | .loading => { s with seen := s.value, rpc := .idle }

def step (s : St) (a : Act) : St :=
  match a with
  | .send v => if s.spc = .idle then { s with value := v, spc := if s.value = v then .idle else .changed } else s
  | .sender => s.senderStep
  | .load => if s.rpc = .idle then { s with gen := s.gen + 1, rpc := .start } else s
  | .receiver => s.receiverStep

def run (s : St) (as : List Act) : St := as.foldl step s

end St

/-- `watch::channel` (watch.rs 18-35). -/
def init (v : Nat) : St := { value := v }

end Watch

/-- src/body/incoming.rs 98, 100. -/
def WANT_PENDING : Nat := 1
def WANT_READY : Nat := 2
/-- src/common/watch.rs 16. -/
def CLOSED : Nat := 0

inductive WantPoll where
  | ready
  | pending
  | closed
  | unreachable
  deriving DecidableEq, Repr

/-- `Sender::poll_want` with the value that `load` returned (src/body/incoming.rs 367-374). -/
def pollWant (seen : Nat) : WantPoll :=
  if seen = WANT_READY then .ready
  else if seen = WANT_PENDING then .pending
  else if seen = CLOSED then .closed
  else .unreachable

end Hyper
