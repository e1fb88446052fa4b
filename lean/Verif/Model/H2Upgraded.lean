import Verif.Model.H2Upgrade
import Verif.Model.ReadBuf

/-!
# `H2Upgraded` (`src/proto/h2/upgrade.rs`): the two halves as their user sees them

The read half is a function of what the stream of the `h2` crate answers.  The write half adds to `Verif.Model.H2Upgrade` what the
user's calls return: the bound of the channel, the channel for the task's error, and the moment at which the finished task is dropped.
-/

namespace Hyper

/-! ## Reading -/

namespace UpRd

/-- One answer of `RecvStream::poll_data`: data, with what `is_end_stream` says after it, or a failure, with the reason of the
peer's or the connection's, if that is what it is, and whether it comes from the transport. -/
inductive Ev where
  | pending
  | data (bs : Bytes) (eos : Bool)
  | error (reason : Option Nat) (io : Bool)
  deriving DecidableEq, Repr

/-- `Poll<Result<(), io::Error>>`, with the kind of the error; `transport` is an error passed on as it is. -/
inductive Res where
  | ready
  | pending
  | brokenPipe
  | other
  | transport
  deriving DecidableEq, Repr

/-- `h2::Reason::{NO_ERROR, STREAM_CLOSED, CANCEL}`. -/
def NO_ERROR : Nat := 0
def STREAM_CLOSED : Nat := 5
def CANCEL : Nat := 8

/-- `H2Upgraded` (upgrade.rs 48-53) without its write half; what the stream has still to say, after which it is at its end; and two
counts, of the bytes told to `Recorder::record_data` and to `release_capacity`. -/
structure St where
  buf : Bytes := []
  stream : List Ev := []
  recorded : Nat := 0
  released : Nat := 0
  deriving DecidableEq, Repr

/-- upgrade.rs 244-252 and `h2_to_io_error` (upgrade.rs 344-351).  An error that `is_io` has no reason. -/
def onError (reason : Option Nat) (io : Bool) : Res :=
  if reason = some NO_ERROR ∨ reason = some CANCEL then .ready
  else if reason = some STREAM_CLOSED then .brokenPipe
  else if io then .transport
  else .other

/-- upgrade.rs 256-260. -/
def deliver (s : St) (b : ReadBuf) : Res × St × OrPanic ReadBuf :=
  let cnt := min s.buf.length b.remaining
  (.ready, { s with buf := s.buf.drop cnt, released := s.released + cnt }, b.putSlice (s.buf.take cnt))

/-- The loop of `poll_read` (upgrade.rs 236-254) over the stream's answers, and what follows it. -/
def fetch (s : St) (b : ReadBuf) : List Ev → Res × St × OrPanic ReadBuf
  | [] => (.ready, { s with stream := [] }, ⟨false, b⟩)
  | .pending :: t => (.pending, { s with stream := t }, ⟨false, b⟩)
  | .error reason io :: t => (onError reason io, { s with stream := t }, ⟨false, b⟩)
  | .data bs eos :: t =>
    if bs = [] ∧ eos = false then fetch s b t
    else deliver { s with buf := bs, stream := t, recorded := s.recorded + bs.length } b

/-- `impl Read for H2Upgraded` (upgrade.rs 229-262). -/
def pollRead (s : St) (b : ReadBuf) : Res × St × OrPanic ReadBuf :=
  if s.buf = [] then fetch s b s.stream else deliver s b

end UpRd

/-! ## Writing -/

namespace UpWr

/-- What a call of the user's returned. -/
inductive Reply where
  | ok (n : Nat)
  | pending
  /-- The error the task sent. -/
  | failed
  | brokenPipe
  deriving DecidableEq, Repr

inductive Call where
  | write (bs : Bytes)
  | flush
  | shutdown
  deriving DecidableEq, Repr

structure St where
  up : Up.St := {}
  /-- The sender waits for a free slot.  `mpsc::channel(1)` with one sender: that is so from the moment a send makes the number of
  queued messages exceed 1 until the receiver takes one. -/
  parked : Bool := false
  /-- `tick` ended in an error, which was sent (upgrade.rs 216-219). -/
  failed : Bool := false
  /-- The error waits in the `oneshot` channel. -/
  slot : Bool := false
  /-- The task was dropped, and with it the receiver and the error's sender. -/
  gone : Bool := false
  /-- It was dropped before it had ended. -/
  abandoned : Bool := false
  log : List (Call × Reply) := []
  deriving DecidableEq, Repr

inductive Act where
  /-- A call of `poll_write` or `poll_flush`; `poll_shutdown` up to the storing of `closed` begins with `shut`. -/
  | write (bs : Bytes)
  | flush
  | shut
  /-- `poll_shutdown` goes on after `close` has returned (upgrade.rs 332-336). -/
  | shutEnd
  /-- The user drops the stream. -/
  | drop
  | user
  | poll
  | task
  | fail
  | capacity (b : Bool)
  /-- The executor drops the task. -/
  | release
  deriving DecidableEq, Repr

namespace St

def reply (s : St) (c : Call) (r : Reply) : St := { s with log := s.log ++ [(c, r)] }

/-- Polling `error_rx` (upgrade.rs 279-285, 296-302, 316-320, 332-336), a cancelled one meaning `cancelled`.  An error is taken out; the sender
is gone when it has sent, or with the task. -/
def pollError (s : St) (c : Call) (cancelled : Reply) : St :=
  if s.slot then ({ s with slot := false }).reply c .failed
  else if s.failed || s.gone then s.reply c cancelled
  else s.reply c .pending

/-- `Sender::poll_ready` fails when the receiver is gone or the channel was closed (upgrade.rs 274, 311). -/
def disconnected (s : St) : Bool := s.gone || !s.up.txOpen

/-- `poll_write` (upgrade.rs 264-305).  That the receiver goes away between `poll_ready` and `start_send` has the same result as if it had gone
before, so both are one step.  A task that has ended but is not yet dropped takes nothing out of the channel. -/
def write (s : St) (bs : Bytes) : St :=
  if bs = [] then s.reply (.write bs) (.ok 0)
  else if s.disconnected then s.pollError (.write bs) .brokenPipe
  else if s.parked then s.reply (.write bs) .pending
  else
    { ({ s with
          up := { s.up.wakeRx with queue := s.up.queue ++ [bs], accepted := s.up.accepted ++ [bs] }
          parked := decide (s.up.queue.length + 1 > 1) } : St) with log := s.log ++ [(.write bs, .ok bs.length)] }

/-- `poll_flush` (upgrade.rs 307-324). -/
def flush (s : St) : St :=
  if s.disconnected then s.pollError .flush (.ok 0)
  else if s.parked then s.reply .flush .pending
  else s.reply .flush (.ok 0)

/-- One step of the task; taking a message out of the channel frees the sender. -/
def task (s : St) : St :=
  { s with up := s.up.step .task, parked := s.parked && !(s.up.tpc = .next ∧ s.up.queue ≠ []) }

/-- The user's calls are made when no other is under way. -/
def free (s : St) : Bool := s.up.upc = .idle

def step (s : St) (a : Act) : St :=
  match a with
  | .write bs => if s.free then s.write bs else s
  | .flush => if s.free then s.flush else s
  | .shut => if s.free then { s with up := s.up.step .shutdown } else s
  | .shutEnd => if s.free && !s.up.txOpen then s.pollError .shutdown (.ok 0) else s
  | .drop => { s with up := s.up.step .drop }
  | .user => { s with up := s.up.step .user }
  | .poll => if s.gone then s else { s with up := s.up.step .poll }
  | .task => if s.gone then s else s.task
  | .fail =>
    if s.gone = false ∧ (s.up.tpc = .head ∨ s.up.tpc = .finish ∨ s.up.tpc = .next) then
      { s with up := s.up.step .fail, failed := true, slot := true }
    else s
  | .capacity b => { s with up := s.up.step (.capacity b) }
  | .release =>
    if s.up.tpc = .idle ∧ s.gone = false then { s with gone := true, abandoned := !s.up.done } else s

def run (s : St) (as : List Act) : St := as.foldl step s

end St

end UpWr

end Hyper
