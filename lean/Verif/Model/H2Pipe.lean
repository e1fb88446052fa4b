import Verif.Model.Bytes

/-!
# `src/proto/h2/mod.rs`: `PipeToSendStream`

The stream of the `h2` crate and the user's body are an environment that decides every answer.  One `step` is one iteration of
the loop of `poll` (mod.rs 142-259).  An iteration that ends in `Poll::Pending` leaves the state as it is, and the next `poll`
starts at the head of the loop, so the iterations of all polls together are one sequence.
-/

namespace Hyper

namespace Pipe

/-- One error of a chain of causes: an `h2::Error`, whose `reason()` may be absent, or another. -/
inductive Cause where
  | other
  | h2 (reason : Option Nat)
  deriving DecidableEq, Repr

/-- `Error::h2_reason` (src/error.rs 353-359) on the causes of the error, outermost first; 2 is `INTERNAL_ERROR`. -/
def h2Reason : List Cause → Nat
  | [] => 2
  | .other :: cs => h2Reason cs
  | .h2 r :: _ => r.getD 2

/-- The trailers are opaque. -/
abbrev Trailers := List (Bytes × Bytes)

/-- A frame the body gives; data comes with what `is_end_stream` says after it. -/
inductive UFrame where
  | data (bs : Bytes) (eos : Bool)
  | trailers (t : Trailers)
  /-- Neither data nor trailers. -/
  | other
  deriving DecidableEq, Repr

/-- `Body::poll_frame`. -/
inductive BodyPoll where
  | pending
  | frame (f : UFrame)
  | error (causes : List Cause)
  | none
  deriving DecidableEq, Repr

/-- `SendStream::poll_capacity`. -/
inductive CapPoll where
  | pending
  | ok (n : Nat)
  | err
  | none
  deriving DecidableEq, Repr

/-- `SendStream::poll_reset`. -/
inductive ResetPoll where
  | pending
  | reset (reason : Nat)
  | err
  deriving DecidableEq, Repr

/-- What the stream is told. -/
inductive OFrame where
  /-- `send_data` -/
  | data (bs : Bytes) (eos : Bool)
  /-- `send_trailers`, which ends the stream. -/
  | trailers (t : Trailers)
  /-- `send_reset` -/
  | reset (reason : Nat)
  deriving DecidableEq, Repr

/-- The result of the future. -/
inductive Res where
  | ok
  | writeErr
  | userErr
  deriving DecidableEq, Repr

/-- The answers of one iteration. -/
structure In where
  reset : ResetPoll := .pending
  /-- `capacity()` (mod.rs 161). -/
  capacity : Nat := 0
  /-- The answers of `poll_capacity`, as many as are asked for; when they run out, it is pending. -/
  caps : List CapPoll := []
  body : BodyPoll := .pending
  /-- `send_data` or `send_trailers` succeeds. -/
  sendOk : Bool := true
  deriving DecidableEq, Repr

structure St where
  buffered : Option (Bytes × Bool) := none
  /-- What was given to the stream. -/
  out : List OFrame := []
  res : Option Res := none
  /-- What the body gave, for the specification. -/
  given : List UFrame := []
  /-- What `reserve_capacity` was last called with. -/
  reserved : Nat := 0
  deriving DecidableEq, Repr

/-- How the wait for capacity ends. -/
inductive CapOut where
  | go
  | pending
  | fail
  deriving DecidableEq, Repr

/-- `while me.body_tx.capacity() == 0 { .. }` (mod.rs 161-175).  After an answer `Ok(0)` the capacity is still 0. -/
def waitCap : List CapPoll → CapOut
  | [] => .pending
  | .pending :: _ => .pending
  | .ok 0 :: cs => waitCap cs
  | .ok (_ + 1) :: _ => .go
  | .err :: _ => .fail
  | .none :: _ => .fail

namespace St

/-- `send_data(buf, eos)`, and `Ok(())` if it was the last frame (mod.rs 178-186, 208-216, 280-284). -/
def send (s : St) (bs : Bytes) (eos ok : Bool) : St :=
  if ok then { s with out := s.out ++ [.data bs eos], res := if eos then some .ok else none }
  else { s with res := some .writeErr }

/-- mod.rs 160-187, with a chunk in hand. -/
def sendBuffered (s : St) (i : In) (bs : Bytes) (eos : Bool) : St :=
  if i.capacity = 0 then
    match waitCap i.caps with
    | .pending => s
    | .fail => { s with res := some .writeErr }
    | .go => { s with buffered := none }.send bs eos i.sendOk
  else { s with buffered := none }.send bs eos i.sendOk

/-- mod.rs 195-257. -/
def pollBody (s : St) (i : In) : St :=
  match i.body with
  | .pending => s
  | .frame (.data bs eos) =>
    if bs.length = 0 then { s with given := s.given ++ [UFrame.data bs eos] }.send bs eos i.sendOk
    else { s with given := s.given ++ [.data bs eos], reserved := 1, buffered := some (bs, eos) }
  | .frame (.trailers t) =>
    if i.sendOk then { s with given := s.given ++ [.trailers t], reserved := 0, out := s.out ++ [.trailers t], res := some .ok }
    else { s with given := s.given ++ [.trailers t], reserved := 0, res := some .writeErr }
  | .frame .other => { s with given := s.given ++ [.other] }
  | .error causes => { s with out := s.out ++ [.reset (h2Reason causes)], res := some .userErr }
  | .none => s.send [] true i.sendOk

/-- One iteration of the loop of `PipeToSendStream::poll` (mod.rs 142-259). -/
def step (s : St) (i : In) : St :=
  match s.res with
  | some _ => s
  | none =>
    match i.reset with
    | .reset _ => { s with res := some .writeErr }
    | .err => { s with res := some .writeErr }
    | .pending =>
      match s.buffered with
      | some (bs, eos) => s.sendBuffered i bs eos
      | none => s.pollBody i

def run (s : St) (is : List In) : St := is.foldl step s

end St

/-- `PipeToSendStream::new` (mod.rs 120-127). -/
def init : St := {}

end Pipe

end Hyper
