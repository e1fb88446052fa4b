import Verif.Model.Decode

/-! # What the consumer of a body observes -/

namespace Hyper

/-- The observable result of reading a body to its end: the bytes delivered, and whether it ended
cleanly (with trailers, leaving `rest` for the next message), with an error, or not yet. -/
inductive Outcome where
  | complete (data : Bytes) (trailers : Option Fields) (rest : Bytes)
  | failed (data : Bytes) (e : DErr)
  | unexpectedEnd (data : Bytes)
  | waiting (data : Bytes)
  deriving DecidableEq, Repr

/-- Forget how the unread bytes are split between the read buffer and the transport. -/
def BodyOut.view : BodyOut → Outcome
  | .complete d t r => .complete d t r.stream
  | .failed d e => .failed d e
  | .unexpectedEnd d => .unexpectedEnd d
  | .waiting d => .waiting d

/-- The bytes delivered, however the body ended. -/
def Outcome.data : Outcome → Bytes
  | .complete d _ _ => d
  | .failed d _ => d
  | .unexpectedEnd d => d
  | .waiting d => d

end Hyper
