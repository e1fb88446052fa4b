import Verif.Model.H2Reader
import Verif.Model.H2Pipe

/-!
# An HTTP/2 body that is handed on

The user gives the body of a message received over HTTP/2 (`src/body/incoming.rs`) as the body of one they send (`PipeToSendStream`, `src/proto/h2/mod.rs`),
unchanged, as a proxy does.
-/

namespace Hyper

/-- What the reader answers to the next poll. -/
def H2Reader.answer (r : H2Reader) : FrameOut := r.poll.outs.getLast?.getD .pending

/-- The answers of one iteration of the pipe; its body's are those of the reader.  `sees` is whether the stream already knows that it has ended when
`is_end_stream` asks (incoming.rs 294), `causes` are the causes of the error a reset is turned into. -/
structure RelayIn where
  inp : Pipe.In
  sees : Bool := true
  causes : List Pipe.Cause := [.other, .h2 none]
  deriving DecidableEq, Repr

structure Relay where
  reader : H2Reader
  pipe : Pipe.St := Pipe.init
  deriving DecidableEq, Repr

namespace Relay

/-- `Incoming::poll_frame` (incoming.rs 199-287) as the answer of a body, with `is_end_stream` (incoming.rs 289-298); the panic does not happen (C73). -/
def bodyOf (o : FrameOut) (eos : Bool) (causes : List Pipe.Cause) : Pipe.BodyPoll :=
  match o with
  | .pending => .pending
  | .data bs => .frame (.data bs eos)
  | .trailers fs => .frame (.trailers fs)
  | .error => .error causes
  | .none => .none
  | .panic => .pending

/-- One iteration of the loop of `PipeToSendStream::poll` (mod.rs 142-259), which polls the reader if nothing is waiting to be sent (mod.rs 195). -/
def step (x : Relay) (i : RelayIn) : Relay :=
  if x.pipe.res = none ∧ i.inp.reset = .pending ∧ x.pipe.buffered = none then
    { reader := x.reader.poll,
      pipe := x.pipe.step { i.inp with body := bodyOf x.reader.answer (i.sees && x.reader.poll.recv.isEmpty) i.causes } }
  else { x with pipe := x.pipe.step i.inp }

def run (x : Relay) (is : List RelayIn) : Relay := is.foldl step x

/-- A relay of the stream `evs`, announced as `len`. -/
def start (len : DecodedLength) (eos : Bool) (evs : List RecvEv) : Relay := { reader := H2Reader.start len eos evs }

end Relay

end Hyper
