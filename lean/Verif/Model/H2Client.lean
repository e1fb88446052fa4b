import Verif.Model.H2Server

/-!
# `src/proto/h2/client.rs`: one request

What becomes of a request the `ClientTask` took from its queue: the head, the pipe that sends its body (`PipeMap`), and the future that
waits for the response (`ResponseFutMap` within `SendWhen` of `src/client/dispatch.rs`).  The two futures run concurrently; one act is
one poll of one of them, or a moment of the `ClientTask`.  How the request got here, and that its callback is answered once, is
`Verif.Model.ClientChan`.  The body, the stream and the connection are an environment that decides every answer.
-/

namespace Hyper

namespace Rq

/-- A request of the user, with what its body says of itself before it is polled. -/
structure Req where
  method : Bytes
  headers : HeaderMap
  /-- `body.is_end_stream()` -/
  bodyEnd : Bool
  /-- `body.size_hint().exact()` -/
  exact : Option Nat
  deriving DecidableEq, Repr

def mDELETE : Bytes := ascii "DELETE"

/-- `method_has_defined_payload_semantics` (src/headers.rs 129-134). -/
def definedPayload (method : Bytes) : Bool := !(method == mGET || method == mHEAD || method == mDELETE || method == mCONNECT)

/-- The length to announce (client.rs 710-714). -/
def announce (r : Req) : Option Nat :=
  match r.exact with
  | some n => if n ≠ 0 ∨ definedPayload r.method then some n else none
  | none => none

/-- The fields to send (client.rs 707-714). -/
def fieldsOf (r : Req) : HeaderMap := Strm.setLength (announce r) (stripConnectionHeaders .request r.headers)

/-- What the stream is told. -/
inductive Out where
  /-- `send_request` -/
  | head (headers : HeaderMap) (eos : Bool)
  | body (f : Pipe.OFrame)
  /-- `send_reset` outside of the pipe. -/
  | reset (reason : Nat)
  deriving DecidableEq, Repr

/-- `poll_ready` of the connection. -/
inductive Ready where
  | pending
  | ok
  | err
  deriving DecidableEq, Repr

/-- A response, with `is_end_stream()` of its body. -/
structure Resp where
  status : Nat
  headers : HeaderMap
  eos : Bool
  deriving DecidableEq, Repr

/-- `ResponseFuture`. -/
inductive RespPoll where
  | pending
  | ok (r : Resp)
  | err
  deriving DecidableEq, Repr

/-- What the callback is given. -/
inductive Result where
  /-- The connection refuses the request, or fails. -/
  | error
  /-- `new_user_invalid_connect` -/
  | invalidConnect
  /-- The keep-alive pings were not answered. -/
  | timedOut
  | response (r : Resp) (body : H2Body)
  /-- A response with the stream in it. -/
  | upgrade (r : Resp)
  deriving DecidableEq, Repr

/-- The one-shot channel from `SendWhen` to `PipeMap`. -/
inductive Cancel where
  | waiting
  | sent
  | dropped
  deriving DecidableEq, Repr

/-- The stage the request is in. -/
inductive Stage where
  /-- In the queue. -/
  | queued
  /-- `FutCtx` waits for the stream to be opened (client.rs 759-763). -/
  | opening
  /-- The futures run. -/
  | running
  /-- It was given up before they did. -/
  | refused
  deriving DecidableEq, Repr

structure St where
  req : Req
  stage : Stage := .queued
  /-- The pipe; the eager poll of `poll_pipe` and `PipeMap` are not told apart. -/
  pipe : Option Pipe.St := none
  /-- `PipeMap` has reset the stream with `CANCEL`. -/
  killed : Bool := false
  cancel : Cancel := .waiting
  /-- `PipeMap::cancel_rx` is still asked. -/
  listening : Bool := true
  /-- `SendWhen` is over. -/
  sendDone : Bool := false
  out : List Out := []
  result : Option Result := none
  deriving DecidableEq, Repr

/-- `Reason::CANCEL`, `Reason::INTERNAL_ERROR`. -/
def CANCEL : Nat := 8
def INTERNAL_ERROR : Nat := 2

namespace St

/-- Whether the request asks for a tunnel. -/
def connect (s : St) : Bool := s.req.method == mCONNECT

/-- `poll_pipe` (client.rs 526-579): the pipe, if there is one, is polled at once. -/
def pollPipe (s : St) (is : List Pipe.In) : St :=
  if s.connect ∨ s.req.bodyEnd then { s with stage := .running }
  else { s with stage := .running, pipe := some (Pipe.init.run is) }

/-- After `send_request`: `poll_ready` is asked again (client.rs 756-773). -/
def opened (s : St) (r : Ready) (is : List Pipe.In) : St :=
  match r with
  | .pending => { s with stage := .opening }
  | .err => { s with stage := .refused, result := some .error }
  | .ok => s.pollPipe is

/-- The `ClientTask` takes the request from its queue (client.rs 702-773); a canceled one is dropped. -/
def take (s : St) (canceled sendOk : Bool) (r : Ready) (is : List Pipe.In) : St :=
  if canceled then { s with stage := .refused }
  else if s.connect ∧ Strm.nonZero (contentLengthParseAll (fieldsOf s.req)) then
    { s with stage := .refused, result := some .invalidConnect }
  else if sendOk then { s with out := s.out ++ [Out.head (fieldsOf s.req) (!s.connect && s.req.bodyEnd)] }.opened r is
  else { s with stage := .refused, result := some .error }

/-- The `ClientTask` is polled with a saved `FutCtx` (client.rs 680-698); an error ends the task, and with it the callback is dropped. -/
def reopen (s : St) (r : Ready) (is : List Pipe.In) : St :=
  match r with
  | .pending => s
  | .err => { s with stage := .refused, result := some .error }
  | .ok => s.pollPipe is

/-- `PipeMap::poll` (client.rs 473-512): its cancellation, then iterations of the pipe. -/
def pollPipeMap (s : St) (is : List Pipe.In) : St :=
  match s.pipe with
  | none => s
  | some p =>
    if s.killed ∨ p.res.isSome then s
    else if s.listening ∧ s.cancel = .sent then { s with killed := true }
    else if s.listening ∧ s.cancel = .dropped then { s with listening := false, pipe := some (p.run is) }
    else { s with pipe := some (p.run is) }

/-- `ResponseFutMap::poll` with a response (client.rs 622-657). -/
def respond (s : St) (r : Resp) : St :=
  if s.connect ∧ r.status = 200 then
    if Strm.nonZero (contentLengthParseAll r.headers) then { s with out := s.out ++ [.reset INTERNAL_ERROR], result := some .error, sendDone := true, cancel := .dropped }
    else { s with result := some (.upgrade r), sendDone := true, cancel := .dropped }
  else { s with result := some (.response r (H2Body.new (DecodedLength.ofOption (contentLengthParseAll r.headers)) r.eos)), sendDone := true, cancel := .dropped }

/-- `SendWhen::poll` (dispatch.rs 354-385); `canceled` whether the caller's future is gone, `timedOut` what the pings say. -/
def pollSend (s : St) (r : RespPoll) (canceled timedOut : Bool) : St :=
  match r with
  | .pending => if canceled then { s with sendDone := true, cancel := .sent } else s
  | .ok r => s.respond r
  | .err => { s with result := some (if timedOut then .timedOut else .error), sendDone := true, cancel := .dropped }

/-- All the stream was told, in order. -/
def log (s : St) : List Out :=
  match s.pipe with
  | none => s.out
  | some p => s.out ++ p.out.map .body ++ (if s.killed then [.reset CANCEL] else [])

end St

inductive Act where
  | take (canceled sendOk : Bool) (r : Ready) (is : List Pipe.In)
  | reopen (r : Ready) (is : List Pipe.In)
  | pollPipe (is : List Pipe.In)
  | pollSend (r : RespPoll) (canceled timedOut : Bool)
  deriving DecidableEq, Repr

/-- Each future runs only while it exists and until it is ready. -/
def St.step (s : St) (a : Act) : St :=
  match a with
  | .take c k r is => if s.stage = .queued then s.take c k r is else s
  | .reopen r is => if s.stage = .opening then s.reopen r is else s
  | .pollPipe is => if s.stage = .running then s.pollPipeMap is else s
  | .pollSend r c t => if s.stage = .running ∧ s.sendDone = false then s.pollSend r c t else s

def St.run (s : St) (as : List Act) : St := as.foldl St.step s

def init (r : Req) : St := { req := r }

end Rq

end Hyper
