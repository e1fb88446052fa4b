import Verif.Model.H2Headers
import Verif.Model.H2Pipe
import Verif.Model.Incoming

/-!
# `src/proto/h2/server.rs`

`Strm`: the future of one request (`H2Stream`), `Srv`: the future of the connection (`Server`, `Serving`).  The service, the streams and
the connection of the crate `h2` are an environment that decides every answer.

Simplified: the extension `Protocol` and the type of the body are left out; what a stream does after an upgrade is `Verif.Model.H2Upgrade`.
-/

namespace Hyper

namespace Strm

/-- A response of the service, with what its body says of itself before it is polled. -/
structure Resp where
  status : Nat
  headers : HeaderMap
  /-- `body.is_end_stream()` -/
  bodyEnd : Bool
  /-- `body.size_hint().exact()` -/
  exact : Option Nat
  deriving DecidableEq, Repr

/-- The future of the service is polled. -/
inductive SvcPoll where
  | pending
  | ok (r : Resp)
  /-- The causes of the error, outermost first. -/
  | err (causes : List Pipe.Cause)
  deriving DecidableEq, Repr

/-- What the stream is told. -/
inductive Out where
  /-- `send_response` -/
  | head (status : Nat) (headers : HeaderMap) (eos : Bool)
  /-- The frames of the body (`PipeToSendStream`). -/
  | body (f : Pipe.OFrame)
  /-- `send_reset` -/
  | reset (reason : Nat)
  deriving DecidableEq, Repr

/-- `H2StreamState` (server.rs 374-391) and how `poll2` ended. -/
inductive State where
  | service
  | body (p : Pipe.St)
  /-- `Ok(())`, the head having been sent with the end of the stream. -/
  | done
  /-- `Ok(())`, the stream having been given to the user. -/
  | upgraded
  | failed
  deriving DecidableEq, Repr

structure St where
  /-- `connect_parts.is_some()` -/
  connect : Bool
  /-- `date_header` -/
  date : Bool
  state : State := .service
  /-- What the stream was told outside of the pipe. -/
  out : List Out := []
  /-- What the service answered, for the specification. -/
  resp : Option Resp := none
  deriving DecidableEq, Repr

/-- The answers of one iteration. -/
structure In where
  svc : SvcPoll := .pending
  /-- `reply.poll_reset` -/
  reset : Pipe.ResetPoll := .pending
  /-- `reply.send_response` succeeds. -/
  sendOk : Bool := true
  /-- `date::update_and_header_value()` -/
  now : Bytes := []
  /-- The answers to an iteration of the pipe. -/
  pipe : Pipe.In := {}
  deriving DecidableEq, Repr

/-- `Reason::INTERNAL_ERROR`. -/
def INTERNAL_ERROR : Nat := 2

/-- `headers.entry(DATE).or_insert_with(..)` (server.rs 474-478). -/
def setDate (date : Bool) (now : Bytes) (m : HeaderMap) : HeaderMap :=
  if date then (if m.contains hDATE then m else m.insert hDATE now) else m

/-- The fields after the connection's own were taken out and the date put in (server.rs 468-478). -/
def baseHeaders (date : Bool) (now : Bytes) (m : HeaderMap) : HeaderMap :=
  setDate date now (stripConnectionHeaders .response m)

/-- "automatically set Content-Length from body" (server.rs 515-517). -/
def setLength (exact : Option Nat) (m : HeaderMap) : HeaderMap :=
  match exact with
  | some n => setContentLengthIfMissing m (decimal n)
  | none => m

/-- A content-length is given and is not zero. -/
def nonZero (len : Option Nat) : Bool :=
  match len with
  | some n => n != 0
  | none => false

namespace St

/-- The macro `reply!` (server.rs 423-434), going on in `next`. -/
def reply (s : St) (status : Nat) (headers : HeaderMap) (eos ok : Bool) (next : State) : St :=
  if ok then { s with out := s.out ++ [.head status headers eos], state := next }
  else { s with out := s.out ++ [.reset INTERNAL_ERROR], state := .failed }

/-- The answer to a successful CONNECT (server.rs 481-510), `m` being the fields. -/
def tunnel (s : St) (r : Resp) (m : HeaderMap) (ok : Bool) : St :=
  if nonZero (contentLengthParseAll m) then { s with out := s.out ++ [.reset INTERNAL_ERROR], state := .failed }
  else s.reply r.status (m.remove hCL) false ok .upgraded

/-- Any other answer (server.rs 513-528). -/
def plain (s : St) (r : Resp) (m : HeaderMap) (ok : Bool) : St :=
  if r.bodyEnd then s.reply r.status m true ok .done
  else s.reply r.status (setLength r.exact m) false ok (.body Pipe.init)

/-- server.rs 466-528. -/
def respond (s : St) (i : In) (r : Resp) : St :=
  if s.connect ∧ isSuccess r.status then { s with resp := some r }.tunnel r (baseHeaders s.date i.now r.headers) i.sendOk
  else { s with resp := some r }.plain r (baseHeaders s.date i.now r.headers) i.sendOk

/-- One iteration of the loop of `H2Stream::poll2` (server.rs 445-535). -/
def step (s : St) (i : In) : St :=
  match s.state with
  | .service =>
    match i.svc with
    | .pending =>
      match i.reset with
      | .pending => s
      | .reset _ => { s with state := .failed }
      | .err => { s with state := .failed }
    | .err causes => { s with out := s.out ++ [.reset (Pipe.h2Reason causes)], state := .failed }
    | .ok r => s.respond i r
  | .body p => { s with state := .body (p.step i.pipe) }
  | .done => s
  | .upgraded => s
  | .failed => s

def run (s : St) (is : List In) : St := is.foldl step s

/-- All the stream was told, in order. -/
def log (s : St) : List Out :=
  match s.state with
  | .body p => s.out ++ p.out.map .body
  | .service => s.out
  | .done => s.out
  | .upgraded => s.out
  | .failed => s.out

/-- `poll2` has returned. -/
def over (s : St) : Bool :=
  match s.state with
  | .service => false
  | .body p => p.res.isSome
  | .done => true
  | .upgraded => true
  | .failed => true

end St

/-- `H2Stream::new` (server.rs 404-417). -/
def init (connect date : Bool) : St := { connect := connect, date := date }

end Strm

namespace Srv

/-- A request as `poll_accept` gives it: `eos` is `is_end_stream()` of its body. -/
structure Req where
  method : Bytes
  headers : HeaderMap
  eos : Bool
  deriving DecidableEq, Repr

/-- `conn.poll_accept`. -/
inductive Accept where
  | pending
  | request (r : Req)
  | err
  | none
  deriving DecidableEq, Repr

/-- `Ponger::poll`. -/
inductive Ponged where
  | pending
  | window (n : Nat)
  | timedOut
  deriving DecidableEq, Repr

/-- One turn of the loop in `poll_server`. -/
structure Turn where
  ping : Ponged := .pending
  accept : Accept := .pending
  deriving DecidableEq, Repr

/-- The stream of a request (server.rs 308-316, with 274-301). -/
def streamOf (r : Req) (date : Bool) : Strm.St := Strm.init (decide (r.method = mCONNECT)) date

inductive Handshake where
  | pending
  | err
  | ok
  deriving DecidableEq, Repr

inductive Res where
  /-- `Ok(Dispatched::Shutdown)` -/
  | ok
  /-- An error of the connection. -/
  | err
  /-- `ensure_not_timed_out` -/
  | timedOut
  deriving DecidableEq, Repr

/-- What the server does. -/
inductive Ev where
  /-- `poll_accept` is called. -/
  | ask
  /-- The request goes to the service and its stream to the executor; the body it is given, if not the empty one. -/
  | call (r : Req) (body : Option H2Body)
  /-- The request's stream is reset. -/
  | refuse (r : Req)
  /-- `conn.graceful_shutdown()` -/
  | graceful
  /-- `conn.abrupt_shutdown(NO_ERROR)` -/
  | abrupt
  | window (n : Nat)
  deriving DecidableEq, Repr

structure St where
  /-- `State::Serving`. -/
  serving : Bool := false
  closePending : Bool := false
  /-- `is_keep_alive_timed_out` of the shared state of the pings (ping.rs 250-258, 315). -/
  timedOut : Bool := false
  res : Option Res := none
  log : List Ev := []
  /-- What `poll_accept` gave, for the specification. -/
  accepted : List Req := []
  deriving DecidableEq, Repr

/-- `Poll<crate::Result<()>>` of `poll_server`, `res` being set when it is ready; whether the loop goes on. -/
structure Next where
  st : St
  again : Bool
  deriving DecidableEq, Repr

namespace St

def put (s : St) (e : Ev) : St := { s with log := s.log ++ [e] }

/-- `poll_ping` (server.rs 345-360). -/
def pollPing (s : St) (p : Ponged) : St :=
  match p with
  | .pending => s
  | .window n => s.put (.window n)
  | .timedOut => { s.put .abrupt with timedOut := true }

/-- A request was accepted (server.rs 265-317). -/
def request (s : St) (r : Req) : Next :=
  if r.method = mCONNECT then
    if Strm.nonZero (contentLengthParseAll r.headers) then ⟨{ s.put (.refuse r) with res := some .ok, accepted := s.accepted ++ [r] }, false⟩
    else ⟨{ s.put (.call r none) with accepted := s.accepted ++ [r] }, true⟩
  else
    ⟨{ s.put (.call r (some (H2Body.new (DecodedLength.ofOption (contentLengthParseAll r.headers)) r.eos))) with
        accepted := s.accepted ++ [r] }, true⟩

/-- One turn of the loop of `poll_server` (server.rs 260-331); `closing` is always `None`: nothing sets it. -/
def turn (s : St) (t : Turn) : Next :=
  match t.accept with
  | .pending => ⟨(s.pollPing t.ping).put .ask, false⟩
  | .request r => ((s.pollPing t.ping).put .ask).request r
  | .err => ⟨{ (s.pollPing t.ping).put .ask with res := some .err }, false⟩
  | .none => ⟨{ (s.pollPing t.ping).put .ask with res := some (if (s.pollPing t.ping).timedOut then .timedOut else .ok) }, false⟩

/-- The loop, with an answer for each turn; when they run out, `poll_accept` is pending. -/
def pollServer (s : St) : List Turn → St
  | [] => s
  | t :: ts => if (s.turn t).again then (s.turn t).st.pollServer ts else (s.turn t).st

/-- The state `Serving` of `Server::poll` (server.rs 229-236). -/
def pollServing (s : St) (ts : List Turn) : St :=
  if s.closePending then (s.put .graceful).pollServer ts else s.pollServer ts

/-- `Server::poll` (server.rs 210-240). -/
def poll (s : St) (h : Handshake) (ts : List Turn) : St :=
  match s.res with
  | some _ => s
  | none =>
    if s.serving then s.pollServing ts
    else
      match h with
      | .pending => s
      | .err => { s with res := some .err }
      | .ok => { s with serving := true }.pollServing ts

/-- `Server::graceful_shutdown` (server.rs 185-197). -/
def shutdown (s : St) : St :=
  if s.serving then s.put .graceful else { s with closePending := true }

end St

inductive Act where
  | poll (h : Handshake) (ts : List Turn)
  | shutdown
  deriving DecidableEq, Repr

def St.step (s : St) : Act → St
  | .poll h ts => s.poll h ts
  | .shutdown => s.shutdown

def St.run (s : St) (as : List Act) : St := as.foldl St.step s

/-- `Server::new` (server.rs 125-183). -/
def init : St := {}

end Srv

end Hyper
