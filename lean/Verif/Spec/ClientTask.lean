import Verif.Model.ClientTask
import Verif.Spec.ClosedLoop

/-! # Callers, requests and responses of a client's connection -/

namespace Hyper.Callers

/-- The requests that were taken from the queue to be written, in order. -/
def taken (log : List CEv) : List Nat := log.filterMap (fun e => match e with | .encoded i => some i | _ => none)

/-- The callers that were given a response, in order. -/
def told (log : List CEv) : List Nat := log.filterMap (fun e => match e with | .outcome i .response => some i | _ => none)

/-- What an act is for the connection with its input. -/
def feed (what : Nat → ReqHead × Option BodyLength) (t : ClientTask) : TaskAct → Option FAct
  | .pull => if t.chan.phase = .idle then some .pull else none
  | .act a c s => if t.chan.phase = .idle ∨ ClientTask.readers a then some (.act (t.given what a c s)) else none
  | _ => none

/-- A run as the connection sees it. -/
def feeds (env : EncodeEnv) (P : TrailerParser) (H : HeadFn ResponseMsg) (what : Nat → ReqHead × Option BodyLength) : ClientTask → List TaskAct → List FAct
  | _, [] => []
  | t, a :: as => (feed what t a).toList ++ feeds env P H what (t.step env P H what a) as

end Hyper.Callers
