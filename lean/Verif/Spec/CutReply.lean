import Verif.Spec.CutOff
import Verif.Spec.ClosedLoop

/-! # The lengths that responses announce -/

namespace Hyper.Wire

open Hyper.Spec

/-- The length that a service's response to a request with this method announces: 0 where there can not be a body, that of its body, if the body knows it, or that in a
Content-Length field. -/
def ReplyAnnounces (method : Bytes) (a : RespOut) (n : Nat) : Prop :=
  (NoBody (some method) a.head.status ∧ n = 0) ∨ a.body = some (.known n) ∨
    (a.body = some .unknown ∧ ∃ v ∈ a.head.headers.getAll hCL, AgreedLength [v] n)

/-- The responses a server's connection takes are among those another connection has received in answer to requests of the same method, handed on unchanged; their bodies
yield what was received of the bodies of these, and end only after the whole has been received and handed on. -/
def RelaysBack (got : List (Received ResponseMsg)) (asked : List (ReqHead × Option BodyLength)) (env : EncodeEnv) (P : TrailerParser) (d : Disp) (as : List Act) : Prop :=
  ∀ (k : Nat) a q, (answers env P d as)[k]? = some a → asked[k]? = some q → ∃ r ∈ got, r.method = some q.1.method ∧ a = forwardResponse r.head ∧
    ∀ m : Message, (messages (story env P d [] as))[k]? = some m → m.data <+: r.data ∧ (k ∈ endings env P d [] as → r.whole = true ∧ m.data = r.data)

end Hyper.Wire
