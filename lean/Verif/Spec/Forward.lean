import Verif.Model.Forward
import Verif.Spec.ClosedLoop
import Verif.Spec.EndToEnd

/-! # Handing a received message on -/

namespace Hyper.Spec

/-- What `httparse` guarantees of a tokenised request: the method is a token, values hold no control bytes and no blanks around them. -/
structure RequestTokens (r : RawRequest) : Prop where
  method_ne : r.method ≠ []
  method : ∀ b ∈ r.method, isTchar b = true
  values : ∀ f ∈ r.fields, ∀ b ∈ f.2, isValueByte b = true
  trimmed : ∀ f ∈ r.fields, trimBlanks f.2 = f.2

/-- What is asked of the way a target is printed: a string, not empty, no blanks, not longer than `http::Uri` takes, and accepted again. -/
structure TargetOk (uriOk : Bytes → Bool) (t : Bytes) : Prop where
  ne : t ≠ []
  bytes : ∀ b ∈ t, isValueByte b = true ∧ isBlankByte b = false
  short : t.length ≤ 65534
  utf8 : Utf8 t
  again : uriOk t = true

/-- What `httparse` guarantees of a tokenised response, its values unfolded. -/
structure ResponseTokens (cfg : ClientCfg) (r : RawResponse) : Prop where
  reason : ∀ b ∈ r.reason, isValueByte b = true
  values : ∀ f ∈ cfg.unfold r.fields, ∀ b ∈ f.2, isValueByte b = true

end Hyper.Spec

namespace Hyper.Wire

open Hyper.Spec

/-- The requests a client's connection takes are among those another connection has received, handed on unchanged, and their bodies yield
what was received of the bodies of these. -/
def Forwards (shown : Bytes → Bytes) (got : List (Received RequestMsg)) (env : EncodeEnv) (P : TrailerParser) (d : Disp) (as : List Act) : Prop :=
  ∀ (k : Nat) q, (requests env P d as)[k]? = some q → ∃ r ∈ got, q = (forwardRequest shown r.head, forwardBody r.head.decode) ∧
    ∀ m : Message, (messages (story env P d [] as))[k]? = some m → m.data <+: r.data

/-- The responses a server's connection takes are among those another connection has received in answer to requests of the same method, handed on unchanged, and their bodies
yield what was received of the bodies of these. -/
def ForwardsBack (got : List (Received ResponseMsg)) (asked : List (ReqHead × Option BodyLength)) (env : EncodeEnv) (P : TrailerParser) (d : Disp) (as : List Act) : Prop :=
  ∀ (k : Nat) a q, (answers env P d as)[k]? = some a → asked[k]? = some q → ∃ r ∈ got, r.method = some q.1.method ∧ a = forwardResponse r.head ∧
    ∀ m : Message, (messages (story env P d [] as))[k]? = some m → m.data <+: r.data

end Hyper.Wire
