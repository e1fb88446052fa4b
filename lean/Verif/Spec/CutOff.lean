import Verif.Spec.Forward

/-! # Bodies that their users have ended -/

namespace Hyper.Wire

/-- An act by which the user's body ends: it is polled, and gives its end, a last piece of data, or trailers. -/
def endsBody (d : Disp) : Act → Bool
  | .write ⟨_, .eof, _, _⟩ => polls d
  | .write ⟨_, .frame (.data _ true), _, _⟩ => polls d
  | .write ⟨_, .frame (.trailers _), _, _⟩ => polls d
  | _ => false

/-- The places, among the messages of a run, of those whose bodies were ended by their users. -/
def endings (env : EncodeEnv) (P : TrailerParser) : Disp → List Piece → List Act → List Nat
  | _, _, [] => []
  | d, st, a :: as => (if endsBody d a then [(messages st).length - 1] else []) ++ endings env P (d.step env P a) (record env P d a st) as

/-- The length that a user's request announces: that of its body, if the body knows it, or that in its Content-Length fields. -/
def Announces (h : ReqHead) (body : Option BodyLength) (n : Nat) : Prop :=
  (body = none ∧ n = 0) ∨ body = some (.known n) ∨ (body ≠ none ∧ Spec.AgreedLength (h.headers.getAll hCL) n)

/-- A body that is not sent at all: it does not know its length, and the request is written as one of HTTP/1.0 or it has a method whose requests have
no body as a rule, and no Transfer-Encoding. -/
def Unsent (h : ReqHead) (body : Option BodyLength) (version : Version) : Prop :=
  body = some .unknown ∧ (version = .h10 ∨ (h.headers.getAll hTE = [] ∧ (h.method = mGET ∨ h.method = mHEAD ∨ h.method = mCONNECT)))

/-- The requests a client's connection takes are among those another connection has received, handed on unchanged; their bodies yield what was received of the bodies of
these, and end only after the whole has been received and handed on. -/
def Relays (shown : Bytes → Bytes) (got : List (Received RequestMsg)) (env : EncodeEnv) (P : TrailerParser) (d : Disp) (as : List Act) : Prop :=
  ∀ (k : Nat) q, (requests env P d as)[k]? = some q → ∃ r ∈ got, q = (forwardRequest shown r.head, forwardBody r.head.decode) ∧
    ∀ m : Message, (messages (story env P d [] as))[k]? = some m → m.data <+: r.data ∧ (k ∈ endings env P d [] as → r.whole = true ∧ m.data = r.data)

end Hyper.Wire
