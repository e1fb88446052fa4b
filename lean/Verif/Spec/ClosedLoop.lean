import Verif.Spec.EndToEnd

/-! # Two connections that talk to each other -/

namespace Hyper.Wire

open Hyper.Spec

/-- The act of the connection in an act of a connection fed with bytes: what a turn of reading finds is what the bytes are. -/
def underlying {α : Type} (H : HeadFn α) (f : Fed α) : FAct → Option Act
  | .pull => none
  | .act (.read i) => some (.read (f.readIn H i))
  | .act a => some a

/-- The acts of the connection in a run. -/
def acts {α : Type} (env : EncodeEnv) (P : TrailerParser) (H : HeadFn α) : Fed α → List FAct → List Act
  | _, [] => []
  | f, a :: as => (underlying H f a).toList ++ acts env P H (f.step env P H a) as

/-- The response an act hands to a server's connection. -/
def answered (d : Disp) : Act → Option RespOut
  | .write ⟨.resp m, _, _, _⟩ => if takes d && !d.conn.client then some m else none
  | _ => none

/-- The responses a server's connection takes in a run, in order. -/
def answers (env : EncodeEnv) (P : TrailerParser) : Disp → List Act → List RespOut
  | _, [] => []
  | d, a :: as => (answered d a).toList ++ answers env P (d.step env P a) as

/-- The message is the one made of this response to a request with this method, with what the service's body has yielded. -/
def Message.OfResponse (env : EncodeEnv) (m : Message) (a : RespOut) (method : Bytes) : Prop :=
  ∃ (c : Conn) (ev : Ev) (frames : List UserFrame), c.client = false ∧ c.method = some method ∧ m = { respMessage env c a ev with frames := frames }

/-- The message is the answer a server's connection makes on its own to bytes that are no request. -/
def Message.OfError (env : EncodeEnv) (m : Message) (status : Nat) : Prop :=
  status ∈ [400, 414, 431] ∧ ∃ (c : Conn) (frames : List UserFrame), c.client = false ∧ c.method = none ∧
    m = { respMessage env c (Conn.errorResp status) .errorHead with frames := frames }

/-- A response to a request with this method that the types of the `http` crate allow, whose framing headers are right and whose status is a final one. -/
structure ResponseOk (env : EncodeEnv) (method : Bytes) (a : RespOut) : Prop where
  headers : MapOk a.head.headers
  spelling : ∀ map, a.head.caseMap = some map → SpellingsOf map
  length : ∀ n, a.body = some (.known n) → n < 2 ^ 64
  reason : ∀ r, a.head.reason = some r → ∀ b ∈ r, isValueByte b = true
  names : ShortNames a.head.headers
  contentLength : ∀ v ∈ a.head.headers.getAll hCL, ∀ k, a.body = some (.known k) → ¬ NoBody (some method) a.head.status → AgreedLength [v] k
  coding : ∀ v ∈ a.head.headers.getAll hTE, ¬ NoBody (some method) a.head.status → ∀ b ∈ v, Visible b
  status : 200 ≤ a.head.status ∧ a.head.status ≤ 999 ∨ a.head.status = 101

/-- The texts of the environment are printable. -/
def EnvOk (env : EncodeEnv) : Prop := DateOk env ∧ ∀ s r, env.canonicalReason s = some r → ∀ b ∈ r, isValueByte b = true

end Hyper.Wire
