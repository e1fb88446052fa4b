import Verif.Spec.Wire
import Verif.Spec.Input
import Verif.Props.RoundTrip

/-! # One connection's messages read by another -/

namespace Hyper.Wire

open Hyper.Spec

/-- The messages of a story, without the interim responses. -/
def messages (st : List Piece) : List Message := st.filterMap (fun p => match p with | .interim => none | .message m => some m)

/-- Whether a turn of writing takes the next message from the user or the service. -/
def takes (d : Disp) : Bool := !d.done && !d.closing && !d.bodyRx && d.conn.canWriteHead && d.shouldPoll

/-- The request an act hands to a client's connection. -/
def asked (d : Disp) : Act → Option (ReqHead × Option BodyLength)
  | .write ⟨.req h body, _, _, _⟩ => if takes d && d.conn.client then some (h, body) else none
  | _ => none

/-- The requests a client's connection takes in a run, in order. -/
def requests (env : EncodeEnv) (P : TrailerParser) : Disp → List Act → List (ReqHead × Option BodyLength)
  | _, [] => []
  | d, a :: as => (asked d a).toList ++ requests env P (d.step env P a) as

/-- The data of the body of a message: what the user's body has yielded so far, up to the length announced. -/
def Message.data (m : Message) : Bytes :=
  match m.framing with
  | .body e => bodySent e.kind m.frames
  | _ => []

/-- The trailers of a message: if the body is chunked, those of the user's trailers that were declared and are permitted, unless there are none. -/
def Message.trailerFields (m : Message) : Option Fields :=
  match m.framing with
  | .body ⟨.chunked (some declared), _⟩ =>
    if m.trailers then
      match userTrailers m.frames with
      | none => none
      | some t => if sendable declared t.fields = [] then none else some ((sendable declared t.fields).map (fun f => (f.1, trimBlanks f.2)))
    else none
  | _ => none

/-- What a reader of the message is assumed to be ready for: the number of fields its parser takes, sizes of frames and lengths that exist on real machines,
trailers within its limits, as `http::HeaderMap` holds them. -/
structure Message.Fair (m : Message) (max : Nat) (maxTrailers : Option Nat) : Prop where
  fields : fieldCount m.head ≤ max
  length : ∀ e n, m.framing = .body e → e.kind = .length n → n ≤ 2 ^ 64 - 3
  fit : FramesFit m.frames
  trailers : ∀ t, userTrailers m.frames = some t → t.Wf ∧ (∀ f ∈ t.fields, LowerName f.1) ∧ (∀ f ∈ t.fields, ∀ b ∈ f.2, isValueByte b = true) ∧
    t.fields.length ≤ maxTrailers.getD 100 ∧ (lines t.fields).length + 2 < 16384

/-- A request that the types of the `http` crate allow, whose framing headers are right and whose method and target the server's side of the crate accepts. -/
structure RequestOk (methodOk uriOk : Bytes → Bool) (h : ReqHead) (body : Option BodyLength) : Prop where
  wf : RequestWf h body
  line : LineOk h
  names : ShortNames h.headers
  user : UserRequestOk h.headers body
  version : h.version = .h10 ∨ h.version = .h11
  method : methodOk h.method = true
  uri : uriOk h.target = true

/-- The message is the one made of this request, with what the user's body has yielded. -/
def Message.Of (m : Message) (h : ReqHead) (body : Option BodyLength) : Prop :=
  ∃ (c : Conn) (ev : Ev) (frames : List UserFrame), c.client = true ∧ m = { reqMessage c h body ev with frames := frames }

/-- What a tokeniser of requests gives, its errors left out. -/
def tokens (Q : Bytes → Except ParseErr (Option (RawRequest × Nat))) (bs : Bytes) : Option (RawRequest × Nat) :=
  match Q bs with
  | .ok o => o
  | .error _ => none

end Hyper.Wire
