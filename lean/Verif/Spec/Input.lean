import Verif.Model.Inlet
import Verif.Spec.Chunked
import Verif.Spec.Outcome

/-! # What the bytes a connection receives say -/

namespace Hyper.Input

open Hyper.Spec

/-- What is asked of the parser of heads: bytes it has recognised as a head, or passed over (interim responses), it recognises and
passes over whatever follows them; and what it leaves is the end of what it was given. -/
structure Stable {α : Type} (H : HeadFn α) : Prop where
  msg : ∀ {m b x b'}, H.parse m b = (.ok (some x), b') → b' <:+ b ∧ ∀ more, H.parse m (b ++ more) = (.ok (some x), b' ++ more)
  skip : ∀ {m b b'}, b ≠ [] → H.parse m b = (.ok none, b') → b' <:+ b ∧ ∀ m' more, b' ++ more ≠ [] → H.parse m' (b ++ more) = H.parse m' (b' ++ more)

/-- `Body P mh fin len s data tr rest`: on a connection that ends with `fin`, the bytes `s` begin with a body whose length is given as
`len`, with this content and these trailers, and go on with `rest`.  At most `mh` trailer lines are allowed. -/
inductive Body (P : TrailerParser) (mh : Option Nat) (fin : NetEnd) (len : DecodedLength) :
    Bytes → Bytes → Option Fields → Bytes → Prop where
  | length (data rest : Bytes) : len ≠ DecodedLength.CHUNKED → len ≠ DecodedLength.CLOSE_DELIMITED → data.length = len.val →
      Body P mh fin len (data ++ rest) data none rest
  | chunked (w rest : Bytes) (cs : List Bytes) (e n : Nat) (t : Bytes) (tr : Option Fields) : len = DecodedLength.CHUNKED →
      ChunkedBody w cs e t n → WithinLimits (mh.getD 100) 16384 cs e t n →
      ((n = 0 ∧ tr = none) ∨ (n ≠ 0 ∧ ∃ fs, P t n = some fs ∧ tr = some fs)) →
      Body P mh fin len (w ++ rest) cs.flatten tr rest
  | close (s : Bytes) : len = DecodedLength.CLOSE_DELIMITED → fin = .eof → Body P mh fin len s s none []

/-- `Reads H P mh fin s rs rest`: the bytes `s` are the messages `rs`, one directly after the other, and then `rest`. -/
inductive Reads {α : Type} (H : HeadFn α) (P : TrailerParser) (mh : Option Nat) (fin : NetEnd) :
    Bytes → List (Received α) → Bytes → Prop where
  | nil (s : Bytes) : Reads H P mh fin s [] s
  | cons {s body next rest : Bytes} {r : Received α} {rs : List (Received α)} : r.whole = true →
      H.parse r.method s = (.ok (some r.head), body) → body <:+ s →
      Body P mh fin (H.view r.method r.head).decode body r.data r.trailers next →
      Reads H P mh fin next rs rest → Reads H P mh fin s (r :: rs) rest

/-- `Begun H P mh fin s r`: the bytes `s` begin with the head of `r`, and what is known of its body begins what the bytes after the head decode to. -/
def Begun {α : Type} (H : HeadFn α) (P : TrailerParser) (mh : Option Nat) (fin : NetEnd) (s : Bytes) (r : Received α) : Prop :=
  r.whole = false ∧ r.trailers = none ∧ ∃ body, H.parse r.method s = (.ok (some r.head), body) ∧ body <:+ s ∧
    r.data <+: ((Decoder.ofLength (H.view r.method r.head).decode mh none).readAll P ⟨body, [], fin⟩).view.data

/-- The messages read so far are those of the bytes: each was read to its end, but possibly the last one. -/
def Told {α : Type} (H : HeadFn α) (P : TrailerParser) (mh : Option Nat) (fin : NetEnd) (s : Bytes) (rs : List (Received α)) : Prop :=
  (∃ rest, Reads H P mh fin s rs rest) ∨
  ∃ ws r rest, rs = ws ++ [r] ∧ Reads H P mh fin s ws rest ∧ Begun H P mh fin rest r

/-- The data sent to the reader of a body. -/
def sentData (ch : Chan) : Bytes := (ch.items.map (fun i => match i with | .data bs => bs | .error => [])).flatten

/-- The reader of a body has been sent what was read of this message; all of it, unless the reader was dropped. -/
structure Carries {α : Type} (H : HeadFn α) (ch : Chan) (r : Received α) : Prop where
  id : ch.id = r.id
  len : ch.len = (H.view r.method r.head).decode
  data : sentData ch <+: r.data
  trailers : ch.trailers = none ∨ ch.trailers = r.trailers
  all : ch.want ≠ .closed → sentData ch = r.data ∧ ch.trailers = r.trailers
  whole : ch.complete = true → r.whole = true

/-- Messages with a body. -/
def hasBody {α : Type} (H : HeadFn α) (r : Received α) : Bool := (H.view r.method r.head).decode != DecodedLength.ZERO

/-- What the log calls the head of a message. -/
def headEv {α : Type} (H : HeadFn α) (r : Received α) : Ev :=
  .readHead r.id (H.view r.method r.head).continues (H.view r.method r.head).keepAlive

/-- Is it a head having been read? -/
def isHead : Ev → Bool
  | .readHead _ _ _ => true
  | _ => false

end Hyper.Input
