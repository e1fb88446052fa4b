import Verif.Model.Inlet

/-!
# What a connection takes from its peer

Counting only: how large the transport's answers are, and what it means that the reader of a body does not take it.
-/

namespace Hyper

namespace Intake

/-- No answer of the transport has more than `r` bytes. -/
def Within (r : Nat) (net : List Seg) : Prop := ∀ b bs, Seg.data b bs ∈ net → (b :: bs).length ≤ r

/-- A parser leaves no more than it was given. -/
def Shrinks {α : Type} (H : HeadFn α) : Prop := ∀ m b, (H.parse m b).2.length ≤ b.length

/-- The reader of body `k` is there but has not asked for data, or has not taken what was sent. -/
def idle (d : Disp) (k : Nat) (i : ReadIn) : Bool :=
  match (d.chans[k]?).map Chan.want with
  | some .pending => true
  | some .ready => i.full
  | _ => false

/-- It is so at every turn of `poll_read` of a run. -/
def Stalls {α : Type} (env : EncodeEnv) (P : TrailerParser) (H : HeadFn α) (k : Nat) : Fed α → List FAct → Prop
  | _, [] => True
  | f, .act (.read i) :: as => idle f.disp k i = true ∧ Stalls env P H k (f.step env P H (.act (.read i))) as
  | f, a :: as => Stalls env P H k (f.step env P H a) as

/-- The bytes still to come. -/
def coming {α : Type} (f : Fed α) : Nat := (segBytes f.inlet.rd.net).length

end Intake

end Hyper
