import Verif.Props.ClientParse
import Verif.Spec.Input

/-! # What the informational callback should hear -/

namespace Hyper.Spec

/-- The heads the callback of request `n` was called with, in order. -/
def toldTo (n : Nat) (calls : List (Nat × RespHead)) : List RespHead := (calls.filter (fun p => p.1 == n)).map Prod.snd

/-- `Led cfg Q s l rest`: the bytes `s` are interim heads, one directly after the other, and then `rest`; `l` is what they say. -/
def Led (cfg : ClientCfg) (Q : Bytes → RespParse) (s : Bytes) (l : List RespHead) (rest : Bytes) : Prop :=
  ∃ rs, InterimHeads Q s rs rest ∧ rs.map (headOf cfg) = l.map some

/-- What is to be heard by a request that may have come with a callback. -/
def heardBy (has : Bool) (l : List RespHead) : List RespHead := if has then l else []

end Hyper.Spec
