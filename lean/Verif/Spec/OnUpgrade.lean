import Verif.Model.OnUpgrade

/-!
# What an `OnUpgrade` future has to say

Independent of how the connection keeps its `Pending`: a function of what happened since the head came.
-/

namespace Hyper.Spec

/-- What happened after the `k`-th head that asked, if there was one. -/
def sinceAsk : Nat → List UpEv → Option (List UpEv)
  | _, [] => none
  | 0, .asked :: t => some t
  | k + 1, .asked :: t => sinceAsk k t
  | k, _ :: t => sinceAsk k t

/-- What becomes of it, by what happens next: another head asks, or the connection ends with an error, or it is dropped: it is canceled; the
connection ends with an upgrade: it is handed over if the future in use can do that. -/
def fate (upgradeable : Bool) : List UpEv → Option UpAns
  | [] => none
  | .asked :: _ => some .canceled
  | .over .upgrade :: _ => some (if upgradeable then .handed else .manual)
  | .over .error :: _ => some .canceled
  | .gone :: _ => some .canceled
  | _ :: t => fate upgradeable t

/-- What the `k`-th future says after these events. -/
def outcome (upgradeable : Bool) (log : List UpEv) (k : Nat) : Option UpAns := (sinceAsk k log).bind (fate upgradeable)

/-- Whether the `k`-th future has given its value. -/
def gave (log : List UpEv) (k : Nat) : Bool :=
  log.any (fun e => match e with | .polled j (.ready _) => j == k | _ => false)

/-- What a poll of the `k`-th future gives after these events. -/
def pollOf (upgradeable : Bool) (log : List UpEv) (k : Nat) : UpPoll :=
  if gave log k then .panics
  else match outcome upgradeable log k with
    | some a => .ready a
    | none => .pending

end Hyper.Spec
