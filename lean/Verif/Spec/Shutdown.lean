import Verif.Spec.Exchange

/-!
# Graceful shutdown (C71)

`Ev.shutdown` is the moment at which the user asked for it.
-/

namespace Hyper.Spec

/-- Every message head written after graceful shutdown was asked for is marked as the last one of the connection. -/
def AnnouncesEnd (pre : List Ev) : Ev → Prop
  | .writeHead _ last => .shutdown ∈ pre → last = true
  | _ => True

end Hyper.Spec
