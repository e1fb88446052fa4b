import Verif.Spec.ClosedLoop
import Verif.Spec.Prompt

/-! # Connections that wait for each other -/

namespace Hyper.Input

/-- The connection, in this turn of reading, waits for the head of a message: it asks the parser, the parser wants more, and nothing more is under way from
the transport, which is still open. -/
def AwaitsHead {α : Type} (H : HeadFn α) (f : Fed α) (i : ReadIn) : Prop :=
  f.disp.parses i = true ∧ (f.inlet.parse (H.parse f.disp.conn.method)).1 = .pending ∧ f.inlet.rd.fin = .silent ∧
    segBytes (f.inlet.parse (H.parse f.disp.conn.method)).2.rd.net = []

/-- The connection, in this turn of reading, waits for more of a body: the user wants it, the decoder wants more bytes, and nothing more is under way. -/
def AwaitsBody {α : Type} (P : TrailerParser) (f : Fed α) (i : ReadIn) : Prop :=
  ∃ dec, f.disp.decodes i = some dec ∧ (dec.decode P f.inlet.rd).1 = .pending ∧ f.inlet.rd.fin = .silent ∧ segBytes (dec.decode P f.inlet.rd).2.2.net = []

end Hyper.Input
