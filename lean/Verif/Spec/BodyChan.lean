import Verif.Model.BodyChan

/-!
# Specification: what the two sides of a body's channel see
-/

namespace Hyper

namespace BodyChan

/-- What the `Sender` was told it has sent, in order. -/
def accepted (l : List TEv) : List Msg := l.filterMap fun | .sent m => some m | _ => none

/-- The data and errors the reader was given, in order. -/
def delivered (l : List REv) : List Msg := l.filterMap fun | .frame m => some m | _ => none

/-- The trailers the reader was given. -/
def trailed (l : List REv) : List Nat := l.filterMap fun | .trailers t => some t | _ => none

/-- The pieces of data among some messages. -/
def pieces (l : List Msg) : List Bytes := l.filterMap fun | .data bs => some bs | .error => none

end BodyChan

end Hyper
