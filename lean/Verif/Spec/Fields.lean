import Verif.Spec.Body
import Verif.Model.Httparse

/-! # Assumptions about the external header parser -/

namespace Hyper.Spec

/-- A field as it may appear on the wire: a token name and a value of visible bytes, blanks,
and obs-text (in particular no CR, LF, or NUL). -/
structure WireField (f : Bytes × Bytes) : Prop where
  name_ne : f.1 ≠ []
  name_ok : ∀ b ∈ f.1, isTchar b = true
  value_ok : ∀ b ∈ f.2, isValueByte b = true

/-- Names are made lower case, values lose surrounding blanks. -/
def readField (f : Bytes × Bytes) : Bytes × Bytes := (f.1.map lowerByte, trimBlanks f.2)

/-- What is assumed about `decode_trailers`: given room for all fields, a block of well-formed lines
is read as exactly these fields. -/
def ReadsBlocks (P : TrailerParser) : Prop :=
  ∀ fs : List (Bytes × Bytes), (∀ f ∈ fs, WireField f) →
    P (lines fs ++ CRLF) fs.length = some (fs.map readField)

/-- `bs` is the given fields, one per line; the blank after the colon may be missing when the value
is empty. -/
inductive WrittenLines : Bytes → List (Bytes × Bytes) → Prop where
  | nil : WrittenLines [] []
  | cons (f : Bytes × Bytes) {bs : Bytes} {fs : List (Bytes × Bytes)} : WrittenLines bs fs →
      WrittenLines (line f ++ bs) (f :: fs)
  | empty (name : Bytes) {bs : Bytes} {fs : List (Bytes × Bytes)} : WrittenLines bs fs →
      WrittenLines (name ++ ascii ":" ++ CRLF ++ bs) ((name, []) :: fs)

end Hyper.Spec
