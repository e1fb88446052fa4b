import Verif.Spec.Fields
import Verif.Model.ClientParse

/-! # Reading a head: splitting a block of fields, and what is assumed about the external parsers -/

namespace Hyper.Spec

/-- Cut at the first CRLF. -/
def cutCrlf : Bytes → Option (Bytes × Bytes)
  | [] => none
  | b :: r =>
    if b = 13 ∧ r.head? = some 10 then some ([], r.tail)
    else (cutCrlf r).map (fun p => (b :: p.1, p.2))

/-- Cut at the first colon. -/
def cutColon : Bytes → Option (Bytes × Bytes)
  | [] => none
  | b :: r => if b = 58 then some ([], r) else (cutColon r).map (fun p => (b :: p.1, p.2))

/-- Drop one space. -/
def dropSpace : Bytes → Bytes
  | [] => []
  | b :: r => if b = 32 then r else b :: r

/-- Splitting a block at CRLF, and each line at its first colon, gives these names and values. -/
inductive SplitBlock : Bytes → List (Bytes × Bytes) → Prop where
  | nil : SplitBlock [] []
  | cons {bs l rest name value : Bytes} {fs : List (Bytes × Bytes)} : cutCrlf bs = some (l, rest) →
      cutColon l = some (name, value) → SplitBlock rest fs →
      SplitBlock bs ((name, dropSpace value) :: fs)

/-- The bytes are those of a string. -/
def Utf8 (bs : Bytes) : Prop := ∃ s : String, s.toUTF8.data.toList = bs

/-- What is assumed about the external request parser (`httparse`): a well-formed head of at most `max`
fields, whatever follows it, is read as its parts, values losing surrounding blanks.  A target is a string. -/
def ReadsRequests (max : Nat) (Q : Bytes → Option (RawRequest × Nat)) : Prop :=
  ∀ (method target : Bytes) (http11 : Bool) (bs : Bytes) (fs : List (Bytes × Bytes)) (rest : Bytes),
    method ≠ [] → (∀ b ∈ method, isTchar b = true) →
    target ≠ [] → (∀ b ∈ target, isValueByte b = true ∧ isBlankByte b = false) → Utf8 target →
    WrittenLines bs fs → (∀ f ∈ fs, WireField f) → fs.length ≤ max →
    let head := method ++ ascii " " ++ target ++ ascii " HTTP/1." ++ (if http11 then ascii "1" else ascii "0") ++
      CRLF ++ bs ++ CRLF
    Q (head ++ rest) =
      some (⟨method, target, http11, fs.map (fun f => (f.1, trimBlanks f.2))⟩, head.length)

/-- What is assumed about the external response parser.  A reason phrase that is not ASCII is given as an empty one. -/
def ReadsResponses (max : Nat) (H : Bytes → RespParse) : Prop :=
  ∀ (http11 : Bool) (status : Nat) (reason bs : Bytes) (fs : List (Bytes × Bytes)) (rest : Bytes),
    100 ≤ status → status ≤ 999 → (∀ b ∈ reason, isValueByte b = true) →
    WrittenLines bs fs → (∀ f ∈ fs, WireField f) → fs.length ≤ max →
    let head := ascii "HTTP/1." ++ (if http11 then ascii "1" else ascii "0") ++ ascii " " ++ decimal status ++
      ascii " " ++ reason ++ CRLF ++ bs ++ CRLF
    H (head ++ rest) =
      .complete head.length ⟨status, http11, if ∃ b ∈ reason, 128 ≤ b then [] else reason, fs.map (fun f => (f.1, trimBlanks f.2))⟩

end Hyper.Spec
