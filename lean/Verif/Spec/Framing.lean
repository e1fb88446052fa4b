import Verif.Spec.Headers

/-!
# Message framing (RFC 9112 section 6), stated on the fields of a head

Names are compared ignoring case; a field list is what appears on the wire, in order.
-/

namespace Hyper.Spec

/-- The values of the fields called `name`, in order. -/
def valuesOf (name : Bytes) (fields : List (Bytes × Bytes)) : List Bytes :=
  (fields.filter (fun f => f.1.map foldCase == name)).map Prod.snd

/-- Transfer-Encoding values of a head. -/
abbrev teOf (fields : List (Bytes × Bytes)) : List Bytes := valuesOf (ascii "transfer-encoding") fields
/-- Content-Length values of a head. -/
abbrev clOf (fields : List (Bytes × Bytes)) : List Bytes := valuesOf (ascii "content-length") fields

/-- How the end of a message is found. -/
inductive Framing where
  | length (n : Nat)
  | chunked
  | untilClose
  deriving DecidableEq, Repr

/-- Framing of a request (RFC 9112 6.3, items 3-6), Content-Length lists being malformed. -/
inductive RequestFraming (http11 : Prop) (te cl : List Bytes) : Framing → Prop where
  | chunked : te ≠ [] → http11 → FinalChunked te → RequestFraming http11 te cl .chunked
  | length (n : Nat) : te = [] → cl ≠ [] → (∀ v ∈ cl, IsLength v n) →
      RequestFraming http11 te cl (.length n)
  | none : te = [] → cl = [] → RequestFraming http11 te cl (.length 0)

/-- Responses that never have a body (RFC 9112 6.3, items 1-2). -/
def NoBody (method : Option Bytes) (status : Nat) : Prop :=
  method = some (ascii "HEAD") ∨ (100 ≤ status ∧ status ≤ 199) ∨ status = 204 ∨ status = 304 ∨
    (method = some (ascii "CONNECT") ∧ 200 ≤ status ∧ status ≤ 299)

/-- Framing of a response (RFC 9112 6.3). -/
inductive ResponseFraming (method : Option Bytes) (status : Nat) (http10 : Prop)
    (te cl : List Bytes) : Framing → Prop where
  | noBody : NoBody method status → ResponseFraming method status http10 te cl (.length 0)
  | chunked : ¬ NoBody method status → te ≠ [] → ¬ http10 → FinalChunked te →
      ResponseFraming method status http10 te cl .chunked
  | otherCoding : ¬ NoBody method status → te ≠ [] → ¬ http10 → ¬ FinalChunked te →
      ResponseFraming method status http10 te cl .untilClose
  | length (n : Nat) : ¬ NoBody method status → te = [] → AgreedLength cl n →
      ResponseFraming method status http10 te cl (.length n)
  | untilClose : ¬ NoBody method status → te = [] → cl = [] →
      ResponseFraming method status http10 te cl .untilClose

end Hyper.Spec
