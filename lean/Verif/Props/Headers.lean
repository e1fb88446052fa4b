import Verif.Proof.Headers

/-!
# C13–C16: reading framing and connection headers

The specification (`Spec/Headers.lean`) describes elements of a comma list by where they sit in the
value, not by a splitting function.  How a whole message uses these answers is in `Props/Role.lean`.
-/

namespace Hyper

open Spec

/-- C13.  A Content-Length value is accepted, with value `n`, iff it is one or more digits denoting
`n`, and `n` is below 2^64. -/
theorem C13_content_length_exact (v : Bytes) (n : Nat) :
    contentLengthParse v = some n ↔
      v ≠ [] ∧ (∀ b ∈ v, IsDigit b) ∧ decNum v = n ∧ n < 2 ^ 64 :=
  fromDigits_iff v n

/-- C13.  Everything else is refused. -/
theorem C13_refused_otherwise (v : Bytes) :
    contentLengthParse v = none ↔
      v = [] ∨ (∃ b ∈ v, ¬ IsDigit b) ∨ 2 ^ 64 ≤ decNum v := by
  constructor
  · intro h
    rcases Classical.em (v = []) with he | he
    · exact Or.inl he
    · rcases Classical.em (∃ b ∈ v, ¬ IsDigit b) with hb | hb
      · exact Or.inr (Or.inl hb)
      · refine Or.inr (Or.inr ?_)
        rcases Nat.lt_or_ge (decNum v) (2 ^ 64) with hlt | hge
        · have hall : ∀ b ∈ v, IsDigit b := by
            intro b hb'
            exact Classical.byContradiction (fun hn => hb ⟨b, hb', hn⟩)
          have := (C13_content_length_exact v (decNum v)).mpr ⟨he, hall, rfl, hlt⟩
          rw [h] at this; simp at this
        · exact hge
  · intro h
    cases hc : contentLengthParse v with
    | none => rfl
    | some n =>
      obtain ⟨h1, h2, h3, h4⟩ := (C13_content_length_exact v n).mp hc
      rcases h with h | ⟨b, hb, hn⟩ | h
      · exact absurd h h1
      · exact absurd (h2 b hb) hn
      · omega

example : contentLengthParse (ascii "18446744073709551615") = some 18446744073709551615 := by
  decide +kernel
example : contentLengthParse (ascii "18446744073709551616") = none := by decide +kernel
example : contentLengthParse (ascii "+5") = none ∧ contentLengthParse (ascii " 5") = none ∧
    contentLengthParse [] = none ∧ contentLengthParse (ascii "007") = some 7 := by decide +kernel

/-- C14.  The Content-Length values of a message give length `n` iff there is at least one value and
every comma-separated element of every value, stripped of blanks, is a number and equals `n`. -/
theorem C14_repeated_lengths_agree (h : HeaderMap) (n : Nat) :
    contentLengthParseAll h = some n ↔
      h.getAll (ascii "content-length") ≠ [] ∧
      ∀ v ∈ h.getAll (ascii "content-length"), (∀ b ∈ v, Visible b) ∧
        ∀ e, Element v e → ∃ t, Padded e t ∧ IsLength t n :=
  contentLengthParseAllValues_iff _ n

example : contentLengthParseAll [(ascii "content-length", [ascii "7, 7", ascii "07"])] = some 7 := by
  decide +kernel
example : contentLengthParseAll [(ascii "content-length", [ascii "7", ascii "8"])] = none := by
  decide +kernel
example : contentLengthParseAll [(ascii "content-length", [ascii "7,"])] = none := by
  decide +kernel

/-- C15.  A message asks to close the connection iff some element of some Connection field is
`close`. -/
theorem C15_close_recognised (h : HeaderMap) :
    connectionAnyClose h = true ↔ HasOption (h.getAll (ascii "connection")) (ascii "close") :=
  any_connectionHas_iff _ _ (by decide)

/-- C15, for one field: both options the parsers look for. -/
theorem C15_field_options (v : Bytes) :
    (connectionClose v = true ↔ HasOption [v] (ascii "close")) ∧
    (connectionKeepAlive v = true ↔ HasOption [v] (ascii "keep-alive")) :=
  ⟨connectionHas_iff _ _ (by decide), connectionHas_iff _ _ (by decide)⟩

/-- C15, for `TE: trailers`. -/
theorem C15_te_trailers (h : HeaderMap) :
    teIsTrailers h = true ↔ HasOption (h.getAll (ascii "te")) (ascii "trailers") :=
  headerValueListHas_iff _ _ (by decide)

example : connectionAnyClose [(ascii "connection", [ascii "upgrade", ascii "x,\t CLose ,y"])] = true := by
  decide +kernel
example : connectionAnyClose [(ascii "connection", [ascii "closed", ascii "not close"])] = false := by
  decide +kernel

/-- C16.  A list of Transfer-Encoding fields is chunked iff the last element of the last field is. -/
theorem C16_chunked_iff_final (h : HeaderMap) :
    transferEncodingIsChunked h = true ↔
      ∃ vs v e t, h.getAll (ascii "transfer-encoding") = vs ++ [v] ∧ (∀ b ∈ v, Visible b) ∧
        LastElement v e ∧ Padded e t ∧ SameToken t (ascii "chunked") :=
  isChunked_iff _

example : transferEncodingIsChunked [(ascii "transfer-encoding", [ascii "gzip", ascii "br,  Chunked\t"])]
    = true := by decide +kernel
example : transferEncodingIsChunked [(ascii "transfer-encoding", [ascii "chunked", ascii "gzip"])]
    = false := by decide +kernel
example : transferEncodingIsChunked [(ascii "transfer-encoding", [ascii "chunked, identity"])]
    = false := by decide +kernel

end Hyper
