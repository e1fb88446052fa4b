import Verif.Spec.Fields
import Verif.Proof.Chunked
import Verif.Proof.Encode

namespace Hyper

open Spec

theorem takeWhile_append_stop {p : Byte → Bool} {xs : Bytes} {y : Byte} {ys : Bytes}
    (h : ∀ b ∈ xs, p b = true) (hy : p y = false) :
    (xs ++ y :: ys).takeWhile p = xs ∧ (xs ++ y :: ys).dropWhile p = y :: ys := by
  induction xs with
  | nil => simp [hy]
  | cons x xs ih =>
    have h1 := ih (fun b hb => h b (by simp [hb]))
    have h2 := h x (by simp)
    simp [h2, h1]

theorem trim_space (v : Bytes) : trimBlanks (32 :: v) = trimBlanks v := by
  simp [trimBlanks, isBlankByte]

theorem parseField_line (f : Bytes × Bytes) (hf : WireField f) (rest : Bytes) :
    parseField (line f ++ rest) = some (readField f, rest) := by
  obtain ⟨n, v⟩ := f
  have h58 : isTchar 58 = false := by decide
  have h13 : isValueByte 13 = false := by decide
  have h32 : isValueByte 32 = true := by decide
  have hl : line (n, v) ++ rest = n ++ 58 :: (32 :: v ++ 13 :: 10 :: rest) := by
    have : ascii ": " = [58, 32] := by decide
    simp [line, this]
  have h1 := takeWhile_append_stop (xs := n) (y := 58) (ys := 32 :: v ++ 13 :: 10 :: rest)
    hf.name_ok h58
  have h2 := takeWhile_append_stop (p := isValueByte) (xs := 32 :: v) (y := 13) (ys := 10 :: rest)
    (by intro b hb; simp at hb; rcases hb with rfl | hb; exact h32; exact hf.value_ok b hb) h13
  have hne : n ≠ [] := hf.name_ne
  unfold parseField
  rw [hl]
  simp only [h1.1, h1.2, if_neg hne]
  simp only [h2.1, h2.2, readField, trim_space]

/-- The reference parser satisfies the assumption made about the external parser. -/
theorem parseBlock_reads : ReadsBlocks parseBlock := by
  intro fs
  induction fs with
  | nil => intro _; rfl
  | cons f fs ih =>
    intro h
    have hf := h f (by simp)
    have ih' := ih (fun g hg => h g (by simp [hg]))
    have hl : lines (f :: fs) ++ CRLF = line f ++ (lines fs ++ CRLF) := by simp [lines]
    rw [hl]
    have hp := parseField_line f hf (lines fs ++ CRLF)
    have h0 : ∃ b bs, line f ++ (lines fs ++ CRLF) = b :: bs ∧ b ≠ 13 ∧ b ≠ 10 := by
      obtain ⟨n, v⟩ := f
      cases n with
      | nil => exact absurd rfl hf.name_ne
      | cons b n =>
        refine ⟨b, _, by simp [line]; rfl, ?_, ?_⟩
        · rintro rfl; have := hf.name_ok 13 (by simp); revert this; decide
        · rintro rfl; have := hf.name_ok 10 (by simp); revert this; decide
    obtain ⟨b, bs, hb, hb1, hb2⟩ := h0
    rw [hb] at hp ⊢
    simp only [List.length_cons, List.map_cons]
    unfold parseBlock
    split
    · rename_i h; simp at h; exact absurd h.1 hb1
    · rename_i h; simp at h; exact absurd h.1 hb2
    · omega
    · rename_i n' x1 x2 x3
      simp only [Nat.succ.injEq, Nat.add_right_cancel_iff] at *
      simp only [hp]
      subst_vars
      rw [ih']; rfl

theorem lower_upper : ∀ b : Byte, ¬ (65 ≤ b ∧ b ≤ 90) → lowerByte (upperByte b) = b := by
  apply byte_forall; decide +kernel

theorem lower_id : ∀ b : Byte, ¬ (65 ≤ b ∧ b ≤ 90) → lowerByte b = b := by
  intro b h; simp [lowerByte, h]

theorem tchar_upper : ∀ b : Byte, isTchar b = true → isTchar (upperByte b) = true := by
  apply byte_forall; decide +kernel

theorem titleCaseFrom_lower (n : Bytes) : ∀ p, (∀ b ∈ n, ¬ (65 ≤ b ∧ b ≤ 90)) →
    (titleCaseFrom p n).map lowerByte = n := by
  induction n with
  | nil => intro p _; rfl
  | cons c n ih =>
    intro p h
    have hc := h c (by simp)
    have ih' := fun q => ih q (fun b hb => h b (by simp [hb]))
    simp only [titleCaseFrom, List.map_cons, ih']
    split
    · rw [lower_upper c hc]
    · rw [lower_id c hc]

theorem titleCaseFrom_tchar (n : Bytes) : ∀ p, (∀ b ∈ n, isTchar b = true) →
    ∀ b ∈ titleCaseFrom p n, isTchar b = true := by
  induction n with
  | nil => intro p _; simp [titleCaseFrom]
  | cons c n ih =>
    intro p h b hb
    have hc := h c (by simp)
    simp only [titleCaseFrom, List.mem_cons] at hb
    rcases hb with rfl | hb
    · split
      · exact tchar_upper c hc
      · exact hc
    · exact ih _ (fun b hb => h b (by simp [hb])) b hb

theorem titleCase_ne {n : Bytes} (h : n ≠ []) : titleCase n ≠ [] := by
  cases n with
  | nil => exact absurd rfl h
  | cons c n => simp [titleCase, titleCaseFrom]

/-- Lines of well-formed fields are trailer lines of the chunked grammar. -/
theorem lines_trailerLines (fs : List (Bytes × Bytes)) (h : ∀ f ∈ fs, WireField f) :
    TrailerLines (lines fs) fs.length := by
  induction fs with
  | nil => exact .nil
  | cons f fs ih =>
    have hf := h f (by simp)
    have ih' := ih (fun g hg => h g (by simp [hg]))
    obtain ⟨n, v⟩ := f
    cases n with
    | nil => exact absurd rfl hf.name_ne
    | cons b n =>
      have hb : ∀ x ∈ b :: n, x ≠ CR := by
        intro x hx hc; subst hc
        have := hf.name_ok 13 hx; revert this; decide
      have hv : CR ∉ v := by
        intro hx; have := hf.value_ok 13 hx; revert this; decide
      have hsp : ascii ": " = [58, 32] := by decide
      have := TrailerLines.cons b (n ++ ascii ": " ++ v) (lines fs) fs.length (hb b (by simp))
        (by
          simp only [List.mem_append, hsp, not_or]
          refine ⟨⟨fun hx => hb CR (by simp [hx]) rfl, by decide⟩, hv⟩) ih'
      have he : lines ((b :: n, v) :: fs) =
          b :: (n ++ ascii ": " ++ v) ++ CRLF ++ lines fs := by
        simp [lines, line]
      rw [he, List.length_cons]
      exact this

end Hyper
