import Verif.Proof.Encode
import Verif.Proof.Fields

namespace Hyper

open Spec

/-- A close-delimited body writes the data and nothing else, and is the last on its connection. -/
theorem writeFrames_close (allow title : Bool) (last : Bool) (frames : List UserFrame) :
    ∀ out, userFails frames = false →
      writeFrames allow title out (.body ⟨.closeDelimited, last⟩) frames =
        ⟨out ++ userData frames, .closed, .ok⟩ := by
  have hfin : ∀ out, finishBody out (.body ⟨.closeDelimited, last⟩) = ⟨out, .closed, .ok⟩ := by
    intro out; simp [finishBody, Writing.endBody, Encoder.finish, Encoder.isCloseDelimited,
      Writing.afterBody]
  induction frames with
  | nil => intro out _; simp [writeFrames, hfin, userData]
  | cons f frames ih =>
    intro out hf
    cases f with
    | data bs e =>
      by_cases hbs : bs = []
      · subst hbs
        cases e with
        | true => simp [writeFrames, hfin, userData]
        | false => rw [writeFrames]; simpa [userData] using ih out (by simpa [userFails] using hf)
      · cases e with
        | true =>
          rw [writeFrames]
          simp [hbs, Writing.writeBodyAndEnd, Encoder.encodeAndEnd, userData]
        | false =>
          rw [writeFrames]
          simp only [hbs, if_false, Writing.writeBody, Encoder.encode, Encoder.isEof, Bool.not_false,
            if_true, userData]
          rw [ih (out ++ bs) (by simpa [userFails] using hf)]
          simp
    | trailers m =>
      rw [writeFrames]
      cases allow <;> simp [Writing.writeTrailers, Encoder.encodeTrailers, hfin, userData]
    | unknown => rw [writeFrames]; simpa [userData] using ih out (by simpa [userFails] using hf)
    | error => simp [userFails] at hf

/-- A lower-case field name, as every `http::HeaderName` is. -/
structure Spec.LowerName (n : Bytes) : Prop where
  ne : n ≠ []
  tchar : ∀ b ∈ n, isTchar b = true
  lower : ∀ b ∈ n, ¬ (65 ≤ b ∧ b ≤ 90)

theorem wireName_lower (title : Bool) (n : Bytes) (h : LowerName n) :
    (wireName title n).map lowerByte = n := by
  cases title with
  | false =>
    simp only [wireName, Bool.false_eq_true, if_false]
    refine Eq.trans (List.map_congr_left (fun b hb => lower_id b (h.lower b hb))) ?_
    exact List.map_id n
  | true => exact titleCaseFrom_lower n 45 h.lower

theorem wireFields_wire (title : Bool) (fs : List (Bytes × Bytes))
    (hn : ∀ f ∈ fs, LowerName f.1) (hv : ∀ f ∈ fs, ∀ b ∈ f.2, isValueByte b = true) :
    ∀ f ∈ wireFields title fs, WireField f := by
  intro f hf
  simp only [wireFields, List.mem_map] at hf
  obtain ⟨g, hg, rfl⟩ := hf
  have hl := hn g hg
  cases title with
  | false => exact ⟨hl.ne, hl.tchar, hv g hg⟩
  | true => exact ⟨titleCase_ne hl.ne, titleCaseFrom_tchar g.1 45 hl.tchar, hv g hg⟩

theorem sendable_mem {declared : List Bytes} {fs : List (Bytes × Bytes)} {f : Bytes × Bytes}
    (h : f ∈ sendable declared fs) : f ∈ fs := by
  simp only [sendable, List.mem_filter] at h; exact h.1

end Hyper
