import Verif.Model.ClientParse
import Verif.Proof.ServerParse

namespace Hyper

open Spec

theorem respLoop_ok (fs : List (Bytes × Bytes)) : ∀ (ka : Bool) (hs : HeaderMap)
    (cm : Option HeaderMap) (ka' : Bool) (hs' : HeaderMap) (cm' : Option HeaderMap), hs.Full →
    respLoop ka hs cm fs = .ok (ka', hs', cm') →
    hs'.Full ∧ ka' = connFold ka (valuesOf hCONN fs) ∧
    (∀ k, hs'.getAll k = hs.getAll k ++ valuesOf k fs) := by
  induction fs with
  | nil =>
    intro ka hs cm ka' hs' cm' hf h
    simp only [respLoop, Except.ok.injEq, Prod.mk.injEq] at h
    obtain ⟨rfl, rfl, rfl⟩ := h
    exact ⟨hf, rfl, fun k => by simp [valuesOf]⟩
  | cons f fs ih =>
    intro ka hs cm ka' hs' cm' hf h
    simp only [respLoop] at h
    cases hn : headerName f.1 with
    | none => rw [hn] at h; simp at h
    | some name =>
      rw [hn] at h
      have hname := headerName_some hn
      obtain ⟨h1, h2, h3⟩ := ih _ _ _ _ _ _ (full_append hf name f.2) h
      have hv : ∀ k, valuesOf k (f :: fs) = (if name = k then [f.2] else []) ++ valuesOf k fs := by
        intro k
        have := valuesOf_append k [f] fs
        have h0 := valuesOf_snoc k [] f
        simp only [List.nil_append] at h0
        rw [show f :: fs = [f] ++ fs from rfl, this, h0, ← hname]
        simp [valuesOf]
      refine ⟨h1, ?_, ?_⟩
      · rw [h2, hv]
        by_cases hc : name = hCONN
        · rw [if_pos hc, if_pos hc]; rfl
        · rw [if_neg hc, if_neg hc]; rfl
      · intro k
        rw [h3, getAll_append, hv]
        by_cases hk : name = k
        · rw [if_pos hk.symm, if_pos hk]; simp
        · rw [if_neg (fun hh => hk hh.symm), if_neg hk]; simp

theorem respLoop_total (fs : List (Bytes × Bytes)) : ∀ (ka : Bool) (hs : HeaderMap)
    (cm : Option HeaderMap), (∀ f ∈ fs, headerName f.1 ≠ none) →
    ∃ r, respLoop ka hs cm fs = .ok r := by
  induction fs with
  | nil => intro ka hs cm _; exact ⟨_, rfl⟩
  | cons f fs ih =>
    intro ka hs cm h
    cases hn : headerName f.1 with
    | none => exact absurd hn (h f (by simp))
    | some name =>
      simp only [respLoop, hn]
      exact ih _ _ _ (fun g hg => h g (by simp [hg]))

theorem clientHead_ok {cfg : ClientCfg} {r : RawResponse} {head : RespHead} {ka : Bool}
    (h : clientHead cfg r = .ok (head, ka)) :
    head.headers.Full ∧ head.status = r.status ∧
    head.version = (if r.http11 then .h11 else .h10) ∧
    (∀ k, head.headers.getAll k = valuesOf k (cfg.unfold r.fields)) ∧
    ka = connFold r.http11 (valuesOf hCONN (cfg.unfold r.fields)) ∧
    100 ≤ r.status ∧ r.status ≤ 999 ∧
    head.reason = (if some r.reason ≠ cfg.canonicalReason r.status then some r.reason else none) := by
  unfold clientHead at h
  split at h
  · simp at h
  · rename_i hst
    split at h
    · simp at h
    · simp only at h
      cases hl : respLoop r.http11 [] (if cfg.preserveCase then some [] else none)
          (cfg.unfold r.fields) with
      | error e => rw [hl] at h; simp at h
      | ok t =>
        obtain ⟨k', hs, cm⟩ := t
        rw [hl] at h
        simp only [Except.ok.injEq, Prod.mk.injEq] at h
        obtain ⟨rfl, rfl⟩ := h
        obtain ⟨h1, h2, h3⟩ := respLoop_ok _ _ _ _ _ _ _ (by intro g hg; simp at hg) hl
        refine ⟨h1, rfl, rfl, ?_, h2, by omega, by omega, rfl⟩
        intro k; rw [h3]; rfl

/-- The decoded length that stands for a framing. -/
def framingLength : Framing → DecodedLength
  | .length n => ⟨n⟩
  | .chunked => DecodedLength.CHUNKED
  | .untilClose => DecodedLength.CLOSE_DELIMITED

theorem Spec.ResponseFraming.unique {m : Option Bytes} {st : Nat} {v : Prop} {te cl : List Bytes}
    {f g : Framing} (hf : ResponseFraming m st v te cl f) (hg : ResponseFraming m st v te cl g) :
    f = g := by
  cases hf with
  | noBody a =>
    cases hg with
    | noBody => rfl
    | chunked b => exact absurd a b
    | otherCoding b => exact absurd a b
    | length n b => exact absurd a b
    | untilClose b => exact absurd a b
  | chunked a1 a2 a3 a4 =>
    cases hg with
    | noBody b => exact absurd b a1
    | chunked => rfl
    | otherCoding _ _ _ b4 => exact absurd a4 b4
    | length n _ b => exact absurd b a2
    | untilClose _ b => exact absurd b a2
  | otherCoding a1 a2 a3 a4 =>
    cases hg with
    | noBody b => exact absurd b a1
    | chunked _ _ _ b4 => exact absurd b4 a4
    | otherCoding => rfl
    | length n _ b => exact absurd b a2
    | untilClose _ b => exact absurd b a2
  | length n a1 a2 a3 =>
    cases hg with
    | noBody b => exact absurd b a1
    | chunked _ b => exact absurd a2 b
    | otherCoding _ b => exact absurd a2 b
    | length k b1 b2 b3 =>
      have e1 := (contentLengthParseAllValues_iff cl n).mpr a3
      have e2 := (contentLengthParseAllValues_iff cl k).mpr b3
      rw [e1] at e2
      simp only [Option.some.injEq] at e2
      rw [e2]
    | untilClose _ _ b => exact absurd b a3.1
  | untilClose a1 a2 a3 =>
    cases hg with
    | noBody b => exact absurd b a1
    | chunked _ b => exact absurd a2 b
    | otherCoding _ b => exact absurd a2 b
    | length k b1 b2 b3 => exact absurd a3 b3.1
    | untilClose => rfl

/-- What `Client::decoder` answers, in terms of the framing rules. -/
theorem clientDecoder_spec (head : RespHead) (method : Option Bytes) (hf : head.headers.Full)
    (hst : head.status ≠ 100 ∧ ¬ (102 ≤ head.status ∧ head.status ≤ 199)) :
    (∃ fr, ResponseFraming method head.status (head.version = .h10) (head.headers.getAll hTE)
        (head.headers.getAll hCL) fr ∧ (∀ n, fr = .length n → n ≤ 2 ^ 64 - 3) ∧
      ∃ up, clientDecoder head method = .ok (some (framingLength fr, up)) ∧
        (up = true ↔ head.status = 101 ∨
          (method = some mCONNECT ∧ 200 ≤ head.status ∧ head.status ≤ 299 ∧ head.status ≠ 204))) ∨
    ((¬ ∃ fr, ResponseFraming method head.status (head.version = .h10) (head.headers.getAll hTE)
        (head.headers.getAll hCL) fr ∧ (∀ n, fr = .length n → n ≤ 2 ^ 64 - 3)) ∧
      ∃ e, clientDecoder head method = .error e) := by
  have hdisj : mHEAD ≠ mCONNECT := by decide
  have hag : ∀ n, contentLengthParseAll head.headers = some n ↔ AgreedLength (head.headers.getAll hCL) n :=
    fun n => contentLengthParseAllValues_iff _ n
  have hte := contains_iff hf hTE
  have hcl := contains_iff hf hCL
  have hch : transferEncodingIsChunked head.headers = true ↔ FinalChunked (head.headers.getAll hTE) :=
    isChunked_iff _
  have hz : ∀ n, Framing.length 0 = .length n → n ≤ 2 ^ 64 - 3 := by intro n hn; injection hn; omega
  by_cases h101 : head.status = 101
  · have hnb : NoBody method head.status := Or.inr (Or.inl ⟨by omega, by omega⟩)
    exact Or.inl ⟨.length 0, .noBody hnb, hz, true,
      by unfold clientDecoder; simp only; rw [if_pos h101]; rfl, by simp [h101]⟩
  have hni : ¬ (head.status = 100 ∨ (102 ≤ head.status ∧ head.status ≤ 199)) := by
    rintro (h | h)
    · exact hst.1 h
    · exact hst.2 h
  by_cases hc204 : head.status = 204 ∨ head.status = 304
  · have hnb : NoBody method head.status := by
      rcases hc204 with h | h
      · exact Or.inr (Or.inr (Or.inl h))
      · exact Or.inr (Or.inr (Or.inr (Or.inl h)))
    refine Or.inl ⟨.length 0, .noBody hnb, hz, false, ?_, ?_⟩
    · unfold clientDecoder; simp only; rw [if_neg h101, if_neg hni, if_pos hc204]; rfl
    · simp only [Bool.false_eq_true, false_iff]
      rintro (h | h) <;> omega
  by_cases hhead : method = some mHEAD
  · have hnb : NoBody method head.status := Or.inl hhead
    refine Or.inl ⟨.length 0, .noBody hnb, hz, false, ?_, ?_⟩
    · unfold clientDecoder; simp only
      rw [if_neg h101, if_neg hni, if_neg hc204, if_pos hhead]; rfl
    · simp only [Bool.false_eq_true, false_iff]
      rintro (h | ⟨h, _⟩)
      · exact h101 h
      · rw [hhead] at h; injection h with h; exact hdisj h
  by_cases hcon : method = some mCONNECT ∧ 200 ≤ head.status ∧ head.status ≤ 299
  · have hnb : NoBody method head.status := Or.inr (Or.inr (Or.inr (Or.inr hcon)))
    refine Or.inl ⟨.length 0, .noBody hnb, hz, true, ?_, ?_⟩
    · unfold clientDecoder; simp only
      rw [if_neg h101, if_neg hni, if_neg hc204, if_neg hhead, if_pos hcon]; rfl
    · simp only [true_iff]
      right; exact ⟨hcon.1, hcon.2.1, hcon.2.2, fun h => hc204 (Or.inl h)⟩
  have hnb : ¬ NoBody method head.status := by
    rintro (h | h | h | h | h)
    · exact hhead h
    · omega
    · omega
    · omega
    · exact hcon h
  have hup : (false = true ↔ head.status = 101 ∨
      (method = some mCONNECT ∧ 200 ≤ head.status ∧ head.status ≤ 299 ∧ head.status ≠ 204)) := by
    simp only [Bool.false_eq_true, false_iff]
    rintro (h | h)
    · exact h101 h
    · exact hcon ⟨h.1, h.2.1, h.2.2.1⟩
  unfold clientDecoder
  simp only
  rw [if_neg h101, if_neg hni, if_neg hc204, if_neg hhead, if_neg hcon]
  by_cases ht : head.headers.contains hTE = true
  · have htn := hte.mp ht
    rw [if_pos ht]
    by_cases hv : head.version = .h10
    · rw [if_pos hv]
      right
      refine ⟨?_, _, rfl⟩
      rintro ⟨fr, hfr, _⟩
      cases hfr with
      | noBody b => exact hnb b
      | chunked _ _ b => exact b hv
      | otherCoding _ _ b => exact b hv
      | length n _ b => exact htn b
      | untilClose _ b => exact htn b
    · rw [if_neg hv]
      left
      by_cases hc : transferEncodingIsChunked head.headers = true
      · rw [if_pos hc]
        exact ⟨.chunked, .chunked hnb htn hv (hch.mp hc), by simp, false, rfl, hup⟩
      · rw [if_neg hc]
        exact ⟨.untilClose, .otherCoding hnb htn hv (fun h => hc (hch.mpr h)), by simp, false, rfl, hup⟩
  · rw [if_neg ht]
    have htn : head.headers.getAll hTE = [] := (contains_false_iff hf hTE).mp (by simpa using ht)
    cases hp : contentLengthParseAll head.headers with
    | some n =>
      have ha := (hag n).mp hp
      simp only [DecodedLength.checkedNew]
      by_cases hmax : n ≤ DecodedLength.MAX_LEN
      · left
        rw [if_pos hmax]
        rw [hMAX] at hmax
        exact ⟨.length n, .length n hnb htn ha, by intro k hk; injection hk; omega, false, rfl, hup⟩
      · right
        rw [if_neg hmax]
        refine ⟨?_, _, rfl⟩
        rintro ⟨fr, hfr, hle⟩
        have := hfr.unique (.length n hnb htn ha)
        have := hle n this
        rw [hMAX] at hmax
        omega
    | none =>
      simp only
      by_cases hc : head.headers.contains hCL = true
      · rw [if_pos hc]
        right
        refine ⟨?_, _, rfl⟩
        rintro ⟨fr, hfr, _⟩
        cases hfr with
        | noBody b => exact hnb b
        | chunked _ b => exact b htn
        | otherCoding _ b => exact b htn
        | length n _ _ b => rw [(hag n).mpr b] at hp; simp at hp
        | untilClose _ _ b => exact (hcl.mp hc) b
      · rw [if_neg hc]
        left
        have hcn : head.headers.getAll hCL = [] := (contains_false_iff hf hCL).mp (by simpa using hc)
        exact ⟨.untilClose, .untilClose hnb htn hcn, by simp, false, rfl, hup⟩

end Hyper
