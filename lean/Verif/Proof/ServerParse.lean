import Verif.Model.ServerParse
import Verif.Proof.HeaderMap

namespace Hyper

open Spec

/-- Fields up to the first Transfer-Encoding. -/
def Spec.beforeTe (fields : List (Bytes × Bytes)) : List (Bytes × Bytes) :=
  fields.takeWhile (fun f => f.1.map foldCase != ascii "transfer-encoding")

/-- These Content-Length values are absent or all the same acceptable number. -/
def Spec.LengthsOk (cl : List Bytes) : Prop :=
  cl = [] ∨ ∃ n, n ≤ 2 ^ 64 - 3 ∧ ∀ v ∈ cl, IsLength v n

theorem run_append (http11 : Bool) (pre post : List (Bytes × Bytes)) : ∀ s : ReqSt,
    s.run http11 (pre ++ post) =
      match s.run http11 pre with
      | .error e => .error e
      | .ok s' => s'.run http11 post := by
  induction pre with
  | nil => intro s; rfl
  | cons f pre ih =>
    intro s
    simp only [List.cons_append, ReqSt.run]
    cases s.step http11 f with
    | error e => rfl
    | ok s' => exact ih s'

/-- Sequential effect of the Connection fields. -/
def connFold (default : Bool) (vs : List Bytes) : Bool := vs.foldl connectionArm default

theorem push_headers (s : ReqSt) (raw n v k : Bytes) :
    (s.push raw n v).headers.getAll k =
      if k = n then s.headers.getAll k ++ [v] else s.headers.getAll k :=
  getAll_append _ _ _ _

/-- What the loop variables mean after the fields `pre`. -/
structure ReqInv (r : RawRequest) (pre : List (Bytes × Bytes)) (s : ReqSt) : Prop where
  names : ∀ f ∈ pre, (headerName f.1).isSome
  isTe : s.isTe = true ↔ teOf pre ≠ []
  isCl : s.isCl = true ↔ clOf pre ≠ []
  te11 : teOf pre ≠ [] → r.http11 = true
  teChunked : teOf pre ≠ [] → s.isTeChunked = isChunked (teOf pre)
  teDecoder : s.isTeChunked = true → s.decoder = DecodedLength.CHUNKED
  teFlag : s.isTeChunked = true → teOf pre ≠ []
  teNoCl : teOf pre ≠ [] → s.headers.getAll hCL = [] ∧ s.conLen = none
  clNone : teOf pre = [] → clOf pre = [] →
    s.conLen = none ∧ s.decoder = DecodedLength.ZERO ∧ s.headers.getAll hCL = []
  clSome : teOf pre = [] → clOf pre ≠ [] → ∃ n, s.conLen = some n ∧ s.decoder = ⟨n⟩ ∧
    n ≤ 2 ^ 64 - 3 ∧ (∀ v ∈ clOf pre, IsLength v n) ∧ s.headers.getAll hCL = (clOf pre).take 1
  before : LengthsOk (clOf (beforeTe pre))
  others : ∀ k, k ≠ hCL → s.headers.getAll k = valuesOf k pre
  keepAlive : s.keepAlive = connFold r.http11 (valuesOf hCONN pre)
  expect : s.expectContinue = ((valuesOf hEXPECT pre).getLast?.map
    (fun v => eqIgnoreCase v (ascii "100-continue"))).getD false
  upgrade : s.wantsUpgrade = if valuesOf hUPGRADE pre = [] then r.method == mCONNECT else r.http11

theorem takeWhile_all {α : Type} (p : α → Bool) (xs : List α) (h : ∀ x ∈ xs, p x = true) :
    xs.takeWhile p = xs := by
  induction xs with
  | nil => rfl
  | cons x xs ih =>
    rw [List.takeWhile_cons, if_pos (h x (by simp)), ih (fun y hy => h y (by simp [hy]))]

theorem beforeTe_noTe {pre : List (Bytes × Bytes)} (h : teOf pre = []) : beforeTe pre = pre := by
  unfold beforeTe
  apply takeWhile_all
  intro f hf
  simp only [bne_iff_ne, ne_eq]
  intro he
  have : f.2 ∈ teOf pre := by
    simp only [teOf, valuesOf, List.mem_map, List.mem_filter]
    exact ⟨f, ⟨hf, by simp [he]⟩, rfl⟩
  rw [h] at this; simp at this

theorem beforeTe_append_te {pre : List (Bytes × Bytes)} (h : teOf pre ≠ [])
    (post : List (Bytes × Bytes)) : beforeTe (pre ++ post) = beforeTe pre := by
  induction pre with
  | nil => simp [valuesOf] at h
  | cons f pre ih =>
    unfold beforeTe at ih ⊢
    rw [List.cons_append, List.takeWhile_cons, List.takeWhile_cons]
    by_cases hf : f.1.map foldCase = ascii "transfer-encoding"
    · rw [if_neg (by simp [hf]), if_neg (by simp [hf])]
    · rw [if_pos (by simp [hf]), if_pos (by simp [hf])]
      congr 1
      apply ih
      intro hn
      apply h
      simp only [teOf, valuesOf, List.filter_cons] at hn ⊢
      rw [if_neg (by simp [hf])]; exact hn

theorem beforeTe_snoc {pre : List (Bytes × Bytes)} (h : teOf pre = []) (f : Bytes × Bytes) :
    beforeTe (pre ++ [f]) =
      if f.1.map foldCase = ascii "transfer-encoding" then pre else pre ++ [f] := by
  have hpre := beforeTe_noTe h
  unfold beforeTe at hpre ⊢
  rw [List.takeWhile_append]
  rw [hpre]
  simp only [if_true]
  rw [List.takeWhile_cons]
  by_cases hf : f.1.map foldCase = ascii "transfer-encoding"
  · rw [if_neg (by simp [hf]), if_pos hf]; simp
  · rw [if_pos (by simp [hf]), if_neg hf]; simp

theorem hMAX : DecodedLength.MAX_LEN = 2 ^ 64 - 3 := by decide

theorem isChunked_snoc (vs : List Bytes) (v : Bytes) : isChunked (vs ++ [v]) = isChunkedValue v := by
  simp [isChunked]

/-- The part of the invariant about the framing variables when a field of another name is added. -/
theorem ReqInv.other {r : RawRequest} {pre : List (Bytes × Bytes)} {s : ReqSt} (h : ReqInv r pre s)
    {f : Bytes × Bytes} {name : Bytes} (hn : headerName f.1 = some name)
    (hte : name ≠ hTE) (hcl : name ≠ hCL) (s' : ReqSt)
    (hs : s' = { s with keepAlive := s'.keepAlive, expectContinue := s'.expectContinue,
                        wantsUpgrade := s'.wantsUpgrade })
    (hka : s'.keepAlive = connFold r.http11 (valuesOf hCONN (pre ++ [f])))
    (hex : s'.expectContinue = ((valuesOf hEXPECT (pre ++ [f])).getLast?.map
      (fun v => eqIgnoreCase v (ascii "100-continue"))).getD false)
    (hup : s'.wantsUpgrade =
      if valuesOf hUPGRADE (pre ++ [f]) = [] then r.method == mCONNECT else r.http11) :
    ReqInv r (pre ++ [f]) (s'.push f.1 name f.2) := by
  have hf := headerName_some hn
  have hte' : teOf (pre ++ [f]) = teOf pre := by
    rw [teOf, valuesOf_snoc, if_neg (by rw [← hf]; exact hte)]
  have hcl' : clOf (pre ++ [f]) = clOf pre := by
    rw [clOf, valuesOf_snoc, if_neg (by rw [← hf]; exact hcl)]
  have e1 : s'.isTe = s.isTe := by rw [hs]
  have e2 : s'.isCl = s.isCl := by rw [hs]
  have e3 : s'.isTeChunked = s.isTeChunked := by rw [hs]
  have e4 : s'.decoder = s.decoder := by rw [hs]
  have e5 : s'.conLen = s.conLen := by rw [hs]
  have e6 : s'.headers = s.headers := by rw [hs]
  have hh : ∀ k, (s'.push f.1 name f.2).headers.getAll k =
      if k = name then s.headers.getAll k ++ [f.2] else s.headers.getAll k := by
    intro k; rw [push_headers, e6]
  constructor
  · intro g hg
    rcases List.mem_append.mp hg with hg | hg
    · exact h.names g hg
    · simp only [List.mem_singleton] at hg; rw [hg, hn]; rfl
  · rw [hte']; show s'.isTe = true ↔ _; rw [e1]; exact h.isTe
  · rw [hcl']; show s'.isCl = true ↔ _; rw [e2]; exact h.isCl
  · rw [hte']; exact h.te11
  · rw [hte']; show _ → s'.isTeChunked = _; rw [e3]; exact h.teChunked
  · show s'.isTeChunked = true → s'.decoder = _; rw [e3, e4]; exact h.teDecoder
  · rw [hte']; show s'.isTeChunked = true → _; rw [e3]; exact h.teFlag
  · rw [hte', hh, if_neg (fun hh => hcl hh.symm)]; show _ → _ ∧ s'.conLen = none
    rw [e5]; exact h.teNoCl
  · rw [hte', hcl', hh, if_neg (fun hh => hcl hh.symm)]
    show _ → _ → s'.conLen = none ∧ s'.decoder = _ ∧ _
    rw [e4, e5]; exact h.clNone
  · rw [hte', hcl', hh, if_neg (fun hh => hcl hh.symm)]
    show _ → _ → ∃ n, s'.conLen = some n ∧ s'.decoder = _ ∧ _
    rw [e4, e5]; exact h.clSome
  · by_cases ht : teOf pre = []
    · have hb := beforeTe_snoc ht f
      rw [if_neg (by rw [← hf]; exact hte)] at hb
      rw [hb, hcl']
      have := h.before
      rwa [beforeTe_noTe ht] at this
    · rw [beforeTe_append_te ht]; exact h.before
  · intro k hk
    rw [hh, valuesOf_snoc, ← hf, h.others k hk]
    by_cases hkn : k = name
    · rw [if_pos hkn, if_pos hkn.symm]
    · rw [if_neg hkn, if_neg (fun hh => hkn hh.symm)]
  · exact hka
  · exact hex
  · exact hup

theorem reqInv_start (pc : Bool) (r : RawRequest) : ReqInv r [] (ReqSt.start pc r) := by
  constructor <;> simp [ReqSt.start, valuesOf, HeaderMap.getAll, connFold, beforeTe, LengthsOk]

/-- One step of the loop keeps the invariant. -/
theorem ReqInv.step {r : RawRequest} {pre : List (Bytes × Bytes)} {s s' : ReqSt}
    (h : ReqInv r pre s) {f : Bytes × Bytes} (hs : s.step r.http11 f = .ok s') :
    ReqInv r (pre ++ [f]) s' := by
  unfold ReqSt.step at hs
  cases hn : headerName f.1 with
  | none => rw [hn] at hs; simp at hs
  | some name =>
    rw [hn] at hs
    have hf := headerName_some hn
    have hnames : ∀ g ∈ pre ++ [f], (headerName g.1).isSome := by
      intro g hg
      rcases List.mem_append.mp hg with hg | hg
      · exact h.names g hg
      · simp only [List.mem_singleton] at hg; rw [hg, hn]; rfl
    have hvo : ∀ k, valuesOf k (pre ++ [f]) = if name = k then valuesOf k pre ++ [f.2] else valuesOf k pre := by
      intro k; rw [valuesOf_snoc, ← hf]
    have d1 : hTE ≠ hCL := by decide
    have d2 : hTE ≠ hCONN := by decide
    have d3 : hTE ≠ hEXPECT := by decide
    have d4 : hTE ≠ hUPGRADE := by decide
    have d5 : hCL ≠ hCONN := by decide
    have d6 : hCL ≠ hEXPECT := by decide
    have d7 : hCL ≠ hUPGRADE := by decide
    have d8 : hCONN ≠ hEXPECT := by decide
    have d9 : hCONN ≠ hUPGRADE := by decide
    have d10 : hEXPECT ≠ hUPGRADE := by decide
    simp only at hs
    by_cases hte : name = hTE
    · -- Transfer-Encoding
      subst hte
      rw [if_pos rfl] at hs
      have hteV : teOf (pre ++ [f]) = teOf pre ++ [f.2] := by
        rw [teOf, hvo]; exact if_pos rfl
      have hteN : teOf (pre ++ [f]) ≠ [] := by rw [hteV]; simp
      have hclV : clOf (pre ++ [f]) = clOf pre := by
        rw [clOf, hvo]; exact if_neg d1
      unfold ReqSt.onTe at hs
      by_cases h11 : r.http11 = true
      · rw [if_neg (by simp [h11])] at hs
        -- the state after the Content-Length clean-up
        obtain ⟨t, ht, hst⟩ : ∃ t : ReqSt, (t = { s with isTe := true, conLen := t.conLen, headers := t.headers }
            ∧ t.conLen = none ∧ t.headers.getAll hCL = [] ∧
            ∀ k, k ≠ hCL → t.headers.getAll k = valuesOf k pre) ∧
            s' = ({ t with isTeChunked := isChunkedValue f.2,
                           decoder := if isChunkedValue f.2 then DecodedLength.CHUNKED else t.decoder } : ReqSt).push f.1 hTE f.2 := by
          simp only at hs
          have hconl : s.isCl = false → s.conLen = none ∧ s.headers.getAll hCL = [] := by
            intro hc
            have hcl : clOf pre = [] := by
              rcases Classical.em (clOf pre = []) with hh | hh
              · exact hh
              · have := h.isCl.mpr hh; rw [hc] at this; simp at this
            by_cases ht : teOf pre = []
            · have := h.clNone ht hcl; exact ⟨this.1, this.2.2⟩
            · have := h.teNoCl ht; exact ⟨this.2, this.1⟩
          by_cases hc1 : (s.isCl && s.conLen.isSome) = true
          · rw [if_pos hc1] at hs
            refine ⟨{ s with isTe := true, conLen := none, headers := s.headers.remove hCL },
              ⟨rfl, rfl, ?_, ?_⟩, ?_⟩
            · simp [getAll_remove]
            · intro k hk; simp only [getAll_remove, if_neg hk]; exact h.others k hk
            · by_cases hch : isChunkedValue f.2 = true
              · rw [if_pos hch] at hs; simp only [Except.ok.injEq] at hs; rw [← hs, hch]; rfl
              · rw [if_neg hch] at hs; simp only [Except.ok.injEq] at hs
                rw [← hs]; simp only [Bool.not_eq_true] at hch; rw [hch]; rfl
          · rw [if_neg hc1] at hs
            have hnone : s.conLen = none := by
              cases hcl : s.isCl with
              | false => exact (hconl hcl).1
              | true =>
                rw [hcl] at hc1
                cases hh : s.conLen with
                | none => rfl
                | some _ => rw [hh] at hc1; simp at hc1
            have hget : s.headers.getAll hCL = [] := by
              by_cases ht : teOf pre = []
              · by_cases hcl : clOf pre = []
                · exact (h.clNone ht hcl).2.2
                · obtain ⟨n, hh, _⟩ := h.clSome ht hcl
                  rw [hnone] at hh; simp at hh
              · exact (h.teNoCl ht).1
            refine ⟨{ s with isTe := true, conLen := none }, ⟨rfl, rfl, hget, h.others⟩, ?_⟩
            have key : (if s.isCl = true then ({ s with isTe := true, conLen := none } : ReqSt)
                else { s with isTe := true }) = { s with isTe := true, conLen := none } := by
              split
              · rfl
              · rw [← hnone]
            rw [key] at hs
            by_cases hch : isChunkedValue f.2 = true
            · rw [if_pos hch] at hs; simp only [Except.ok.injEq] at hs; rw [← hs, hch]; rfl
            · rw [if_neg hch] at hs; simp only [Except.ok.injEq] at hs
              rw [← hs]; simp only [Bool.not_eq_true] at hch; rw [hch]; rfl
        obtain ⟨ht1, ht2, ht3, ht4⟩ := ht
        have hh : ∀ k, s'.headers.getAll k =
            if k = hTE then t.headers.getAll k ++ [f.2] else t.headers.getAll k := by
          intro k; rw [hst]; exact push_headers _ _ _ _ _
        have g1 : s'.isTe = true := by rw [hst]; show t.isTe = true; rw [ht1]
        have g2 : s'.isCl = s.isCl := by rw [hst]; show t.isCl = _; rw [ht1]
        have g3 : s'.isTeChunked = isChunkedValue f.2 := by rw [hst]; rfl
        have g4 : isChunkedValue f.2 = true → s'.decoder = DecodedLength.CHUNKED := by
          intro hc; rw [hst]; show (if _ then _ else _) = _; rw [if_pos hc]
        have g5 : s'.conLen = none := by rw [hst]; exact ht2
        have g6 : s'.keepAlive = s.keepAlive := by rw [hst]; show t.keepAlive = _; rw [ht1]
        have g7 : s'.expectContinue = s.expectContinue := by
          rw [hst]; show t.expectContinue = _; rw [ht1]
        have g8 : s'.wantsUpgrade = s.wantsUpgrade := by
          rw [hst]; show t.wantsUpgrade = _; rw [ht1]
        constructor
        · exact hnames
        · exact ⟨fun _ => hteN, fun _ => g1⟩
        · rw [g2, hclV]; exact h.isCl
        · exact fun _ => h11
        · intro _; rw [g3, hteV, isChunked_snoc]
        · intro hc; rw [g3] at hc; exact g4 hc
        · exact fun _ => hteN
        · intro _; rw [hh, if_neg (fun hh => d1 hh.symm)]; exact ⟨ht3, g5⟩
        · intro hc; exact absurd hc hteN
        · intro hc; exact absurd hc hteN
        · by_cases ht : teOf pre = []
          · have hb := beforeTe_snoc ht f
            rw [if_pos (by rw [← hf]; rfl)] at hb
            rw [hb]
            have := h.before
            rwa [beforeTe_noTe ht] at this
          · rw [beforeTe_append_te ht]; exact h.before
        · intro k hk
          rw [hh, hvo, ht4 k hk]
          by_cases hkn : k = hTE
          · rw [if_pos hkn, if_pos hkn.symm]
          · rw [if_neg hkn, if_neg (fun hh => hkn hh.symm)]
        · rw [g6, hvo, if_neg d2]; exact h.keepAlive
        · rw [g7, hvo, if_neg d3]; exact h.expect
        · rw [g8, hvo, if_neg d4]; exact h.upgrade
      · rw [if_pos (by simp [h11])] at hs; simp at hs
    · rw [if_neg hte] at hs
      by_cases hcl : name = hCL
      · -- Content-Length
        subst hcl
        rw [if_pos rfl] at hs
        have hteV : teOf (pre ++ [f]) = teOf pre := by
          rw [teOf, hvo]; exact if_neg (fun hh => d1 hh.symm)
        have hclV : clOf (pre ++ [f]) = clOf pre ++ [f.2] := by
          rw [clOf, hvo]; exact if_pos rfl
        have hclN : clOf (pre ++ [f]) ≠ [] := by rw [hclV]; simp
        have flags : ∀ t : ReqSt, t.keepAlive = s.keepAlive → t.expectContinue = s.expectContinue →
            t.wantsUpgrade = s.wantsUpgrade →
            (t.keepAlive = connFold r.http11 (valuesOf hCONN (pre ++ [f]))) ∧
            (t.expectContinue = ((valuesOf hEXPECT (pre ++ [f])).getLast?.map
              (fun v => eqIgnoreCase v (ascii "100-continue"))).getD false) ∧
            (t.wantsUpgrade =
              if valuesOf hUPGRADE (pre ++ [f]) = [] then r.method == mCONNECT else r.http11) := by
          intro t a b c
          rw [a, b, c, hvo, if_neg d5, hvo, if_neg d6, hvo, if_neg d7]
          exact ⟨h.keepAlive, h.expect, h.upgrade⟩
        unfold ReqSt.onCl at hs
        simp only at hs
        by_cases hit : s.isTe = true
        · rw [if_pos hit] at hs
          simp only [Except.ok.injEq] at hs
          subst hs
          have hT := h.isTe.mp hit
          obtain ⟨f1, f2, f3⟩ := flags { s with isCl := true } rfl rfl rfl
          constructor
          · exact hnames
          · rw [hteV]; exact h.isTe
          · exact ⟨fun _ => hclN, fun _ => rfl⟩
          · rw [hteV]; exact h.te11
          · rw [hteV]; exact h.teChunked
          · exact h.teDecoder
          · rw [hteV]; exact h.teFlag
          · rw [hteV]; exact h.teNoCl
          · rw [hteV]; exact fun hc => absurd hc hT
          · rw [hteV]; exact fun hc => absurd hc hT
          · rw [beforeTe_append_te hT]; exact h.before
          · intro k hk; rw [hvo, if_neg (fun hh => hk hh.symm)]; exact h.others k hk
          · exact f1
          · exact f2
          · exact f3
        · rw [if_neg hit] at hs
          have hT : teOf pre = [] := by
            rcases Classical.em (teOf pre = []) with hh | hh
            · exact hh
            · exact absurd (h.isTe.mpr hh) hit
          have hbf : beforeTe (pre ++ [f]) = pre ++ [f] := by
            rw [beforeTe_snoc hT, if_neg (by rw [← hf]; exact fun hh => d1 hh.symm)]
          cases hp : contentLengthParse f.2 with
          | none => rw [hp] at hs; simp at hs
          | some len =>
            rw [hp] at hs
            have hlen : IsLength f.2 len := (fromDigits_iff _ _).mp hp
            simp only at hs
            cases hcl' : s.conLen with
            | some prev =>
              rw [hcl'] at hs
              simp only at hs
              by_cases hne : prev = len
              · subst hne
                simp only [ne_eq, not_true_eq_false, if_false, Except.ok.injEq] at hs
                have hcc : clOf pre ≠ [] := by
                  intro hc
                  have := (h.clNone hT hc).1
                  rw [hcl'] at this; simp at this
                obtain ⟨n, c1, c2, c3, c4, c5⟩ := h.clSome hT hcc
                rw [hcl'] at c1
                simp only [Option.some.injEq] at c1
                subst c1
                have hsome : ∀ v ∈ clOf (pre ++ [f]), IsLength v prev := by
                  rw [hclV]; intro v hv
                  rcases List.mem_append.mp hv with hv | hv
                  · exact c4 v hv
                  · simp only [List.mem_singleton] at hv; rw [hv]; exact hlen
                obtain ⟨f1, f2, f3⟩ := flags { s with isCl := true } rfl rfl rfl
                rw [← hcl'] at hs
                subst hs
                constructor
                · exact hnames
                · rw [hteV]; exact h.isTe
                · exact ⟨fun _ => hclN, fun _ => rfl⟩
                · rw [hteV]; exact h.te11
                · rw [hteV]; exact h.teChunked
                · exact h.teDecoder
                · rw [hteV]; exact h.teFlag
                · rw [hteV]; exact fun hc => absurd hT hc
                · exact fun _ hc => absurd hc hclN
                · intro _ _
                  refine ⟨prev, hcl', c2, c3, hsome, ?_⟩
                  rw [hclV]
                  show s.headers.getAll hCL = _
                  rw [c5]
                  cases hpre : clOf pre with
                  | nil => exact absurd hpre hcc
                  | cons a as => simp
                · rw [hbf]; exact Or.inr ⟨prev, c3, hsome⟩
                · intro k hk; rw [hvo, if_neg (fun hh => hk hh.symm)]; exact h.others k hk
                · exact f1
                · exact f2
                · exact f3
              · rw [if_pos hne] at hs; simp at hs
            | none =>
              rw [hcl'] at hs
              simp only [DecodedLength.checkedNew] at hs
              by_cases hmax : len ≤ DecodedLength.MAX_LEN
              · rw [if_pos hmax] at hs
                simp only [Except.ok.injEq] at hs
                have hcc : clOf pre = [] := by
                  rcases Classical.em (clOf pre = []) with hh | hh
                  · exact hh
                  · obtain ⟨n, c1, _⟩ := h.clSome hT hh
                    rw [hcl'] at c1; simp at c1
                have hnc := h.clNone hT hcc
                have hsome : ∀ v ∈ clOf (pre ++ [f]), IsLength v len := by
                  rw [hclV, hcc]; intro v hv
                  simp only [List.nil_append, List.mem_singleton] at hv; rw [hv]; exact hlen
                rw [hMAX] at hmax
                obtain ⟨f1, f2, f3⟩ := flags s' (by rw [← hs]; rfl) (by rw [← hs]; rfl) (by rw [← hs]; rfl)
                have hh : ∀ k, s'.headers.getAll k =
                    if k = hCL then s.headers.getAll k ++ [f.2] else s.headers.getAll k := by
                  intro k; rw [← hs]; exact push_headers _ _ _ _ _
                have htc : s'.isTeChunked = s.isTeChunked := by rw [← hs]; rfl
                have hfalse : s.isTeChunked = false := by
                  cases hc : s.isTeChunked with
                  | false => rfl
                  | true => exact absurd hT (h.teFlag hc)
                constructor
                · exact hnames
                · rw [hteV, ← hs]; exact h.isTe
                · rw [← hs]; exact ⟨fun _ => hclN, fun _ => rfl⟩
                · rw [hteV]; exact h.te11
                · rw [hteV]; exact fun hc => absurd hT hc
                · intro hc; rw [htc, hfalse] at hc; simp at hc
                · intro hc; rw [htc, hfalse] at hc; simp at hc
                · rw [hteV]; exact fun hc => absurd hT hc
                · exact fun _ hc => absurd hc hclN
                · intro _ _
                  refine ⟨len, by rw [← hs]; rfl, by rw [← hs]; rfl, hmax, hsome, ?_⟩
                  rw [hclV, hcc, hh, if_pos rfl, hnc.2.2]; rfl
                · rw [hbf]; exact Or.inr ⟨len, hmax, hsome⟩
                · intro k hk
                  rw [hh, if_neg hk, hvo, if_neg (fun hh => hk hh.symm)]; exact h.others k hk
                · exact f1
                · exact f2
                · exact f3
              · rw [if_neg hmax] at hs; simp at hs
      · rw [if_neg hcl] at hs
        by_cases hcn : name = hCONN
        · rw [if_pos hcn] at hs
          simp only [Except.ok.injEq] at hs
          rw [← hs]
          refine h.other hn hte hcl _ rfl ?_ ?_ ?_
          · show connectionArm s.keepAlive f.2 = _
            rw [hvo, if_pos hcn, h.keepAlive]; simp [connFold]
          · rw [hvo, if_neg (by rw [hcn]; exact d8)]; exact h.expect
          · rw [hvo, hcn]; simp only [if_neg d9]; exact h.upgrade
        · rw [if_neg hcn] at hs
          by_cases hex : name = hEXPECT
          · rw [if_pos hex] at hs
            simp only [Except.ok.injEq] at hs
            rw [← hs]
            refine h.other hn hte hcl _ rfl ?_ ?_ ?_
            · rw [hvo, if_neg hcn]; exact h.keepAlive
            · rw [hvo, if_pos hex]; simp
            · rw [hvo, hex]; simp only [if_neg d10]; exact h.upgrade
          · rw [if_neg hex] at hs
            by_cases hup : name = hUPGRADE
            · rw [if_pos hup] at hs
              simp only [Except.ok.injEq] at hs
              rw [← hs]
              refine h.other hn hte hcl _ rfl ?_ ?_ ?_
              · rw [hvo, if_neg hcn]; exact h.keepAlive
              · rw [hvo, if_neg hex]; exact h.expect
              · rw [hvo, if_pos hup]; simp
            · rw [if_neg hup] at hs
              simp only [Except.ok.injEq] at hs
              rw [← hs]
              refine h.other hn hte hcl s rfl ?_ ?_ ?_
              · rw [hvo, if_neg hcn]; exact h.keepAlive
              · rw [hvo, if_neg hex]; exact h.expect
              · rw [hvo, if_neg hup]; exact h.upgrade

theorem ReqInv.run {r : RawRequest} (post : List (Bytes × Bytes)) :
    ∀ (pre : List (Bytes × Bytes)) (s s' : ReqSt), ReqInv r pre s →
      s.run r.http11 post = .ok s' → ReqInv r (pre ++ post) s' := by
  induction post with
  | nil =>
    intro pre s s' h hs
    simp only [ReqSt.run, Except.ok.injEq] at hs
    rw [← hs, List.append_nil]; exact h
  | cons f post ih =>
    intro pre s s' h hs
    simp only [ReqSt.run] at hs
    cases hst : s.step r.http11 f with
    | error e => rw [hst] at hs; simp at hs
    | ok t =>
      rw [hst] at hs
      have := ih (pre ++ [f]) t s' (h.step hst) hs
      simpa using this

/-- After the whole loop. -/
theorem reqInv_run (pc : Bool) (r : RawRequest) (s : ReqSt)
    (hs : (ReqSt.start pc r).run r.http11 r.fields = .ok s) : ReqInv r r.fields s :=
  ReqInv.run r.fields [] _ _ (reqInv_start pc r) hs

/-- A reason to refuse the fields seen so far. -/
def Spec.BadFields (http11 : Bool) (fields : List (Bytes × Bytes)) : Prop :=
  (∃ f ∈ fields, headerName f.1 = none) ∨ (teOf fields ≠ [] ∧ http11 = false) ∨
    ¬ LengthsOk (clOf (beforeTe fields))

theorem step_error {r : RawRequest} {pre : List (Bytes × Bytes)} {s : ReqSt} (h : ReqInv r pre s)
    {f : Bytes × Bytes} {e : ParseErr} (hs : s.step r.http11 f = .error e) :
    BadFields r.http11 (pre ++ [f]) := by
  unfold ReqSt.step at hs
  cases hn : headerName f.1 with
  | none => exact Or.inl ⟨f, by simp, hn⟩
  | some name =>
    rw [hn] at hs
    have hf := headerName_some hn
    have d1 : hTE ≠ hCL := by decide
    simp only at hs
    by_cases hte : name = hTE
    · rw [if_pos hte] at hs
      unfold ReqSt.onTe at hs
      by_cases h11 : r.http11 = true
      · rw [if_neg (by simp [h11])] at hs
        simp only at hs
        by_cases hch : isChunkedValue f.2 = true
        · simp [hch] at hs
        · simp [hch] at hs
      · refine Or.inr (Or.inl ⟨?_, by simpa using h11⟩)
        rw [teOf, valuesOf_snoc, if_pos (by rw [← hf]; exact hte)]; simp
    · rw [if_neg hte] at hs
      by_cases hcl : name = hCL
      · subst hcl
        rw [if_pos rfl] at hs
        unfold ReqSt.onCl at hs
        simp only at hs
        by_cases hit : s.isTe = true
        · rw [if_pos hit] at hs; simp at hs
        · rw [if_neg hit] at hs
          have hT : teOf pre = [] := by
            rcases Classical.em (teOf pre = []) with hh | hh
            · exact hh
            · exact absurd (h.isTe.mpr hh) hit
          have hbf : beforeTe (pre ++ [f]) = pre ++ [f] := by
            rw [beforeTe_snoc hT, if_neg (by rw [← hf]; exact fun hh => d1 hh.symm)]
          have hclV : clOf (pre ++ [f]) = clOf pre ++ [f.2] := by
            rw [clOf, valuesOf_snoc]; exact if_pos (by rw [← hf]; rfl)
          refine Or.inr (Or.inr ?_)
          rw [hbf, hclV]
          rintro (hnil | ⟨n, hn1, hn2⟩)
          · simp at hnil
          · have hfl : IsLength f.2 n := hn2 f.2 (by simp)
            have hp : contentLengthParse f.2 = some n := (fromDigits_iff _ _).mpr hfl
            rw [hp] at hs
            simp only at hs
            cases hc : s.conLen with
            | some prev =>
              rw [hc] at hs
              have hcc : clOf pre ≠ [] := by
                intro hc'
                have := (h.clNone hT hc').1
                rw [hc] at this; simp at this
              obtain ⟨m, c1, c2, c3, c4, c5⟩ := h.clSome hT hcc
              rw [hc] at c1
              simp only [Option.some.injEq] at c1
              have hmn : m = n := by
                cases hpre : clOf pre with
                | nil => exact absurd hpre hcc
                | cons a as =>
                  have e1 := c4 a (by rw [hpre]; simp)
                  have e2 := hn2 a (by rw [hpre]; simp)
                  rw [← e1.2.2.1, ← e2.2.2.1]
              rw [c1, hmn] at hs
              simp at hs
            | none =>
              rw [hc] at hs
              simp only [DecodedLength.checkedNew] at hs
              rw [if_pos (by rw [hMAX]; exact hn1)] at hs
              simp at hs
      · rw [if_neg hcl] at hs
        split at hs
        · simp at hs
        · split at hs
          · simp at hs
          · split at hs <;> simp at hs

theorem lengthsOk_prefix {a b : List Bytes} (h : LengthsOk (a ++ b)) : LengthsOk a := by
  rcases h with h | ⟨n, h1, h2⟩
  · left; simp at h; exact h.1
  · right; exact ⟨n, h1, fun v hv => h2 v (by simp [hv])⟩

theorem badFields_append {http11 : Bool} {a : List (Bytes × Bytes)} (b : List (Bytes × Bytes))
    (h : BadFields http11 a) : BadFields http11 (a ++ b) := by
  rcases h with ⟨f, hf, hn⟩ | ⟨h1, h2⟩ | h
  · exact Or.inl ⟨f, by simp [hf], hn⟩
  · refine Or.inr (Or.inl ⟨?_, h2⟩)
    rw [teOf, valuesOf_append]; intro hc; simp at hc; exact h1 hc.1
  · refine Or.inr (Or.inr ?_)
    intro hc
    apply h
    by_cases ht : teOf a = []
    · rw [beforeTe_noTe ht]
      have : ∃ c, beforeTe (a ++ b) = a ++ c := by
        refine ⟨beforeTe b, ?_⟩
        have ha := beforeTe_noTe ht
        unfold beforeTe at ha ⊢
        rw [List.takeWhile_append, ha]; simp
      obtain ⟨c, hc'⟩ := this
      rw [hc', clOf, valuesOf_append] at hc
      exact lengthsOk_prefix hc
    · rw [beforeTe_append_te ht] at hc; exact hc

theorem run_error {r : RawRequest} (post : List (Bytes × Bytes)) :
    ∀ (pre : List (Bytes × Bytes)) (s : ReqSt) (e : ParseErr), ReqInv r pre s →
      s.run r.http11 post = .error e → BadFields r.http11 (pre ++ post) := by
  induction post with
  | nil => intro pre s e h hs; simp [ReqSt.run] at hs
  | cons f post ih =>
    intro pre s e h hs
    simp only [ReqSt.run] at hs
    cases hst : s.step r.http11 f with
    | error e' =>
      have := badFields_append post (step_error h hst)
      simpa using this
    | ok t =>
      rw [hst] at hs
      have := ih (pre ++ [f]) t e (h.step hst) hs
      simpa using this

end Hyper
