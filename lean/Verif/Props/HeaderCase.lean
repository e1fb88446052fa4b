import Verif.Props.ServerEncode
import Verif.Props.ClientEncode
import Verif.Props.ServerParse
import Verif.Props.ClientParse
import Verif.Proof.NameCase

/-!
# C74: names of header fields keep their spelling

With `preserve_header_case` a head that is received and sent on shows every field with the name as it
was spelled, value by value.
-/

namespace Hyper

open Spec

theorem zip_self (fs : List (Bytes × Bytes)) : (fs.map Prod.fst).zip (fs.map Prod.snd) = fs := by
  induction fs with
  | nil => rfl
  | cons f fs ih => simp [ih]

/-! ## What is recorded -/

theorem getAll_append_self (m : HeaderMap) (n v : Bytes) : (m.append n v).getAll n = m.getAll n ++ [v] := by
  induction m with
  | nil => simp [HeaderMap.append, HeaderMap.getAll]
  | cons g m ih =>
    obtain ⟨a, vs⟩ := g
    by_cases h : a = n <;> simp [HeaderMap.append, HeaderMap.getAll, h, ih]

theorem getAll_append_ne (m : HeaderMap) {n k : Bytes} (v : Bytes) (h : k ≠ n) :
    (m.append n v).getAll k = m.getAll k := by
  induction m with
  | nil => simp [HeaderMap.append, HeaderMap.getAll, Ne.symm h]
  | cons g m ih =>
    obtain ⟨a, vs⟩ := g
    by_cases h1 : a = n
    · subst h1; simp [HeaderMap.append, HeaderMap.getAll, Ne.symm h]
    · simp [HeaderMap.append, HeaderMap.getAll, h1, ih]

theorem getAll_remove_ne (m : HeaderMap) {n k : Bytes} (h : k ≠ n) : (m.remove n).getAll k = m.getAll k := by
  induction m with
  | nil => rfl
  | cons g m ih =>
    obtain ⟨a, vs⟩ := g
    simp only [HeaderMap.remove] at ih
    by_cases h1 : a = n
    · subst h1; simp [HeaderMap.remove, HeaderMap.getAll, Ne.symm h, ih]
    · simp [HeaderMap.remove, HeaderMap.getAll, h1, ih]

theorem headerName_fold {bs n : Bytes} (h : headerName bs = some n) : bs.map foldCase = n := by
  unfold headerName at h
  split at h
  · simp only [Option.some.injEq] at h
    rw [← lowerByte_eq_foldCase]; exact h
  · simp at h

/-- The record of the names and the fields, for the name `n`. -/
def Kept (n : Bytes) (got : List (Bytes × Bytes)) (headers : HeaderMap) (caseMap : Option HeaderMap) : Prop :=
  headers.getAll n = (spelled n got).map Prod.snd ∧
  ∃ map, caseMap = some map ∧ map.getAll n = (spelled n got).map Prod.fst

theorem Kept.push {n name raw v : Bytes} {got : List (Bytes × Bytes)} {hs : HeaderMap} {cm : Option HeaderMap}
    (h : Kept n got hs cm) (hn : raw.map foldCase = name) :
    Kept n (got ++ [(raw, v)]) (hs.append name v) (cm.map (fun m => m.append name raw)) := by
  obtain ⟨h1, map, h2, h3⟩ := h
  subst h2
  by_cases e : name = n
  · subst e
    have hs1 : spelled name [(raw, v)] = [(raw, v)] := spelled_all (by simp [hn])
    refine ⟨?_, _, rfl, ?_⟩
    · rw [getAll_append_self, h1, spelled_append, hs1]; simp
    · rw [getAll_append_self, h3, spelled_append, hs1]; simp
  · have hs1 : spelled n [(raw, v)] = [] := spelled_none (by simp [hn, e])
    refine ⟨?_, _, rfl, ?_⟩
    · rw [getAll_append_ne _ _ (Ne.symm e), h1, spelled_append, hs1]; simp
    · rw [getAll_append_ne _ _ (Ne.symm e), h3, spelled_append, hs1]; simp

theorem Kept.skip {n name raw v : Bytes} {got : List (Bytes × Bytes)} {hs : HeaderMap} {cm : Option HeaderMap}
    (h : Kept n got hs cm) (hn : raw.map foldCase = name) (e : name ≠ n) :
    Kept n (got ++ [(raw, v)]) hs cm := by
  have hs1 : spelled n [(raw, v)] = [] := spelled_none (by simp [hn, e])
  unfold Kept
  rw [spelled_append, hs1, List.append_nil]
  exact h

theorem reqStep_kept {n : Bytes} (hn : n ≠ hCL) {http11 : Bool} {s s' : ReqSt} {f : Bytes × Bytes}
    {got : List (Bytes × Bytes)} (h : Kept n got s.headers s.caseMap) (hs : s.step http11 f = .ok s') :
    Kept n (got ++ [f]) s'.headers s'.caseMap := by
  obtain ⟨raw, v⟩ := f
  unfold ReqSt.step at hs
  split at hs
  · simp at hs
  · rename_i name hname
    have hf := headerName_fold hname
    split at hs
    · split at hs
      · simp at hs
      · rename_i t ht
        simp only [Except.ok.injEq] at hs
        subst hs
        have hk : Kept n got t.headers t.caseMap := by
          unfold ReqSt.onTe at ht
          split at ht
          · simp at ht
          · have hrem : Kept n got (s.headers.remove hCL) s.caseMap :=
              ⟨by rw [getAll_remove_ne _ hn]; exact h.1, h.2⟩
            simp only at ht
            repeat' split at ht
            all_goals (simp only [Except.ok.injEq] at ht; subst ht; first | exact h | exact hrem)
        exact hk.push hf
    · split at hs
      · rename_i hcl
        split at hs
        · simp at hs
        · rename_i t ht
          simp only [Except.ok.injEq] at hs
          subst hs
          have hk : t.headers = s.headers ∧ t.caseMap = s.caseMap := by
            unfold ReqSt.onCl at ht
            simp only at ht
            repeat' split at ht
            all_goals simp at ht
            all_goals (subst ht; exact ⟨rfl, rfl⟩)
          have := h.push (v := v) hf
          simp only [ReqSt.push, hk.1, hk.2]
          exact this
        · rename_i t ht
          simp only [Except.ok.injEq] at hs
          subst hs
          have hk : t.headers = s.headers ∧ t.caseMap = s.caseMap := by
            unfold ReqSt.onCl at ht
            simp only at ht
            repeat' split at ht
            all_goals simp at ht
            all_goals (subst ht; exact ⟨rfl, rfl⟩)
          rw [hk.1, hk.2]
          exact h.skip hf (by rw [hcl]; exact Ne.symm hn)
      · repeat' split at hs
        all_goals (simp only [Except.ok.injEq] at hs; subst hs; exact h.push hf)

theorem reqRun_kept {n : Bytes} (hn : n ≠ hCL) {http11 : Bool} (fs : List (Bytes × Bytes)) :
    ∀ (s s' : ReqSt) (got : List (Bytes × Bytes)), Kept n got s.headers s.caseMap →
    s.run http11 fs = .ok s' → Kept n (got ++ fs) s'.headers s'.caseMap := by
  induction fs with
  | nil =>
    intro s s' got h hs
    simp only [ReqSt.run, Except.ok.injEq] at hs
    subst hs; simpa using h
  | cons f fs ih =>
    intro s s' got h hs
    simp only [ReqSt.run] at hs
    split at hs
    · simp at hs
    · rename_i t ht
      have := ih t s' _ (reqStep_kept hn h ht) hs
      simpa using this

theorem respLoop_kept {n : Bytes} (fs : List (Bytes × Bytes)) :
    ∀ (ka ka' : Bool) (hs hs' : HeaderMap) (cm cm' : Option HeaderMap) (got : List (Bytes × Bytes)),
    Kept n got hs cm → respLoop ka hs cm fs = .ok (ka', hs', cm') → Kept n (got ++ fs) hs' cm' := by
  induction fs with
  | nil =>
    intro ka ka' hs hs' cm cm' got h he
    simp only [respLoop, Except.ok.injEq, Prod.mk.injEq] at he
    obtain ⟨_, rfl, rfl⟩ := he
    simpa using h
  | cons f fs ih =>
    intro ka ka' hs hs' cm cm' got h he
    simp only [respLoop] at he
    split at he
    · simp at he
    · rename_i name hname
      have := ih _ _ _ _ _ _ _ (h.push (v := f.2) (headerName_fold hname)) he
      simpa using this

/-- C74: a server that preserves the case of header names keeps, for every field of a request, its name
as it was spelled, in the order of the values (`content-length`, of which at most one is kept, aside). -/
theorem C74_request_recorded {methodOk uriOk : Bytes → Bool} {r : RawRequest} {msg : RequestMsg}
    (h : serverParse methodOk uriOk true r = .ok msg) {n : Bytes} (hn : n ≠ ascii "content-length") :
    msg.headers.getAll n = (spelled n r.fields).map Prod.snd ∧
    ∃ map, msg.caseMap = some map ∧ map.getAll n = (spelled n r.fields).map Prod.fst := by
  unfold serverParse at h
  repeat' split at h
  all_goals first | (simp at h; done) | skip
  all_goals
    have h0 : Kept n [] (ReqSt.start true r).headers (ReqSt.start true r).caseMap := ⟨rfl, [], rfl, rfl⟩
    have h1 := reqRun_kept hn r.fields _ _ [] h0 (by assumption)
    simp only [Except.ok.injEq] at h
    subst h
    exact h1

/-- C74: a client that preserves the case of header names keeps, for every field of a response, its
name as it was spelled, in the order of the values. -/
theorem C74_response_recorded {cfg : ClientCfg} (hc : cfg.preserveCase = true) {r : RawResponse}
    {head : RespHead} {ka : Bool} (h : clientHead cfg r = .ok (head, ka)) (n : Bytes) :
    head.headers.getAll n = (spelled n (cfg.unfold r.fields)).map Prod.snd ∧
    ∃ map, head.caseMap = some map ∧ map.getAll n = (spelled n (cfg.unfold r.fields)).map Prod.fst := by
  unfold clientHead at h
  rw [hc] at h
  repeat' split at h
  all_goals first | (simp at h; done) | skip
  all_goals
    have h1 := respLoop_kept (n := n) _ _ _ _ _ _ _ [] ⟨rfl, [], rfl, rfl⟩ (by assumption)
    simp only [Except.ok.injEq, Prod.mk.injEq] at h
    obtain ⟨rfl, rfl⟩ := h
    exact h1

/-- The state of the loop for `content-length`, as long as no `transfer-encoding` was seen. -/
structure KeptLen (got : List (Bytes × Bytes)) (s : ReqSt) : Prop where
  te : s.isTe = false
  seen : s.conLen = none ↔ spelled hCL got = []
  values : s.headers.getAll hCL = ((spelled hCL got).take 1).map Prod.snd
  names : ∃ map, s.caseMap = some map ∧ map.getAll hCL = ((spelled hCL got).take 1).map Prod.fst

theorem take_one_append {α : Type} {l : List α} (h : l ≠ []) (a : List α) : (l ++ a).take 1 = l.take 1 := by
  cases l with
  | nil => exact absurd rfl h
  | cons x l => simp

theorem KeptLen.other {got : List (Bytes × Bytes)} {s t : ReqSt} {raw name v : Bytes} (h : KeptLen got s)
    (hn : raw.map foldCase = name) (e : name ≠ hCL) (h1 : t.isTe = s.isTe) (h2 : t.conLen = s.conLen)
    (h3 : t.headers = s.headers) (h4 : t.caseMap = s.caseMap) :
    KeptLen (got ++ [(raw, v)]) (t.push raw name v) := by
  obtain ⟨map, m1, m2⟩ := h.names
  have hs1 : spelled hCL [(raw, v)] = [] := spelled_none (by simp [hn, e])
  refine ⟨by simp [ReqSt.push, h1, h.te], ?_, ?_, ?_⟩
  · simp only [ReqSt.push, h2]
    rw [spelled_append, hs1, List.append_nil]; exact h.seen
  · simp only [ReqSt.push, h3]
    rw [getAll_append_ne _ _ (Ne.symm e), h.values, spelled_append, hs1, List.append_nil]
  · refine ⟨map.append name raw, by simp [ReqSt.push, h4, m1], ?_⟩
    rw [getAll_append_ne _ _ (Ne.symm e), m2, spelled_append, hs1, List.append_nil]

theorem reqStep_keptLen {http11 : Bool} {s s' : ReqSt} {f : Bytes × Bytes} {got : List (Bytes × Bytes)}
    (h : KeptLen got s) (hte : f.1.map foldCase ≠ hTE) (hs : s.step http11 f = .ok s') :
    KeptLen (got ++ [f]) s' := by
  obtain ⟨raw, v⟩ := f
  unfold ReqSt.step at hs
  split at hs
  · simp at hs
  · rename_i name hname
    have hf := headerName_fold hname
    split at hs
    · rename_i e; exact absurd (hf.trans e) hte
    · split at hs
      · rename_i hcl
        subst hcl
        have hs1 : spelled hCL [(raw, v)] = [(raw, v)] := spelled_all (by simp [hf])
        obtain ⟨map, m1, m2⟩ := h.names
        cases hc : s.conLen with
        | none =>
          have h0 := h.seen.mp hc
          unfold ReqSt.onCl at hs
          simp only [h.te, hc] at hs
          cases hp : contentLengthParse v with
          | none => simp [hp] at hs
          | some len =>
            cases hd : DecodedLength.checkedNew len with
            | error e => simp [hp, hd] at hs
            | ok d =>
              simp [hp, hd] at hs
              subst hs
              refine ⟨by simp [ReqSt.push, h.te], by simp [ReqSt.push, spelled_append, hs1], ?_, ?_⟩
              · simp only [ReqSt.push]
                rw [getAll_append_self, h.values, spelled_append, hs1, h0]; simp
              · refine ⟨map.append hCL raw, by simp [ReqSt.push, m1], ?_⟩
                rw [getAll_append_self, m2, spelled_append, hs1, h0]; simp
        | some prev =>
          have hne : spelled hCL got ≠ [] := by
            intro h0
            have := h.seen.mpr h0
            rw [hc] at this; simp at this
          unfold ReqSt.onCl at hs
          simp only [h.te, hc] at hs
          cases hp : contentLengthParse v with
          | none => simp [hp] at hs
          | some len =>
            by_cases hd : prev = len
            · simp [hp, hd] at hs
              subst hs
              refine ⟨rfl, ?_, ?_, ⟨map, m1, ?_⟩⟩
              · simp only [hc, spelled_append, List.append_eq_nil_iff]
                simp [hne]
              · simp only [spelled_append, take_one_append hne]; exact h.values
              · rw [spelled_append, take_one_append hne]; exact m2
            · simp [hp, hd] at hs
      · repeat' split at hs
        all_goals
          simp only [Except.ok.injEq] at hs
          subst hs
          exact h.other hf (by assumption) rfl rfl rfl rfl

theorem reqRun_keptLen {http11 : Bool} (fs : List (Bytes × Bytes)) :
    ∀ (s s' : ReqSt) (got : List (Bytes × Bytes)), KeptLen got s → (∀ f ∈ fs, f.1.map foldCase ≠ hTE) →
    s.run http11 fs = .ok s' → KeptLen (got ++ fs) s' := by
  induction fs with
  | nil =>
    intro s s' got h _ hs
    simp only [ReqSt.run, Except.ok.injEq] at hs
    subst hs; simpa using h
  | cons f fs ih =>
    intro s s' got h hte hs
    simp only [ReqSt.run] at hs
    split at hs
    · simp at hs
    · rename_i t ht
      have := ih t s' _ (reqStep_keptLen h (hte f (by simp)) ht) (fun f hf => hte f (by simp [hf])) hs
      simpa using this

/-- C74: of several `content-length` fields the first is kept, with its own spelling. -/
theorem C74_length_recorded {methodOk uriOk : Bytes → Bool} {r : RawRequest} {msg : RequestMsg}
    (h : serverParse methodOk uriOk true r = .ok msg)
    (hte : spelled (ascii "transfer-encoding") r.fields = []) :
    msg.headers.getAll (ascii "content-length") =
      ((spelled (ascii "content-length") r.fields).take 1).map Prod.snd ∧
    ∃ map, msg.caseMap = some map ∧ map.getAll (ascii "content-length") =
      ((spelled (ascii "content-length") r.fields).take 1).map Prod.fst := by
  have hte' : ∀ f ∈ r.fields, f.1.map foldCase ≠ hTE := by
    simp only [spelled, List.filter_eq_nil_iff, decide_eq_true_eq] at hte
    exact hte
  unfold serverParse at h
  repeat' split at h
  all_goals first | (simp at h; done) | skip
  all_goals
    have h0 : KeptLen [] (ReqSt.start true r) := ⟨rfl, by simp [ReqSt.start, spelled], rfl, [], rfl, rfl⟩
    have h1 := reqRun_keptLen r.fields _ _ [] h0 hte' (by assumption)
    simp only [Except.ok.injEq] at h
    subst h
    exact ⟨h1.values, h1.names⟩

/-! ## Recorded names are names -/

theorem spellings_append {m : HeaderMap} (h : SpellingsOf m) {n raw : Bytes} (hr : raw.map foldCase = n) :
    SpellingsOf (m.append n raw) := by
  induction m with
  | nil =>
    intro g hg v hv
    simp only [HeaderMap.append, List.mem_singleton] at hg
    subst hg
    simp only [List.mem_singleton] at hv
    rw [hv]; exact hr
  | cons g m ih =>
    obtain ⟨a, vs⟩ := g
    have h1 : SpellingsOf m := fun g hg => h g (by simp [hg])
    have h2 := h (a, vs) (by simp)
    by_cases e : a = n
    · subst e
      simp only [HeaderMap.append, if_true]
      intro g hg v hv
      simp only [List.mem_cons] at hg
      rcases hg with rfl | hg
      · simp only [List.mem_append, List.mem_singleton] at hv
        rcases hv with hv | rfl
        · exact h2 v hv
        · exact hr
      · exact h1 g hg v hv
    · simp only [HeaderMap.append, e, if_false]
      intro g hg v hv
      simp only [List.mem_cons] at hg
      rcases hg with rfl | hg
      · exact h2 v hv
      · exact ih h1 g hg v hv

/-- All recorded spellings are spellings of their names. -/
def CaseOk (cm : Option HeaderMap) : Prop := ∀ map, cm = some map → SpellingsOf map

theorem CaseOk.push {cm : Option HeaderMap} (h : CaseOk cm) {n raw : Bytes} (hr : raw.map foldCase = n) :
    CaseOk (cm.map (fun m => m.append n raw)) := by
  intro map hm
  cases cm with
  | none => simp at hm
  | some m =>
    simp only [Option.map_some, Option.some.injEq] at hm
    subst hm
    exact spellings_append (h m rfl) hr

theorem reqStep_caseOk {http11 : Bool} {s s' : ReqSt} {f : Bytes × Bytes} (h : CaseOk s.caseMap)
    (hs : s.step http11 f = .ok s') : CaseOk s'.caseMap := by
  unfold ReqSt.step at hs
  split at hs
  · simp at hs
  · rename_i name hname
    have hf := headerName_fold hname
    split at hs
    · split at hs
      · simp at hs
      · rename_i t ht
        simp only [Except.ok.injEq] at hs
        subst hs
        have hk : t.caseMap = s.caseMap := by
          unfold ReqSt.onTe at ht
          split at ht
          · simp at ht
          · simp only at ht
            repeat' split at ht
            all_goals (simp only [Except.ok.injEq] at ht; subst ht; rfl)
        simp only [ReqSt.push, hk]
        exact h.push hf
    · split at hs
      · have hk : ∀ t b, s.onCl f.2 = .ok (t, b) → t.caseMap = s.caseMap := by
          intro t b ht
          unfold ReqSt.onCl at ht
          simp only at ht
          repeat' split at ht
          all_goals simp at ht
          all_goals (obtain ⟨rfl, _⟩ := ht; rfl)
        split at hs
        · simp at hs
        · rename_i t ht
          simp only [Except.ok.injEq] at hs
          subst hs
          simp only [ReqSt.push, hk _ _ ht]
          exact h.push hf
        · rename_i t ht
          simp only [Except.ok.injEq] at hs
          subst hs
          rw [hk _ _ ht]; exact h
      · repeat' split at hs
        all_goals (simp only [Except.ok.injEq] at hs; subst hs; exact h.push hf)

theorem reqRun_caseOk {http11 : Bool} (fs : List (Bytes × Bytes)) :
    ∀ (s s' : ReqSt), CaseOk s.caseMap → s.run http11 fs = .ok s' → CaseOk s'.caseMap := by
  induction fs with
  | nil =>
    intro s s' h hs
    simp only [ReqSt.run, Except.ok.injEq] at hs
    subst hs; exact h
  | cons f fs ih =>
    intro s s' h hs
    simp only [ReqSt.run] at hs
    split at hs
    · simp at hs
    · rename_i t ht
      exact ih t s' (reqStep_caseOk h ht) hs

theorem serverParse_caseOk {methodOk uriOk : Bytes → Bool} {r : RawRequest} {msg : RequestMsg} {preserve : Bool}
    (h : serverParse methodOk uriOk preserve r = .ok msg) : CaseOk msg.caseMap := by
  unfold serverParse at h
  repeat' split at h
  all_goals first | (simp at h; done) | skip
  all_goals
    have h0 : CaseOk (ReqSt.start preserve r).caseMap := by
      intro map hm
      cases preserve
      · simp [ReqSt.start] at hm
      · simp only [ReqSt.start, if_true, Option.some.injEq] at hm
        subst hm; intro g hg; simp at hg
    have h1 := reqRun_caseOk r.fields _ _ h0 (by assumption)
    simp only [Except.ok.injEq] at h
    subst h
    exact h1

theorem respLoop_caseOk (fs : List (Bytes × Bytes)) :
    ∀ (ka ka' : Bool) (hs hs' : HeaderMap) (cm cm' : Option HeaderMap), CaseOk cm →
    respLoop ka hs cm fs = .ok (ka', hs', cm') → CaseOk cm' := by
  induction fs with
  | nil =>
    intro ka ka' hs hs' cm cm' h he
    simp only [respLoop, Except.ok.injEq, Prod.mk.injEq] at he
    obtain ⟨_, rfl, rfl⟩ := he
    exact h
  | cons f fs ih =>
    intro ka ka' hs hs' cm cm' h he
    simp only [respLoop] at he
    split at he
    · simp at he
    · rename_i name hname
      exact ih _ _ _ _ _ _ (h.push (headerName_fold hname)) he

theorem clientHead_caseOk {cfg : ClientCfg} {r : RawResponse} {head : RespHead} {ka : Bool}
    (h : clientHead cfg r = .ok (head, ka)) : CaseOk head.caseMap := by
  have h0 : CaseOk (if cfg.preserveCase then some [] else none) := by
    intro map hm
    split at hm
    · simp only [Option.some.injEq] at hm
      subst hm; intro g hg; simp at hg
    · simp at hm
  unfold clientHead at h
  generalize (if cfg.preserveCase then some [] else none) = cm0 at h h0
  repeat' split at h
  all_goals first | (simp at h; done) | skip
  all_goals
    have h1 := respLoop_caseOk _ _ _ _ _ _ _ h0 (by assumption)
    simp only [Except.ok.injEq, Prod.mk.injEq] at h
    obtain ⟨rfl, rfl⟩ := h
    exact h1

/-! ## A request sent on -/

/-- The lines written for the values of one name. -/
def origFields (title : Bool) (name : Bytes) : List Bytes → List Bytes → List (Bytes × Bytes)
  | _, [] => []
  | names, v :: vs => (origName title name names, v) :: origFields title name names.tail vs

theorem writeOrigValues_fields (title : Bool) (name : Bytes) : ∀ (values names : List Bytes),
    WrittenLines (writeOrigValues title name names values) (origFields title name names values) := by
  intro values
  induction values with
  | nil => intro names; exact .nil
  | cons v vs ih =>
    intro names
    simp only [writeOrigValues, origFields]
    have h1 := ih names.tail
    generalize origName title name names = bs
    by_cases hv : v = []
    · rw [if_pos hv]
      subst hv
      have h0 : ascii ":\r\n" = ascii ":" ++ CRLF := by decide
      rw [h0]
      have := WrittenLines.empty bs h1
      simpa only [List.append_assoc] using this
    · rw [if_neg hv]
      have := WrittenLines.cons (bs, v) h1
      rw [line_append] at this
      simpa only [List.append_assoc] using this

theorem origFields_zip (title : Bool) (name : Bytes) : ∀ (values names : List Bytes),
    names.length = values.length → origFields title name names values = names.zip values := by
  intro values
  induction values with
  | nil => intro names h; simp [origFields]
  | cons v vs ih =>
    intro names h
    cases names with
    | nil => simp at h
    | cons a as =>
      simp only [List.length_cons, Nat.add_right_cancel_iff] at h
      simp [origFields, origName, ih as h]

theorem origName_fold (title : Bool) {name : Bytes} (hn : LowerName name) {names : List Bytes}
    (h : ∀ a ∈ names, a.map foldCase = name) : (origName title name names).map foldCase = name := by
  cases names with
  | nil =>
    cases title
    · exact hn.fold
    · exact titleCase_fold hn
  | cons o os => exact h o (by simp)

theorem origFields_fold (title : Bool) {name : Bytes} (hn : LowerName name) : ∀ (values names : List Bytes),
    (∀ a ∈ names, a.map foldCase = name) → ∀ f ∈ origFields title name names values, f.1.map foldCase = name := by
  intro values
  induction values with
  | nil => intro names _ f hf; simp [origFields] at hf
  | cons v vs ih =>
    intro names h f hf
    simp only [origFields, List.mem_cons] at hf
    rcases hf with rfl | hf
    · exact origName_fold title hn h
    · exact ih names.tail (fun a ha => h a (List.mem_of_mem_tail ha)) f hf

theorem origFields_spelled (title : Bool) {name : Bytes} (hn : LowerName name) : ∀ (values names : List Bytes),
    (∀ a ∈ names, a.map foldCase = name) →
    Spelled (origFields title name names values) (values.map (fun v => (name, v))) := by
  intro values
  induction values with
  | nil => intro names _; rfl
  | cons v vs ih =>
    intro names h
    have := ih names.tail (fun a ha => h a (List.mem_of_mem_tail ha))
    unfold Spelled at *
    simp only [origFields, List.map_cons, origName_fold title hn h, this]

/-- The lines written for a map with recorded spellings; those of a name with one spelling for each
value are the spellings with the values. -/
theorem originalCase_fields (title : Bool) {orig : HeaderMap} (ho : SpellingsOf orig) {n : Bytes} (m : HeaderMap)
    (hm : ∀ g ∈ m, LowerName g.1) (hd : (m.map Prod.fst).Nodup)
    (hl : (orig.getAll n).length = (m.getAll n).length) :
    ∃ fs, WrittenLines (writeHeadersOriginalCase title orig m) fs ∧ Spelled fs m.fields ∧
      spelled n fs = (orig.getAll n).zip (m.getAll n) := by
  induction m with
  | nil =>
    refine ⟨[], .nil, rfl, ?_⟩
    simp only [HeaderMap.getAll, List.zip_nil_right]; rfl
  | cons g m ih =>
    obtain ⟨a, vs⟩ := g
    simp only [List.map_cons, List.nodup_cons] at hd
    have hw := writeOrigValues_fields title a vs (orig.getAll a)
    have hsp := origFields_spelled title (hm (a, vs) (by simp)) vs (orig.getAll a) (spellings_getAll ho a)
    have hfold := origFields_fold title (hm (a, vs) (by simp)) vs (orig.getAll a) (spellings_getAll ho a)
    by_cases e : a = n
    · subst e
      obtain ⟨fs, h1, h0, h2⟩ : ∃ fs, WrittenLines (writeHeadersOriginalCase title orig m) fs ∧
          Spelled fs (HeaderMap.fields m) ∧ spelled a fs = [] := by
        obtain ⟨fs, h1, h2⟩ := writeHeadersOriginalCase_spec title ho m (fun g hg => hm g (by simp [hg]))
        refine ⟨fs, h1, h2, spelled_none ?_⟩
        intro f hf e
        have : (f.1.map foldCase, f.2) ∈ HeaderMap.fields m := by
          unfold Spelled at h2
          rw [← h2]
          exact List.mem_map.2 ⟨f, hf, rfl⟩
        simp only [HeaderMap.fields, List.mem_flatMap, List.mem_map, Prod.mk.injEq] at this
        obtain ⟨g, hg, v, hv, hh, _⟩ := this
        exact hd.1 (List.mem_map.2 ⟨g, hg, hh.trans e⟩)
      refine ⟨origFields title a (orig.getAll a) vs ++ fs, hw.append h1, hsp.append h0, ?_⟩
      have hz : (HeaderMap.getAll ((a, vs) :: m) a) = vs := by simp [HeaderMap.getAll]
      rw [hz] at hl ⊢
      rw [spelled_append, h2, List.append_nil, spelled_all hfold, origFields_zip title a vs _ hl]
    · have hz : (HeaderMap.getAll ((a, vs) :: m) n) = HeaderMap.getAll m n := by simp [HeaderMap.getAll, e]
      rw [hz] at hl ⊢
      obtain ⟨fs, h1, h0, h2⟩ := ih (fun g hg => hm g (by simp [hg])) hd.2 hl
      refine ⟨origFields title a (orig.getAll a) vs ++ fs, hw.append h1, hsp.append h0, ?_⟩
      rw [spelled_append, spelled_none (fun f hf => by rw [hfold f hf]; exact e), List.nil_append, h2]

/-- C74: a request received by a server that preserves the case of header names and sent on by a client
(with the recorded spellings, whatever was done to other fields): the fields of every name the
application did not touch are written exactly as they were received.  (`content-length` and
`transfer-encoding` are hyper's own to change.) -/
theorem C74_request_forwarded {methodOk uriOk : Bytes → Bool} {r : RawRequest} {msg : RequestMsg}
    (hp : serverParse methodOk uriOk true r = .ok msg) {title : Bool} {h : ReqHead} {body : Option BodyLength}
    {dst out : Bytes} {e : Encoder} (hcm : h.caseMap = msg.caseMap) (hok : MapOk h.headers)
    (hlen : ∀ k, body = some (.known k) → k < 2 ^ 64) {n : Bytes} (hcl : n ≠ ascii "content-length")
    (hte : n ≠ ascii "transfer-encoding") (hsame : h.headers.getAll n = msg.headers.getAll n)
    (he : clientEncode title h body dst = some (out, e)) :
    ∃ line bs fs, RequestLine h.method h.target (lineVersion h.version) line ∧
      out = dst ++ line ++ bs ++ CRLF ∧ WrittenLines bs fs ∧ (∀ f ∈ fs, WireField f) ∧
      spelled n fs = spelled n r.fields := by
  obtain ⟨h1, map, h2, h3⟩ := C74_request_recorded hp hcl
  have hsp := serverParse_caseOk hp map h2
  unfold clientEncode at he
  simp only [Option.map_eq_some_iff, Prod.mk.injEq] at he
  obtain ⟨t, ht, hout, _⟩ := he
  obtain ⟨ht, _⟩ := versionText_spec ht
  have hs := setLength_spec False h.method h.version body hok hlen (by simp)
  have hval : (setLength h.method h.version h.headers body).1.getAll n = (spelled n r.fields).map Prod.snd := by
    rw [hs.other n hte hcl, hsame, h1]
  obtain ⟨fs, g1, g0, g2⟩ := originalCase_fields title hsp (n := n)
    (setLength h.method h.version h.headers body).1 hs.ok.names hs.ok.wf.nodup (by rw [h3, hval]; simp)
  refine ⟨_, writeHeadersOriginalCase title map (setLength h.method h.version h.headers body).1, fs, rfl, ?_, g1,
    g0.wire hs.ok.fields, ?_⟩
  · rw [← hout, ht, hcm, h2]
    have : ascii " HTTP/1." = ascii " " ++ ascii "HTTP/1." := by decide
    simp only [this, List.append_assoc, clientHeaders]
  · rw [g2, h3, hval, zip_self]

/-! ## A response sent on -/

/-- C74: a response received by a client that preserves the case of header names and sent on by a server
(with the recorded spellings, whatever was done to other fields): the fields of every name the
application did not touch are written exactly as they were received.  (Framing, connection, trailer
announcement and date are hyper's own to write.) -/
theorem C74_response_forwarded {cfg : ClientCfg} (hc : cfg.preserveCase = true) {r : RawResponse}
    {head : RespHead} {ka : Bool} (hp : clientHead cfg r = .ok (head, ka)) {env : EncodeEnv} {m : EncodeMsg}
    {dst out : Bytes} {e : Encoder} (hcm : m.head.caseMap = head.caseMap) (hok : MapOk m.head.headers)
    (hdate : DateOk env) {n : Bytes}
    (hn : n ∉ [ascii "content-length", ascii "transfer-encoding", ascii "connection", ascii "trailer", ascii "date"])
    (hl : LowerName n) (hsame : m.head.headers.getAll n = head.headers.getAll n)
    (he : serverEncode env m dst = (out, .ok e)) :
    ∃ line fs, StatusLine (if m.head.version = .h10 then 0 else 1) m.head.status line ∧
      out = dst ++ line ++ lines fs ++ CRLF ∧ (∀ f ∈ fs, WireField f) ∧
      spelled n fs = spelled n (cfg.unfold r.fields) := by
  obtain ⟨h1, map, h2, h3⟩ := C74_response_recorded hc hp n
  have hsp := clientHead_caseOk hp map h2
  have hnj : n ∉ joined := by
    intro hj; apply hn
    simp only [joined, List.mem_cons, List.not_mem_nil, or_false] at hj ⊢
    rcases hj with h | h | h | h
    · exact Or.inl h
    · exact Or.inr (Or.inl h)
    · exact Or.inr (Or.inr (Or.inl h))
    · exact Or.inr (Or.inr (Or.inr (Or.inl h)))
  have hnd : n ≠ hDATE := by
    intro hj; apply hn
    simp only [List.mem_cons, List.not_mem_nil, or_false]
    exact Or.inr (Or.inr (Or.inr (Or.inr hj)))
  -- the message written is the one given
  have key : ∀ (l wl : Bool) (line : Bytes) (e' : Encoder), statusLine env m.head = some line →
      encodeHeaders env m (dst ++ line) l dst.length wl (nameWriterOf m) = (out, .ok e') →
      ∃ line fs, StatusLine (if m.head.version = .h10 then 0 else 1) m.head.status line ∧
        out = dst ++ line ++ lines fs ++ CRLF ∧ (∀ f ∈ fs, WireField f) ∧
        spelled n fs = spelled n (cfg.unfold r.fields) := by
    intro l wl line e' hst hh
    have hw : nameWriterOf m = .orig map none m.titleCase := by
      simp only [nameWriterOf, hcm, h2]
    rw [hw] at hh
    obtain ⟨fs, g1, g2, g3⟩ := NameCase.encodeHeaders_spelled hsp hnj hnd hl hdate hok.wf hok.fields
      (by rw [h3, hsame, h1]; simp) hh
    refine ⟨line, fs, statusLine_spec hst, g1, g2, ?_⟩
    rw [g3, h3, hsame, h1, zip_self]
  unfold serverEncode encodePrep at he
  by_cases c1 : m.head.status = 101
  · rw [if_pos c1] at he
    simp only at he
    split at he
    · simp at he
    · rename_i line hst
      split at he
      · rename_i o e' hh
        simp only [Prod.mk.injEq] at he
        obtain ⟨rfl, _⟩ := he
        exact key _ _ line e' hst hh
      · rename_i o r' hno hh
        simp only [Prod.mk.injEq] at he
        obtain ⟨rfl, rfl⟩ := he
        exact (hno e rfl).elim
  · rw [if_neg c1] at he
    by_cases c2 : m.reqMethod = some mCONNECT ∧ isSuccess m.head.status
    · rw [if_pos c2] at he
      simp only at he
      split at he
      · simp at he
      · rename_i line hst
        split at he
        · rename_i o e' hh
          simp only [Prod.mk.injEq] at he
          obtain ⟨rfl, _⟩ := he
          exact key _ _ line e' hst hh
        · rename_i o r' hno hh
          simp only [Prod.mk.injEq] at he
          obtain ⟨rfl, rfl⟩ := he
          exact (hno e rfl).elim
    · rw [if_neg c2] at he
      by_cases c3 : isInformational m.head.status
      · rw [if_pos c3] at he
        exfalso
        simp only at he
        repeat' split at he
        all_goals simp_all
      · rw [if_neg c3] at he
        simp only at he
        split at he
        · simp at he
        · rename_i line hst
          split at he
          · rename_i o e' hh
            simp only [Prod.mk.injEq] at he
            obtain ⟨rfl, _⟩ := he
            exact key _ _ line e' hst hh
          · rename_i o r' hno hh
            simp only [Prod.mk.injEq] at he
            obtain ⟨rfl, rfl⟩ := he
            exact (hno e rfl).elim

/-! ## Title case -/

/-- A word of the name starts at byte `i`: it is the first byte or follows a dash. -/
def Spec.startsWord (name : Bytes) (i : Nat) : Prop := i = 0 ∨ ∃ j, i = j + 1 ∧ name[j]? = some 45

theorem upperByte_dash : ∀ b : Byte, upperByte b = 45 ↔ b = 45 := by
  unfold upperByte
  apply byte_forall; decide +kernel

theorem titleCaseFrom_get (name : Bytes) : ∀ (prev : Byte) (i : Nat) (b : Byte), name[i]? = some b →
    (((i = 0 ∧ prev = 45) ∨ ∃ j, i = j + 1 ∧ name[j]? = some 45) → (titleCaseFrom prev name)[i]? = some (upperByte b)) ∧
    (¬ ((i = 0 ∧ prev = 45) ∨ ∃ j, i = j + 1 ∧ name[j]? = some 45) → (titleCaseFrom prev name)[i]? = some b) := by
  induction name with
  | nil => intro prev i b h; simp at h
  | cons c cs ih =>
    intro prev i b h
    cases i with
    | zero =>
      simp only [List.getElem?_cons_zero, Option.some.injEq] at h
      subst h
      by_cases hp : prev = 45 <;> simp [titleCaseFrom, hp]
    | succ i =>
      simp only [List.getElem?_cons_succ] at h
      simp only [titleCaseFrom, List.getElem?_cons_succ]
      have hdash : (if prev = 45 then upperByte c else c) = 45 ↔ c = 45 := by
        split
        · exact upperByte_dash c
        · rfl
      have hiff : ((i = 0 ∧ (if prev = 45 then upperByte c else c) = 45) ∨ ∃ j, i = j + 1 ∧ cs[j]? = some 45) ↔
          ((i + 1 = 0 ∧ prev = 45) ∨ ∃ j, i + 1 = j + 1 ∧ (c :: cs)[j]? = some 45) := by
        rw [hdash]
        constructor
        · rintro (⟨rfl, hh⟩ | ⟨j, rfl, hh⟩)
          · exact Or.inr ⟨0, rfl, by simp [hh]⟩
          · exact Or.inr ⟨j + 1, rfl, by simpa using hh⟩
        · rintro (⟨h, _⟩ | ⟨j, h1, h2⟩)
          · simp at h
          · cases j with
            | zero =>
              simp only [List.getElem?_cons_zero, Option.some.injEq] at h2
              exact Or.inl ⟨by omega, h2⟩
            | succ j =>
              simp only [List.getElem?_cons_succ] at h2
              exact Or.inr ⟨j, by omega, h2⟩
      have := ih (if prev = 45 then upperByte c else c) i b h
      rw [hiff] at this
      exact this

/-- C74: with `title_case_headers` and no recorded spelling, the first letter and every letter after a
dash is upper case, the others are as in the (lower-case) name. -/
theorem C74_title_case (name : Bytes) (i : Nat) (b : Byte) (h : name[i]? = some b) :
    (startsWord name i → (titleCase name)[i]? = some (upperByte b)) ∧
    (¬ startsWord name i → (titleCase name)[i]? = some b) := by
  have := titleCaseFrom_get name 45 i b h
  unfold titleCase startsWord
  simpa using this

/-! ## Examples -/

def exCaseReq : RawRequest :=
  ⟨ascii "GET", ascii "/", true, [(ascii "X-Bread", ascii "a"), (ascii "hOsT", ascii "h"), (ascii "x-BREAD", ascii "b")]⟩

def exCaseMap : HeaderMap := [(ascii "x-bread", [ascii "X-Bread", ascii "x-BREAD"]), (ascii "host", [ascii "hOsT"])]

example : (serverParse (fun _ => true) (fun _ => true) true exCaseReq).toOption.map (fun m => (m.headers, m.caseMap)) =
    some ([(ascii "x-bread", [ascii "a", ascii "b"]), (ascii "host", [ascii "h"])], some exCaseMap) := by decide +kernel

/-- What is sent on, after the application added a field of its own. -/
example : clientEncode true ⟨ascii "GET", ascii "/", .h11,
      [(ascii "x-bread", [ascii "a", ascii "b"]), (ascii "host", [ascii "h"]), (ascii "x-new-one", [ascii "c"])],
      some exCaseMap⟩ none [] =
    some (ascii "GET / HTTP/1.1\r\nX-Bread: a\r\nx-BREAD: b\r\nhOsT: h\r\nX-New-One: c\r\n\r\n", Encoder.length 0) := by
  decide +kernel

example : spelled (ascii "x-bread") exCaseReq.fields = [(ascii "X-Bread", ascii "a"), (ascii "x-BREAD", ascii "b")] := by
  decide +kernel

end Hyper
