import Verif.Proof.ServerEncode

/-! # The header loop of `Server::encode_headers`: what the written fields say -/

namespace Hyper

open Spec

/-- `n` is one of the comma-separated tokens of one of the values. -/
def Spec.Lists (values : List Bytes) (n : Bytes) : Prop :=
  ∃ v ∈ values, ∃ e t, Element v e ∧ Padded e t ∧ SameToken t n

theorem digit_facts : ∀ b : Byte, IsDigit b → Visible b ∧ b ≠ 44 ∧ isValueByte b = true := by
  unfold IsDigit Visible
  apply byte_forall; decide +kernel

theorem element_noComma {v e : Bytes} (h : 44 ∉ v) (he : Element v e) : e = v := by
  have := (mem_splitComma v e).mpr he
  rw [splitComma_of_noComma v h] at this
  simpa using this

theorem agreed_single {v : Bytes} {n : Nat} (h : IsLength v n) : AgreedLength [v] n := by
  refine ⟨by simp, ?_⟩
  intro w hw
  simp only [List.mem_singleton] at hw
  subst hw
  refine ⟨fun b hb => (digit_facts b (h.2.1 b hb)).1, ?_⟩
  intro e he
  have := element_noComma (fun hh => (digit_facts 44 (h.2.1 44 hh)).2.1 rfl) he
  subst this
  exact ⟨e, ⟨[], [], by simp, by simp, by simp⟩, h⟩

/-- May this message be chunked? -/
def EncodeMsg.cc (m : EncodeMsg) : Bool :=
  !decide (m.head.version = .h10 ∨ canChunked m.reqMethod m.head.status = false)

theorem cc_true {m : EncodeMsg} : m.cc = true ↔
    m.head.version ≠ .h10 ∧ canChunked m.reqMethod m.head.status = true := by
  unfold EncodeMsg.cc
  cases canChunked m.reqMethod m.head.status <;> simp

theorem cc_false {m : EncodeMsg} : m.cc = false ↔
    (m.head.version = .h10 ∨ canChunked m.reqMethod m.head.status = false) := by
  unfold EncodeMsg.cc
  rw [Bool.not_eq_false', decide_eq_true_iff]

def PhaseA (wl0 : Bool) (F : List (Bytes × Bytes)) (s : HSt) : Prop :=
  s.wroteLen = wl0 ∧ clOf F = [] ∧ teOf F = [] ∧ s.encoder = Encoder.length 0 ∧ s.mustChunked = false

def PhaseB (S : Prop) (m : EncodeMsg) (F : List (Bytes × Bytes)) (s : HSt) : Prop :=
  s.wroteLen = true ∧ teOf F = [] ∧ s.mustChunked = false ∧
    ∃ v n, clOf F = [v] ∧ s.encoder = Encoder.length n ∧
      (S → canHaveBody m.reqMethod m.head.status = true → AgreedLength [v] n) ∧
      (m.body = some .unknown → s.prevConLen ≠ none)

def PhaseC (S : Prop) (m : EncodeMsg) (F : List (Bytes × Bytes)) (op : Option (Bytes × Bytes)) (s : HSt) : Prop :=
  s.wroteLen = true ∧ clOf F = [] ∧ s.encoder = Encoder.chunked ∧ m.cc = true ∧
    ∃ v, teOf F = [v] ∧ (S → FinalChunked [v]) ∧
      (S → ∀ n u, op = some (n, u) → n.map foldCase = hTE → ∀ b ∈ u, Visible b)

structure Content (S : Prop) (m : EncodeMsg) (l0 wl0 : Bool) (ps F : List (Bytes × Bytes))
    (op : Option (Bytes × Bytes)) (s : HSt) : Prop where
  other : ∀ k, k ∉ joined → valuesOf k F = valuesOf k ps
  phase : PhaseA wl0 F s ∨ PhaseB S m F s ∨ PhaseC S m F op s
  date : s.wroteDate = decide (valuesOf hDATE ps ≠ [])
  last : s.isLast = (l0 || (valuesOf hCONN ps).any connectionClose)
  allow : ∀ n, n ∈ s.allowed.getD [] ↔
    m.cc = true ∧ ∃ v ∈ valuesOf hTRAILER ps, n ∈ trailerNames v
  lists : ∀ n ∈ s.allowed.getD [], Lists (valuesOf hTRAILER F) n
  elems : ∀ v ∈ valuesOf hCONN ps, ∀ e, Element v e → ∃ t, Padded e t ∧
    ∃ w ∈ valuesOf hCONN F, ∃ e', Element w e' ∧ Padded e' t
  noneCl : m.body = none → ∀ n u, op = some (n, u) → n.map foldCase ≠ hCL

/-- What is asked of one header the user supplies.  `S` says whether the user's own framing headers
are also assumed to be right. -/
structure FieldOk (S : Prop) (m : EncodeMsg) (f : Bytes × Bytes) : Prop where
  name : LowerName f.1
  value : ∀ b ∈ f.2, isValueByte b = true
  length : S → f.1 = hCL → ∀ k, m.body = some (.known k) →
    canHaveBody m.reqMethod m.head.status = true → AgreedLength [f.2] k
  coding : S → f.1 = hTE → m.cc = true → ∀ b ∈ f.2, Visible b

/-- The loop invariant. -/
def Good (S : Prop) (m : EncodeMsg) (l0 wl0 : Bool) (base : Bytes) (ps : List (Bytes × Bytes)) (s : HSt) : Prop :=
  ∃ fs op, Shape base fs op s ∧ Content S m l0 wl0 ps (closed fs op s.mustChunked) op s

theorem valuesOf_closed (k : Bytes) (fs : List (Bytes × Bytes)) (n u : Bytes) (must : Bool) :
    valuesOf k (closed fs (some (n, u)) must) =
      if n.map foldCase = k then valuesOf k fs ++ [u ++ suffixOf must] else valuesOf k fs := by
  simp only [closed, valuesOf_snoc]

theorem valuesOf_lower (k : Bytes) (ps : List (Bytes × Bytes)) {n : Bytes} (hn : LowerName n) (v : Bytes) :
    valuesOf k (ps ++ [(n, v)]) = if n = k then valuesOf k ps ++ [v] else valuesOf k ps := by
  rw [valuesOf_snoc, hn.fold]

theorem hne1 : hCL ≠ hTE := by decide
theorem hne2 : hCL ≠ hCONN := by decide
theorem hne3 : hCL ≠ hTRAILER := by decide
theorem hne4 : hCL ≠ hDATE := by decide
theorem hne5 : hTE ≠ hCONN := by decide
theorem hne6 : hTE ≠ hTRAILER := by decide
theorem hne7 : hTE ≠ hDATE := by decide
theorem hne8 : hCONN ≠ hTRAILER := by decide
theorem hne9 : hCONN ≠ hDATE := by decide
theorem hne10 : hTRAILER ≠ hDATE := by decide
theorem hDATE_joined : hDATE ∉ joined := by decide

theorem Content.congr {S : Prop} {m : EncodeMsg} {l0 wl0 : Bool} {ps F : List (Bytes × Bytes)}
    {op : Option (Bytes × Bytes)} {s s' : HSt} (h : Content S m l0 wl0 ps F op s)
    (h1 : s'.wroteLen = s.wroteLen) (h2 : s'.encoder = s.encoder) (h3 : s'.mustChunked = s.mustChunked)
    (h4 : s'.prevConLen = s.prevConLen) (h5 : s'.wroteDate = s.wroteDate) (h6 : s'.isLast = s.isLast)
    (h7 : s'.allowed = s.allowed) : Content S m l0 wl0 ps F op s' := by
  refine ⟨h.other, ?_, by rw [h5, h.date], by rw [h6, h.last], by rw [h7]; exact h.allow,
    by rw [h7]; exact h.lists, h.elems, h.noneCl⟩
  rcases h.phase with p | p | p
  · exact Or.inl (by simpa only [PhaseA, h1, h2, h3] using p)
  · exact Or.inr (Or.inl (by simpa only [PhaseB, h1, h2, h3, h4] using p))
  · exact Or.inr (Or.inr (by simpa only [PhaseC, h1, h2, h3] using p))

theorem Good.newName {S : Prop} {m : EncodeMsg} {l0 wl0 : Bool} {base : Bytes} {ps : List (Bytes × Bytes)} {s : HSt}
    (h : Good S m l0 wl0 base ps s) (n : Bytes) :
    Good S m l0 wl0 base ps { ({ s with curName := some n } : HSt).handle with isNameWritten := false } := by
  obtain ⟨fs, op, h1, h2⟩ := h
  refine ⟨closed fs op s.mustChunked, none, h1.newName n, ?_⟩
  have hF : closed (closed fs op s.mustChunked) none
      ({ ({ s with curName := some n } : HSt).handle with isNameWritten := false } : HSt).mustChunked =
      closed fs op s.mustChunked := rfl
  rw [hF]
  have hc : ∀ {α : Type} (f : HSt → α) (_ : ∀ s d, f { s with dst := d } = f s)
      (_ : ∀ s b, f { s with isNameWritten := b } = f s)
      (_ : ∀ s c, f { s with curName := c } = f s),
      f { ({ s with curName := some n } : HSt).handle with isNameWritten := false } = f s := by
    intro α f a b c
    rw [b]
    unfold HSt.handle
    split
    · rw [a, c]
    · rw [c]
  have h2' : Content S m l0 wl0 ps (closed fs op s.mustChunked) none s := by
    refine ⟨h2.other, ?_, h2.date, h2.last, h2.allow, h2.lists, h2.elems, by simp⟩
    rcases h2.phase with p | p | ⟨p1, p2, p3, p4, v, p5, p6, p7⟩
    · exact Or.inl p
    · exact Or.inr (Or.inl p)
    · exact Or.inr (Or.inr ⟨p1, p2, p3, p4, v, p5, p6, by simp⟩)
  refine h2'.congr ?_ ?_ ?_ ?_ ?_ ?_ ?_
  · exact hc HSt.wroteLen (fun _ _ => rfl) (fun _ _ => rfl) (fun _ _ => rfl)
  · exact hc HSt.encoder (fun _ _ => rfl) (fun _ _ => rfl) (fun _ _ => rfl)
  · exact hc HSt.mustChunked (fun _ _ => rfl) (fun _ _ => rfl) (fun _ _ => rfl)
  · exact hc HSt.prevConLen (fun _ _ => rfl) (fun _ _ => rfl) (fun _ _ => rfl)
  · exact hc HSt.wroteDate (fun _ _ => rfl) (fun _ _ => rfl) (fun _ _ => rfl)
  · exact hc HSt.isLast (fun _ _ => rfl) (fun _ _ => rfl) (fun _ _ => rfl)
  · exact hc HSt.allowed (fun _ _ => rfl) (fun _ _ => rfl) (fun _ _ => rfl)

/-- A value that is dropped. -/
theorem Content.skip {S : Prop} {m : EncodeMsg} {l0 wl0 : Bool} {ps F : List (Bytes × Bytes)}
    {op : Option (Bytes × Bytes)} {s : HSt} (h : Content S m l0 wl0 ps F op s) {n : Bytes} (v : Bytes)
    (hn : n = hCL ∨ n = hTE ∨ (n = hTRAILER ∧ m.cc = false)) :
    Content S m l0 wl0 (ps ++ [(n, v)]) F op s := by
  have hl : LowerName n := by
    rcases hn with rfl | rfl | ⟨rfl, _⟩
    · exact lowerName_hCL
    · exact lowerName_hTE
    · exact lowerName_hTRAILER
  have hj : n ∈ joined := by
    rcases hn with rfl | rfl | ⟨rfl, _⟩ <;> decide
  have hD : n ≠ hDATE := by rintro rfl; exact hDATE_joined hj
  have hC : n ≠ hCONN := by
    rcases hn with rfl | rfl | ⟨rfl, _⟩
    · exact hne2
    · exact hne5
    · exact hne8.symm
  refine ⟨?_, h.phase, ?_, ?_, ?_, h.lists, ?_, h.noneCl⟩
  · intro k hk
    rw [valuesOf_lower k ps hl, if_neg (by rintro rfl; exact hk hj)]
    exact h.other k hk
  · rw [valuesOf_lower _ ps hl, if_neg hD]; exact h.date
  · rw [valuesOf_lower _ ps hl, if_neg hC]; exact h.last
  · intro k
    rw [h.allow k]
    by_cases hT : n = hTRAILER
    · have : m.cc = false := by
        rcases hn with h1 | h1 | ⟨_, h1⟩
        · exact absurd (h1.symm.trans hT) hne3
        · exact absurd (h1.symm.trans hT) hne6
        · exact h1
      simp [this]
    · rw [valuesOf_lower _ ps hl, if_neg hT]
  · rw [valuesOf_lower _ ps hl, if_neg hC]; exact h.elems

theorem valuesOf_cons_single (k bs v : Bytes) (n : Bytes) (h : bs.map foldCase = n) :
    (valuesOf k [(bs, v)]) = if n = k then [v] else [] := by
  have := valuesOf_snoc k [] (bs, v)
  simp only [List.nil_append, h] at this
  rw [this]
  simp [valuesOf]

/-- A generic line that is not one of the special names. -/
theorem Content.generic {S : Prop} {m : EncodeMsg} {l0 wl0 : Bool} {ps F : List (Bytes × Bytes)} {s : HSt}
    (h : Content S m l0 wl0 ps F none s) {n bs : Bytes} (hbs : bs.map foldCase = n) (hn : LowerName n)
    (hj : n ∉ joined) (v : Bytes) {s' : HSt} (h1 : s'.wroteLen = s.wroteLen) (h2 : s'.encoder = s.encoder)
    (h3 : s'.mustChunked = s.mustChunked) (h4 : s'.prevConLen = s.prevConLen)
    (h5 : s'.wroteDate = if n = hDATE then true else s.wroteDate) (h6 : s'.isLast = s.isLast)
    (h7 : s'.allowed = s.allowed) :
    Content S m l0 wl0 (ps ++ [(n, v)]) (F ++ [(bs, v)]) none s' := by
  have hF : ∀ k, valuesOf k (F ++ [(bs, v)]) = if n = k then valuesOf k F ++ [v] else valuesOf k F := by
    intro k; rw [valuesOf_snoc, hbs]
  have hps := fun k => valuesOf_lower k ps hn v
  have hCL' : n ≠ hCL := by rintro rfl; exact hj (by decide)
  have hTE' : n ≠ hTE := by rintro rfl; exact hj (by decide)
  have hCO' : n ≠ hCONN := by rintro rfl; exact hj (by decide)
  have hTR' : n ≠ hTRAILER := by rintro rfl; exact hj (by decide)
  have e1 : clOf (F ++ [(bs, v)]) = clOf F := by
    show valuesOf hCL _ = valuesOf hCL _; rw [hF, if_neg hCL']
  have e2 : teOf (F ++ [(bs, v)]) = teOf F := by
    show valuesOf hTE _ = valuesOf hTE _; rw [hF, if_neg hTE']
  refine ⟨?_, ?_, ?_, ?_, ?_, ?_, ?_, by simp⟩
  · intro k hk
    rw [hF, hps, h.other k hk]
  · rcases h.phase with p | p | p
    · exact Or.inl (by simpa only [PhaseA, h1, h2, h3, e1, e2] using p)
    · exact Or.inr (Or.inl (by simpa only [PhaseB, h1, h2, h3, h4, e1, e2] using p))
    · exact Or.inr (Or.inr (by simpa only [PhaseC, h1, h2, h3, e1, e2] using p))
  · rw [h5, hps]
    by_cases hD : n = hDATE
    · simp [hD]
    · rw [if_neg hD, if_neg hD]; exact h.date
  · rw [h6, hps, if_neg hCO']; exact h.last
  · rw [h7, hps, if_neg hTR']; exact h.allow
  · rw [h7, hF, if_neg hTR']; exact h.lists
  · rw [hF, hps, if_neg hCO', if_neg hCO']; exact h.elems

theorem closed_none (fs : List (Bytes × Bytes)) (must : Bool) : closed fs none must = fs := rfl

/-- If the open line is not for a special name, there is none. -/
theorem Shape.op_none {base : Bytes} {fs : List (Bytes × Bytes)} {op : Option (Bytes × Bytes)} {s : HSt}
    (h : Shape base fs op s) {n : Bytes} (hc : s.curName = some n) (hj : n ∉ joined) : op = none := by
  cases op with
  | none => rfl
  | some p =>
    obtain ⟨a, b⟩ := p
    obtain ⟨h1, h2⟩ := h.opname a b rfl
    rw [hc] at h1
    simp only [Option.some.injEq] at h1
    rw [← h1] at h2
    exact absurd h2 hj

theorem Good.other {S : Prop} {m : EncodeMsg} {l0 wl0 : Bool} {base : Bytes} {ps : List (Bytes × Bytes)} {s : HSt}
    (h : Good S m l0 wl0 base ps s) {n v : Bytes} (hc : s.curName = some n) (hj : n ∉ joined)
    (hf : FieldOk S m (n, v)) (wd : Bool) (hwd : wd = if n = hDATE then true else s.wroteDate) :
    Good S m l0 wl0 base (ps ++ [(n, v)]) (({ s with wroteDate := wd } : HSt).generic n v) := by
  obtain ⟨fs, op, h1, h2⟩ := h
  have := h1.op_none hc hj
  subst this
  have h1' : Shape base fs none ({ s with wroteDate := wd } : HSt) := h1.congr rfl rfl rfl rfl
  obtain ⟨bs, hb1, hb2⟩ := h1'.generic hf.name v hf.value
  refine ⟨_, _, hb2, ?_⟩
  rw [closed_none]
  exact h2.generic hb1 hf.name hj v rfl rfl rfl rfl hwd rfl rfl

theorem isChunkedValue_visible {v : Bytes} (h : isChunkedValue v = true) : ∀ b ∈ v, Visible b := by
  obtain ⟨vs, w, e, t, h1, h2, _⟩ := (isChunkedValue_iff v).mp h
  cases vs with
  | nil => simp at h1; rw [h1]; exact h2
  | cons x xs => simp at h1

theorem lastElement_prefix {v e : Bytes} (h : LastElement v e) (u : Bytes) :
    LastElement (u ++ 44 :: v) e ∨ False := by
  obtain ⟨pre, rfl, h2, h3⟩ := h
  refine Or.inl ⟨u ++ 44 :: pre, by simp, h2, ?_⟩
  rcases h3 with rfl | ⟨p, rfl⟩
  · exact Or.inr ⟨u, rfl⟩
  · exact Or.inr ⟨u ++ 44 :: p, by simp⟩

/-- Appending a value to a list of codings leaves its last coding last. -/
theorem finalChunked_join {u v : Bytes} (hu : ∀ b ∈ u, Visible b) (h : FinalChunked [v]) :
    FinalChunked [u ++ ascii ", " ++ v] := by
  obtain ⟨vs, w, e, t, h1, h2, h3, h4, h5⟩ := h
  have hw : v = w := by
    cases vs with
    | nil => simpa using h1
    | cons x xs => simp at h1
  subst hw
  obtain ⟨pre, hp1, hp2, hp3⟩ := h3
  have hvis : ∀ b ∈ u ++ ascii ", " ++ v, Visible b := by
    intro b hb
    simp only [List.mem_append] at hb
    rcases hb with (hb | hb) | hb
    · exact hu b hb
    · have : b = 44 ∨ b = 32 := by
        have h2 : ascii ", " = [44, 32] := by decide
        rw [h2] at hb; simpa using hb
      rcases this with rfl | rfl <;> (unfold Visible; decide)
    · exact h2 b hb
  have hs : ascii ", " = [44, 32] := by decide
  obtain ⟨a, b, ha, hb, rfl⟩ := h4
  rcases hp3 with rfl | ⟨p, rfl⟩
  · refine ⟨[], _, 32 :: (a ++ t ++ b), t, rfl, hvis, ⟨u ++ [44], ?_, ?_, Or.inr ⟨u, rfl⟩⟩, ?_, h5⟩
    · rw [hs, hp1]; simp
    · intro hh
      rcases List.mem_cons.mp hh with h | h
      · exact absurd h (by decide)
      · exact hp2 h
    · refine ⟨32 :: a, b, ?_, hb, by simp⟩
      intro x hx
      rcases List.mem_cons.mp hx with h | h
      · exact Or.inl h
      · exact ha x h
  · refine ⟨[], _, a ++ t ++ b, t, rfl, hvis, ⟨u ++ ascii ", " ++ p ++ [44], ?_, hp2,
      Or.inr ⟨_, rfl⟩⟩, ⟨a, b, ha, hb, rfl⟩, h5⟩
    rw [hp1]; simp

theorem finalChunked_suffix {v : Bytes} (hv : ∀ b ∈ v, Visible b) :
    FinalChunked [v ++ suffixOf (!isChunkedValue v)] := by
  cases h : isChunkedValue v with
  | true => simpa [suffixOf] using (isChunkedValue_iff v).mp h
  | false =>
    have h1 : FinalChunked [ascii "chunked"] := by
      rw [← isChunkedValue_iff]; decide +kernel
    have := finalChunked_join hv h1
    have e : suffixOf (!false) = ascii ", " ++ ascii "chunked" := by decide
    rw [e, ← List.append_assoc]
    exact this

theorem element_append {u e : Bytes} (h : Element u e) (v : Bytes) : Element (u ++ ascii ", " ++ v) e := by
  have hs : u ++ ascii ", " ++ v = u ++ 44 :: (32 :: v) := by
    have : ascii ", " = [44, 32] := by decide
    rw [this]; simp
  rw [hs, ← mem_splitComma, splitComma_prefix]
  exact List.mem_append_left _ ((mem_splitComma u e).mpr h)

theorem element_suffix {u e : Bytes} (h : Element u e) (must : Bool) : Element (u ++ suffixOf must) e := by
  cases must with
  | false => simpa [suffixOf] using h
  | true =>
    have : suffixOf true = ascii ", " ++ ascii "chunked" := by decide
    rw [this, ← List.append_assoc]
    exact element_append h _

/-- An element of an appended value, up to one more blank. -/
theorem element_join {v e t : Bytes} (h : Element v e) (hp : Padded e t) (u : Bytes) :
    ∃ e', Element (u ++ ascii ", " ++ v) e' ∧ Padded e' t := by
  have hs : u ++ ascii ", " ++ v = u ++ 44 :: (32 :: v) := by
    have : ascii ", " = [44, 32] := by decide
    rw [this]; simp
  have h2 := (mem_splitComma v e).mpr h
  simp only [hs, ← mem_splitComma, splitComma_prefix]
  have h32 : splitComma (32 :: v) = match splitComma v with
      | [] => [[32]]
      | p :: ps => (32 :: p) :: ps := by
    simp only [splitComma]; rfl
  cases hsp : splitComma v with
  | nil => exact absurd hsp (splitComma_ne v)
  | cons p ps =>
    rw [hsp] at h32 h2
    simp only at h32
    rcases List.mem_cons.mp h2 with rfl | h3
    · refine ⟨32 :: e, by rw [h32]; simp, ?_⟩
      obtain ⟨a, b, ha, hb, rfl⟩ := hp
      refine ⟨32 :: a, b, ?_, hb, by simp⟩
      intro x hx
      rcases List.mem_cons.mp hx with h | h
      · exact Or.inl h
      · exact ha x h
    · exact ⟨e, by rw [h32]; simp [h3], hp⟩

theorem trailerNames_lists {v n : Bytes} (h : n ∈ trailerNames v) :
    ∃ e t, Element v e ∧ Padded e t ∧ SameToken t n := by
  unfold trailerNames at h
  split at h
  · rename_i s hs
    obtain ⟨rfl, _⟩ := (toStr_iff v s).mp hs
    obtain ⟨e, h1, h2⟩ := List.mem_filterMap.mp h
    refine ⟨e, trimBlanks e, (mem_splitComma s e).mp h1, trimBlanks_padded e, ?_⟩
    have := headerName_some h2
    unfold SameToken
    rw [this]
    simp only [List.map_map]
    apply List.map_congr_left
    intro b _
    have hidem : ∀ b : Byte, foldCase b = foldCase (foldCase b) := by
      unfold foldCase
      apply byte_forall; decide +kernel
    exact hidem b
  · simp at h

/-! ## The arms -/

/-- Writing (part of) a Content-Length or Transfer-Encoding line. -/
theorem Content.lenLine {S : Prop} {m : EncodeMsg} {l0 wl0 : Bool} {ps F F' : List (Bytes × Bytes)}
    {op op' : Option (Bytes × Bytes)} {s s' : HSt} (h : Content S m l0 wl0 ps F op s) {n : Bytes} (v : Bytes)
    (hn : n = hCL ∨ n = hTE) (hF : ∀ k, k ≠ n → valuesOf k F' = valuesOf k F)
    (h5 : s'.wroteDate = s.wroteDate) (h6 : s'.isLast = s.isLast) (h7 : s'.allowed = s.allowed)
    (hph : PhaseA wl0 F' s' ∨ PhaseB S m F' s' ∨ PhaseC S m F' op' s')
    (hno : m.body = none → ∀ n u, op' = some (n, u) → n.map foldCase ≠ hCL) :
    Content S m l0 wl0 (ps ++ [(n, v)]) F' op' s' := by
  have hsk := h.skip v (n := n) (by rcases hn with h | h <;> simp [h])
  have hC : hCONN ≠ n := by
    rcases hn with rfl | rfl
    · exact hne2.symm
    · exact hne5.symm
  have hT : hTRAILER ≠ n := by
    rcases hn with rfl | rfl
    · exact hne3.symm
    · exact hne6.symm
  refine ⟨?_, hph, by rw [h5]; exact hsk.date, by rw [h6]; exact hsk.last, by rw [h7]; exact hsk.allow,
    ?_, ?_, hno⟩
  · intro k hk
    rw [hF k (by rintro rfl; rcases hn with rfl | rfl <;> exact hk (by decide))]
    exact hsk.other k hk
  · rw [h7, hF _ hT]; exact hsk.lists
  · rw [hF _ hC]; exact hsk.elems

theorem op_of_written {base : Bytes} {fs : List (Bytes × Bytes)} {op : Option (Bytes × Bytes)} {s : HSt}
    (h : Shape base fs op s) (hw : s.isNameWritten = false) : op = none := by
  cases op with
  | none => rfl
  | some p => rw [h.written] at hw; simp at hw

theorem op_of_not_written {base : Bytes} {fs : List (Bytes × Bytes)} {op : Option (Bytes × Bytes)} {s : HSt}
    (h : Shape base fs op s) (hw : s.isNameWritten = true) {c : Bytes} (hc : s.curName = some c) :
    ∃ n u, op = some (n, u) ∧ n.map foldCase = c := by
  cases op with
  | none => rw [h.written] at hw; simp at hw
  | some p =>
    obtain ⟨n, u⟩ := p
    refine ⟨n, u, rfl, ?_⟩
    have := (h.opname n u rfl).1
    rw [hc] at this
    simpa using this.symm

theorem phaseA_of {S : Prop} {m : EncodeMsg} {l0 wl0 : Bool} {ps F : List (Bytes × Bytes)}
    {op : Option (Bytes × Bytes)} {s : HSt} (h : Content S m l0 wl0 ps F op s)
    (hw : s.wroteLen = false) : PhaseA wl0 F s := by
  rcases h.phase with p | p | p
  · exact p
  · rw [p.1] at hw; simp at hw
  · rw [p.1] at hw; simp at hw

/-- Opening a Content-Length line. -/
theorem Good.openCL {S : Prop} {m : EncodeMsg} {l0 wl0 : Bool} {base : Bytes} {ps : List (Bytes × Bytes)} {s : HSt}
    (h : Good S m l0 wl0 base ps s) (hc : s.curName = some hCL) {v : Bytes} (hf : FieldOk S m (hCL, v))
    (hw : s.isNameWritten = false) (hl : s.wroteLen = false) (hb : m.body ≠ none) (k : Nat)
    (hk : S → canHaveBody m.reqMethod m.head.status = true → AgreedLength [v] k) (pv : Option Nat)
    (hpv : m.body = some .unknown → pv ≠ none) :
    Good S m l0 wl0 base (ps ++ [(hCL, v)])
      { ({ s with encoder := Encoder.length k } : HSt).openLine (ascii "content-length: ") hCL v
        with wroteLen := true, prevConLen := pv } := by
  obtain ⟨fs, op, h1, h2⟩ := h
  have := op_of_written h1 hw
  subst this
  have hA := phaseA_of h2 hl
  have h1' : Shape base fs none ({ s with encoder := Encoder.length k } : HSt) := h1.congr rfl rfl rfl rfl
  obtain ⟨bs, hb1, hb2⟩ := h1'.openLine (lit := ascii "content-length: ") (by decide) lowerName_hCL
    (by decide) hc v hf.value
  refine ⟨fs, some (bs, v), hb2.congr rfl rfl rfl rfl, ?_⟩
  obtain ⟨a1, a2, a3, a4, a5⟩ := hA
  rw [closed_none] at *
  have hF : ∀ k, valuesOf k (closed fs (some (bs, v)) s.mustChunked) =
      if hCL = k then valuesOf k fs ++ [v] else valuesOf k fs := by
    intro k; rw [valuesOf_closed, hb1, a5]; simp [suffixOf]
  refine h2.lenLine v (Or.inl rfl) ?_ rfl rfl rfl (Or.inr (Or.inl ?_)) ?_
  · intro k hk
    exact (hF k).trans (if_neg (fun hh => hk hh.symm))
  · refine ⟨rfl, ?_, a5, v, k, ?_, rfl, hk, hpv⟩
    · exact ((hF hTE).trans (if_neg hne1)).trans a3
    · refine ((hF hCL).trans (if_pos rfl)).trans ?_
      have : valuesOf hCL fs = [] := a2
      rw [this]; rfl
  · intro hh; exact absurd hh hb

theorem Good.skip {S : Prop} {m : EncodeMsg} {l0 wl0 : Bool} {base : Bytes} {ps : List (Bytes × Bytes)} {s : HSt}
    (h : Good S m l0 wl0 base ps s) {n : Bytes} (v : Bytes)
    (hn : n = hCL ∨ n = hTE ∨ (n = hTRAILER ∧ m.cc = false)) : Good S m l0 wl0 base (ps ++ [(n, v)]) s := by
  obtain ⟨fs, op, h1, h2⟩ := h
  exact ⟨fs, op, h1, h2.skip v hn⟩

theorem Good.cl {S : Prop} {m : EncodeMsg} {l0 wl0 : Bool} {base : Bytes} {ps : List (Bytes × Bytes)} {s s' : HSt}
    (h : Good S m l0 wl0 base ps s) (hc : s.curName = some hCL) {v : Bytes} (hf : FieldOk S m (hCL, v))
    (hs : clArm m s v = .ok s') : Good S m l0 wl0 base (ps ++ [(hCL, v)]) s' := by
  unfold clArm at hs
  split at hs
  · simp at hs
  rename_i hcond
  have hcond' : s.isNameWritten = false → s.wroteLen = false := by
    intro hw; simpa [hw] using hcond
  split at hs
  · rename_i k hb
    split at hs
    · rename_i hw
      have hw : s.isNameWritten = false := by simpa using hw
      simp only [Except.ok.injEq] at hs
      subst hs
      exact h.openCL hc hf hw (hcond' hw) (by simp [hb]) k (fun hS => hf.length hS rfl k hb) s.prevConLen
        (by simp [hb])
    · simp only [Except.ok.injEq] at hs
      subst hs
      exact h.skip v (Or.inl rfl)
  · rename_i hb
    split at hs
    · rename_i len hlen
      split at hs
      · split at hs
        · simp at hs
        · simp only [Except.ok.injEq] at hs
          subst hs
          exact h.skip v (Or.inl rfl)
      · rename_i hprev
        simp only [Except.ok.injEq] at hs
        subst hs
        have hw : s.isNameWritten = false := by
          cases hw : s.isNameWritten with
          | false => rfl
          | true =>
            exfalso
            obtain ⟨fs, op, h1, h2⟩ := h
            obtain ⟨n, u, rfl, hn⟩ := op_of_not_written h1 hw hc
            have hcl : clOf (closed fs (some (n, u)) s.mustChunked) ≠ [] := by
              show valuesOf hCL _ ≠ []
              rw [valuesOf_closed, if_pos hn]; simp
            rcases h2.phase with p | p | p
            · exact hcl p.2.1
            · obtain ⟨_, _, _, _, _, _, _, _, p⟩ := p
              exact p hb hprev
            · exact hcl p.2.1
        exact h.openCL hc hf hw (hcond' hw) (by simp [hb]) len
          (fun _ _ => agreed_single ((fromDigits_iff v len).mp hlen)) (some len) (by simp)
    · simp at hs
  · rename_i hb
    split at hs
    · rename_i hm
      simp only [Except.ok.injEq] at hs
      subst hs
      obtain ⟨fs, op, h1, h2⟩ := h
      have hop : op = none := by
        cases hw : s.isNameWritten with
        | false => exact op_of_written h1 hw
        | true =>
          obtain ⟨n, u, rfl, hn⟩ := op_of_not_written h1 hw hc
          exact absurd hn (h2.noneCl hb n u rfl)
      subst hop
      have hl := hcond' (by rw [h1.written]; rfl)
      obtain ⟨a1, a2, a3, a4, a5⟩ := phaseA_of h2 hl
      have h1' : Shape base fs none ({ s with wroteLen := true } : HSt) := h1.congr rfl rfl rfl rfl
      obtain ⟨bs, hb1, hb2⟩ := h1'.generic lowerName_hCL v hf.value
      refine ⟨_, _, hb2, ?_⟩
      rw [closed_none] at *
      have hF : ∀ k, valuesOf k (fs ++ [(bs, v)]) =
          if hCL = k then valuesOf k fs ++ [v] else valuesOf k fs := by
        intro k; rw [valuesOf_snoc, hb1]
      refine h2.lenLine v (Or.inl rfl) ?_ rfl rfl rfl (Or.inr (Or.inl ?_)) (by simp)
      · intro k hk
        exact (hF k).trans (if_neg (fun hh => hk hh.symm))
      · refine ⟨rfl, ?_, a5, v, 0, ?_, a4, ?_, by simp [hb]⟩
        · exact ((hF hTE).trans (if_neg hne1)).trans a3
        · refine ((hF hCL).trans (if_pos rfl)).trans ?_
          have : valuesOf hCL fs = [] := a2
          rw [this]; rfl
        · intro _ hh
          rw [hm] at hh
          simp [canHaveBody, canChunked] at hh
    · simp only [Except.ok.injEq] at hs
      subst hs
      exact h.skip v (Or.inl rfl)

theorem Good.te {S : Prop} {m : EncodeMsg} {l0 wl0 : Bool} {base : Bytes} {ps : List (Bytes × Bytes)} {s s' : HSt}
    (h : Good S m l0 wl0 base ps s) (hc : s.curName = some hTE) {v : Bytes} (hf : FieldOk S m (hTE, v))
    (hs : teArm m s v = .ok s') : Good S m l0 wl0 base (ps ++ [(hTE, v)]) s' := by
  unfold teArm at hs
  split at hs
  · simp at hs
  rename_i hcond
  have hcond' : s.isNameWritten = false → s.wroteLen = false := by
    intro hw; simpa [hw] using hcond
  split at hs
  · simp only [Except.ok.injEq] at hs
    subst hs
    exact h.skip v (Or.inr (Or.inl rfl))
  rename_i hcc
  have hcc : m.cc = true := by
    cases hh : m.cc with
    | true => rfl
    | false => exact absurd (cc_false.mp hh) hcc
  have hvis := fun hS : S => hf.coding hS rfl hcc
  simp only [Except.ok.injEq] at hs
  obtain ⟨fs, op, h1, h2⟩ := h
  cases hw : s.isNameWritten with
  | false =>
    have := op_of_written h1 hw
    subst this
    obtain ⟨a1, a2, a3, a4, a5⟩ := phaseA_of h2 (hcond' hw)
    simp only [hw, Bool.not_false, if_true, HSt.joinLine] at hs
    subst hs
    rw [closed_none] at *
    have h1' : Shape base fs none
        ({ s with wroteLen := true, mustChunked := !isChunkedValue v, encoder := Encoder.chunked } : HSt) :=
      h1.congr rfl rfl rfl rfl
    obtain ⟨bs, hb1, hb2⟩ := h1'.openLine (lit := ascii "transfer-encoding: ") (by decide) lowerName_hTE
      (by decide) hc v hf.value
    refine ⟨fs, some (bs, v), hb2, ?_⟩
    have hF : ∀ k, valuesOf k (closed fs (some (bs, v)) (!isChunkedValue v)) =
        if hTE = k then valuesOf k fs ++ [v ++ suffixOf (!isChunkedValue v)] else valuesOf k fs := by
      intro k; rw [valuesOf_closed, hb1]
    refine h2.lenLine v (Or.inr rfl) ?_ rfl rfl rfl (Or.inr (Or.inr ?_)) ?_
    · intro k hk
      exact (hF k).trans (if_neg (fun hh => hk hh.symm))
    · refine ⟨rfl, ?_, rfl, hcc, v ++ suffixOf (!isChunkedValue v), ?_,
        fun hS => finalChunked_suffix (hvis hS), ?_⟩
      · exact ((hF hCL).trans (if_neg hne1.symm)).trans a2
      · refine ((hF hTE).trans (if_pos rfl)).trans ?_
        have : valuesOf hTE fs = [] := a3
        rw [this]; rfl
      · intro hS n u hnu _
        simp only [Option.some.injEq, Prod.mk.injEq] at hnu
        rw [← hnu.2]; exact hvis hS
    · intro _ n u hnu
      simp only [Option.some.injEq, Prod.mk.injEq] at hnu
      rw [← hnu.1, hb1]; exact hne1.symm
  | true =>
    obtain ⟨n, u, rfl, hn⟩ := op_of_not_written h1 hw hc
    simp only [hw, Bool.not_true, Bool.false_eq_true, if_false, HSt.joinLine] at hs
    subst hs
    have hte : teOf (closed fs (some (n, u)) s.mustChunked) ≠ [] := by
      show valuesOf hTE _ ≠ []
      rw [valuesOf_closed, if_pos hn]; simp
    obtain ⟨c1, c2, c3, c4, w, c5, c6, c7⟩ : PhaseC S m (closed fs (some (n, u)) s.mustChunked)
        (some (n, u)) s := by
      rcases h2.phase with p | p | p
      · exact absurd p.2.2.1 hte
      · exact absurd p.2.1 hte
      · exact p
    have hu := fun hS : S => c7 hS n u rfl hn
    have hfs : valuesOf hTE fs = [] := by
      have : valuesOf hTE (closed fs (some (n, u)) s.mustChunked) = [w] := c5
      rw [valuesOf_closed, if_pos hn] at this
      cases hv : valuesOf hTE fs with
      | nil => rfl
      | cons x xs => rw [hv] at this; simp at this
    have h1' := h1.extendLine v hf.value
    refine ⟨fs, some (n, u ++ ascii ", " ++ v), h1'.congr rfl ?_ rfl rfl, ?_⟩
    · exact hw.symm
    have hF : ∀ k, valuesOf k (closed fs (some (n, u ++ ascii ", " ++ v)) (!isChunkedValue v)) =
        if hTE = k then valuesOf k fs ++ [u ++ ascii ", " ++ v ++ suffixOf (!isChunkedValue v)]
        else valuesOf k fs := by
      intro k; rw [valuesOf_closed, hn]
    have hF0 : ∀ k, k ≠ hTE → valuesOf k (closed fs (some (n, u)) s.mustChunked) = valuesOf k fs := by
      intro k hk; rw [valuesOf_closed, hn, if_neg (fun hh => hk hh.symm)]
    refine h2.lenLine v (Or.inr rfl) ?_ rfl rfl rfl (Or.inr (Or.inr ?_)) ?_
    · intro k hk
      exact ((hF k).trans (if_neg (fun hh => hk hh.symm))).trans (hF0 k hk).symm
    · refine ⟨rfl, ?_, c3, hcc, u ++ ascii ", " ++ v ++ suffixOf (!isChunkedValue v), ?_, ?_, ?_⟩
      · refine ((hF hCL).trans (if_neg hne1.symm)).trans ?_
        exact (hF0 hCL hne1).symm.trans c2
      · refine ((hF hTE).trans (if_pos rfl)).trans ?_
        rw [hfs]; rfl
      · intro hS
        have := finalChunked_join (hu hS) (finalChunked_suffix (hvis hS))
        rwa [← List.append_assoc] at this
      · intro hS a b hab _
        simp only [Option.some.injEq, Prod.mk.injEq] at hab
        rw [← hab.2]
        intro x hx
        simp only [List.mem_append] at hx
        rcases hx with (hx | hx) | hx
        · exact hu hS x hx
        · have h2 : ascii ", " = [44, 32] := by decide
          rw [h2] at hx
          have : x = 44 ∨ x = 32 := by simpa using hx
          rcases this with rfl | rfl <;> (unfold Visible; decide)
        · exact hvis hS x hx
    · intro _ a b hab
      simp only [Option.some.injEq, Prod.mk.injEq] at hab
      rw [← hab.1, hn]; exact hne1.symm

/-- Writing (part of) a Connection or Trailer line. -/
theorem Content.textLine {S : Prop} {m : EncodeMsg} {l0 wl0 : Bool} {ps F F' : List (Bytes × Bytes)}
    {op : Option (Bytes × Bytes)} {s s' : HSt} (h : Content S m l0 wl0 ps F op s) {n : Bytes} (v : Bytes)
    (hn : n = hCONN ∨ n = hTRAILER) (hF : ∀ k, k ≠ n → valuesOf k F' = valuesOf k F) {bs u : Bytes}
    (hbs : bs.map foldCase = n)
    (h1 : s'.wroteLen = s.wroteLen) (h2 : s'.encoder = s.encoder) (h3 : s'.mustChunked = s.mustChunked)
    (h4 : s'.prevConLen = s.prevConLen) (h5 : s'.wroteDate = s.wroteDate)
    (last : s'.isLast = (l0 || (valuesOf hCONN (ps ++ [(n, v)])).any connectionClose))
    (allow : ∀ n', n' ∈ s'.allowed.getD [] ↔
      m.cc = true ∧ ∃ w ∈ valuesOf hTRAILER (ps ++ [(n, v)]), n' ∈ trailerNames w)
    (lists : ∀ n ∈ s'.allowed.getD [], Lists (valuesOf hTRAILER F') n)
    (elems : ∀ w ∈ valuesOf hCONN (ps ++ [(n, v)]), ∀ e, Element w e → ∃ t, Padded e t ∧
      ∃ w' ∈ valuesOf hCONN F', ∃ e', Element w' e' ∧ Padded e' t) :
    Content S m l0 wl0 (ps ++ [(n, v)]) F' (some (bs, u)) s' := by
  have hl : LowerName n := by
    rcases hn with rfl | rfl
    · exact lowerName_hCONN
    · exact lowerName_hTRAILER
  have hC : hCL ≠ n := by
    rcases hn with rfl | rfl
    · exact hne2
    · exact hne3
  have hT : hTE ≠ n := by
    rcases hn with rfl | rfl
    · exact hne5
    · exact hne6
  have hD : hDATE ≠ n := by
    rcases hn with rfl | rfl
    · exact hne9.symm
    · exact hne10.symm
  have e1 : clOf F' = clOf F := hF hCL hC
  have e2 : teOf F' = teOf F := hF hTE hT
  refine ⟨?_, ?_, ?_, last, allow, lists, elems, ?_⟩
  · intro k hk
    have hkn : k ≠ n := by rintro rfl; rcases hn with rfl | rfl <;> exact hk (by decide)
    rw [hF k hkn, valuesOf_lower k ps hl, if_neg (fun hh => hkn hh.symm)]
    exact h.other k hk
  · rcases h.phase with p | p | ⟨p1, p2, p3, p4, w, p5, p6, p7⟩
    · exact Or.inl (by simpa only [PhaseA, h1, h2, h3, e1, e2] using p)
    · exact Or.inr (Or.inl (by simpa only [PhaseB, h1, h2, h3, h4, e1, e2] using p))
    · refine Or.inr (Or.inr ⟨by rw [h1]; exact p1, by rw [e1]; exact p2, by rw [h2]; exact p3, p4, w,
        by rw [e2]; exact p5, p6, ?_⟩)
      intro _ a b hab hh
      simp only [Option.some.injEq, Prod.mk.injEq] at hab
      rw [← hab.1, hbs] at hh
      exact absurd hh.symm hT
  · rw [h5, valuesOf_lower _ ps hl, if_neg (fun hh => hD hh.symm)]; exact h.date
  · intro _ a b hab
    simp only [Option.some.injEq, Prod.mk.injEq] at hab
    rw [← hab.1, hbs]; exact hC.symm

/-- The joined line: the shape, and how the values of the name change. -/
theorem Shape.joinLine {base : Bytes} {fs : List (Bytes × Bytes)} {op : Option (Bytes × Bytes)} {s : HSt}
    (h : Shape base fs op s) {lit n : Bytes} (hlit : lit = n ++ ascii ": ") (hn : LowerName n)
    (hj : n ∈ joined) (hc : s.curName = some n) (v : Bytes) (hv : ∀ b ∈ v, isValueByte b = true) :
    ∃ bs u, bs.map foldCase = n ∧ Shape base fs (some (bs, u)) (s.joinLine lit n v) ∧
      (∀ k, k ≠ n → valuesOf k (closed fs (some (bs, u)) s.mustChunked) =
        valuesOf k (closed fs op s.mustChunked)) ∧
      (∀ e t, Element v e → Padded e t →
        ∃ w ∈ valuesOf n (closed fs (some (bs, u)) s.mustChunked), ∃ e', Element w e' ∧ Padded e' t) ∧
      (∀ w ∈ valuesOf n (closed fs op s.mustChunked), ∀ e t, Element w e → Padded e t →
        ∃ w ∈ valuesOf n (closed fs (some (bs, u)) s.mustChunked), ∃ e', Element w e' ∧ Padded e' t) := by
  cases hw : s.isNameWritten with
  | false =>
    have := op_of_written h hw
    subst this
    obtain ⟨bs, hb1, hb2⟩ := h.openLine hlit hn hj hc v hv
    refine ⟨bs, v, hb1, ?_, ?_, ?_, ?_⟩
    · unfold HSt.joinLine; simp only [hw, Bool.not_false, if_true]; exact hb2
    · intro k hk; rw [valuesOf_closed, hb1, if_neg (fun hh => hk hh.symm), closed_none]
    · intro e t he ht
      rw [valuesOf_closed, if_pos hb1]
      exact ⟨v ++ suffixOf s.mustChunked, by simp, e, element_suffix he _, ht⟩
    · intro w hw' e t he ht
      rw [valuesOf_closed, if_pos hb1]
      exact ⟨w, by rw [closed_none] at hw'; simp [hw'], e, he, ht⟩
  | true =>
    obtain ⟨a, u, rfl, ha⟩ := op_of_not_written h hw hc
    have h' := h.extendLine v hv
    refine ⟨a, u ++ ascii ", " ++ v, ha, ?_, ?_, ?_, ?_⟩
    · unfold HSt.joinLine; simp only [hw, Bool.not_true, Bool.false_eq_true, if_false]
      exact h'.congr rfl hw.symm rfl rfl
    · intro k hk
      rw [valuesOf_closed, valuesOf_closed, ha, if_neg (fun hh => hk hh.symm), if_neg (fun hh => hk hh.symm)]
    · intro e t he ht
      rw [valuesOf_closed, if_pos ha]
      obtain ⟨e', h1, h2⟩ := element_join he ht u
      exact ⟨_, List.mem_append_right _ (List.mem_singleton.mpr rfl), e', element_suffix h1 _, h2⟩
    · intro w hw' e t he ht
      rw [valuesOf_closed, if_pos ha] at hw' ⊢
      simp only [List.mem_append, List.mem_singleton] at hw'
      rcases hw' with hw' | rfl
      · exact ⟨w, by simp [hw'], e, he, ht⟩
      · refine ⟨u ++ ascii ", " ++ v ++ suffixOf s.mustChunked, by simp, ?_⟩
        cases hm : s.mustChunked with
        | false =>
          rw [hm] at he
          have he' : Element u e := by simpa [suffixOf] using he
          exact ⟨e, element_suffix (element_append he' v) _, ht⟩
        | true =>
          rw [hm] at he
          have e1 : suffixOf true = ascii ", " ++ ascii "chunked" := by decide
          rw [e1, ← List.append_assoc] at he
          have hspl : u ++ ascii ", " ++ ascii "chunked" = u ++ 44 :: (32 :: ascii "chunked") := by
            have : ascii ", " = [44, 32] := by decide
            rw [this]; simp
          rw [hspl, ← mem_splitComma, splitComma_prefix, List.mem_append] at he
          rcases he with he | he
          · exact ⟨e, element_suffix (element_append ((mem_splitComma u e).mp he) v) _, ht⟩
          · have hc' : e = 32 :: ascii "chunked" := by
              have : splitComma (32 :: ascii "chunked") = [32 :: ascii "chunked"] := by decide
              rw [this] at he; simpa using he
            refine ⟨e, ?_, ht⟩
            have hspl2 : u ++ ascii ", " ++ v ++ suffixOf true =
                (u ++ ascii ", " ++ v) ++ 44 :: (32 :: ascii "chunked") := by
              rw [e1]
              have : ascii ", " = [44, 32] := by decide
              rw [this]; simp
            rw [hspl2, ← mem_splitComma, splitComma_prefix, List.mem_append]
            right
            have : splitComma (32 :: ascii "chunked") = [32 :: ascii "chunked"] := by decide
            rw [this, hc']; simp

theorem joinLine_fields (s : HSt) (lit n v : Bytes) :
    (s.joinLine lit n v).wroteLen = s.wroteLen ∧ (s.joinLine lit n v).encoder = s.encoder ∧
    (s.joinLine lit n v).mustChunked = s.mustChunked ∧ (s.joinLine lit n v).prevConLen = s.prevConLen ∧
    (s.joinLine lit n v).wroteDate = s.wroteDate ∧ (s.joinLine lit n v).isLast = s.isLast ∧
    (s.joinLine lit n v).allowed = s.allowed := by
  unfold HSt.joinLine HSt.openLine
  cases s.isNameWritten <;> simp

theorem Good.conn {S : Prop} {m : EncodeMsg} {l0 wl0 : Bool} {base : Bytes} {ps : List (Bytes × Bytes)} {s : HSt}
    (h : Good S m l0 wl0 base ps s) (hc : s.curName = some hCONN) {v : Bytes} (hf : FieldOk S m (hCONN, v)) :
    Good S m l0 wl0 base (ps ++ [(hCONN, v)]) (connArm s v) := by
  obtain ⟨fs, op, h1, h2⟩ := h
  unfold connArm
  simp only
  generalize hs1 : (if (!s.isLast && connectionClose v) = true then { s with isLast := true } else s) = s1
  have hlast : s1.isLast = (s.isLast || connectionClose v) := by
    rw [← hs1]; cases hA : s.isLast <;> cases connectionClose v <;> simp [hA]
  have hs1' : s1 = { s with isLast := s1.isLast } := by
    rw [← hs1]; split <;> rfl
  have h1' : Shape base fs op s1 := by rw [hs1']; exact h1.congr rfl rfl rfl rfl
  have hm1 : s1.mustChunked = s.mustChunked := by rw [hs1']
  obtain ⟨bs, u, hb, hsh, hk, hnew, hold⟩ := h1'.joinLine (lit := ascii "connection: ") (by decide)
    lowerName_hCONN (by decide) (by rw [hs1']; exact hc) v hf.value
  obtain ⟨f1, f2, f3, f4, f5, f6, f7⟩ := joinLine_fields s1 (ascii "connection: ") hCONN v
  refine ⟨fs, some (bs, u), hsh, ?_⟩
  rw [f3]
  rw [← hm1] at h2
  have hps := fun k => valuesOf_lower k ps lowerName_hCONN v
  refine h2.textLine v (Or.inl rfl) hk hb (by rw [f1, hs1']) (by rw [f2, hs1']) (by rw [f3, hs1'])
    (by rw [f4, hs1']) (by rw [f5, hs1']) ?_ ?_ ?_ ?_
  · rw [f6, hlast, h2.last, hps, if_pos rfl]
    simp [Bool.or_assoc]
  · intro n'
    rw [f7, hps, if_neg hne8, hs1']
    exact h2.allow n'
  · intro n' hn'
    rw [hk hTRAILER hne8.symm]
    refine h2.lists n' ?_
    rwa [f7, hs1'] at hn'
  · intro w hw e he
    rw [hps, if_pos rfl] at hw
    simp only [List.mem_append, List.mem_singleton] at hw
    rcases hw with hw | rfl
    · obtain ⟨t, ht, w', hw', e', he', ht'⟩ := h2.elems w hw e he
      exact ⟨t, ht, hold w' hw' e' t he' ht'⟩
    · exact ⟨trimBlanks e, trimBlanks_padded e, hnew e _ he (trimBlanks_padded e)⟩

theorem Good.trailer {S : Prop} {m : EncodeMsg} {l0 wl0 : Bool} {base : Bytes} {ps : List (Bytes × Bytes)} {s : HSt}
    (h : Good S m l0 wl0 base ps s) (hc : s.curName = some hTRAILER) {v : Bytes}
    (hf : FieldOk S m (hTRAILER, v)) :
    Good S m l0 wl0 base (ps ++ [(hTRAILER, v)]) (trailerArm m s v) := by
  unfold trailerArm
  split
  · rename_i hcc
    exact h.skip v (Or.inr (Or.inr ⟨rfl, cc_false.mpr hcc⟩))
  rename_i hcc
  have hcc : m.cc = true := by
    cases hh : m.cc with
    | true => rfl
    | false => exact absurd (cc_false.mp hh) hcc
  obtain ⟨fs, op, h1, h2⟩ := h
  simp only
  obtain ⟨bs, u, hb, hsh, hk, hnew, hold⟩ := h1.joinLine (lit := ascii "trailer: ") (by decide)
    lowerName_hTRAILER (by decide) hc v hf.value
  obtain ⟨f1, f2, f3, f4, f5, f6, f7⟩ := joinLine_fields s (ascii "trailer: ") hTRAILER v
  generalize hs1 : s.joinLine (ascii "trailer: ") hTRAILER v = s1 at *
  have hps := fun k => valuesOf_lower k ps lowerName_hTRAILER v
  have key : ∀ al : Option (List Bytes),
      al.getD [] = s.allowed.getD [] ++ trailerNames v →
      Good S m l0 wl0 base (ps ++ [(hTRAILER, v)]) { s1 with allowed := al } := by
    intro al hal
    refine ⟨fs, some (bs, u), hsh.congr rfl rfl rfl rfl, ?_⟩
    simp only
    rw [f3]
    have hmem : ∀ n', n' ∈ al.getD [] ↔ (n' ∈ s.allowed.getD [] ∨ n' ∈ trailerNames v) := by
      intro n'; rw [hal, List.mem_append]
    refine h2.textLine v (Or.inr rfl) hk hb f1 f2 rfl f4 f5 ?_ ?_ ?_ ?_
    · simp only
      rw [f6, hps, if_neg hne8.symm]; exact h2.last
    · intro n'
      simp only
      rw [hmem, h2.allow n', hps, if_pos rfl]
      constructor
      · rintro (⟨g1, w, g2, g3⟩ | g)
        · exact ⟨g1, w, by simp [g2], g3⟩
        · exact ⟨hcc, v, by simp, g⟩
      · rintro ⟨g1, w, g2, g3⟩
        simp only [List.mem_append, List.mem_singleton] at g2
        rcases g2 with g2 | rfl
        · exact Or.inl ⟨g1, w, g2, g3⟩
        · exact Or.inr g3
    · intro n' hn'
      simp only at hn'
      rcases (hmem n').mp hn' with g | g
      · obtain ⟨w, g1, e, t, g2, g3, g4⟩ := h2.lists n' g
        obtain ⟨w', k1, e', k2, k3⟩ := hold w g1 e t g2 g3
        exact ⟨w', k1, e', t, k2, k3, g4⟩
      · obtain ⟨e, t, g2, g3, g4⟩ := trailerNames_lists g
        obtain ⟨w', k1, e', k2, k3⟩ := hnew e t g2 g3
        exact ⟨w', k1, e', t, k2, k3, g4⟩
    · intro w hw e he
      rw [hps, if_neg hne8.symm] at hw
      rw [hk hCONN hne8]
      exact h2.elems w hw e he
  split
  · split
    · rename_i fields hfi
      refine key _ ?_
      rw [f7] at hfi
      rw [hfi]; rfl
    · rename_i hfi
      refine key _ ?_
      rw [f7] at hfi
      rw [hfi]; rfl
  · rename_i hto
    have := key s1.allowed (by
      rw [f7]
      have : trailerNames v = [] := by unfold trailerNames; rw [hto]
      rw [this]; simp)
    exact this

theorem Good.step {S : Prop} {m : EncodeMsg} {l0 wl0 : Bool} {base : Bytes} {ps : List (Bytes × Bytes)} {s s' : HSt}
    (h : Good S m l0 wl0 base ps s) (f : Option Bytes × Bytes) {n : Bytes} (hn : f.1.or s.curName = some n)
    (hf : FieldOk S m (n, f.2)) (hs : hstep m s f = .ok s') :
    Good S m l0 wl0 base (ps ++ [(n, f.2)]) s' ∧ s'.curName = some n := by
  have key : ∀ s1 : HSt, Good S m l0 wl0 base ps s1 → s1.curName = some n →
      harm m s1 n f.2 = .ok s' →
      Good S m l0 wl0 base (ps ++ [(n, f.2)]) s' ∧ s'.curName = some n := by
    intro s1 h1 hc hs
    unfold harm at hs
    split at hs
    · rename_i e; subst e
      refine ⟨h1.cl hc hf hs, ?_⟩
      unfold clArm at hs
      split at hs
      · simp at hs
      · split at hs
        · split at hs <;> (simp only [Except.ok.injEq] at hs; subst hs; exact hc)
        · split at hs
          · split at hs
            · split at hs
              · simp at hs
              · simp only [Except.ok.injEq] at hs; subst hs; exact hc
            · simp only [Except.ok.injEq] at hs; subst hs; exact hc
          · simp at hs
        · split at hs <;> (simp only [Except.ok.injEq] at hs; subst hs; exact hc)
    have hjl : ∀ (t : HSt) lit nm v, (t.joinLine lit nm v).curName = t.curName := by
      intro t lit nm v
      unfold HSt.joinLine HSt.openLine
      cases t.isNameWritten <;> rfl
    split at hs
    · rename_i e; subst e
      refine ⟨h1.te hc hf hs, ?_⟩
      unfold teArm at hs
      split at hs
      · simp at hs
      · split at hs
        · simp only [Except.ok.injEq] at hs; subst hs; exact hc
        · simp only [Except.ok.injEq] at hs; subst hs
          rw [hjl]
          split <;> exact hc
    split at hs
    · rename_i e; subst e
      simp only [Except.ok.injEq] at hs; subst hs
      refine ⟨h1.conn hc hf, ?_⟩
      unfold connArm
      simp only
      rw [hjl]
      split <;> exact hc
    split at hs
    · rename_i e
      simp only [Except.ok.injEq] at hs; subst hs
      exact ⟨h1.other hc (by rw [e]; exact hDATE_joined) hf true (by rw [if_pos e]), hc⟩
    rename_i hnd
    split at hs
    · rename_i e; subst e
      simp only [Except.ok.injEq] at hs; subst hs
      refine ⟨h1.trailer hc hf, ?_⟩
      unfold trailerArm
      split
      · exact hc
      · simp only
        split
        · split
          · simp only; rw [hjl]; exact hc
          · simp only; rw [hjl]; exact hc
        · rw [hjl]; exact hc
    · rename_i e1 e2 e3 e4
      simp only [Except.ok.injEq] at hs; subst hs
      exact ⟨h1.other hc (by
        unfold joined
        simp only [List.mem_cons, List.not_mem_nil, or_false]
        rintro (h | h | h | h) <;> contradiction) hf s1.wroteDate (by rw [if_neg hnd]), hc⟩
  obtain ⟨o, v⟩ := f
  unfold hstep at hs
  cases o with
  | none =>
    simp only [Option.none_or] at hn
    simp only [HSt.enter, hn] at hs
    exact key s h hn hs
  | some n0 =>
    simp only [Option.some_or, Option.some.injEq] at hn
    subst hn
    have hcn : (s.enter (some n0)).curName = some n0 := by
      unfold HSt.enter HSt.handle; simp only; split <;> rfl
    simp only [hcn] at hs
    exact key _ (h.newName n0) hcn hs

/-- The fields given by drained items. -/
def expand : Option Bytes → List (Option Bytes × Bytes) → List (Bytes × Bytes)
  | _, [] => []
  | cur, (o, v) :: rest =>
    match o.or cur with
    | some n => (n, v) :: expand (some n) rest
    | none => expand none rest

theorem expand_values (n : Bytes) (vs : List Bytes) (rest : List (Option Bytes × Bytes)) :
    expand (some n) (vs.map (fun v => (none, v)) ++ rest) =
      vs.map (fun v => (n, v)) ++ expand (some n) rest := by
  induction vs with
  | nil => rfl
  | cons v vs ih => simp [expand, ih]

theorem expand_drain (hs : HeaderMap) : ∀ cur, expand cur hs.drain = hs.fields := by
  induction hs with
  | nil => intro cur; rfl
  | cons g hs ih =>
    intro cur
    obtain ⟨n, vs⟩ := g
    cases vs with
    | nil => simpa [HeaderMap.drain, HeaderMap.fields] using ih cur
    | cons v vs =>
      rw [drain_cons]
      simp only [expand, Option.some_or, expand_values, ih]
      simp [HeaderMap.fields]

theorem Good.run {S : Prop} {m : EncodeMsg} {l0 wl0 : Bool} {base : Bytes} (items : List (Option Bytes × Bytes)) :
    ∀ (ps : List (Bytes × Bytes)) (s s' : HSt), Good S m l0 wl0 base ps s →
    (∀ f ∈ expand s.curName items, FieldOk S m f) → hrun m s items = .ok s' →
    Good S m l0 wl0 base (ps ++ expand s.curName items) s' := by
  induction items with
  | nil =>
    intro ps s s' h _ hr
    simp only [hrun, Except.ok.injEq] at hr
    subst hr
    simpa [expand] using h
  | cons f items ih =>
    intro ps s s' h hf hr
    simp only [hrun] at hr
    cases hs : hstep m s f with
    | error e => rw [hs] at hr; simp at hr
    | ok s1 =>
      rw [hs] at hr
      simp only at hr
      obtain ⟨o, v⟩ := f
      cases hn : o.or s.curName with
      | none =>
        exfalso
        cases o with
        | some n => simp at hn
        | none =>
          simp only [Option.none_or] at hn
          simp [hstep, HSt.enter, hn] at hs
      | some n =>
        simp only [expand, hn] at hf ⊢
        obtain ⟨g1, g2⟩ := h.step (o, v) hn (hf _ (by simp)) hs
        have := ih (ps ++ [(n, v)]) s1 s' g1 (by rw [g2]; exact fun f hf' => hf f (by simp [hf'])) hr
        rw [g2] at this
        simpa using this

end Hyper
