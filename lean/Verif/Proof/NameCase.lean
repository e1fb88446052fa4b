import Verif.Proof.ServerEncodeHead
import Verif.Proof.Encode

/-! # Which spelling `Server::encode_headers` writes for the fields of one name -/

namespace Hyper

open Spec

/-- The fields of a head with the given name, as they are spelled, in order. -/
def Spec.spelled (n : Bytes) (fs : List (Bytes × Bytes)) : List (Bytes × Bytes) :=
  fs.filter (fun f => decide (f.1.map foldCase = n))

theorem spelled_append (n : Bytes) (a b : List (Bytes × Bytes)) : spelled n (a ++ b) = spelled n a ++ spelled n b := by
  simp [spelled]

theorem spelled_none {n : Bytes} {fs : List (Bytes × Bytes)} (h : ∀ f ∈ fs, f.1.map foldCase ≠ n) : spelled n fs = [] := by
  simp only [spelled, List.filter_eq_nil_iff, decide_eq_true_eq]
  exact h

theorem spelled_all {n : Bytes} {fs : List (Bytes × Bytes)} (h : ∀ f ∈ fs, f.1.map foldCase = n) : spelled n fs = fs := by
  simp only [spelled, List.filter_eq_self, decide_eq_true_eq]
  exact h

namespace NameCase

/-- The spellings a writer still has for a name. -/
def avail (w : NameWriter) (n : Bytes) : List Bytes :=
  match w with
  | .lower => []
  | .orig map cur _ => spellingsLeft map cur n

theorem write_cons {w : NameWriter} {n a : Bytes} {as : List Bytes} (h : avail w n = a :: as) :
    (w.writeName n).1 = a ∧ avail (w.writeName n).2 n = as := by
  cases w with
  | lower => simp [avail] at h
  | orig map cur title =>
    simp only [avail] at h
    have hw : (NameWriter.orig map cur title).writeName n = (a, .orig map (some (n, as)) title) := by
      simp only [NameWriter.writeName, h]
    rw [hw]
    exact ⟨rfl, by simp [avail, spellingsLeft]⟩

/-- A writer that has not yet written the name has all its spellings left. -/
def Before (map : HeaderMap) (n : Bytes) (w : NameWriter) : Prop :=
  ∃ cur title, w = .orig map cur title ∧ ∀ vs, cur ≠ some (n, vs)

theorem Before.avail {map : HeaderMap} {n : Bytes} {w : NameWriter} (h : Before map n w) :
    avail w n = map.getAll n := by
  obtain ⟨cur, title, rfl, h⟩ := h
  simp only [NameCase.avail, spellingsLeft]
  split
  · rename_i last vs
    split
    · rename_i e; subst e; exact absurd rfl (h vs)
    · rfl
  · rfl

theorem Before.other {map : HeaderMap} {n k : Bytes} {w : NameWriter} (h : Before map n w) (hk : k ≠ n) :
    Before map n (w.writeName k).2 := by
  obtain ⟨cur, title, rfl, h⟩ := h
  unfold NameWriter.writeName
  simp only
  split
  · exact ⟨_, _, rfl, fun vs e => hk (by simp at e; exact e.1)⟩
  · exact ⟨_, _, rfl, fun vs e => hk (by simp at e; exact e.1)⟩

/-- The loop's state seen from the name `n`: `got` are its lines, and the writer satisfies `W`. -/
def Tr (m : EncodeMsg) (n base : Bytes) (got : List (Bytes × Bytes)) (W : NameWriter → Prop) (s : HSt) : Prop :=
  ∃ fs op, Shape base fs op s ∧ spelled n fs = got ∧ W s.w ∧
    (op.isSome = true → s.curName = some hCL →
      m.body ≠ none ∧ (m.body = some .unknown → s.prevConLen ≠ none))

variable {m : EncodeMsg} {n base : Bytes} {got : List (Bytes × Bytes)} {W : NameWriter → Prop} {s : HSt}

theorem spelled_closed {fs : List (Bytes × Bytes)} {op : Option (Bytes × Bytes)} (h : Shape base fs op s)
    (hn : n ∉ joined) (must : Bool) : spelled n (closed fs op must) = spelled n fs := by
  cases op with
  | none => rfl
  | some p =>
    obtain ⟨a, v⟩ := p
    have ha := (h.opname a v rfl).2
    simp only [closed, spelled_append]
    rw [spelled_none (fs := [(a, v ++ suffixOf must)]) ?_, List.append_nil]
    intro f hf e
    simp only [List.mem_singleton] at hf
    subst hf
    simp only at e
    rw [e] at ha; exact hn ha

theorem Tr.enter (h : Tr m n base got W s) (hn : n ∉ joined) (k : Bytes) :
    Tr m n base got W (s.enter (some k)) := by
  obtain ⟨fs, op, h1, h2, h3, _⟩ := h
  refine ⟨_, none, h1.newName k, ?_, ?_, by simp⟩
  · rw [spelled_closed h1 hn, h2]
  · have hw : ({ s with curName := some k } : HSt).handle.w = s.w := by
      unfold HSt.handle; cases s.isNameWritten <;> rfl
    simp only [HSt.enter, hw]; exact h3

/-- Only the named variables matter. -/
theorem Tr.congr {s' : HSt} (h : Tr m n base got W s) (h1 : s'.dst = s.dst) (h2 : s'.isNameWritten = s.isNameWritten)
    (h3 : s'.curName = s.curName) (h4 : s'.w = s.w) (h5 : s'.prevConLen = s.prevConLen) : Tr m n base got W s' := by
  obtain ⟨fs, op, g1, g2, g3, g4⟩ := h
  exact ⟨fs, op, g1.congr h1 h2 h3 h4, g2, by rw [h4]; exact g3, by rw [h3, h5]; exact g4⟩

theorem spelled_snoc_ne {fs : List (Bytes × Bytes)} {bs v k : Bytes} (hb : bs.map foldCase = k) (hk : k ≠ n) :
    spelled n (fs ++ [(bs, v)]) = spelled n fs := by
  rw [spelled_append, spelled_none (fs := [(bs, v)]) ?_, List.append_nil]
  intro f hf e
  simp only [List.mem_singleton] at hf
  subst hf
  exact hk (hb.symm.trans e)

theorem Tr.genericOther (h : Tr m n base got W s) (hW : ∀ w k, k ≠ n → W w → W (w.writeName k).2) {k v : Bytes}
    (hk : k ≠ n) (hl : LowerName k) (hv : ∀ b ∈ v, isValueByte b = true) (hw : s.isNameWritten = false) :
    Tr m n base got W (s.generic k v) := by
  obtain ⟨fs, op, h1, h2, h3, _⟩ := h
  have := op_of_written h1 hw
  subst this
  obtain ⟨bs, hb, h4⟩ := h1.generic hl v hv
  exact ⟨_, none, h4, by rw [spelled_snoc_ne hb hk, h2], hW _ _ hk h3, by simp⟩

theorem Tr.generic (h : Tr m n base got W s) {v a : Bytes} {as : List Bytes} (hl : LowerName n)
    (hv : ∀ b ∈ v, isValueByte b = true) (hw : s.isNameWritten = false) (ha : avail s.w n = a :: as) :
    Tr m n base (got ++ [(a, v)]) (fun w => avail w n = as) (s.generic n v) := by
  obtain ⟨fs, op, h1, h2, h3, _⟩ := h
  have := op_of_written h1 hw
  subst this
  obtain ⟨g1, g2⟩ := write_cons ha
  obtain ⟨f1, f2⟩ := writeName_ok h1.writer hl
  refine ⟨fs ++ [(a, v)], none, ?_, ?_, g2, by simp⟩
  · refine ⟨?_, h1.written, by simp, f2, ?_, by simp⟩
    · simp only [HSt.generic, h1.dst, openBytes, lines_snoc, line_append, g1]; simp
    · intro f hf
      simp only [List.mem_append, List.mem_singleton] at hf
      rcases hf with hf | rfl
      · exact h1.wire f hf
      · rw [g1] at f1; exact wireField_of_spelling f1 hl hv
  · rw [spelled_append, h2, spelled_all (fs := [(a, v)])]
    intro f hf
    simp only [List.mem_singleton] at hf
    subst hf
    rw [g1] at f1; exact f1

theorem joinLine_w (s : HSt) (lit k v : Bytes) (hlit : lit = k ++ ascii ": ") :
    (s.joinLine lit k v).w = s.w ∨ (s.joinLine lit k v).w = (s.w.writeName k).2 := by
  unfold HSt.joinLine HSt.openLine
  cases s.isNameWritten
  · right; simp [writeNameColon_eq s.w lit k hlit]
  · left; rfl

theorem Tr.join (h : Tr m n base got W s) (hW : ∀ w k, k ≠ n → W w → W (w.writeName k).2) {lit k v : Bytes}
    (hk : k ≠ n) (hlit : lit = k ++ ascii ": ") (hl : LowerName k) (hj : k ∈ joined) (hc : s.curName = some k)
    (hcl : k ≠ hCL) (hv : ∀ b ∈ v, isValueByte b = true) : Tr m n base got W (s.joinLine lit k v) := by
  obtain ⟨fs, op, h1, h2, h3, _⟩ := h
  obtain ⟨bs, u, hb, h4, _⟩ := h1.joinLine hlit hl hj hc v hv
  refine ⟨fs, _, h4, h2, ?_, ?_⟩
  · rcases joinLine_w s lit k v hlit with e | e
    · rw [e]; exact h3
    · rw [e]; exact hW _ _ hk h3
  · intro _ e
    have := (h4.opname bs u rfl).1
    rw [e, hb] at this
    simp only [Option.some.injEq] at this
    exact absurd this.symm hcl

theorem Tr.openCl (h : Tr m n base got W s) (hW : ∀ w k, k ≠ n → W w → W (w.writeName k).2) {v : Bytes}
    (hk : hCL ≠ n) (hc : s.curName = some hCL) (hv : ∀ b ∈ v, isValueByte b = true) (hw : s.isNameWritten = false)
    (hb : m.body ≠ none) (x : Encoder) (y : Bool) (z : Option Nat) (hz : m.body = some .unknown → z ≠ none) :
    Tr m n base got W { ({ s with encoder := x } : HSt).openLine (ascii "content-length: ") hCL v with
      wroteLen := y, prevConLen := z } := by
  obtain ⟨fs, op, h1, h2, h3, _⟩ := h
  have := op_of_written h1 hw
  subst this
  have h1' : Shape base fs none ({ s with encoder := x } : HSt) := h1.congr rfl rfl rfl rfl
  obtain ⟨bs, hb', h4⟩ := h1'.openLine (lit := ascii "content-length: ") (by decide) lowerName_hCL (by decide) hc v hv
  refine ⟨fs, _, h4.congr rfl rfl rfl rfl, h2, ?_, fun _ _ => ⟨hb, hz⟩⟩
  have e := writeNameColon_eq s.w (ascii "content-length: ") hCL (by decide)
  simp only [HSt.openLine, e]
  exact hW _ _ hk h3

theorem Tr.written (h : Tr m n base got W s) (hc : s.curName = some hCL) (hw : s.isNameWritten = true) :
    m.body ≠ none ∧ (m.body = some .unknown → s.prevConLen ≠ none) := by
  obtain ⟨fs, op, h1, _, _, h4⟩ := h
  exact h4 (by rw [← h1.written]; exact hw) hc

theorem Tr.arm {s' : HSt} (h : Tr m n base got W s) (hW : ∀ w k, k ≠ n → W w → W (w.writeName k).2) {k v : Bytes}
    (hn : n ∉ joined) (hk : k ≠ n) (hl : LowerName k) (hc : s.curName = some k) (hv : ∀ b ∈ v, isValueByte b = true)
    (ha : harm m s k v = .ok s') : Tr m n base got W s' ∧ s'.curName = some k := by
  have notJ : k ∉ joined → s.isNameWritten = false := by
    intro hj
    obtain ⟨fs, op, h1, _⟩ := h
    have := h1.op_none hc hj
    subst this
    exact h1.written
  have hnj : ∀ k ∈ joined, k ≠ n := fun k hk e => hn (e ▸ hk)
  unfold harm at ha
  by_cases e1 : k = hCL
  · rw [if_pos e1] at ha
    subst e1
    unfold clArm at ha
    cases hw : s.isNameWritten with
    | true =>
      obtain ⟨hb1, hb2⟩ := h.written hc hw
      simp only [hw, Bool.not_true, Bool.and_false, Bool.false_eq_true, if_false] at ha
      cases hb : m.body with
      | none => exact absurd hb hb1
      | some b =>
        cases b with
        | known l =>
          simp only [hb, Except.ok.injEq] at ha
          subst ha; exact ⟨h, hc⟩
        | unknown =>
          simp only [hb] at ha
          cases hp : contentLengthParse v with
          | none => simp [hp] at ha
          | some len =>
            cases hq : s.prevConLen with
            | none => exact absurd hq (hb2 hb)
            | some prev =>
              simp only [hp, hq] at ha
              split at ha
              · simp at ha
              · simp only [Except.ok.injEq] at ha
                subst ha; exact ⟨h, hc⟩
    | false =>
      simp only [hw, Bool.not_false, Bool.and_true] at ha
      split at ha
      · simp at ha
      · cases hb : m.body with
        | none =>
          simp only [hb] at ha
          split at ha
          · simp only [Except.ok.injEq] at ha
            subst ha
            exact ⟨Tr.genericOther (s := { s with wroteLen := true, isNameWritten := false })
              (h.congr rfl hw.symm rfl rfl rfl) hW hk lowerName_hCL hv rfl, hc⟩
          · simp only [Except.ok.injEq] at ha
            subst ha; exact ⟨h, hc⟩
        | some b =>
          cases b with
          | known l =>
            simp only [hb, if_true, Except.ok.injEq] at ha
            subst ha
            exact ⟨h.openCl hW hk hc hv hw (by simp [hb]) _ _ _ (by simp [hb]), hc⟩
          | unknown =>
            simp only [hb] at ha
            cases hp : contentLengthParse v with
            | none => simp [hp] at ha
            | some len =>
              cases hq : s.prevConLen with
              | some prev =>
                simp only [hp, hq] at ha
                split at ha
                · simp at ha
                · simp only [Except.ok.injEq] at ha
                  subst ha; exact ⟨h, hc⟩
              | none =>
                simp only [hp, hq, Except.ok.injEq] at ha
                subst ha
                exact ⟨h.openCl hW hk hc hv hw (by simp [hb]) _ _ _ (by simp), hc⟩
  · rw [if_neg e1] at ha
    by_cases e2 : k = hTE
    · rw [if_pos e2] at ha
      subst e2
      unfold teArm at ha
      split at ha
      · simp at ha
      · split at ha
        · simp only [Except.ok.injEq] at ha
          subst ha; exact ⟨h, hc⟩
        · simp only [Except.ok.injEq] at ha
          have key : ∀ t : HSt, t.dst = s.dst → t.isNameWritten = s.isNameWritten → t.curName = s.curName → t.w = s.w →
              t.prevConLen = s.prevConLen →
              Tr m n base got W (t.joinLine (ascii "transfer-encoding: ") hTE v) ∧
              (t.joinLine (ascii "transfer-encoding: ") hTE v).curName = some hTE := by
            intro t t1 t2 t3 t4 t5
            refine ⟨(h.congr t1 t2 t3 t4 t5).join hW hk (by decide) lowerName_hTE (by decide) (t3.trans hc) e1 hv, ?_⟩
            unfold HSt.joinLine HSt.openLine
            split <;> exact t3.trans hc
          subst ha
          split
          · exact key _ rfl rfl rfl rfl rfl
          · exact key _ rfl rfl rfl rfl rfl
    · rw [if_neg e2] at ha
      by_cases e3 : k = hCONN
      · rw [if_pos e3] at ha
        subst e3
        simp only [Except.ok.injEq] at ha
        subst ha
        have key : ∀ t : HSt, t.dst = s.dst → t.isNameWritten = s.isNameWritten → t.curName = s.curName → t.w = s.w →
            t.prevConLen = s.prevConLen →
            Tr m n base got W (t.joinLine (ascii "connection: ") hCONN v) ∧
            (t.joinLine (ascii "connection: ") hCONN v).curName = some hCONN := by
          intro t t1 t2 t3 t4 t5
          refine ⟨(h.congr t1 t2 t3 t4 t5).join hW hk (by decide) lowerName_hCONN (by decide) (t3.trans hc) e1 hv, ?_⟩
          unfold HSt.joinLine HSt.openLine
          split <;> exact t3.trans hc
        unfold connArm
        simp only
        split
        · exact key _ rfl rfl rfl rfl rfl
        · exact key _ rfl rfl rfl rfl rfl
      · rw [if_neg e3] at ha
        by_cases e4 : k = hDATE
        · rw [if_pos e4] at ha
          simp only [Except.ok.injEq] at ha
          subst ha
          have hw := notJ (by rw [e4]; exact hDATE_joined)
          exact ⟨Tr.genericOther (s := { s with wroteDate := true }) (h.congr rfl rfl rfl rfl rfl) hW hk hl hv hw, hc⟩
        · rw [if_neg e4] at ha
          by_cases e5 : k = hTRAILER
          · rw [if_pos e5] at ha
            subst e5
            simp only [Except.ok.injEq] at ha
            subst ha
            unfold trailerArm
            split
            · exact ⟨h, hc⟩
            · have hj : Tr m n base got W (s.joinLine (ascii "trailer: ") hTRAILER v) :=
                h.join hW hk (by decide) lowerName_hTRAILER (by decide) hc e1 hv
              have hcj : (s.joinLine (ascii "trailer: ") hTRAILER v).curName = some hTRAILER := by
                unfold HSt.joinLine HSt.openLine
                split <;> exact hc
              simp only
              split
              · split
                · exact ⟨hj.congr rfl rfl rfl rfl rfl, hcj⟩
                · exact ⟨hj.congr rfl rfl rfl rfl rfl, hcj⟩
              · exact ⟨hj, hcj⟩
          · rw [if_neg e5] at ha
            simp only [Except.ok.injEq] at ha
            subst ha
            have hw := notJ (by simp [joined, e1, e2, e3, e5])
            exact ⟨h.genericOther hW hk hl hv hw, hc⟩

/-- The values of a group of another name. -/
theorem Tr.values {k : Bytes} (hn : n ∉ joined) (hW : ∀ w k, k ≠ n → W w → W (w.writeName k).2) (hk : k ≠ n)
    (hl : LowerName k) (vs : List Bytes) (hv : ∀ v ∈ vs, ∀ b ∈ v, isValueByte b = true) :
    ∀ (s s' : HSt), Tr m n base got W s → s.curName = some k →
    hrun m s (vs.map (fun v => (none, v))) = .ok s' → Tr m n base got W s' ∧ s'.curName = some k := by
  induction vs with
  | nil =>
    intro s s' h hc hr
    simp only [List.map_nil, hrun, Except.ok.injEq] at hr
    subst hr; exact ⟨h, hc⟩
  | cons v vs ih =>
    intro s s' h hc hr
    simp only [List.map_cons, hrun, hstep, HSt.enter, hc] at hr
    cases ha : harm m s k v with
    | error e => simp [ha] at hr
    | ok t =>
      simp only [ha] at hr
      obtain ⟨h1, h2⟩ := h.arm hW hn hk hl hc (hv v (by simp)) ha
      exact ih (fun v hm => hv v (by simp [hm])) t s' h1 h2 hr

theorem hrun_append (a b : List (Option Bytes × Bytes)) : ∀ (s s' : HSt), hrun m s (a ++ b) = .ok s' →
    ∃ t, hrun m s a = .ok t ∧ hrun m t b = .ok s' := by
  induction a with
  | nil => intro s s' h; exact ⟨s, rfl, h⟩
  | cons x a ih =>
    intro s s' h
    simp only [List.cons_append, hrun] at h ⊢
    cases hx : hstep m s x with
    | error e => simp [hx] at h
    | ok t =>
      simp only [hx] at h ⊢
      exact ih t s' h

theorem enter_cur (s : HSt) (k : Bytes) : (s.enter (some k)).curName = some k := by
  unfold HSt.enter HSt.handle; simp only; split <;> rfl

theorem enter_written (s : HSt) (k : Bytes) : (s.enter (some k)).isNameWritten = false := rfl

/-- The groups of other names. -/
theorem Tr.others (hn : n ∉ joined) (hW : ∀ w k, k ≠ n → W w → W (w.writeName k).2) (hs : HeaderMap)
    (hk : n ∉ hs.map Prod.fst) (hne : ∀ g ∈ hs, g.2 ≠ [])
    (hf : ∀ g ∈ hs, LowerName g.1 ∧ ∀ v ∈ g.2, ∀ b ∈ v, isValueByte b = true) :
    ∀ (s s' : HSt), Tr m n base got W s → hrun m s hs.drain = .ok s' → Tr m n base got W s' := by
  induction hs with
  | nil =>
    intro s s' h hr
    simp only [HeaderMap.drain, List.flatMap_nil, hrun, Except.ok.injEq] at hr
    subst hr; exact h
  | cons g hs ih =>
    intro s s' h hr
    obtain ⟨k, vs⟩ := g
    cases vs with
    | nil => exact absurd rfl (hne (k, []) (by simp))
    | cons v vs =>
      simp only [List.map_cons, List.mem_cons, not_or] at hk
      obtain ⟨hl, hv⟩ := hf (k, v :: vs) (by simp)
      rw [drain_cons] at hr
      simp only [hrun, hstep, enter_cur] at hr
      cases ha : harm m (s.enter (some k)) k v with
      | error e => simp [ha] at hr
      | ok t =>
        simp only [ha] at hr
        obtain ⟨h1, h2⟩ := (h.enter hn k).arm hW hn (Ne.symm hk.1) hl (enter_cur s k) (hv v (by simp)) ha
        obtain ⟨u, hu1, hu2⟩ := hrun_append _ _ _ _ hr
        have h3 := Tr.values hn hW (Ne.symm hk.1) hl vs (fun w hw => hv w (by simp [hw])) t u h1 h2 hu1
        exact ih hk.2 (fun g hg => hne g (by simp [hg])) (fun g hg => hf g (by simp [hg])) u s' h3.1 hu2

theorem harm_own (hn : n ∉ joined) (hd : n ≠ hDATE) (v : Bytes) : harm m s n v = .ok (s.generic n v) := by
  have h1 : n ≠ hCL := fun e => hn (by rw [e]; decide)
  have h2 : n ≠ hTE := fun e => hn (by rw [e]; decide)
  have h3 : n ≠ hCONN := fun e => hn (by rw [e]; decide)
  have h4 : n ≠ hTRAILER := fun e => hn (by rw [e]; decide)
  unfold harm
  rw [if_neg h1, if_neg h2, if_neg h3, if_neg hd, if_neg h4]

/-- The values of the group of the name itself, one spelling for each. -/
theorem Tr.own (hn : n ∉ joined) (hd : n ≠ hDATE) (hl : LowerName n) (vs : List Bytes)
    (hv : ∀ v ∈ vs, ∀ b ∈ v, isValueByte b = true) :
    ∀ (names : List Bytes) (got : List (Bytes × Bytes)) (s s' : HSt), names.length = vs.length →
    Tr m n base got (fun w => avail w n = names) s → s.curName = some n → s.isNameWritten = false →
    hrun m s (vs.map (fun v => (none, v))) = .ok s' →
    Tr m n base (got ++ names.zip vs) (fun _ => True) s' := by
  induction vs with
  | nil =>
    intro names got s s' hlen h hc hw hr
    simp only [List.map_nil, hrun, Except.ok.injEq] at hr
    subst hr
    obtain ⟨fs, op, h1, h2, h3, h4⟩ := h
    exact ⟨fs, op, h1, by simpa using h2, trivial, h4⟩
  | cons v vs ih =>
    intro names got s s' hlen h hc hw hr
    cases names with
    | nil => simp at hlen
    | cons a as =>
      simp only [List.length_cons, Nat.add_right_cancel_iff] at hlen
      simp only [List.map_cons, hrun, hstep, HSt.enter, hc, harm_own hn hd] at hr
      have ha : avail s.w n = a :: as := by obtain ⟨_, _, _, _, h3, _⟩ := h; exact h3
      have h1 := h.generic hl (hv v (by simp)) hw ha
      have := ih (fun v hm => hv v (by simp [hm])) as _ _ s' hlen h1 hc hw hr
      simpa using this

/-- All groups: the lines of `n` are its spellings with its values. -/
theorem Tr.all {map : HeaderMap} (hn : n ∉ joined) (hd : n ≠ hDATE) (hl : LowerName n) (hs : HeaderMap)
    (hnd : (hs.map Prod.fst).Nodup) (hne : ∀ g ∈ hs, g.2 ≠ [])
    (hf : ∀ g ∈ hs, LowerName g.1 ∧ ∀ v ∈ g.2, ∀ b ∈ v, isValueByte b = true)
    (hlen : (map.getAll n).length = (hs.getAll n).length) :
    ∀ (s s' : HSt), Tr m n base [] (Before map n) s → hrun m s hs.drain = .ok s' →
    Tr m n base ((map.getAll n).zip (hs.getAll n)) (fun _ => True) s' := by
  induction hs with
  | nil =>
    intro s s' h hr
    simp only [HeaderMap.drain, List.flatMap_nil, hrun, Except.ok.injEq] at hr
    subst hr
    obtain ⟨fs, op, h1, h2, h3, h4⟩ := h
    exact ⟨fs, op, h1, by simpa [HeaderMap.getAll] using h2, trivial, h4⟩
  | cons g hs ih =>
    intro s s' h hr
    obtain ⟨k, vs⟩ := g
    cases vs with
    | nil => exact absurd rfl (hne (k, []) (by simp))
    | cons v vs =>
      simp only [List.map_cons, List.nodup_cons] at hnd
      obtain ⟨hlk, hv⟩ := hf (k, v :: vs) (by simp)
      rw [drain_cons] at hr
      simp only [hrun, hstep, enter_cur] at hr
      by_cases e : k = n
      · subst e
        have hg : HeaderMap.getAll ((k, v :: vs) :: hs) k = v :: vs := by simp [HeaderMap.getAll]
        rw [hg] at hlen ⊢
        have h0 := h.enter hn k
        have hav : avail (s.enter (some k)).w k = map.getAll k := by
          obtain ⟨_, _, _, _, h3, _⟩ := h0; exact h3.avail
        cases hm : map.getAll k with
        | nil => simp [hm] at hlen
        | cons a as =>
          rw [hm] at hlen hav
          simp only [List.length_cons, Nat.add_right_cancel_iff] at hlen
          simp only [harm_own hn hd] at hr
          have h1 := h0.generic hlk (hv v (by simp)) (enter_written s k) hav
          obtain ⟨u, hu1, hu2⟩ := hrun_append _ _ _ _ hr
          have h2 := Tr.own hn hd hlk vs (fun w hw => hv w (by simp [hw])) as _ _ u hlen h1 (enter_cur s k)
            (enter_written s k) hu1
          have h3 := Tr.others hn (fun _ _ _ _ => trivial) hs hnd.1 (fun g hg => hne g (by simp [hg]))
            (fun g hg => hf g (by simp [hg])) u s' h2 hu2
          simpa using h3
      · have hg : HeaderMap.getAll ((k, v :: vs) :: hs) n = HeaderMap.getAll hs n := by simp [HeaderMap.getAll, e]
        rw [hg] at hlen ⊢
        cases ha : harm m (s.enter (some k)) k v with
        | error e => simp [ha] at hr
        | ok t =>
          simp only [ha] at hr
          have hW : ∀ w k, k ≠ n → Before map n w → Before map n (w.writeName k).2 := fun w k hk hb => hb.other hk
          obtain ⟨h1, h2⟩ := (h.enter hn k).arm hW hn e hlk (enter_cur s k) (hv v (by simp)) ha
          obtain ⟨u, hu1, hu2⟩ := hrun_append _ _ _ _ hr
          have h3 := Tr.values hn hW e hlk vs (fun w hw => hv w (by simp [hw])) t u h1 h2 hu1
          exact ih hnd.2 (fun g hg => hne g (by simp [hg])) (fun g hg => hf g (by simp [hg])) hlen u s' h3.1 hu2

/-- What the lines after the loop add: nothing under the name. -/
def Done (n base : Bytes) (got : List (Bytes × Bytes)) (s : HSt) : Prop :=
  ∃ fs, s.dst = base ++ lines fs ∧ spelled n fs = got ∧ (∀ f ∈ fs, WireField f) ∧ s.w.Ok

theorem Done.line {t : HSt} (h : Done n base got s) {k v : Bytes} (hk : k ≠ n) (hl : LowerName k)
    (hv : ∀ b ∈ v, isValueByte b = true) (hd : t.dst = s.dst ++ ((s.w.writeName k).1 ++ ascii ": " ++ v ++ CRLF))
    (hw : t.w = (s.w.writeName k).2) : Done n base got t := by
  obtain ⟨fs, h1, h2, h3, h4⟩ := h
  obtain ⟨f1, f2⟩ := writeName_ok h4 hl
  refine ⟨fs ++ [((s.w.writeName k).1, v)], ?_, ?_, ?_, by rw [hw]; exact f2⟩
  · rw [hd, h1, lines_snoc, line_append, List.append_assoc]
  · rw [spelled_snoc_ne f1 hk, h2]
  · intro f hf
    simp only [List.mem_append, List.mem_singleton] at hf
    rcases hf with hf | rfl
    · exact h3 f hf
    · exact wireField_of_spelling f1 hl hv

theorem Tr.handle (h : Tr m n base got W s) (hn : n ∉ joined) : Done n base got s.handle := by
  obtain ⟨fs, op, h1, h2, h3, _⟩ := h
  refine ⟨_, h1.handle, by rw [spelled_closed h1 hn, h2], h1.closeWire _, ?_⟩
  have : s.handle.w = s.w := by unfold HSt.handle; split <;> rfl
  rw [this]; exact h1.writer

theorem Done.implicit (h : Done n base got s) (hn : n ∉ joined) : Done n base got (implicitLen m s) := by
  have hcl : hCL ≠ n := fun e => hn (by rw [← e]; decide)
  have hte : hTE ≠ n := fun e => hn (by rw [← e]; decide)
  have keep : ∀ e, Done n base got { s with encoder := e } := fun e => h
  unfold implicitLen
  split
  · exact h
  · split
    · split
      · exact keep _
      · have e := writeFullLine_eq s.w (ascii "transfer-encoding: chunked\r\n") hTE (ascii ": chunked\r\n") (by decide)
        simp only [e]
        refine h.line (v := ascii "chunked") hte lowerName_hTE (by decide +kernel) ?_ rfl
        have : ascii ": chunked\r\n" = ascii ": " ++ ascii "chunked" ++ CRLF := by decide
        simp [this]
    · split
      · have e := writeFullLine_eq s.w (ascii "content-length: 0\r\n") hCL (ascii ": 0\r\n") (by decide)
        simp only [e]
        refine h.line (v := ascii "0") hcl lowerName_hCL (by decide +kernel) ?_ rfl
        have : ascii ": 0\r\n" = ascii ": " ++ ascii "0" ++ CRLF := by decide
        simp [this]
      · exact keep _
    · split
      · have e := writeFullLine_eq s.w (ascii "content-length: 0\r\n") hCL (ascii ": 0\r\n") (by decide)
        simp only [e]
        refine h.line (v := ascii "0") hcl lowerName_hCL (by decide +kernel) ?_ rfl
        have : ascii ": 0\r\n" = ascii ": " ++ ascii "0" ++ CRLF := by decide
        simp [this]
      · exact keep _
    · split
      · exact keep _
      · rename_i len _ _ _
        have e := writeNameColon_eq s.w (ascii "content-length: ") hCL (by decide)
        simp only [e]
        refine h.line (v := decimal len) hcl lowerName_hCL ?_ ?_ rfl
        · intro b hb; exact (digit_facts b ((decimal_spec len).2.1 b hb)).2.2
        · simp

theorem Done.finish {env : EncodeEnv} (h : Done n base got s) (hd : n ≠ hDATE)
    (hdate : ∀ b ∈ env.date, isValueByte b = true) :
    ∃ fs, (dateAndEnd env m (forceBody m s)).dst = base ++ lines fs ++ CRLF ∧ spelled n fs = got ∧
      ∀ f ∈ fs, WireField f := by
  have h0 : Done n base got (forceBody m s) := by
    unfold forceBody; split
    · exact h
    · exact h
  generalize forceBody m s = t at h0
  unfold dateAndEnd
  split
  · have e := writeNameColon_eq t.w (ascii "date: ") hDATE (by decide)
    simp only [e]
    have h1 : Done n base got { t with
        dst := t.dst ++ ((t.w.writeName hDATE).1 ++ ascii ": " ++ env.date ++ CRLF), w := (t.w.writeName hDATE).2 } :=
      h0.line (Ne.symm hd) lowerName_hDATE hdate rfl rfl
    obtain ⟨fs, g1, g2, g3, _⟩ := h1
    refine ⟨fs, ?_, g2, g3⟩
    rw [← g1]; simp
  · obtain ⟨fs, g1, g2, g3, _⟩ := h0
    exact ⟨fs, by simp [g1], g2, g3⟩

theorem encodeHeaders_spelled {env : EncodeEnv} {map : HeaderMap} {title : Bool} {out : Bytes} {l0 wl0 : Bool}
    {origLen : Nat} {e : Encoder} (hmap : SpellingsOf map) (hn : n ∉ joined) (hd : n ≠ hDATE) (hl : LowerName n)
    (hdate : ∀ b ∈ env.date, isValueByte b = true) (hwf : m.head.headers.Wf)
    (hf : ∀ f ∈ m.head.headers.fields, LowerName f.1 ∧ ∀ b ∈ f.2, isValueByte b = true)
    (hlen : (map.getAll n).length = (m.head.headers.getAll n).length)
    (he : encodeHeaders env m base l0 origLen wl0 (.orig map none title) = (out, .ok e)) :
    ∃ fs, out = base ++ lines fs ++ CRLF ∧ (∀ f ∈ fs, WireField f) ∧
      spelled n fs = (map.getAll n).zip (m.head.headers.getAll n) := by
  unfold encodeHeaders at he
  split at he
  · simp at he
  · simp at he
  · rename_i s hs
    simp only [Prod.mk.injEq, EncodeRes.ok.injEq] at he
    obtain ⟨rfl, rfl⟩ := he
    have hg : ∀ g ∈ m.head.headers, LowerName g.1 ∧ ∀ v ∈ g.2, ∀ b ∈ v, isValueByte b = true := by
      intro g hg
      have hmem : ∀ v ∈ g.2, (g.1, v) ∈ m.head.headers.fields := by
        intro v hv
        simp only [HeaderMap.fields, List.mem_flatMap, List.mem_map]
        exact ⟨g, hg, v, hv, rfl⟩
      obtain ⟨v, hv⟩ := List.exists_mem_of_ne_nil _ (hwf.nonempty g hg)
      exact ⟨(hf _ (hmem v hv)).1, fun v hv => (hf _ (hmem v hv)).2⟩
    have h0 : Tr m n base [] (Before map n)
        ⟨base, .orig map none title, Encoder.length 0, none, wl0, false, none, false, false, l0, none⟩ := by
      refine ⟨[], none, ⟨by simp [openBytes, lines], rfl, by simp, ⟨hmap, by simp⟩, by simp, by simp⟩, rfl,
        ⟨none, title, rfl, by simp⟩, by simp⟩
    have h1 := Tr.all hn hd hl _ hwf.nodup hwf.nonempty hg hlen _ s h0 hs
    obtain ⟨fs, g1, g2, g3⟩ := ((h1.handle hn).implicit (m := m) hn).finish (m := m) hd hdate
    exact ⟨fs, g1, g3, g2⟩

end NameCase

end Hyper
