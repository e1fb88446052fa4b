import Verif.Model.ClientEncode
import Verif.Proof.ServerEncodeHead

/-! # `Client::encode` -/

namespace Hyper

open Spec

/-! ## Header maps -/

theorem getAll_setAll (m : HeaderMap) (n : Bytes) (ws : List Bytes) (k : Bytes)
    (h : m.contains n = true) :
    (m.setAll n ws).getAll k = if k = n then ws else m.getAll k := by
  induction m with
  | nil => simp [HeaderMap.contains] at h
  | cons g m ih =>
    obtain ⟨g1, g2⟩ := g
    simp only [HeaderMap.setAll]
    by_cases hg : g1 = n
    · subst hg
      rw [if_pos rfl]
      simp only [HeaderMap.getAll]
      by_cases hk : g1 = k
      · simp [hk]
      · rw [if_neg hk, if_neg (fun hh => hk hh.symm), if_neg hk]
    · rw [if_neg hg]
      have h' : HeaderMap.contains m n = true := by
        simp only [HeaderMap.contains, List.any_cons, Bool.or_eq_true, beq_iff_eq] at h ⊢
        rcases h with h | h
        · exact absurd h hg
        · exact h
      simp only [HeaderMap.getAll]
      by_cases hk : g1 = k
      · rw [if_pos hk, if_pos hk, if_neg (by rintro rfl; exact hg hk)]
      · rw [if_neg hk, if_neg hk, ih h']

theorem names_setAll (m : HeaderMap) (n : Bytes) (ws : List Bytes) :
    (m.setAll n ws).map Prod.fst = m.map Prod.fst := by
  induction m with
  | nil => rfl
  | cons g m ih =>
    obtain ⟨g1, g2⟩ := g
    simp only [HeaderMap.setAll]
    split
    · rfl
    · simp [ih]

theorem names_insert (m : HeaderMap) (n v : Bytes) :
    (m.insert n v).map Prod.fst = if n ∈ m.map Prod.fst then m.map Prod.fst else m.map Prod.fst ++ [n] := by
  induction m with
  | nil => simp [HeaderMap.insert]
  | cons g m ih =>
    obtain ⟨g1, g2⟩ := g
    simp only [HeaderMap.insert]
    by_cases hg : g1 = n
    · rw [if_pos hg]; simp [hg]
    · rw [if_neg hg]
      have hn : n ≠ g1 := fun hh => hg hh.symm
      simp only [List.map_cons, ih, List.mem_cons, hn, false_or]
      split <;> simp

theorem wf_insert {m : HeaderMap} (h : m.Wf) (n v : Bytes) : (m.insert n v).Wf := by
  refine ⟨?_, full_insert h.nonempty n v⟩
  rw [names_insert]
  split
  · exact h.nodup
  · rename_i hn
    rw [List.nodup_append]
    refine ⟨h.nodup, by simp, ?_⟩
    intro a ha b hb
    simp only [List.mem_singleton] at hb
    subst hb
    rintro rfl
    exact hn ha

theorem wf_remove {m : HeaderMap} (h : m.Wf) (n : Bytes) : (m.remove n).Wf := by
  refine ⟨?_, full_remove h.nonempty n⟩
  have : ((m.remove n).map Prod.fst).Sublist (m.map Prod.fst) :=
    List.Sublist.map _ List.filter_sublist
  exact this.nodup h.nodup

theorem wf_setAll {m : HeaderMap} (h : m.Wf) (n : Bytes) {ws : List Bytes} (hw : ws ≠ []) :
    (m.setAll n ws).Wf := by
  refine ⟨by rw [names_setAll]; exact h.nodup, ?_⟩
  have := h.nonempty
  clear h
  induction m with
  | nil => simp [HeaderMap.setAll]
  | cons g m ih =>
    obtain ⟨g1, g2⟩ := g
    simp only [HeaderMap.setAll]
    intro x hx
    split at hx
    · simp only [List.mem_cons] at hx
      rcases hx with rfl | hx
      · exact hw
      · exact this x (by simp [hx])
    · simp only [List.mem_cons] at hx
      rcases hx with rfl | hx
      · exact this _ (by simp)
      · exact ih (fun y hy => this y (by simp [hy])) x hx

theorem getAll_absent (m : HeaderMap) (k : Bytes) (h : k ∉ m.map Prod.fst) : m.getAll k = [] := by
  induction m with
  | nil => rfl
  | cons g m ih =>
    obtain ⟨g1, g2⟩ := g
    simp only [List.map_cons, List.mem_cons, not_or] at h
    simp only [HeaderMap.getAll]
    rw [if_neg (fun hh => h.1 hh.symm)]
    exact ih h.2

/-- On a map with distinct lower-case names, `get_all` gives the values of the fields of that name. -/
theorem valuesOf_fields (m : HeaderMap) (h : (m.map Prod.fst).Nodup)
    (hl : ∀ g ∈ m, g.1.map foldCase = g.1) (k : Bytes) : valuesOf k m.fields = m.getAll k := by
  induction m with
  | nil => rfl
  | cons g m ih =>
    obtain ⟨g1, g2⟩ := g
    simp only [List.map_cons, List.nodup_cons] at h
    have ih' := ih h.2 (fun g hg => hl g (by simp [hg]))
    have h1 := hl (g1, g2) (by simp)
    simp only at h1
    have hf : HeaderMap.fields ((g1, g2) :: m) = g2.map (fun v => (g1, v)) ++ HeaderMap.fields m := rfl
    rw [hf, valuesOf_append, ih']
    simp only [HeaderMap.getAll]
    by_cases hk : g1 = k
    · rw [if_pos hk]
      have : HeaderMap.getAll m k = [] := getAll_absent m k (hk ▸ h.1)
      rw [this, List.append_nil]
      unfold valuesOf
      rw [List.filter_map, List.map_map]
      have : ((fun f : Bytes × Bytes => List.map foldCase f.1 == k) ∘ fun v => (g1, v)) = fun _ => true := by
        funext v; subst hk; simp [h1]
      rw [this]
      simp [Function.comp_def]
    · rw [if_neg hk]
      have : valuesOf k (g2.map (fun v => (g1, v))) = [] := by
        unfold valuesOf
        rw [List.filter_map, List.map_map]
        have : ((fun f : Bytes × Bytes => List.map foldCase f.1 == k) ∘ fun v => (g1, v)) = fun _ => false := by
          funext v; simp [h1, hk]
        rw [this]
        simp
      rw [this, List.nil_append]

theorem getAll_mem_fields {m : HeaderMap} {k v : Bytes} (h : v ∈ m.getAll k) : (k, v) ∈ m.fields := by
  induction m with
  | nil => simp [HeaderMap.getAll] at h
  | cons g m ih =>
    obtain ⟨g1, g2⟩ := g
    simp only [HeaderMap.getAll] at h
    simp only [HeaderMap.fields, List.flatMap_cons, List.mem_append]
    split at h
    · rename_i hg
      left
      exact List.mem_map.mpr ⟨v, h, by rw [hg]⟩
    · exact Or.inr (ih h)

/-! ## Writing the fields -/

/-- `fs` are the fields `gs` with names spelled in some case. -/
def Spelled (fs gs : List (Bytes × Bytes)) : Prop := fs.map (fun f => (f.1.map foldCase, f.2)) = gs

theorem Spelled.append {a b c d : List (Bytes × Bytes)} (h : Spelled a b) (h' : Spelled c d) :
    Spelled (a ++ c) (b ++ d) := by
  unfold Spelled at *
  rw [List.map_append, h, h']

theorem Spec.WrittenLines.append {a b : Bytes} {fs gs : List (Bytes × Bytes)} (h : WrittenLines a fs)
    (h' : WrittenLines b gs) : WrittenLines (a ++ b) (fs ++ gs) := by
  induction h with
  | nil => exact h'
  | cons f _ ih => rw [List.append_assoc]; exact .cons f ih
  | empty n _ ih => rw [List.append_assoc]; exact .empty n ih

theorem writtenLines_lines (fs : List (Bytes × Bytes)) : WrittenLines (lines fs) fs := by
  induction fs with
  | nil => exact .nil
  | cons f fs ih =>
    have : lines (f :: fs) = line f ++ lines fs := rfl
    rw [this]; exact .cons f ih

theorem writeOrigValues_spec (title : Bool) {name : Bytes} (hn : LowerName name) :
    ∀ (values names : List Bytes), (∀ n ∈ names, n.map foldCase = name) →
    ∃ fs, WrittenLines (writeOrigValues title name names values) fs ∧
      Spelled fs (values.map (fun v => (name, v))) := by
  intro values
  induction values with
  | nil => intro names _; exact ⟨[], .nil, rfl⟩
  | cons v vs ih =>
    intro names hns
    obtain ⟨fs, h1, h2⟩ := ih names.tail (fun n hn => hns n (List.mem_of_mem_tail hn))
    simp only [writeOrigValues]
    generalize hb2 : origName title name names = bs
    have hb1 : bs.map foldCase = name := by
      subst hb2
      cases names with
      | nil =>
        cases title
        · exact hn.fold
        · exact titleCase_fold hn
      | cons o os => exact hns o (by simp)
    refine ⟨(bs, v) :: fs, ?_, ?_⟩
    · by_cases hv : v = []
      · rw [if_pos hv]
        subst hv
        have h0 : ascii ":\r\n" = ascii ":" ++ CRLF := by decide
        rw [h0]
        have := WrittenLines.empty bs h1
        simpa only [List.append_assoc] using this
      · rw [if_neg hv]
        have := WrittenLines.cons (bs, v) h1
        rw [line_append] at this
        simpa only [List.append_assoc] using this
    · unfold Spelled at *
      simp only [List.map_cons, h2, hb1]

theorem writeHeadersOriginalCase_spec (title : Bool) {orig : HeaderMap} (ho : SpellingsOf orig) (m : HeaderMap)
    (hm : ∀ g ∈ m, LowerName g.1) :
    ∃ fs, WrittenLines (writeHeadersOriginalCase title orig m) fs ∧ Spelled fs m.fields := by
  induction m with
  | nil => exact ⟨[], .nil, rfl⟩
  | cons g m ih =>
    obtain ⟨fs, h1, h2⟩ := ih (fun g hg => hm g (by simp [hg]))
    obtain ⟨gs, g1, g2⟩ := writeOrigValues_spec title (hm g (by simp)) g.2 (orig.getAll g.1)
      (spellings_getAll ho g.1)
    exact ⟨gs ++ fs, g1.append h1, g2.append h2⟩

theorem clientHeaders_spec (title : Bool) (cm : Option HeaderMap) (hc : ∀ map, cm = some map → SpellingsOf map)
    (m : HeaderMap) (hm : ∀ g ∈ m, LowerName g.1) :
    ∃ fs, WrittenLines (clientHeaders title cm m) fs ∧ Spelled fs m.fields := by
  have hf : ∀ f ∈ m.fields, LowerName f.1 := by
    intro f hf
    simp only [HeaderMap.fields, List.mem_flatMap, List.mem_map] at hf
    obtain ⟨g, hg, v, hv, rfl⟩ := hf
    exact hm g hg
  unfold clientHeaders
  split
  · rename_i orig
    exact writeHeadersOriginalCase_spec title (hc orig rfl) m hm
  · split
    · refine ⟨m.fields.map (fun f => (titleCase f.1, f.2)), ?_, ?_⟩
      · have : writeHeadersTitleCase m = lines (m.fields.map (fun f => (titleCase f.1, f.2))) := by
          unfold writeHeadersTitleCase lines
          rw [List.flatMap_map]; rfl
        rw [this]; exact writtenLines_lines _
      · unfold Spelled
        rw [List.map_map]
        refine Eq.trans (List.map_congr_left (g := id) (fun f h => ?_)) (List.map_id _)
        simp only [Function.comp, titleCase_fold (hf f h)]; rfl
    · refine ⟨m.fields, ?_, ?_⟩
      · have : writeHeaders m = lines m.fields := rfl
        rw [this]; exact writtenLines_lines _
      · unfold Spelled
        refine Eq.trans (List.map_congr_left (g := id) (fun f h => ?_)) (List.map_id _)
        simp only [(hf f h).fold]; rfl

theorem Spelled.valuesOf {fs gs : List (Bytes × Bytes)} (h : Spelled fs gs) (hg : ∀ g ∈ gs, LowerName g.1)
    (k : Bytes) : valuesOf k fs = valuesOf k gs := by
  unfold Spelled at h
  subst h
  induction fs with
  | nil => rfl
  | cons f fs ih =>
    have ih' := ih (fun g hh => hg g (by simp only [List.map_cons, List.mem_cons]; exact Or.inr hh))
    have h1 := (hg (f.1.map foldCase, f.2) (by simp)).fold
    have e1 : f :: fs = [f] ++ fs := rfl
    rw [List.map_cons, e1, valuesOf_append, ih']
    have e2 : ∀ (x : Bytes × Bytes) xs, x :: xs = [x] ++ xs := fun _ _ => rfl
    rw [e2 (f.1.map foldCase, f.2), valuesOf_append]
    congr 1
    simp only [Spec.valuesOf, List.filter_cons, List.filter_nil]
    simp only at h1
    rw [h1]
    split <;> rfl

theorem Spelled.wire {fs gs : List (Bytes × Bytes)} (h : Spelled fs gs)
    (hg : ∀ g ∈ gs, LowerName g.1 ∧ ∀ b ∈ g.2, isValueByte b = true) : ∀ f ∈ fs, WireField f := by
  intro f hf
  unfold Spelled at h
  have : (f.1.map foldCase, f.2) ∈ gs := by
    rw [← h]; exact List.mem_map_of_mem hf
  obtain ⟨h1, h2⟩ := hg _ this
  exact wireField_of_spelling rfl h1 h2

end Hyper
