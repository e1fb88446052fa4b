import Verif.Model.Message
import Verif.Spec.Framing
import Verif.Proof.Headers

namespace Hyper

open Spec

theorem getAll_append (m : HeaderMap) (n v k : Bytes) :
    (m.append n v).getAll k = if k = n then m.getAll k ++ [v] else m.getAll k := by
  induction m with
  | nil =>
    simp only [HeaderMap.append, HeaderMap.getAll, List.nil_append]
    by_cases h : n = k
    · rw [if_pos h, if_pos h.symm]
    · rw [if_neg h, if_neg (fun hh => h hh.symm)]
  | cons g m ih =>
    obtain ⟨g1, g2⟩ := g
    simp only [HeaderMap.append]
    by_cases hg : g1 = n
    · subst hg
      rw [if_pos rfl]
      simp only [HeaderMap.getAll]
      by_cases hk : g1 = k
      · simp [hk]
      · rw [if_neg hk, if_neg (fun hh => hk hh.symm), if_neg hk]
    · rw [if_neg hg]
      simp only [HeaderMap.getAll]
      by_cases hk : g1 = k
      · rw [if_pos hk, if_pos hk, if_neg (by rintro rfl; exact hg hk)]
      · rw [if_neg hk, if_neg hk, ih]

theorem getAll_insert (m : HeaderMap) (n v k : Bytes) :
    (m.insert n v).getAll k = if k = n then [v] else m.getAll k := by
  induction m with
  | nil =>
    simp only [HeaderMap.insert, HeaderMap.getAll]
    by_cases h : n = k
    · rw [if_pos h, if_pos h.symm]
    · rw [if_neg h, if_neg (fun hh => h hh.symm)]
  | cons g m ih =>
    obtain ⟨g1, g2⟩ := g
    simp only [HeaderMap.insert]
    by_cases hg : g1 = n
    · subst hg
      rw [if_pos rfl]
      simp only [HeaderMap.getAll]
      by_cases hk : g1 = k
      · simp [hk]
      · rw [if_neg hk, if_neg (fun hh => hk hh.symm), if_neg hk]
    · rw [if_neg hg]
      simp only [HeaderMap.getAll]
      by_cases hk : g1 = k
      · rw [if_pos hk, if_pos hk, if_neg (by rintro rfl; exact hg hk)]
      · rw [if_neg hk, if_neg hk, ih]

theorem getAll_remove (m : HeaderMap) (n k : Bytes) :
    (m.remove n).getAll k = if k = n then [] else m.getAll k := by
  induction m with
  | nil => simp [HeaderMap.remove, HeaderMap.getAll]
  | cons g m ih =>
    obtain ⟨g1, g2⟩ := g
    simp only [HeaderMap.remove, List.filter_cons] at ih ⊢
    by_cases hg : g1 = n
    · rw [if_neg (by simp [hg])]
      rw [ih]
      simp only [HeaderMap.getAll]
      by_cases hk : k = n
      · rw [if_pos hk, if_pos hk]
      · rw [if_neg hk, if_neg hk, if_neg (by rintro rfl; exact hk hg)]
    · rw [if_pos (by simp [hg])]
      simp only [HeaderMap.getAll]
      by_cases hk : g1 = k
      · rw [if_pos hk, if_pos hk, if_neg (by rintro rfl; exact hg hk)]
      · rw [if_neg hk, if_neg hk, ih]

theorem headerName_some {n m : Bytes} (h : headerName n = some m) : m = n.map foldCase := by
  have hf : lowerByte = foldCase := funext lowerByte_fold
  unfold headerName at h
  split at h
  · simp only [Option.some.injEq] at h; rw [← h, hf]
  · simp at h

theorem valuesOf_snoc (k : Bytes) (pre : List (Bytes × Bytes)) (f : Bytes × Bytes) :
    valuesOf k (pre ++ [f]) =
      if f.1.map foldCase = k then valuesOf k pre ++ [f.2] else valuesOf k pre := by
  unfold valuesOf
  rw [List.filter_append, List.map_append]
  by_cases h : f.1.map foldCase = k
  · rw [if_pos h, List.filter_cons, if_pos (by simpa using h)]; simp
  · rw [if_neg h, List.filter_cons, if_neg (by simpa using h)]; simp

theorem valuesOf_append (k : Bytes) (a b : List (Bytes × Bytes)) :
    valuesOf k (a ++ b) = valuesOf k a ++ valuesOf k b := by
  simp [valuesOf]

end Hyper

namespace Hyper

open Spec

/-- Every name of the map has a value. -/
def HeaderMap.Full (m : HeaderMap) : Prop := ∀ g ∈ m, g.2 ≠ []

theorem full_append {m : HeaderMap} (h : m.Full) (n v : Bytes) : (m.append n v).Full := by
  induction m with
  | nil => intro g hg; simp [HeaderMap.append] at hg; subst hg; simp
  | cons a m ih =>
    obtain ⟨a1, a2⟩ := a
    simp only [HeaderMap.append]
    split
    · intro g hg
      simp only [List.mem_cons] at hg
      rcases hg with rfl | hg
      · simp
      · exact h g (by simp [hg])
    · intro g hg
      simp only [List.mem_cons] at hg
      rcases hg with rfl | hg
      · exact h (a1, a2) (by simp)
      · exact ih (fun g hg => h g (by simp [hg])) g hg

theorem full_insert {m : HeaderMap} (h : m.Full) (n v : Bytes) : (m.insert n v).Full := by
  induction m with
  | nil => intro g hg; simp [HeaderMap.insert] at hg; subst hg; simp
  | cons a m ih =>
    obtain ⟨a1, a2⟩ := a
    simp only [HeaderMap.insert]
    split
    · intro g hg
      simp only [List.mem_cons] at hg
      rcases hg with rfl | hg
      · simp
      · exact h g (by simp [hg])
    · intro g hg
      simp only [List.mem_cons] at hg
      rcases hg with rfl | hg
      · exact h (a1, a2) (by simp)
      · exact ih (fun g hg => h g (by simp [hg])) g hg

theorem full_remove {m : HeaderMap} (h : m.Full) (n : Bytes) : (m.remove n).Full := by
  intro g hg
  exact h g (List.mem_filter.mp hg).1

theorem contains_iff {m : HeaderMap} (h : m.Full) (k : Bytes) :
    m.contains k = true ↔ m.getAll k ≠ [] := by
  induction m with
  | nil => simp [HeaderMap.contains, HeaderMap.getAll]
  | cons a m ih =>
    obtain ⟨a1, a2⟩ := a
    have ih := ih (fun g hg => h g (by simp [hg]))
    simp only [HeaderMap.contains, List.any_cons, HeaderMap.getAll] at ih ⊢
    by_cases hk : a1 = k
    · rw [if_pos hk]
      simp only [hk, beq_self_eq_true, Bool.true_or, true_iff]
      exact h (a1, a2) (by simp)
    · rw [if_neg hk]
      have : (a1 == k) = false := by simpa using hk
      rw [this, Bool.false_or]
      exact ih

theorem contains_false_iff {m : HeaderMap} (h : m.Full) (k : Bytes) :
    m.contains k = false ↔ m.getAll k = [] := by
  have := contains_iff h k
  cases hc : m.contains k with
  | true => rw [hc] at this; simp at this; simp [this]
  | false => rw [hc] at this; simp at this; simp [this]

end Hyper
