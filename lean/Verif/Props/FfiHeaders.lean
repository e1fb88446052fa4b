import Verif.Model.FfiHeaders
import Verif.Props.HeaderCase

/-!
# C75: the C API's iteration over headers

Specification: the fields as a list, in order, each with the name as it was given.
-/

namespace Hyper

open Spec

namespace Ffi

/-- Setting a field that is there: the first is replaced, the others go. -/
def _root_.Hyper.Spec.replaceField (n raw v : Bytes) : List (Bytes × Bytes) → List (Bytes × Bytes)
  | [] => []
  | f :: fs =>
    if f.1.map foldCase = n then (raw, v) :: fs.filter (fun g => decide (g.1.map foldCase ≠ n))
    else f :: replaceField n raw v fs

/-- The fields after a call (with valid arguments). -/
def _root_.Hyper.Spec.afterOp (fs : List (Bytes × Bytes)) : Op → List (Bytes × Bytes)
  | .add raw v => fs ++ [(raw, v)]
  | .set raw v =>
    if spelled (raw.map foldCase) fs = [] then fs ++ [(raw, v)] else replaceField (raw.map foldCase) raw v fs

/-- The name and value of a call are acceptable. -/
def _root_.Hyper.Spec.opOk : Op → Prop
  | .add raw v => rawNameValue raw v ≠ none
  | .set raw v => rawNameValue raw v ≠ none

/-- No call sets a name that has several values. -/
def _root_.Hyper.Spec.setsSingle : List (Bytes × Bytes) → List Op → Prop
  | _, [] => True
  | fs, op :: ops =>
    (match op with
     | .set raw _ => (spelled (raw.map foldCase) fs).length ≤ 1
     | .add _ _ => True) ∧ setsSingle (afterOp fs op) ops

/-- The order of a list of fields: each name with its index among the fields of that name. -/
def orderFrom (pre : List (Bytes × Bytes)) : List (Bytes × Bytes) → List (Bytes × Nat)
  | [] => []
  | f :: fs => (f.1.map foldCase, (spelled (f.1.map foldCase) pre).length) :: orderFrom (pre ++ [f]) fs

theorem orderFrom_snoc (fs : List (Bytes × Bytes)) (f : Bytes × Bytes) : ∀ pre,
    orderFrom pre (fs ++ [f]) = orderFrom pre fs ++ [(f.1.map foldCase, (spelled (f.1.map foldCase) (pre ++ fs)).length)] := by
  induction fs with
  | nil => intro pre; simp [orderFrom]
  | cons g fs ih => intro pre; simp [orderFrom, ih]

/-- What the three maps hold for a list of fields. -/
structure Holds (h : Headers) (fs : List (Bytes × Bytes)) : Prop where
  values : ∀ n, h.headers.getAll n = (spelled n fs).map Prod.snd
  names : ∀ n, h.casing.getAll n = (spelled n fs).map Prod.fst
  count : ∀ n, lookup h.order.entries n = if spelled n fs = [] then none else some (spelled n fs).length
  order : h.order.order = orderFrom [] fs
  none : fs = [] → h.headers = []

theorem lookup_snoc (m : List (Bytes × Nat)) (n : Bytes) (k : Nat) (x : Bytes) (h : lookup m n = none) :
    lookup (m ++ [(n, k)]) x = if n = x then some k else lookup m x := by
  induction m with
  | nil => simp [lookup]
  | cons g m ih =>
    obtain ⟨a, b⟩ := g
    simp only [lookup] at h
    split at h
    · simp at h
    · rename_i hne
      simp only [List.cons_append, lookup, ih h]
      by_cases e : a = x
      · have : n ≠ x := by rintro rfl; exact hne e
        simp [e, this]
      · simp [e]

theorem lookup_bump (m : List (Bytes × Nat)) (n : Bytes) (x : Bytes) :
    lookup (bump m n) x = if n = x then (lookup m x).map (· + 1) else lookup m x := by
  induction m with
  | nil => simp [lookup, bump]
  | cons g m ih =>
    obtain ⟨a, b⟩ := g
    by_cases e : a = n
    · subst e
      by_cases e2 : a = x <;> simp [bump, lookup, e2]
    · by_cases e2 : a = x
      · subst e2; simp [bump, lookup, e, Ne.symm e]
      · simp [bump, lookup, e, e2, ih]

theorem spelled_snoc (n : Bytes) (fs : List (Bytes × Bytes)) (f : Bytes × Bytes) :
    spelled n (fs ++ [f]) = spelled n fs ++ (if f.1.map foldCase = n then [f] else []) := by
  rw [spelled_append]
  congr 1
  simp only [spelled, List.filter_cons, List.filter_nil, decide_eq_true_eq]

theorem Holds.empty : Holds Headers.empty [] := by
  constructor <;> simp [Headers.empty, Order.empty, HeaderMap.getAll, spelled, lookup, orderFrom]

theorem Holds.snoc {h : Headers} {fs : List (Bytes × Bytes)} (hh : Holds h fs) {raw name v : Bytes}
    (hn : raw.map foldCase = name) :
    Holds ⟨h.headers.append name v, h.casing.append name raw, h.order.append name⟩ (fs ++ [(raw, v)]) := by
  subst hn
  constructor
  · intro n
    simp only [getAll_append, hh.values, spelled_snoc]
    by_cases e : raw.map foldCase = n
    · subst e; simp
    · have e' : n ≠ raw.map foldCase := fun h => e h.symm
      simp [e, e']
  · intro n
    simp only [getAll_append, hh.names, spelled_snoc]
    by_cases e : raw.map foldCase = n
    · subst e; simp
    · have e' : n ≠ raw.map foldCase := fun h => e h.symm
      simp [e, e']
  · intro n
    have hc := hh.count (raw.map foldCase)
    simp only [spelled_snoc]
    unfold Order.append
    by_cases e0 : spelled (raw.map foldCase) fs = []
    · rw [if_pos e0] at hc
      simp only [hc, lookup_snoc _ _ _ _ hc]
      by_cases e : raw.map foldCase = n
      · subst e; simp [e0]
      · simp [e, hh.count n]
    · rw [if_neg e0] at hc
      simp only [hc, lookup_bump]
      by_cases e : raw.map foldCase = n
      · subst e; simp [hc]
      · simp [e, hh.count n]
  · have hc := hh.count (raw.map foldCase)
    rw [orderFrom_snoc, ← hh.order, List.nil_append]
    unfold Order.append
    by_cases e0 : spelled (raw.map foldCase) fs = []
    · rw [if_pos e0] at hc
      simp [hc, e0]
    · rw [if_neg e0] at hc
      simp [hc]
  · intro h; simp at h

theorem replace_spelled_ne {n raw v k : Bytes} (hr : raw.map foldCase = n) (hk : k ≠ n) (fs : List (Bytes × Bytes)) :
    spelled k (replaceField n raw v fs) = spelled k fs := by
  induction fs with
  | nil => rfl
  | cons f fs ih =>
    unfold replaceField
    by_cases e : f.1.map foldCase = n
    · rw [if_pos e]
      have h1 : raw.map foldCase ≠ k := by rw [hr]; exact Ne.symm hk
      have h2 : f.1.map foldCase ≠ k := by rw [e]; exact Ne.symm hk
      simp only [spelled, List.filter_cons, h1, h2, decide_false, Bool.false_eq_true, if_false, List.filter_filter]
      apply List.filter_congr
      intro g hg
      by_cases e2 : g.1.map foldCase = k
      · have : g.1.map foldCase ≠ n := by rw [e2]; exact hk
        simp [e2, hk]
      · simp [e2]
    · rw [if_neg e]
      simp only [spelled, List.filter_cons] at ih ⊢
      rw [ih]

theorem replace_spelled {n raw v : Bytes} (hr : raw.map foldCase = n) (fs : List (Bytes × Bytes))
    (h : spelled n fs ≠ []) : spelled n (replaceField n raw v fs) = [(raw, v)] := by
  induction fs with
  | nil => exact absurd rfl h
  | cons f fs ih =>
    unfold replaceField
    by_cases e : f.1.map foldCase = n
    · rw [if_pos e]
      simp only [spelled, List.filter_cons, hr, decide_true, if_true, List.filter_filter, List.cons.injEq, true_and,
        List.filter_eq_nil_iff]
      intro g hg
      simp
    · rw [if_neg e]
      simp only [spelled, List.filter_cons, e, decide_false, Bool.false_eq_true, if_false] at h ih ⊢
      exact ih h

theorem spelled_length_congr {a b : List (Bytes × Bytes)} (h : a.map (fun f => f.1.map foldCase) = b.map (fun f => f.1.map foldCase))
    (n : Bytes) : (spelled n a).length = (spelled n b).length := by
  have key : ∀ l : List (Bytes × Bytes), (spelled n l).length = ((l.map (fun f => f.1.map foldCase)).filter (fun x => decide (x = n))).length := by
    intro l
    induction l with
    | nil => rfl
    | cons f l ih =>
      simp only [spelled, List.filter_cons, List.map_cons] at ih ⊢
      split <;> simp_all
  rw [key, key, h]

theorem orderFrom_congr : ∀ (fs gs : List (Bytes × Bytes)) (pre pre' : List (Bytes × Bytes)),
    fs.map (fun f => f.1.map foldCase) = gs.map (fun f => f.1.map foldCase) →
    pre.map (fun f => f.1.map foldCase) = pre'.map (fun f => f.1.map foldCase) → orderFrom pre fs = orderFrom pre' gs := by
  intro fs
  induction fs with
  | nil =>
    intro gs pre pre' h _
    cases gs with
    | nil => rfl
    | cons g gs => simp at h
  | cons f fs ih =>
    intro gs pre pre' h hp
    cases gs with
    | nil => simp at h
    | cons g gs =>
      simp only [List.map_cons, List.cons.injEq] at h
      simp only [orderFrom]
      rw [h.1, spelled_length_congr hp]
      congr 1
      exact ih gs _ _ h.2 (by simp [hp, h.1])

theorem replace_names {n raw v : Bytes} (hr : raw.map foldCase = n) (fs : List (Bytes × Bytes))
    (h : (spelled n fs).length ≤ 1) :
    (replaceField n raw v fs).map (fun f => f.1.map foldCase) = fs.map (fun f => f.1.map foldCase) := by
  induction fs with
  | nil => rfl
  | cons f fs ih =>
    unfold replaceField
    by_cases e : f.1.map foldCase = n
    · rw [if_pos e]
      simp only [spelled, List.filter_cons, e, decide_true, if_true, List.length_cons] at h
      have h0 : fs.filter (fun f => decide (f.1.map foldCase = n)) = [] := List.eq_nil_of_length_eq_zero (by omega)
      have hk : fs.filter (fun g => decide (g.1.map foldCase ≠ n)) = fs := by
        rw [List.filter_eq_self]
        intro g hg
        rw [List.filter_eq_nil_iff] at h0
        simpa using h0 g hg
      rw [hk]
      simp [hr, e]
    · rw [if_neg e]
      simp only [spelled, List.filter_cons, e, decide_false, Bool.false_eq_true, if_false] at h ih
      simp [ih h]

theorem Holds.set {h : Headers} {fs : List (Bytes × Bytes)} (hh : Holds h fs) {raw name v : Bytes}
    (hn : raw.map foldCase = name) (hs : (spelled name fs).length ≤ 1) :
    Holds ⟨h.headers.insert name v, h.casing.insert name raw, h.order.insert name⟩ (afterOp fs (.set raw v)) := by
  unfold afterOp
  subst hn
  by_cases e0 : spelled (raw.map foldCase) fs = []
  · simp only [e0, if_true]
    have hc := hh.count (raw.map foldCase)
    rw [if_pos e0] at hc
    have h1 := hh.snoc (v := v) (rfl : raw.map foldCase = raw.map foldCase)
    constructor
    · intro n
      rw [getAll_insert, ← h1.values n, getAll_append]
      by_cases e : n = raw.map foldCase
      · subst e; simp [hh.values, e0]
      · simp [e]
    · intro n
      rw [getAll_insert, ← h1.names n, getAll_append]
      by_cases e : n = raw.map foldCase
      · subst e; simp [hh.names, e0]
      · simp [e]
    · intro n
      have := h1.count n
      simpa only [Order.insert, Order.append, hc] using this
    · have := h1.order
      simpa only [Order.insert, Order.append, hc] using this
    · intro h; simp at h
  · simp only [e0, if_false]
    have hc := hh.count (raw.map foldCase)
    rw [if_neg e0] at hc
    have h1 : (spelled (raw.map foldCase) fs).length = 1 := by
      have : (spelled (raw.map foldCase) fs).length ≠ 0 := fun h => e0 (List.eq_nil_of_length_eq_zero h)
      omega
    constructor
    · intro n
      rw [getAll_insert]
      by_cases e : n = raw.map foldCase
      · subst e; simp [replace_spelled rfl fs e0]
      · simp [e, replace_spelled_ne rfl e, hh.values]
    · intro n
      rw [getAll_insert]
      by_cases e : n = raw.map foldCase
      · subst e; simp [replace_spelled rfl fs e0]
      · simp [e, replace_spelled_ne rfl e, hh.names]
    · intro n
      simp only [Order.insert, hc]
      rw [hh.count n]
      by_cases e : n = raw.map foldCase
      · subst e; simp [replace_spelled rfl fs e0, h1, e0]
      · simp [replace_spelled_ne rfl e]
    · simp only [Order.insert, hc]
      rw [hh.order]
      exact orderFrom_congr _ _ _ _ (replace_names rfl fs hs).symm rfl
    · intro h
      have := replace_spelled (v := v) (rfl : raw.map foldCase = raw.map foldCase) fs e0
      rw [h] at this
      simp [spelled] at this

theorem rawNameValue_fold {raw v name : Bytes} (h : rawNameValue raw v = some name) : raw.map foldCase = name := by
  unfold rawNameValue at h
  split at h
  · simp at h
  · rename_i k hk
    split at h
    · simp only [Option.some.injEq] at h
      rw [← h]; exact headerName_fold hk
    · simp at h

theorem Holds.run {ops : List Op} : ∀ {h : Headers} {fs : List (Bytes × Bytes)}, Holds h fs →
    (∀ op ∈ ops, opOk op) → setsSingle fs ops → Holds (h.run ops) (ops.foldl afterOp fs) := by
  induction ops with
  | nil => intro h fs hh _ _; exact hh
  | cons op ops ih =>
    intro h fs hh hok hs
    simp only [Headers.run, List.foldl_cons] at ih ⊢
    simp only [setsSingle] at hs
    refine ih ?_ (fun op h => hok op (by simp [h])) hs.2
    have ho := hok op (by simp)
    cases op with
    | add raw v =>
      simp only [opOk] at ho
      cases hr : rawNameValue raw v with
      | none => exact absurd hr ho
      | some name =>
        simp only [Headers.step, Headers.add, hr]
        exact hh.snoc (rawNameValue_fold hr)
    | set raw v =>
      simp only [opOk] at ho
      cases hr : rawNameValue raw v with
      | none => exact absurd hr ho
      | some name =>
        have hf := rawNameValue_fold hr
        simp only [Headers.step, Headers.set, hr]
        exact hh.set hf (by rw [← hf]; exact hs.1)

theorem inOrder_spec {h : Headers} {all : List (Bytes × Bytes)} (hv : ∀ n, h.headers.getAll n = (spelled n all).map Prod.snd)
    (hc : ∀ n, h.casing.getAll n = (spelled n all).map Prod.fst) : ∀ (fs pre : List (Bytes × Bytes)), all = pre ++ fs →
    h.inOrder (orderFrom pre fs) = fs := by
  intro fs
  induction fs with
  | nil => intro pre _; rfl
  | cons f fs ih =>
    intro pre ha
    have hg : (spelled (f.1.map foldCase) all)[(spelled (f.1.map foldCase) pre).length]? = some f := by
      rw [ha, spelled_append]
      rw [List.getElem?_append_right (Nat.le_refl _), Nat.sub_self]
      simp [spelled]
    simp only [orderFrom, Headers.inOrder, hv, List.getElem?_map, hg, Option.map_some, Headers.nameAt, hc, Option.getD_some]
    rw [ih (pre ++ [f]) (by simp [ha])]

theorem Holds.foreach {h : Headers} {fs : List (Bytes × Bytes)} (hh : Holds h fs) : h.foreach = fs := by
  unfold Headers.foreach
  rw [hh.order]
  cases hf : fs with
  | nil => simp [orderFrom, hh.none hf]
  | cons f fs' =>
    simp only [orderFrom]
    have := inOrder_spec hh.values hh.names fs [] rfl
    rw [hf] at this
    exact this

/-- Received fields, all with valid names, with their names and their order kept. -/
theorem Holds.received : ∀ (fs : List (Bytes × Bytes)) {h : Headers} {pre : List (Bytes × Bytes)}, Holds h pre →
    (∀ f ∈ fs, headerName f.1 ≠ .none) → Holds (fs.foldl (Headers.receive true true) h) (pre ++ fs) := by
  intro fs
  induction fs with
  | nil => intro h pre hh _; simpa using hh
  | cons f fs ih =>
    intro h pre hh hok
    have hf := hok f (by simp)
    cases hn : headerName f.1 with
    | none => exact absurd hn hf
    | some name =>
      have h1 := hh.snoc (v := f.2) (headerName_fold hn)
      have := ih h1 (fun g hg => hok g (by simp [hg]))
      rw [List.append_assoc] at this
      simpa [Headers.receive, hn] using this

/-- Without the spellings: the name of a field is the canonical one. -/
theorem inOrder_plain {h : Headers} {all : List (Bytes × Bytes)} (hv : ∀ n, h.headers.getAll n = (spelled n all).map Prod.snd)
    (hc : ∀ n, h.casing.getAll n = []) : ∀ (fs pre : List (Bytes × Bytes)), all = pre ++ fs →
    h.inOrder (orderFrom pre fs) = fs.map (fun f => (f.1.map foldCase, f.2)) := by
  intro fs
  induction fs with
  | nil => intro pre _; rfl
  | cons f fs ih =>
    intro pre ha
    have hg : (spelled (f.1.map foldCase) all)[(spelled (f.1.map foldCase) pre).length]? = some f := by
      rw [ha, spelled_append]
      rw [List.getElem?_append_right (Nat.le_refl _), Nat.sub_self]
      simp [spelled]
    simp only [orderFrom, Headers.inOrder, hv, List.getElem?_map, hg, Option.map_some, Headers.nameAt, hc]
    rw [ih (pre ++ [f]) (by simp [ha])]
    simp

/-- What the maps of a received response hold when the spellings are not kept. -/
structure HoldsPlain (h : Headers) (fs : List (Bytes × Bytes)) : Prop where
  values : ∀ n, h.headers.getAll n = (spelled n fs).map Prod.snd
  names : h.casing = []
  count : ∀ n, lookup h.order.entries n = if spelled n fs = [] then none else some (spelled n fs).length
  order : h.order.order = orderFrom [] fs
  none : fs = [] → h.headers = []

theorem HoldsPlain.received : ∀ (fs : List (Bytes × Bytes)) {h : Headers} {pre : List (Bytes × Bytes)}, HoldsPlain h pre →
    (∀ f ∈ fs, headerName f.1 ≠ .none) → HoldsPlain (fs.foldl (Headers.receive false true) h) (pre ++ fs) := by
  intro fs
  induction fs with
  | nil => intro h pre hh _; simpa using hh
  | cons f fs ih =>
    intro h pre hh hok
    have hf := hok f (by simp)
    cases hn : headerName f.1 with
    | none => exact absurd hn hf
    | some name =>
      have hn' := headerName_fold hn
      have h1 : HoldsPlain ⟨h.headers.append name f.2, h.casing, h.order.append name⟩ (pre ++ [f]) := by
        subst hn'
        constructor
        · intro n
          simp only [getAll_append, hh.values, spelled_snoc]
          by_cases e : f.1.map foldCase = n
          · subst e; simp
          · have e' : n ≠ f.1.map foldCase := fun h => e h.symm
            simp [e, e']
        · exact hh.names
        · intro n
          have hc := hh.count (f.1.map foldCase)
          simp only [spelled_snoc]
          unfold Order.append
          by_cases e0 : spelled (f.1.map foldCase) pre = []
          · rw [if_pos e0] at hc
            simp only [hc, lookup_snoc _ _ _ _ hc]
            by_cases e : f.1.map foldCase = n
            · subst e; simp [e0]
            · simp [e, hh.count n]
          · rw [if_neg e0] at hc
            simp only [hc, lookup_bump]
            by_cases e : f.1.map foldCase = n
            · subst e; simp [hc]
            · simp [e, hh.count n]
        · have hc := hh.count (f.1.map foldCase)
          rw [orderFrom_snoc, ← hh.order, List.nil_append]
          unfold Order.append
          by_cases e0 : spelled (f.1.map foldCase) pre = []
          · rw [if_pos e0] at hc
            simp [hc, e0]
          · rw [if_neg e0] at hc
            simp [hc]
        · intro h; simp at h
      have := ih h1 (fun g hg => hok g (by simp [hg]))
      rw [List.append_assoc] at this
      simpa [Headers.receive, hn] using this

/-- A map without two groups of a name. -/
def OneGroup : HeaderMap → Prop
  | [] => True
  | g :: m => (∀ g' ∈ m, g'.1 ≠ g.1) ∧ OneGroup m

theorem mem_append_name {m : HeaderMap} {n v : Bytes} {g : Bytes × List Bytes} (h : g ∈ m.append n v) :
    g.1 = n ∨ ∃ g' ∈ m, g'.1 = g.1 := by
  induction m with
  | nil => simp [HeaderMap.append] at h; simp [h]
  | cons a m ih =>
    obtain ⟨a1, a2⟩ := a
    simp only [HeaderMap.append] at h
    split at h
    · rename_i e
      rcases List.mem_cons.1 h with h | h
      · exact Or.inr ⟨(a1, a2), by simp, by simp [h]⟩
      · exact Or.inr ⟨g, by simp [h], rfl⟩
    · rcases List.mem_cons.1 h with h | h
      · exact Or.inr ⟨(a1, a2), by simp, by simp [h]⟩
      · rcases ih h with h | ⟨g', hg, e⟩
        · exact Or.inl h
        · exact Or.inr ⟨g', by simp [hg], e⟩

theorem OneGroup.append {m : HeaderMap} (h : OneGroup m) (n v : Bytes) : OneGroup (m.append n v) := by
  induction m with
  | nil => simp [HeaderMap.append, OneGroup]
  | cons a m ih =>
    obtain ⟨a1, a2⟩ := a
    simp only [HeaderMap.append]
    split
    · exact h
    · rename_i hne
      refine ⟨?_, ih h.2⟩
      intro g hg
      rcases mem_append_name hg with e | ⟨g', hg', e⟩
      · rw [e]; exact fun h => by simp_all
      · rw [← e]; exact h.1 g' hg'

theorem withNames_spelled {n name : Bytes} (hname : name.map foldCase = name) : ∀ (values names : List Bytes),
    (∀ x ∈ names, x.map foldCase = name) →
    spelled n (withNames name names values) = if name = n then withNames name names values else [] := by
  intro values
  induction values with
  | nil => intro names _; cases names <;> simp [withNames, spelled]
  | cons v vs ih =>
    intro names hn
    have h1 : (names.head?.getD name).map foldCase = name := by
      cases names with
      | nil => exact hname
      | cons x xs => exact hn x (by simp)
    have h2 := ih names.tail (fun x hx => hn x (List.mem_of_mem_tail hx))
    have h3 : withNames name names (v :: vs) = (names.head?.getD name, v) :: withNames name names.tail vs := by
      cases names <;> rfl
    rw [h3]
    simp only [spelled, List.filter_cons, h1] at h2 ⊢
    rw [h2]
    by_cases e : name = n <;> simp [e]

theorem withNames_zip (name : Bytes) : ∀ (l : List (Bytes × Bytes)),
    withNames name (l.map Prod.fst) (l.map Prod.snd) = l := by
  intro l
  induction l with
  | nil => rfl
  | cons f l ih => simp [withNames, ih]

theorem withNames_plain (name : Bytes) (values : List Bytes) :
    withNames name [] values = values.map (fun v => (name, v)) := by
  induction values with
  | nil => rfl
  | cons v vs ih => simpa [withNames] using ih

/-- What an iteration without an order gives for a name. -/
theorem groups_spelled (n : Bytes) (casing : HeaderMap) : ∀ (m : HeaderMap), OneGroup m →
    (∀ g ∈ m, g.1.map foldCase = g.1 ∧ ∀ x ∈ casing.getAll g.1, x.map foldCase = g.1) →
    spelled n (m.flatMap (fun g => withNames g.1 (casing.getAll g.1) g.2)) = withNames n (casing.getAll n) (m.getAll n) := by
  intro m
  induction m with
  | nil => intro _ _; cases casing.getAll n <;> simp [spelled, HeaderMap.getAll, withNames]
  | cons a m ih =>
    intro ho hm
    obtain ⟨a1, a2⟩ := a
    have ha := hm (a1, a2) (by simp)
    rw [List.flatMap_cons, spelled_append, withNames_spelled ha.1 _ _ ha.2, ih ho.2 (fun g hg => hm g (by simp [hg]))]
    by_cases e : a1 = n
    · subst e
      have hg : HeaderMap.getAll m a1 = [] := by
        have : ∀ m : HeaderMap, (∀ g' ∈ m, g'.1 ≠ a1) → m.getAll a1 = [] := by
          intro m
          induction m with
          | nil => intro _; rfl
          | cons b m ihm =>
            intro hb
            obtain ⟨b1, b2⟩ := b
            have := hb (b1, b2) (by simp)
            simp only [HeaderMap.getAll] at ihm ⊢
            simpa [this] using ihm (fun g hg => hb g (by simp [hg]))
        exact this m ho.1
      rw [hg]
      simp [HeaderMap.getAll, withNames]
    · simp [HeaderMap.getAll, e]

theorem foldCase_idem (b : UInt8) : foldCase (foldCase b) = foldCase b := by
  revert b
  apply byte_forall; decide +kernel

theorem map_foldCase_idem (n : Bytes) : (n.map foldCase).map foldCase = n.map foldCase := by
  rw [List.map_map]
  apply List.map_congr_left
  intro b _
  exact foldCase_idem b

/-- What the maps of a received response hold when the order is not kept. -/
structure HoldsBag (kept : Bool) (h : Headers) (fs : List (Bytes × Bytes)) : Prop where
  values : ∀ n, h.headers.getAll n = (spelled n fs).map Prod.snd
  names : ∀ n, h.casing.getAll n = if kept then (spelled n fs).map Prod.fst else []
  order : h.order = Order.empty
  one : OneGroup h.headers
  lower : ∀ g ∈ h.headers, g.1.map foldCase = g.1

theorem HoldsBag.received (kept : Bool) : ∀ (fs : List (Bytes × Bytes)) {h : Headers} {pre : List (Bytes × Bytes)},
    HoldsBag kept h pre → (∀ f ∈ fs, headerName f.1 ≠ none) →
    HoldsBag kept (fs.foldl (Headers.receive kept false) h) (pre ++ fs) := by
  intro fs
  induction fs with
  | nil => intro h pre hh _; simpa using hh
  | cons f fs ih =>
    intro h pre hh hok
    have hf := hok f (by simp)
    cases hn : headerName f.1 with
    | none => exact absurd hn hf
    | some name =>
      have hn' := headerName_fold hn
      have h1 : HoldsBag kept (h.receive kept false f) (pre ++ [f]) := by
        subst hn'
        simp only [Headers.receive, hn]
        constructor
        · intro n
          simp only [getAll_append, hh.values, spelled_snoc]
          by_cases e : f.1.map foldCase = n
          · subst e; simp
          · have e' : n ≠ f.1.map foldCase := fun h => e h.symm
            simp [e, e']
        · intro n
          have h2 := hh.names n
          cases kept with
          | false => simpa using h2
          | true =>
            simp only [if_true, getAll_append, hh.names, spelled_snoc]
            by_cases e : f.1.map foldCase = n
            · subst e; simp
            · have e' : n ≠ f.1.map foldCase := fun h => e h.symm
              simp [e, e']
        · exact hh.order
        · exact hh.one.append _ _
        · intro g hg
          rcases mem_append_name hg with e | ⟨g', hg', e⟩
          · rw [e, map_foldCase_idem]
          · rw [← e]; exact hh.lower g' hg'
      have := ih h1 (fun g hg => hok g (by simp [hg]))
      rw [List.append_assoc] at this
      simpa using this

/-- Every entry of an iteration along the order is one of the map. -/
theorem inOrder_mem (h : Headers) : ∀ (order : List (Bytes × Nat)) (p : Bytes × Bytes), p ∈ h.inOrder order →
    ∃ n, p.2 ∈ h.headers.getAll n ∧ (p.1 = n ∨ p.1 ∈ h.casing.getAll n) := by
  intro order
  induction order with
  | nil => intro p hp; simp [Headers.inOrder] at hp
  | cons e rest ih =>
    obtain ⟨n, i⟩ := e
    intro p hp
    simp only [Headers.inOrder] at hp
    split at hp
    · rename_i v hv
      rcases List.mem_cons.1 hp with rfl | hp
      · refine ⟨n, List.mem_of_getElem? hv, ?_⟩
        simp only [Headers.nameAt]
        cases hc : (h.casing.getAll n)[i]? with
        | none => exact Or.inl rfl
        | some x => exact Or.inr (List.mem_of_getElem? hc)
      · exact ih p hp
    · simp at hp

end Ffi

open Ffi

/-- The fields a program puts into an empty `hyper_headers`, as the callback of `hyper_headers_foreach`
sees them: all of them, in the order of the calls, with the names as they were given. Missing from the
full claim: a `hyper_headers_set` of a name that has several values (`C75_set_hides`). -/
theorem C75_foreach_partial {ops : List Op} (hok : ∀ op ∈ ops, opOk op) (hs : setsSingle [] ops) :
    (Headers.empty.run ops).foreach = ops.foldl afterOp [] :=
  (Holds.empty.run hok hs).foreach

/-- The same for calls on a received response whose names and order are kept. -/
theorem C75_edited_partial {fs : List (Bytes × Bytes)} {ops : List Op} (hf : ∀ f ∈ fs, headerName f.1 ≠ none)
    (hok : ∀ op ∈ ops, opOk op) (hs : setsSingle fs ops) :
    ((Headers.received true true fs).run ops).foreach = ops.foldl afterOp fs := by
  have h := Holds.received fs Holds.empty hf
  rw [List.nil_append] at h
  exact (h.run hok hs).foreach

/-- A received response with names and order kept is iterated as it was received. -/
theorem C75_received {fs : List (Bytes × Bytes)} (hf : ∀ f ∈ fs, headerName f.1 ≠ none) :
    (Headers.received true true fs).foreach = fs := by
  have h := Holds.received fs Holds.empty hf
  rw [List.nil_append] at h
  exact h.foreach

/-- With the order alone kept, the names are the canonical ones. -/
theorem C75_received_order {fs : List (Bytes × Bytes)} (hf : ∀ f ∈ fs, headerName f.1 ≠ none) :
    (Headers.received false true fs).foreach = fs.map (fun f => (f.1.map foldCase, f.2)) := by
  have h0 : HoldsPlain Headers.empty [] := by
    constructor <;> simp [Headers.empty, Order.empty, HeaderMap.getAll, spelled, lookup, orderFrom]
  have h := HoldsPlain.received fs h0 hf
  rw [List.nil_append] at h
  unfold Headers.received Headers.foreach
  rw [h.order]
  cases hfs : fs with
  | nil => rw [← hfs, h.none hfs]; simp [hfs, orderFrom]
  | cons f fs' =>
    have := inOrder_plain h.values (by rw [h.names]; intro n; rfl) fs [] rfl
    rw [hfs] at this
    exact this

/-- Without the order, each name has its fields in the order received: with the spellings if they are
kept. -/
theorem C75_received_names {fs : List (Bytes × Bytes)} (hf : ∀ f ∈ fs, headerName f.1 ≠ none) (n : Bytes) :
    spelled n (Headers.received true false fs).foreach = spelled n fs ∧
    spelled n (Headers.received false false fs).foreach = (spelled n fs).map (fun f => (n, f.2)) := by
  have h0 : ∀ kept, HoldsBag kept Headers.empty [] := by
    intro kept
    constructor <;> simp [Headers.empty, Order.empty, HeaderMap.getAll, spelled, OneGroup]
  constructor
  · have h := HoldsBag.received true fs (h0 true) hf
    rw [List.nil_append] at h
    unfold Headers.received Headers.foreach
    rw [h.order]
    simp only [Order.empty]
    rw [groups_spelled n _ _ h.one, h.names, h.values]
    · simp only [if_true]; exact withNames_zip n _
    · intro g hg
      refine ⟨h.lower g hg, ?_⟩
      rw [h.names]
      intro x hx
      simp only [if_true, List.mem_map] at hx
      obtain ⟨f, hf, rfl⟩ := hx
      simpa [spelled] using (List.mem_filter.1 hf).2
  · have h := HoldsBag.received false fs (h0 false) hf
    rw [List.nil_append] at h
    unfold Headers.received Headers.foreach
    rw [h.order]
    simp only [Order.empty]
    rw [groups_spelled n _ _ h.one, h.names, h.values]
    · simp only [Bool.false_eq_true, if_false, withNames_plain, List.map_map]; rfl
    · intro g hg
      refine ⟨h.lower g hg, ?_⟩
      rw [h.names]
      simp

/-- Whatever the maps hold, an iteration along an order visits only entries of the map, under their name
or a recorded spelling of it. -/
theorem C75_sound (h : Headers) (ho : h.order.order ≠ []) (p : Bytes × Bytes) (hp : p ∈ h.foreach) :
    ∃ n, p.2 ∈ h.headers.getAll n ∧ (p.1 = n ∨ p.1 ∈ h.casing.getAll n) := by
  unfold Headers.foreach at hp
  cases he : h.order.order with
  | nil => exact absurd he ho
  | cons e rest =>
    rw [he] at hp
    exact inOrder_mem h _ p hp

/-- The full claim is false: setting a name that has two values leaves two entries in the order, and the
iteration ends at the one without a value; the fields after it are in the map but never visited. -/
theorem C75_set_hides :
    let ops := [Op.add (ascii "A") (ascii "1"), .add (ascii "A") (ascii "2"), .add (ascii "B") (ascii "3"),
      .set (ascii "A") (ascii "4")]
    (∀ op ∈ ops, opOk op) ∧ (Headers.empty.run ops).foreach = [(ascii "A", ascii "4")] ∧
    (Headers.empty.run ops).headers.getAll (ascii "b") = [ascii "3"] ∧
    ops.foldl afterOp [] = [(ascii "A", ascii "4"), (ascii "B", ascii "3")] := by
  refine ⟨?_, ?_, ?_, ?_⟩
  · intro op h
    simp only [List.mem_cons, List.not_mem_nil, or_false] at h
    rcases h with rfl | rfl | rfl | rfl <;> simp only [opOk] <;> decide +kernel
  · decide +kernel
  · decide +kernel
  · decide +kernel

/-- Adding a field to a received response without its order leaves an iteration that shows only as many
fields as were added, and under the added name the value received first. -/
theorem C75_added_only :
    let h := (Headers.received true false [(ascii "A", ascii "1"), (ascii "B", ascii "2")]).add (ascii "A") (ascii "3")
    h.foreach = [(ascii "A", ascii "1")] ∧ h.headers.getAll (ascii "a") = [ascii "1", ascii "3"] ∧
    h.headers.getAll (ascii "b") = [ascii "2"] := by
  refine ⟨?_, ?_, ?_⟩ <;> decide +kernel

/-- The hypotheses of `C75_foreach_partial` are met by calls that add, repeat and set. -/
example : let ops := [Op.add (ascii "Set-Cookie") (ascii "1"), .set (ascii "Host") (ascii "x"),
      .add (ascii "set-cookie") (ascii "2"), .set (ascii "HOST") (ascii "y")]
    setsSingle [] ops ∧ (Headers.empty.run ops).foreach =
      [(ascii "Set-Cookie", ascii "1"), (ascii "HOST", ascii "y"), (ascii "set-cookie", ascii "2")] := by
  refine ⟨?_, ?_⟩
  · simp only [setsSingle, and_true, true_and]
    exact ⟨by decide +kernel, by decide +kernel⟩
  · decide +kernel

/-- A received response with a repeated name, in both ways. -/
example : let fs := [(ascii "Set-Cookie", ascii "1"), (ascii "Host", ascii "x"), (ascii "set-cookie", ascii "2")]
    (Headers.received true true fs).foreach = fs ∧
    (Headers.received true false fs).foreach =
      [(ascii "Set-Cookie", ascii "1"), (ascii "set-cookie", ascii "2"), (ascii "Host", ascii "x")] := by
  refine ⟨?_, ?_⟩ <;> decide +kernel

/-- What the C API may take as a name and a value: a token of less than 65536 bytes (RFC 9110 5.6.2),
and neither controls other than a tab nor a DEL. -/
def Spec.argsOk (raw v : Bytes) : Prop :=
  raw ≠ [] ∧ raw.length < 65536 ∧
  (∀ b ∈ raw, (48 ≤ b ∧ b ≤ 57) ∨ (65 ≤ b ∧ b ≤ 90) ∨ (97 ≤ b ∧ b ≤ 122) ∨ b ∈ ascii "!#$%&'*+-.^_`|~") ∧
  ∀ b ∈ v, b = 9 ∨ (32 ≤ b ∧ b ≠ 127)

theorem rawNameValue_iff (raw v : Bytes) : rawNameValue raw v ≠ none ↔ argsOk raw v := by
  have ht : ∀ b : UInt8, isTchar b = true ↔
      ((48 ≤ b ∧ b ≤ 57) ∨ (65 ≤ b ∧ b ≤ 90) ∨ (97 ≤ b ∧ b ≤ 122) ∨ b ∈ ascii "!#$%&'*+-.^_`|~") := by
    intro b; simp [isTchar, or_assoc]
  have hv : valueOk v = true ↔ ∀ b ∈ v, b = 9 ∨ (32 ≤ b ∧ b ≠ 127) := by
    simp [valueOk, List.all_eq_true]
  have hn : headerName raw ≠ none ↔ raw ≠ [] ∧ raw.length < 65536 ∧ ∀ b ∈ raw, isTchar b = true := by
    unfold headerName
    by_cases h : raw ≠ [] ∧ raw.all isTchar ∧ raw.length < 2 ^ 16
    · rw [if_pos h]
      obtain ⟨h1, h2, h3⟩ := h
      exact ⟨fun _ => ⟨h1, h3, by simpa [List.all_eq_true] using h2⟩, fun _ => by simp⟩
    · rw [if_neg h]
      refine ⟨fun hc => absurd rfl hc, fun hc => absurd ⟨hc.1, ?_, hc.2.1⟩ h⟩
      simpa [List.all_eq_true] using hc.2.2
  unfold argsOk
  unfold rawNameValue
  simp only [← ht, ← hv]
  cases hh : headerName raw with
  | none =>
    rw [hh] at hn
    refine ⟨fun hc => absurd rfl hc, fun hc => absurd (hn.2 ⟨hc.1, hc.2.1, hc.2.2.1⟩) (by simp)⟩
  | some name =>
    rw [hh] at hn
    have := hn.1 (by simp)
    by_cases hvv : valueOk v = true
    · simp only [hvv, if_true]
      exact ⟨fun _ => ⟨this.1, this.2.1, this.2.2, trivial⟩, fun _ => by simp⟩
    · simp only [hvv]
      exact ⟨fun hc => absurd rfl hc, fun hc => absurd hc.2.2.2 (by simp)⟩

/-- A call with a name or a value that may not be in a message changes nothing. -/
theorem C75_refused (h : Headers) (raw v : Bytes) (hb : ¬ argsOk raw v) : h.set raw v = h ∧ h.add raw v = h := by
  have : rawNameValue raw v = none := Classical.byContradiction fun hc => hb ((rawNameValue_iff raw v).1 hc)
  simp [Headers.set, Headers.add, this]

/-- Any other call sets the values of the name, in whatever case it is spelled, or adds one; the other
names keep theirs. -/
theorem C75_taken (h : Headers) (raw v : Bytes) (hok : argsOk raw v) (n : Bytes) :
    (h.set raw v).headers.getAll n = (if n = raw.map foldCase then [v] else h.headers.getAll n) ∧
    (h.add raw v).headers.getAll n = (if n = raw.map foldCase then h.headers.getAll n ++ [v] else h.headers.getAll n) := by
  have hne := (rawNameValue_iff raw v).2 hok
  cases hr : rawNameValue raw v with
  | none => exact absurd hr hne
  | some name =>
    have := rawNameValue_fold hr
    simp only [Headers.set, Headers.add, hr, getAll_insert, getAll_append, this, and_self]

/-- No sequence of calls, whatever their arguments, puts into the map a value with a line break, a NUL
or another control but the tab, or a name that is not a token. -/
theorem C75_safe (ops : List Op) (n v : Bytes) (hv : v ∈ (Headers.empty.run ops).headers.getAll n) :
    ∃ raw, argsOk raw v ∧ raw.map foldCase = n ∧ (Op.set raw v ∈ ops ∨ Op.add raw v ∈ ops) := by
  suffices hs : ∀ (ops : List Op) (h : Headers), v ∈ (h.run ops).headers.getAll n →
      v ∈ h.headers.getAll n ∨ ∃ raw, argsOk raw v ∧ raw.map foldCase = n ∧ (Op.set raw v ∈ ops ∨ Op.add raw v ∈ ops) by
    rcases hs ops _ hv with h | h
    · simp [Headers.empty, HeaderMap.getAll] at h
    · exact h
  intro ops
  induction ops with
  | nil => intro h hv; exact Or.inl hv
  | cons op ops ih =>
    intro h hv
    rcases ih (h.step op) hv with h' | ⟨raw, h1, h2, h3⟩
    · cases op with
      | set raw w =>
        by_cases ha : argsOk raw w
        · rw [Headers.step, (C75_taken h raw w ha n).1] at h'
          by_cases hn : n = raw.map foldCase
          · rw [if_pos hn, List.mem_singleton] at h'
            exact Or.inr ⟨raw, h' ▸ ha, hn.symm, Or.inl (by simp [h'])⟩
          · rw [if_neg hn] at h'; exact Or.inl h'
        · rw [Headers.step, (C75_refused h raw w ha).1] at h'; exact Or.inl h'
      | add raw w =>
        by_cases ha : argsOk raw w
        · rw [Headers.step, (C75_taken h raw w ha n).2] at h'
          by_cases hn : n = raw.map foldCase
          · rw [if_pos hn, List.mem_append, List.mem_singleton] at h'
            rcases h' with h' | h'
            · exact Or.inl h'
            · exact Or.inr ⟨raw, h' ▸ ha, hn.symm, Or.inr (by simp [h'])⟩
          · rw [if_neg hn] at h'; exact Or.inl h'
        · rw [Headers.step, (C75_refused h raw w ha).2] at h'; exact Or.inl h'
    · refine Or.inr ⟨raw, h1, h2, ?_⟩
      rcases h3 with h3 | h3
      · exact Or.inl (List.mem_cons_of_mem _ h3)
      · exact Or.inr (List.mem_cons_of_mem _ h3)

/-- A call is refused for a line break or a DEL, another is taken. -/
example : Headers.empty.run [.add (ascii "a") [13, 10], .add (ascii "a") [127], .add (ascii "a b") [65], .add (ascii "A") [65, 9]] =
    Headers.empty.run [.add (ascii "A") [65, 9]] ∧
    (Headers.empty.run [.add (ascii "A") [65, 9]]).headers.getAll (ascii "a") = [[65, 9]] := by
  refine ⟨?_, ?_⟩ <;> decide +kernel

/-! ## A callback that stops the iteration -/

/-- Calling it for the elements of a list until it stops; the calls made. -/
def Ffi.until (cb : Ffi.Callback) : List (Bytes × Bytes) → List (Bytes × Bytes) → List (Bytes × Bytes)
  | calls, [] => calls
  | calls, x :: xs => if cb (calls ++ [x]) then Ffi.until cb (calls ++ [x]) xs else calls ++ [x]

theorem Ffi.until_take (cb : Ffi.Callback) : ∀ (xs calls : List (Bytes × Bytes)), ∃ k ≤ xs.length, Ffi.until cb calls xs = calls ++ xs.take k ∧
    (∀ j, 0 < j → j < k → cb (calls ++ xs.take j) = true) ∧ (k < xs.length → 0 < k ∧ cb (calls ++ xs.take k) = false)
  | [], calls => ⟨0, by simp, by simp [Ffi.until], by intro j h1 h2; omega, by simp⟩
  | x :: xs, calls => by
    by_cases hc : cb (calls ++ [x]) = true
    · obtain ⟨k, h1, h2, h3, h4⟩ := Ffi.until_take cb xs (calls ++ [x])
      refine ⟨k + 1, by simp; omega, by simp [Ffi.until, hc, h2], ?_, ?_⟩
      · intro j hj hk
        cases j with
        | zero => omega
        | succ j =>
          cases j with
          | zero => simpa using hc
          | succ j => simpa using h3 (j + 1) (by omega) (by omega)
      · intro hk
        obtain ⟨h5, h6⟩ := h4 (by simp at hk; omega)
        exact ⟨by omega, by simpa using h6⟩
    · refine ⟨1, by simp, by simp [Ffi.until, hc], by intro j h1 h2; omega, ?_⟩
      intro _
      exact ⟨by omega, by simpa using hc⟩

theorem Ffi.inOrderWith_until (cb : Ffi.Callback) (h : Ffi.Headers) : ∀ (order : List (Bytes × Nat)) (calls : List (Bytes × Bytes)),
    h.inOrderWith cb calls order = Ffi.until cb calls (h.inOrder order)
  | [], calls => rfl
  | (name, idx) :: rest, calls => by
    simp only [Ffi.Headers.inOrderWith, Ffi.Headers.inOrder]
    cases (h.headers.getAll name)[idx]? with
    | none => rfl
    | some v => simp only [Ffi.until, Ffi.inOrderWith_until cb h rest]

theorem Ffi.withNamesWith_until (cb : Ffi.Callback) (name : Bytes) (more : List (Bytes × Bytes)) : ∀ (values names : List Bytes) (calls : List (Bytes × Bytes)),
    Ffi.until cb calls (Ffi.withNames name names values ++ more) =
      if (Ffi.withNamesWith cb name calls names values).2 then Ffi.until cb (Ffi.withNamesWith cb name calls names values).1 more
      else (Ffi.withNamesWith cb name calls names values).1
  | [], names, calls => by simp [Ffi.withNames, Ffi.withNamesWith]
  | v :: values, names, calls => by
    simp only [Ffi.withNames, Ffi.withNamesWith, List.cons_append, Ffi.until]
    split
    · exact Ffi.withNamesWith_until cb name more values names.tail _
    · simp

theorem Ffi.byNameWith_until (cb : Ffi.Callback) (h : Ffi.Headers) : ∀ (m : HeaderMap) (calls : List (Bytes × Bytes)),
    h.byNameWith cb calls m = Ffi.until cb calls (m.flatMap (fun g => Ffi.withNames g.1 (h.casing.getAll g.1) g.2))
  | [], calls => rfl
  | g :: m, calls => by
    rw [List.flatMap_cons, Ffi.withNamesWith_until, Ffi.Headers.byNameWith]
    cases hw : Ffi.withNamesWith cb g.1 calls (h.casing.getAll g.1) g.2 with
    | mk c b => cases b <;> simp [Ffi.byNameWith_until cb h m]

/-- C75: a callback is called for the fields a callback that never stops would be called for, in that order, up to the first call it does not
return `HYPER_ITER_CONTINUE` from. -/
theorem C75_stops (cb : Ffi.Callback) (h : Ffi.Headers) :
    ∃ k ≤ h.foreach.length, h.foreachWith cb = h.foreach.take k ∧ (∀ j, 0 < j → j < k → cb (h.foreach.take j) = true) ∧
      (k < h.foreach.length → 0 < k ∧ cb (h.foreach.take k) = false) := by
  have e : h.foreachWith cb = Ffi.until cb [] h.foreach := by
    unfold Ffi.Headers.foreachWith Ffi.Headers.foreach
    split
    · exact Ffi.byNameWith_until cb h _ _
    · exact Ffi.inOrderWith_until cb h _ _
  rw [e]
  simpa using Ffi.until_take cb h.foreach []

/-- Stopping at the second of three fields. -/
example : ((Ffi.Headers.empty.run [.add (ascii "A") [49], .add (ascii "B") [50], .add (ascii "a") [51]]).foreachWith (fun calls => calls.length < 2)) =
    [(ascii "A", [49]), (ascii "B", [50])] := by decide +kernel

end Hyper
