import Verif.Model.Headers
import Verif.Spec.Headers
import Verif.Proof.Chunked

namespace Hyper

open Spec

theorem splitComma_ne (v : Bytes) : splitComma v ≠ [] := by
  cases v with
  | nil => simp [splitComma]
  | cons b bs =>
    simp only [splitComma]
    split
    · simp
    · split <;> simp

/-- The pieces of `splitComma` joined with commas. -/
def joinComma : List Bytes → Bytes
  | [] => []
  | [p] => p
  | p :: ps => p ++ 44 :: joinComma ps

theorem joinComma_cons {p : Bytes} {ps : List Bytes} (h : ps ≠ []) :
    joinComma (p :: ps) = p ++ 44 :: joinComma ps := by
  cases ps with
  | nil => exact absurd rfl h
  | cons q qs => rfl

theorem splitComma_join (v : Bytes) : joinComma (splitComma v) = v := by
  induction v with
  | nil => rfl
  | cons b bs ih =>
    simp only [splitComma]
    split
    · rename_i h; rw [joinComma_cons (splitComma_ne bs), ih, h]; rfl
    · rename_i h
      cases hs : splitComma bs with
      | nil => exact absurd hs (splitComma_ne bs)
      | cons p ps =>
        rw [hs] at ih
        simp only
        cases ps with
        | nil => simp only [joinComma] at ih ⊢; rw [ih]
        | cons q qs =>
          rw [joinComma_cons (by simp)] at ih ⊢
          rw [List.cons_append, ih]

theorem splitComma_noComma (v : Bytes) : ∀ p ∈ splitComma v, 44 ∉ p := by
  induction v with
  | nil => simp [splitComma]
  | cons b bs ih =>
    simp only [splitComma]
    split
    · intro p hp; simp only [List.mem_cons] at hp
      rcases hp with rfl | hp
      · simp
      · exact ih p hp
    · rename_i h
      cases hs : splitComma bs with
      | nil => exact absurd hs (splitComma_ne bs)
      | cons q qs =>
        rw [hs] at ih
        intro p hp
        simp only [List.mem_cons] at hp
        rcases hp with rfl | hp
        · simp only [List.mem_cons, not_or]
          exact ⟨fun hh => h hh.symm, ih q (by simp)⟩
        · exact ih p (by simp [hp])

theorem splitComma_of_noComma (e : Bytes) (h : 44 ∉ e) : splitComma e = [e] := by
  induction e with
  | nil => rfl
  | cons b bs ih =>
    simp only [List.mem_cons, not_or] at h
    have hb : ¬ b = 44 := fun hh => h.1 hh.symm
    simp [splitComma, hb, ih h.2]

theorem splitComma_append (e w : Bytes) (h : 44 ∉ e) :
    splitComma (e ++ 44 :: w) = e :: splitComma w := by
  induction e with
  | nil => simp [splitComma]
  | cons b bs ih =>
    simp only [List.mem_cons, not_or] at h
    have hb : ¬ b = 44 := fun hh => h.1 hh.symm
    simp [splitComma, hb, ih h.2]

theorem splitComma_prefix (p w : Bytes) :
    splitComma (p ++ 44 :: w) = splitComma p ++ splitComma w := by
  induction p with
  | nil => simp [splitComma]
  | cons b bs ih =>
    simp only [List.cons_append, splitComma]
    split
    · simp [ih]
    · cases hs : splitComma bs with
      | nil => exact absurd hs (splitComma_ne bs)
      | cons q qs => simp [ih, hs]

theorem joinComma_append {ps qs : List Bytes} (hp : ps ≠ []) (hq : qs ≠ []) :
    joinComma (ps ++ qs) = joinComma ps ++ 44 :: joinComma qs := by
  induction ps with
  | nil => exact absurd rfl hp
  | cons p ps ih =>
    cases ps with
    | nil => simp [joinComma, joinComma_cons hq]
    | cons p' ps' =>
      rw [List.cons_append, joinComma_cons (by simp), joinComma_cons (by simp), ih (by simp)]
      simp

/-- The pieces are exactly the elements. -/
theorem mem_splitComma (v e : Bytes) : e ∈ splitComma v ↔ Element v e := by
  constructor
  · intro h
    obtain ⟨ps, qs, hs⟩ := List.append_of_mem h
    have hj := splitComma_join v
    have hno := splitComma_noComma v e h
    rw [hs] at hj
    cases ps with
    | nil =>
      cases qs with
      | nil => exact ⟨[], [], by simpa [joinComma] using hj.symm, hno, Or.inl rfl, Or.inl rfl⟩
      | cons q qs =>
        refine ⟨[], 44 :: joinComma (q :: qs), ?_, hno, Or.inl rfl, Or.inr ⟨_, rfl⟩⟩
        rw [List.nil_append, joinComma_cons (by simp)] at hj
        simpa using hj.symm
    | cons p ps =>
      rw [joinComma_append (by simp) (by simp)] at hj
      cases qs with
      | nil =>
        refine ⟨joinComma (p :: ps) ++ [44], [], ?_, hno, Or.inr ⟨_, rfl⟩, Or.inl rfl⟩
        simpa [joinComma] using hj.symm
      | cons q qs =>
        refine ⟨joinComma (p :: ps) ++ [44], 44 :: joinComma (q :: qs), ?_, hno, Or.inr ⟨_, rfl⟩,
          Or.inr ⟨_, rfl⟩⟩
        rw [joinComma_cons (p := e) (by simp)] at hj
        simpa using hj.symm
  · rintro ⟨pre, post, rfl, hno, hpre, hpost⟩
    have hmain : e ∈ splitComma (e ++ post) := by
      rcases hpost with rfl | ⟨p, rfl⟩
      · rw [List.append_nil, splitComma_of_noComma e hno]; simp
      · rw [splitComma_append e p hno]; simp
    rcases hpre with rfl | ⟨p, rfl⟩
    · simpa using hmain
    · have : p ++ [44] ++ e ++ post = p ++ 44 :: (e ++ post) := by simp
      rw [this, splitComma_prefix]
      exact List.mem_append_right _ hmain

theorem getLast_splitComma (v e : Bytes) : (splitComma v).getLast? = some e ↔ LastElement v e := by
  constructor
  · intro h
    have hmem : e ∈ splitComma v := List.mem_of_getLast? h
    have hno := splitComma_noComma v e hmem
    obtain ⟨ps, hs⟩ := List.getLast?_eq_some_iff.mp h
    have hj := splitComma_join v
    rw [hs] at hj
    cases ps with
    | nil => exact ⟨[], by simpa [joinComma] using hj.symm, hno, Or.inl rfl⟩
    | cons p ps =>
      rw [joinComma_append (by simp) (by simp)] at hj
      refine ⟨joinComma (p :: ps) ++ [44], ?_, hno, Or.inr ⟨_, rfl⟩⟩
      simpa [joinComma] using hj.symm
  · rintro ⟨pre, rfl, hno, hpre⟩
    rcases hpre with rfl | ⟨p, rfl⟩
    · rw [List.nil_append, splitComma_of_noComma e hno]; rfl
    · have : p ++ [44] ++ e = p ++ 44 :: e := by simp
      rw [this, splitComma_prefix, splitComma_of_noComma e hno]
      simp

theorem lowerByte_fold : ∀ b : Byte, lowerByte b = foldCase b := by
  apply byte_forall; decide +kernel

theorem eqIgnoreCase_iff (a b : Bytes) : eqIgnoreCase a b = true ↔ SameToken a b := by
  have : lowerByte = foldCase := funext lowerByte_fold
  simp [eqIgnoreCase, SameToken, this]

theorem isBlankByte_iff (b : Byte) : isBlankByte b = true ↔ (b = 32 ∨ b = 9) := by
  simp [isBlankByte]

theorem dropWhile_eq_append {α : Type} (p : α → Bool) (xs : List α) :
    ∃ a, (∀ x ∈ a, p x = true) ∧ xs = a ++ xs.dropWhile p := by
  induction xs with
  | nil => exact ⟨[], by simp, rfl⟩
  | cons x xs ih =>
    obtain ⟨a, h1, h2⟩ := ih
    by_cases h : p x = true
    · refine ⟨x :: a, by intro y hy; simp at hy; rcases hy with rfl | hy; exact h; exact h1 y hy, ?_⟩
      rw [List.dropWhile_cons, if_pos h, List.cons_append, ← h2]
    · exact ⟨[], by simp, by rw [List.dropWhile_cons, if_neg h]; rfl⟩

/-- Trimming strips blanks only. -/
theorem trimBlanks_padded (e : Bytes) : Padded e (trimBlanks e) := by
  obtain ⟨a, h1, h2⟩ := dropWhile_eq_append isBlankByte e
  obtain ⟨b, h3, h4⟩ := dropWhile_eq_append isBlankByte (e.dropWhile isBlankByte).reverse
  refine ⟨a, b.reverse, fun x hx => (isBlankByte_iff x).mp (h1 x hx),
    fun x hx => (isBlankByte_iff x).mp (h3 x (by simpa using hx)), ?_⟩
  have h5 : e.dropWhile isBlankByte = trimBlanks e ++ b.reverse := by
    have := congrArg List.reverse h4
    simpa [trimBlanks] using this
  rw [List.append_assoc, ← h5]
  exact h2

theorem dropWhile_append_all {α : Type} (p : α → Bool) (a xs : List α) (h : ∀ x ∈ a, p x = true) :
    (a ++ xs).dropWhile p = xs.dropWhile p := by
  induction a with
  | nil => rfl
  | cons x a ih =>
    rw [List.cons_append, List.dropWhile_cons, if_pos (h x (by simp))]
    exact ih (fun y hy => h y (by simp [hy]))

/-- Trimming a padded text that has no blanks gives back the text. -/
theorem trimBlanks_of_padded {e t : Bytes} (h : Padded e t) (ht : ∀ b ∈ t, isBlankByte b = false) :
    trimBlanks e = t := by
  obtain ⟨a, b, ha, hb, rfl⟩ := h
  have ha' : ∀ x ∈ a, isBlankByte x = true := fun x hx => (isBlankByte_iff x).mpr (ha x hx)
  have hb' : ∀ x ∈ b.reverse, isBlankByte x = true :=
    fun x hx => (isBlankByte_iff x).mpr (hb x (by simpa using hx))
  have hb2 : ∀ x ∈ b, isBlankByte x = true := fun x hx => (isBlankByte_iff x).mpr (hb x hx)
  unfold trimBlanks
  rw [List.append_assoc, dropWhile_append_all _ _ _ ha']
  cases t with
  | nil =>
    rw [List.nil_append]
    have := dropWhile_append_all isBlankByte b [] hb2
    rw [List.append_nil] at this
    rw [this]; rfl
  | cons x t =>
    have hx := ht x (by simp)
    rw [List.cons_append, List.dropWhile_cons, if_neg (by simp [hx]), ← List.cons_append,
      List.reverse_append, dropWhile_append_all _ _ _ hb']
    have hlast : ((x :: t).reverse).dropWhile isBlankByte = (x :: t).reverse := by
      cases hr : (x :: t).reverse with
      | nil => rfl
      | cons y ys =>
        have hy : y ∈ x :: t := by
          have : y ∈ (x :: t).reverse := by rw [hr]; simp
          exact List.mem_reverse.mp this
        rw [List.dropWhile_cons, if_neg (by simp [ht y hy])]
    rw [hlast, List.reverse_reverse]

theorem toStr_iff (v s : Bytes) : toStr v = some s ↔ s = v ∧ ∀ b ∈ v, Visible b := by
  have key : ∀ b : Byte, isVisible b = true ↔ Visible b := by
    apply byte_forall; unfold Visible; decide +kernel
  unfold toStr
  by_cases h : v.all isVisible = true
  · rw [if_pos h]
    have hv : ∀ b ∈ v, Visible b := fun b hb => (key b).mp (List.all_eq_true.mp h b hb)
    simp only [Option.some.injEq]
    exact ⟨fun hh => ⟨hh.symm, hv⟩, fun hh => hh.1.symm⟩
  · rw [if_neg h]
    simp only [reduceCtorEq, false_iff, not_and]
    intro _ hv
    exact h (List.all_eq_true.mpr (fun b hb => (key b).mpr (hv b hb)))

theorem toStr_none (v : Bytes) : toStr v = none ↔ ¬ ∀ b ∈ v, Visible b := by
  constructor
  · intro h hv
    have := (toStr_iff v v).mpr ⟨rfl, hv⟩
    rw [h] at this; simp at this
  · intro h
    cases hs : toStr v with
    | none => rfl
    | some s => exact absurd ((toStr_iff v s).mp hs).2 h

/-- Padded and equal to a token without blanks. -/
theorem sameToken_trim (e tok : Bytes) (htok : ∀ b ∈ tok, isBlankByte b = false) :
    (∃ t, Padded e t ∧ SameToken t tok) ↔ eqIgnoreCase (trimBlanks e) tok = true := by
  have hblank : ∀ b : Byte, isBlankByte (foldCase b) = isBlankByte b := by
    apply byte_forall; decide +kernel
  constructor
  · rintro ⟨t, hp, hs⟩
    have : ∀ b ∈ t, isBlankByte b = false := by
      intro b hb
      have h1 : foldCase b ∈ t.map foldCase := List.mem_map_of_mem hb
      rw [hs] at h1
      obtain ⟨c, hc, he⟩ := List.mem_map.mp h1
      rw [← hblank b, ← he, hblank c]
      exact htok c hc
    rw [trimBlanks_of_padded hp this]
    exact (eqIgnoreCase_iff t tok).mpr hs
  · intro h
    exact ⟨trimBlanks e, trimBlanks_padded e, (eqIgnoreCase_iff _ _).mp h⟩

theorem connectionHas_iff (v tok : Bytes) (htok : ∀ b ∈ tok, isBlankByte b = false) :
    connectionHas v tok = true ↔ HasOption [v] tok := by
  unfold connectionHas HasOption
  cases hs : toStr v with
  | none =>
    have := (toStr_none v).mp hs
    simp only [Bool.false_eq_true, List.mem_singleton, exists_eq_left, false_iff, not_and]
    intro h; exact absurd h this
  | some s =>
    obtain ⟨rfl, hv⟩ := (toStr_iff v s).mp hs
    simp only [List.any_eq_true, List.mem_singleton, exists_eq_left, hv]
    constructor
    · rintro ⟨e, he, h⟩
      obtain ⟨t, h1, h2⟩ := (sameToken_trim e tok htok).mpr h
      exact ⟨fun b hb => hv b hb, e, t, (mem_splitComma _ _).mp he, h1, h2⟩
    · rintro ⟨_, e, t, he, h1, h2⟩
      exact ⟨e, (mem_splitComma _ _).mpr he, (sameToken_trim e tok htok).mp ⟨t, h1, h2⟩⟩

theorem hasOption_cons (v : Bytes) (vs : List Bytes) (tok : Bytes) :
    HasOption (v :: vs) tok ↔ HasOption [v] tok ∨ HasOption vs tok := by
  simp [HasOption]

theorem headerValueListHas_iff (values : List Bytes) (tok : Bytes)
    (htok : ∀ b ∈ tok, isBlankByte b = false) :
    headerValueListHas values tok = true ↔ HasOption values tok := by
  induction values with
  | nil => simp [headerValueListHas, HasOption]
  | cons v vs ih =>
    rw [hasOption_cons, ← ih, ← connectionHas_iff v tok htok]
    simp only [headerValueListHas, connectionHas]
    cases toStr v with
    | none => simp
    | some s => simp only; split <;> simp_all

theorem any_connectionHas_iff (values : List Bytes) (tok : Bytes)
    (htok : ∀ b ∈ tok, isBlankByte b = false) :
    values.any (fun v => connectionHas v tok) = true ↔ HasOption values tok := by
  induction values with
  | nil => simp [HasOption]
  | cons v vs ih =>
    rw [hasOption_cons, ← ih, ← connectionHas_iff v tok htok]
    simp

/-! ## Decimal numbers -/

theorem isDigit_arm : ∀ b : Byte, (48 ≤ b ∧ b ≤ 57 ↔ IsDigit b) ∧
    (IsDigit b → (b - 48).toNat = b.toNat - 48) := by
  apply byte_forall; unfold IsDigit; decide +kernel

/-- Accumulated decimal value. -/
def accDec (a : Nat) (ds : Bytes) : Nat := ds.foldl (fun a d => 10 * a + (d.toNat - 48)) a

theorem accDec_mono (ds : Bytes) : ∀ a, a ≤ accDec a ds := by
  induction ds with
  | nil => intro a; exact Nat.le_refl _
  | cons d ds ih =>
    intro a
    have := ih (10 * a + (d.toNat - 48))
    simp only [accDec, List.foldl_cons] at *
    omega

theorem fromDigitsLoop_iff (bs : Bytes) : ∀ a n, fromDigitsLoop a bs = some n ↔
    (∀ b ∈ bs, IsDigit b) ∧ accDec a bs = n ∧ (bs ≠ [] → n ≤ u64Max) := by
  induction bs with
  | nil => intro a n; simp [fromDigitsLoop, accDec]
  | cons b bs ih =>
    intro a n
    obtain ⟨h1, h2⟩ := isDigit_arm b
    by_cases hd : IsDigit b
    · simp only [fromDigitsLoop, if_pos (h1.mpr hd), h2 hd, checkedMul, checkedAdd]
      have hacc : accDec a (b :: bs) = accDec (10 * a + (b.toNat - 48)) bs := by
        simp [accDec]
      have hmono := accDec_mono bs (10 * a + (b.toNat - 48))
      have hall : (∀ x ∈ b :: bs, IsDigit x) ↔ ∀ x ∈ bs, IsDigit x := by simp [hd]
      rw [hall, hacc]
      by_cases hm : a * 10 ≤ u64Max
      · rw [if_pos hm]
        by_cases ha : a * 10 + (b.toNat - 48) ≤ u64Max
        · simp only [if_pos ha]
          rw [ih]
          have hcomm : a * 10 + (b.toNat - 48) = 10 * a + (b.toNat - 48) := by omega
          rw [hcomm]
          constructor
          · rintro ⟨g1, g2, g3⟩
            refine ⟨g1, g2, fun _ => ?_⟩
            by_cases hb : bs = []
            · subst hb; simp [accDec] at g2; omega
            · exact g3 hb
          · rintro ⟨g1, g2, g3⟩
            exact ⟨g1, g2, fun _ => g3 (by simp)⟩
        · simp only [if_neg ha]
          simp only [reduceCtorEq, false_iff]
          rintro ⟨_, g2, g3⟩
          have := g3 (by simp)
          omega
      · rw [if_neg hm]
        simp only [reduceCtorEq, false_iff]
        rintro ⟨_, g2, g3⟩
        have := g3 (by simp)
        omega
    · simp only [fromDigitsLoop, if_neg (fun h => hd (h1.mp h)), reduceCtorEq, false_iff]
      rintro ⟨g, _⟩
      exact hd (g b (by simp))

theorem fromDigits_iff (v : Bytes) (n : Nat) : fromDigits v = some n ↔ IsLength v n := by
  have hmax : u64Max = 2 ^ 64 - 1 := rfl
  unfold fromDigits IsLength
  by_cases h : v = []
  · simp [h]
  · rw [if_neg h, fromDigitsLoop_iff]
    have : accDec 0 v = decNum v := rfl
    rw [this]
    constructor
    · rintro ⟨g1, g2, g3⟩; exact ⟨h, g1, g2, by have := g3 h; omega⟩
    · rintro ⟨_, g1, g2, g3⟩; exact ⟨g1, g2, fun _ => by omega⟩

theorem digit_not_blank : ∀ b : Byte, IsDigit b → isBlankByte b = false := by
  apply byte_forall; unfold IsDigit; decide +kernel

theorem fromDigits_trim_iff (e : Bytes) (n : Nat) :
    fromDigits (trimBlanks e) = some n ↔ ∃ t, Padded e t ∧ IsLength t n := by
  constructor
  · intro h; exact ⟨_, trimBlanks_padded e, (fromDigits_iff _ _).mp h⟩
  · rintro ⟨t, hp, hl⟩
    rw [trimBlanks_of_padded hp (fun b hb => digit_not_blank b (hl.2.1 b hb))]
    exact (fromDigits_iff t n).mpr hl

theorem clElems_iff (es : List Bytes) : ∀ cl r, clElems cl es = some r ↔
    (es = [] ∧ r = cl) ∨ (es ≠ [] ∧ ∃ n, r = some n ∧ (∀ m, cl = some m → m = n) ∧
      ∀ e ∈ es, fromDigits (trimBlanks e) = some n) := by
  induction es with
  | nil => intro cl r; simp [clElems]; exact eq_comm
  | cons e es ih =>
    intro cl r
    simp only [clElems, reduceCtorEq, false_and, ne_eq, not_false_eq_true, true_and, false_or,
      List.mem_cons, forall_eq_or_imp]
    cases he : fromDigits (trimBlanks e) with
    | none => simp
    | some k =>
      simp only [Option.some.injEq]
      have step : ∀ c, c = some k → (clElems c es = some r ↔
          ∃ n, r = some n ∧ k = n ∧ ∀ e' ∈ es, fromDigits (trimBlanks e') = some n) := by
        intro c hc
        subst hc
        rw [ih]
        constructor
        · rintro (⟨rfl, rfl⟩ | ⟨_, n, rfl, h2, h3⟩)
          · exact ⟨k, rfl, rfl, by simp⟩
          · exact ⟨n, rfl, h2 k rfl, h3⟩
        · rintro ⟨n, rfl, rfl, h3⟩
          by_cases hes : es = []
          · left; exact ⟨hes, rfl⟩
          · right; exact ⟨hes, k, rfl, by simp, h3⟩
      cases cl with
      | none =>
        simp only
        rw [step _ rfl]
        constructor
        · rintro ⟨n, h1, h2, h3⟩; exact ⟨n, h1, by simp, h2, h3⟩
        · rintro ⟨n, h1, _, h2, h3⟩; exact ⟨n, h1, h2, h3⟩
      | some m =>
        simp only
        by_cases hmk : m = k
        · subst hmk
          rw [if_pos rfl, step _ rfl]
          constructor
          · rintro ⟨n, h1, h2, h3⟩; exact ⟨n, h1, by simpa using h2, h2, h3⟩
          · rintro ⟨n, h1, _, h2, h3⟩; exact ⟨n, h1, h2, h3⟩
        · rw [if_neg hmk]
          simp only [reduceCtorEq, Option.some.injEq, forall_eq', false_iff, not_exists, not_and]
          intro n _ h1 h2; omega

theorem clValues_iff (vs : List Bytes) : ∀ cl r, clValues cl vs = some r ↔
    (vs = [] ∧ r = cl) ∨ (vs ≠ [] ∧ ∃ n, r = some n ∧ (∀ m, cl = some m → m = n) ∧
      ∀ v ∈ vs, (∀ b ∈ v, Visible b) ∧ ∀ e ∈ splitComma v, fromDigits (trimBlanks e) = some n) := by
  induction vs with
  | nil => intro cl r; simp [clValues]; exact eq_comm
  | cons v vs ih =>
    intro cl r
    simp only [clValues, reduceCtorEq, false_and, ne_eq, not_false_eq_true, true_and, false_or,
      List.mem_cons, forall_eq_or_imp]
    cases hs : toStr v with
    | none =>
      have := (toStr_none v).mp hs
      simp only [reduceCtorEq, false_iff, not_exists, not_and]
      intro n _ _ h; exact absurd h.1 this
    | some s =>
      obtain ⟨rfl, hv⟩ := (toStr_iff v s).mp hs
      simp only
      have hel := fun r => clElems_iff (splitComma s) cl r
      have hne := splitComma_ne s
      cases hc : clElems cl (splitComma s) with
      | none =>
        simp only [reduceCtorEq, false_iff]
        rintro ⟨n, h1, h2, ⟨h3, h4⟩, h5⟩
        have := (hel (some n)).mpr (Or.inr ⟨hne, n, rfl, h2, h4⟩)
        rw [hc] at this; simp at this
      | some cl' =>
        simp only
        rcases (hel cl').mp hc with ⟨h, _⟩ | ⟨_, k, rfl, h2, h3⟩
        · exact absurd h hne
        · rw [ih]
          constructor
          · rintro (⟨rfl, rfl⟩ | ⟨_, n, rfl, g2, g3⟩)
            · exact ⟨k, rfl, h2, ⟨hv, h3⟩, by simp⟩
            · have := g2 k rfl
              subst this
              exact ⟨k, rfl, h2, ⟨hv, h3⟩, g3⟩
          · rintro ⟨n, rfl, g2, ⟨_, g3⟩, g4⟩
            have hkn : k = n := by
              cases he : splitComma s with
              | nil => exact absurd he hne
              | cons e es =>
                have a1 := h3 e (by rw [he]; simp)
                have a2 := g3 e (by rw [he]; simp)
                rw [a1] at a2; simpa using a2
            subst hkn
            by_cases hvs : vs = []
            · left; exact ⟨hvs, rfl⟩
            · right; exact ⟨hvs, k, rfl, by simp, g4⟩

theorem contentLengthParseAllValues_iff (vs : List Bytes) (n : Nat) :
    contentLengthParseAllValues vs = some n ↔ AgreedLength vs n := by
  unfold contentLengthParseAllValues AgreedLength
  have h := fun r => clValues_iff vs none r
  have hconv : (∀ v ∈ vs, (∀ b ∈ v, Visible b) ∧
        ∀ e ∈ splitComma v, fromDigits (trimBlanks e) = some n) ↔
      ∀ v ∈ vs, (∀ b ∈ v, Visible b) ∧ ∀ e, Element v e → ∃ t, Padded e t ∧ IsLength t n := by
    constructor
    · intro hh v hv
      exact ⟨(hh v hv).1, fun e he =>
        (fromDigits_trim_iff e n).mp ((hh v hv).2 e ((mem_splitComma v e).mpr he))⟩
    · intro hh v hv
      exact ⟨(hh v hv).1, fun e he =>
        (fromDigits_trim_iff e n).mpr ((hh v hv).2 e ((mem_splitComma v e).mp he))⟩
  rw [← hconv]
  cases hc : clValues none vs with
  | none =>
    simp only [reduceCtorEq, false_iff]
    rintro ⟨g1, g2⟩
    have := (h (some n)).mpr (Or.inr ⟨g1, n, rfl, by simp, g2⟩)
    rw [hc] at this; simp at this
  | some r =>
    simp only
    rcases (h r).mp hc with ⟨h1, rfl⟩ | ⟨h1, k, rfl, _, h3⟩
    · simp [h1]
    · simp only [Option.some.injEq]
      constructor
      · rintro rfl; exact ⟨h1, h3⟩
      · rintro ⟨_, g2⟩
        have := (h (some n)).mpr (Or.inr ⟨h1, n, rfl, by simp, g2⟩)
        rw [hc] at this; simpa using this

theorem isChunkedValue_iff (v : Bytes) : isChunkedValue v = true ↔ FinalChunked [v] := by
  have htok : ∀ b ∈ ascii "chunked", isBlankByte b = false := by decide
  unfold isChunkedValue FinalChunked
  have hone : ∀ (P : Bytes → Prop), (∃ vs w, [v] = vs ++ [w] ∧ P w) ↔ P v := by
    intro P
    constructor
    · rintro ⟨vs, w, h1, h2⟩
      cases vs with
      | nil => simp at h1; rw [h1]; exact h2
      | cons x xs => simp at h1
    · intro h; exact ⟨[], v, rfl, h⟩
  have hre : (∃ vs w e t, [v] = vs ++ [w] ∧ (∀ b ∈ w, Visible b) ∧ LastElement w e ∧ Padded e t ∧
      SameToken t (ascii "chunked")) ↔
      ((∀ b ∈ v, Visible b) ∧ ∃ e t, LastElement v e ∧ Padded e t ∧ SameToken t (ascii "chunked")) := by
    rw [← hone (fun w => (∀ b ∈ w, Visible b) ∧ ∃ e t, LastElement w e ∧ Padded e t ∧
      SameToken t (ascii "chunked"))]
    constructor
    · rintro ⟨vs, w, e, t, h1, h2, h3⟩; exact ⟨vs, w, h1, h2, e, t, h3⟩
    · rintro ⟨vs, w, h1, h2, e, t, h3⟩; exact ⟨vs, w, e, t, h1, h2, h3⟩
  rw [hre]
  cases hs : toStr v with
  | none =>
    have := (toStr_none v).mp hs
    simp only [Bool.false_eq_true, false_iff, not_and]
    intro h; exact absurd h this
  | some s =>
    obtain ⟨rfl, hv⟩ := (toStr_iff v s).mp hs
    cases hl : (splitComma s).getLast? with
    | none => exact absurd (List.getLast?_eq_none_iff.mp hl) (splitComma_ne s)
    | some e =>
      simp only [hl]
      rw [← sameToken_trim e _ htok]
      constructor
      · rintro ⟨t, h1, h2⟩; exact ⟨hv, e, t, (getLast_splitComma s e).mp hl, h1, h2⟩
      · rintro ⟨_, e', t, h1, h2, h3⟩
        have := (getLast_splitComma s e').mpr h1
        rw [hl] at this
        simp only [Option.some.injEq] at this
        subst this
        exact ⟨t, h2, h3⟩

theorem isChunked_iff (vs : List Bytes) : isChunked vs = true ↔ FinalChunked vs := by
  unfold isChunked
  cases hl : vs.getLast? with
  | none =>
    have := List.getLast?_eq_none_iff.mp hl
    subst this
    simp [FinalChunked]
  | some v =>
    obtain ⟨ws, rfl⟩ := List.getLast?_eq_some_iff.mp hl
    simp only [isChunkedValue_iff]
    constructor
    · rintro ⟨us, w, e, t, h1, h2⟩
      refine ⟨ws, w, e, t, ?_, h2⟩
      cases us with
      | nil => simp at h1; rw [h1]
      | cons x xs => simp at h1
    · rintro ⟨us, w, e, t, h1, h2⟩
      have : v = w := by
        have := congrArg List.getLast? h1
        simpa using this
      exact ⟨[], w, e, t, by rw [this]; rfl, h2⟩

end Hyper
