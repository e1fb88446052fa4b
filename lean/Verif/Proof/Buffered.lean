import Verif.Model.Buffered
import Verif.Spec.Buffered

namespace Hyper

open Spec

theorem startsChunk_iff (pat bs : Bytes) : startsChunk pat bs = true ↔ ∃ post, bs = pat ++ post := by
  unfold startsChunk
  simp only [beq_iff_eq]
  constructor
  · intro h; exact ⟨bs.drop pat.length, by conv => lhs; rw [← List.take_append_drop pat.length bs, h]⟩
  · rintro ⟨post, rfl⟩; simp

theorem scanComplete_iff (bs : Bytes) :
    scanComplete bs = true ↔ ∃ pre t post, Terminator t ∧ bs = pre ++ t ++ post := by
  induction bs with
  | nil =>
    simp only [scanComplete, Bool.false_eq_true, false_iff]
    rintro ⟨pre, t, post, ht, h⟩
    rcases ht with rfl | rfl <;> simp at h
  | cons b rest ih =>
    have step : (∃ pre t post, Terminator t ∧ b :: rest = pre ++ t ++ post) ↔
        (∃ t post, Terminator t ∧ b :: rest = t ++ post) ∨ ∃ pre t post, Terminator t ∧ rest = pre ++ t ++ post := by
      constructor
      · rintro ⟨pre, t, post, ht, h⟩
        cases pre with
        | nil => exact .inl ⟨t, post, ht, by simpa using h⟩
        | cons c pre =>
          simp only [List.cons_append, List.cons.injEq] at h
          exact .inr ⟨pre, t, post, ht, by simpa using h.2⟩
      · rintro (⟨t, post, ht, h⟩ | ⟨pre, t, post, ht, h⟩)
        · exact ⟨[], t, post, ht, by simpa using h⟩
        · exact ⟨b :: pre, t, post, ht, by simp [h]⟩
    rw [step, ← ih]
    rw [scanComplete]
    split
    · rename_i hb
      subst hb
      have hno : ¬ ∃ t post, Terminator t ∧ CR :: rest = t ++ post := by
        rintro ⟨t, post, ht, h⟩
        rcases ht with rfl | rfl <;> simp [CR] at h
      simp only [hno, false_or]
      split
      · rename_i h
        obtain ⟨post, rfl⟩ := (startsChunk_iff _ _).mp h
        simp only [true_iff]
        exact ih.mpr ⟨[], [10, 13, 10], post, .inr rfl, rfl⟩
      · rfl
    · split
      · rename_i h
        simp only [true_iff]
        refine .inl ?_
        obtain ⟨rfl, h⟩ := h
        rcases h with h | h
        · cases rest with
          | nil => simp at h
          | cons c rest =>
            simp only [List.head?_cons, Option.some.injEq] at h
            exact ⟨[10, 10], rest, .inl rfl, by rw [h]; rfl⟩
        · obtain ⟨post, rfl⟩ := (startsChunk_iff _ _).mp h
          exact ⟨[10, 13, 10], post, .inr rfl, rfl⟩
      · rename_i h1 h2
        have hno : ¬ ∃ t post, Terminator t ∧ b :: rest = t ++ post := by
          rintro ⟨t, post, ht, h⟩
          apply h2
          rcases ht with rfl | rfl <;> simp only [List.cons_append, List.nil_append, List.cons.injEq] at h
          · exact ⟨h.1, .inl (by rw [h.2]; rfl)⟩
          · exact ⟨h.1, .inr ((startsChunk_iff _ _).mpr ⟨post, by rw [h.2]; rfl⟩)⟩
        simp only [hno, false_or]

/-! ## The read strategy -/

theorem shiftRight_max (k : Nat) (h : k ≤ 64) : usizeMax >>> k + 1 = 2 ^ (64 - k) := by
  unfold usizeMax
  rw [Nat.shiftRight_eq_div_pow]
  have h1 : 2 ^ 64 - 1 = (2 ^ (64 - k) - 1) * 2 ^ k + (2 ^ k - 1) := by
    have h2 : (2 : Nat) ^ 64 = 2 ^ (64 - k) * 2 ^ k := by rw [← Nat.pow_add]; congr 1; omega
    have h3 : 0 < 2 ^ k := Nat.two_pow_pos k
    have h4 : 0 < 2 ^ (64 - k) := Nat.two_pow_pos _
    rw [Nat.sub_mul, h2]
    have h5 : 1 * 2 ^ k ≤ 2 ^ (64 - k) * 2 ^ k := Nat.mul_le_mul_right _ h4
    omega
  have h3 : 0 < 2 ^ k := Nat.two_pow_pos k
  have h4 : 0 < 2 ^ (64 - k) := Nat.two_pow_pos _
  rw [h1, Nat.add_comm (_ * _), Nat.add_mul_div_right _ _ h3, Nat.div_eq_of_lt (by omega)]
  omega

/-- `prev_power_of_two` does what its name says. -/
theorem prevPowerOfTwo_spec {n : Nat} (h1 : 4 ≤ n) (h2 : n ≤ usizeMax) : HalfPower n (prevPowerOfTwo n) := by
  have hn : n ≠ 0 := by omega
  have hl : Nat.log2 n < 64 := (Nat.log2_lt hn).mpr (by unfold usizeMax at h2; omega)
  have hl2 : 2 ≤ Nat.log2 n := (Nat.le_log2 hn).mpr h1
  have e : prevPowerOfTwo n = 2 ^ (Nat.log2 n - 1) := by
    unfold prevPowerOfTwo leadingZeros
    rw [shiftRight_max _ (by omega)]
    congr 1; omega
  have hlo : 2 ^ Nat.log2 n ≤ n := Nat.log2_self_le hn
  have hhi : n < 2 ^ (Nat.log2 n + 1) := Nat.lt_log2_self
  obtain ⟨k, hk⟩ : ∃ k, Nat.log2 n = k + 1 := ⟨Nat.log2 n - 1, by omega⟩
  rw [hk] at hlo hhi e
  simp only [Nat.add_sub_cancel] at e
  rw [e]
  simp only [Nat.pow_succ] at hlo hhi
  exact ⟨⟨k, rfl⟩, by omega, by omega⟩

end Hyper
