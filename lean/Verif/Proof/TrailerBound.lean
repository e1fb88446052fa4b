import Verif.Spec.Visits
import Verif.Proof.Chunked

namespace Hyper

open Spec

/-- The trailer buffer stays below the limit (or at one byte when the limit is that small). -/
def Chunked.Bounded (B : Nat) (c : Chunked) : Prop := c.maxBytes = B ∧ (held c < B ∨ held c ≤ 1)

theorem Chunked.putU8_bounded {B : Nat} {c c' : Chunked} {t : Bytes} {b : Byte} {s : CState}
    {res : Except DErr CState}
    (hb : c.maxBytes = B) (h0 : t.length < B ∨ t.length ≤ 1) (h : c.putU8 t b s = (res, c')) :
    c'.maxBytes = B ∧ held c' ≤ max B 2 ∧ (∀ x, res = .ok x → c'.Bounded B) := by
  have hB : ∀ t', Chunked.maxBytes { c with tbuf := some t' } = B := fun _ => hb
  by_cases hm : t.length + 1 < c.maxBytes
  · rw [Chunked.putU8_ok c t b s hm] at h
    simp only [Prod.mk.injEq] at h
    obtain ⟨rfl, rfl⟩ := h
    refine ⟨hB _, ?_, fun x _ => ⟨hB _, Or.inl ?_⟩⟩
    · simp [held]; omega
    · simp [held]; omega
  · have : (t ++ [b]).length ≥ c.maxBytes := by simp; omega
    have h2 : c.putU8 t b s = (.error .trailerBytes, { c with tbuf := some (t ++ [b]) }) :=
      if_pos this
    rw [h2] at h
    simp only [Prod.mk.injEq] at h
    obtain ⟨rfl, rfl⟩ := h
    refine ⟨hB _, ?_, fun x hx => by simp at hx⟩
    simp [held]; omega

theorem Chunked.pushDigit_tbuf (c : Chunked) (d : Nat) :
    (c.pushDigit d).2.tbuf = c.tbuf ∧ (c.pushDigit d).2.maxHeaderSize = c.maxHeaderSize := by
  unfold Chunked.pushDigit
  split
  · simp
  · split <;> simp

theorem held_eq {c c' : Chunked} (h : c'.tbuf = c.tbuf) : held c' = held c := by
  simp [held, h]

theorem Chunked.onByte_bounded {B : Nat} {c c' : Chunked} {b : Byte} {res : Except DErr CState}
    (hc : c.Bounded B) (h : c.onByte b = (res, c')) :
    c'.maxBytes = B ∧ held c' ≤ max B 2 ∧ (∀ x, res = .ok x → c'.Bounded B) := by
  obtain ⟨hB, hh⟩ := hc
  have same : ∀ c1 : Chunked, c1.tbuf = c.tbuf ∧ c1.maxHeaderSize = c.maxHeaderSize →
      c1.maxBytes = B ∧ held c1 ≤ max B 2 ∧ (∀ x, res = .ok x → c1.Bounded B) := by
    intro c1 ⟨h1, h2⟩
    have hm : c1.maxBytes = B := by rw [← hB]; simp [Chunked.maxBytes, h2]
    have he := held_eq h1
    refine ⟨hm, by omega, fun _ _ => ⟨hm, by rw [he]; exact hh⟩⟩
  have keep : ∀ (res' : Except DErr CState) (c1 : Chunked), (res', c1) = (res, c') →
      c1.tbuf = c.tbuf ∧ c1.maxHeaderSize = c.maxHeaderSize →
      c'.maxBytes = B ∧ held c' ≤ max B 2 ∧ (∀ x, res = .ok x → c'.Bounded B) := by
    intro res' c1 he hs
    simp only [Prod.mk.injEq] at he
    rw [← he.2]; exact same c1 hs
  have push : ∀ d, c.pushDigit d = (res, c') →
      c'.maxBytes = B ∧ held c' ≤ max B 2 ∧ (∀ x, res = .ok x → c'.Bounded B) := by
    intro d hd
    have h1 := c.pushDigit_tbuf d
    rw [hd] at h1
    exact same c' h1
  have tlen : ∀ t, c.tbuf = some t → t.length < B ∨ t.length ≤ 1 := by
    intro t ht; simpa [held, ht] using hh
  cases hs : c.state
  · rw [Chunked.onByte_start hs] at h; unfold Chunked.readStart at h
    repeat' split at h
    all_goals first | exact push _ h | exact keep _ _ h ⟨rfl, rfl⟩
  · rw [Chunked.onByte_size hs] at h; unfold Chunked.readSize at h
    repeat' split at h
    all_goals first | exact push _ h | exact keep _ _ h ⟨rfl, rfl⟩
  · rw [Chunked.onByte_sizeLws hs] at h; unfold Chunked.readSizeLws at h
    repeat' split at h
    all_goals exact keep _ _ h ⟨rfl, rfl⟩
  · rw [Chunked.onByte_extension hs] at h; simp only [Chunked.readExtension] at h
    repeat' split at h
    all_goals exact keep _ _ h ⟨rfl, rfl⟩
  · rw [Chunked.onByte_sizeLf hs] at h; unfold Chunked.readSizeLf at h
    repeat' split at h
    all_goals exact keep _ _ h ⟨rfl, rfl⟩
  · simp only [Chunked.onByte, hs] at h; exact keep _ _ h ⟨rfl, rfl⟩
  · rw [Chunked.onByte_bodyCr hs] at h; unfold Chunked.readBodyCr at h
    repeat' split at h
    all_goals exact keep _ _ h ⟨rfl, rfl⟩
  · rw [Chunked.onByte_bodyLf hs] at h; unfold Chunked.readBodyLf at h
    repeat' split at h
    all_goals exact keep _ _ h ⟨rfl, rfl⟩
  · rw [Chunked.onByte_trailer hs] at h
    cases ht : c.tbuf with
    | none => simp only [Chunked.readTrailer, ht] at h; exact keep _ _ h ⟨rfl, rfl⟩
    | some t =>
      simp only [Chunked.readTrailer, ht] at h
      exact Chunked.putU8_bounded hB (tlen t ht) h
  · rw [Chunked.onByte_trailerLf hs] at h
    simp only [Chunked.readTrailerLf] at h
    split at h
    · split at h
      · exact keep _ _ h ⟨rfl, rfl⟩
      · cases ht : c.tbuf with
        | none => simp only [ht] at h; exact keep _ _ h ⟨ht.symm, rfl⟩
        | some t =>
          simp only [ht] at h
          exact Chunked.putU8_bounded (by exact hB) (tlen t ht) h
    · exact keep _ _ h ⟨rfl, rfl⟩
  · rw [Chunked.onByte_endCr hs] at h
    simp only [Chunked.readEndCr] at h
    split at h
    · cases ht : c.tbuf with
      | none => simp only [ht] at h; exact keep _ _ h ⟨rfl, rfl⟩
      | some t =>
        simp only [ht] at h
        exact Chunked.putU8_bounded hB (tlen t ht) h
    · cases ht : c.tbuf with
      | none =>
        simp only [ht, Prod.mk.injEq] at h
        obtain ⟨_, rfl⟩ := h
        refine ⟨hB, by simp [held]; omega, fun _ _ => ⟨hB, by simp [held]⟩⟩
      | some t =>
        simp only [ht] at h
        exact Chunked.putU8_bounded hB (tlen t ht) h
  · rw [Chunked.onByte_endLf hs] at h
    simp only [Chunked.readEndLf] at h
    split at h
    · cases ht : c.tbuf with
      | none => simp only [ht] at h; exact keep _ _ h ⟨rfl, rfl⟩
      | some t =>
        simp only [ht] at h
        exact Chunked.putU8_bounded hB (tlen t ht) h
    · exact keep _ _ h ⟨rfl, rfl⟩
  · simp only [Chunked.onByte, hs] at h; exact keep _ _ h ⟨rfl, rfl⟩

theorem Chunked.step_bounded {B : Nat} {c : Chunked} {r : Rd} (hc : c.Bounded B) :
    (c.step r).ch.maxBytes = B ∧ held (c.step r).ch ≤ max B 2 ∧
      ((∀ e, (c.step r).res ≠ .ready (.error e)) → (c.step r).ch.Bounded B) := by
  have hself : c.maxBytes = B ∧ held c ≤ max B 2 := ⟨hc.1, by have := hc.2; omega⟩
  have body : (c.readBody r).ch.maxBytes = B ∧ held (c.readBody r).ch ≤ max B 2 ∧
      ((∀ e, (c.readBody r).res ≠ .ready (.error e)) → (c.readBody r).ch.Bounded B) := by
    unfold Chunked.readBody
    split
    · exact ⟨hself.1, hself.2, fun _ => hc⟩
    · exact ⟨hself.1, hself.2, fun _ => hc⟩
    · split
      · exact ⟨hself.1, hself.2, fun _ => hc⟩
      · exact ⟨hself.1, hself.2, fun _ => hc⟩
  have byte : (c.readByte r).ch.maxBytes = B ∧ held (c.readByte r).ch ≤ max B 2 ∧
      ((∀ e, (c.readByte r).res ≠ .ready (.error e)) → (c.readByte r).ch.Bounded B) := by
    unfold Chunked.readByte
    split
    · exact ⟨hself.1, hself.2, fun _ => hc⟩
    · exact ⟨hself.1, hself.2, fun _ => hc⟩
    · exact ⟨hself.1, hself.2, fun _ => hc⟩
    · rename_i b _ _ _
      have h := Chunked.onByte_bounded (res := (c.onByte b).1) (c' := (c.onByte b).2) hc rfl
      refine ⟨h.1, h.2.1, ?_⟩
      intro hne
      cases hr : (c.onByte b).1 with
      | error e => exact absurd (by simp only [hr]) (hne e)
      | ok s => exact h.2.2 s hr
  unfold Chunked.step
  split
  · exact ⟨hself.1, hself.2, fun _ => hc⟩
  · exact body
  · exact byte

theorem Chunked.step_bounded_eq {B : Nat} {c : Chunked} {r : Rd} {x : StepRes} (hc : c.Bounded B)
    (hs : c.step r = x) :
    x.ch.maxBytes = B ∧ held x.ch ≤ max B 2 ∧
      ((∀ e, x.res ≠ .ready (.error e)) → x.ch.Bounded B) := hs ▸ Chunked.step_bounded hc

theorem Visits.bounded {B : Nat} {c : Chunked} {r : Rd} (hc : c.Bounded B) {c' : Chunked} {r' : Rd}
    (h : Visits c r c' r') : c'.Bounded B := by
  induction h with
  | start => exact hc
  | wait h hs ih =>
    exact (Chunked.step_bounded_eq ih hs).2.2 (by simp)
  | next h hs ih =>
    exact (Chunked.step_bounded_eq ih hs).2.2 (by simp)

/-- A step only moves to `body` with a positive chunk length. -/
theorem Chunked.step_live {c : Chunked} {r : Rd} (hc : c.state = .body → 0 < c.len) :
    (∀ c' b r', c.step r = ⟨.pending, c', b, r'⟩ → c' = c) ∧
    (∀ s c' b r', c.step r = ⟨.ready (.ok s), c', b, r'⟩ → s = .body → 0 < c'.len) := by
  unfold Chunked.step
  split
  · refine ⟨by simp, ?_⟩
    intro s c' b r' h hs; subst hs; simp at h
  · unfold Chunked.readBody
    split
    · refine ⟨by intro c' b r' h; simp at h; exact h.1.symm, by simp⟩
    · exact ⟨by simp, by simp⟩
    · split
      · exact ⟨by simp, by simp⟩
      · refine ⟨by simp, ?_⟩
        intro s c' b r' h hs
        simp only [StepRes.mk.injEq, Poll.ready.injEq, Except.ok.injEq] at h
        obtain ⟨h1, h2, _⟩ := h
        subst hs
        rw [← h2]
        simp only
        split at h1
        · assumption
        · simp at h1
  · rename_i hnf hnb
    unfold Chunked.readByte
    split
    · refine ⟨by intro c' b r' h; simp at h; exact h.1.symm, by simp⟩
    · exact ⟨by simp, by simp⟩
    · exact ⟨by simp, by simp⟩
    · rename_i b0 _ _ _
      refine ⟨by simp, ?_⟩
      intro s c' b r' h hs
      simp only [StepRes.mk.injEq, Poll.ready.injEq] at h
      obtain ⟨h1, h2, _⟩ := h
      subst hs
      rw [← h2]
      exact Chunked.onByte_body (b := b0) hnb (by rw [← h1])

theorem Visits.live {c : Chunked} {r : Rd} (hc : c.state = .body → 0 < c.len) {c' : Chunked}
    {r' : Rd} (h : Visits c r c' r') : c'.state = .body → 0 < c'.len := by
  induction h with
  | start => exact hc
  | wait h hs ih =>
    have := (Chunked.step_live ih).1 _ _ _ hs
    rw [this]; exact ih
  | next h hs ih =>
    intro hb
    have := (Chunked.step_live ih).2 _ _ _ _ hs hb
    exact this

end Hyper
