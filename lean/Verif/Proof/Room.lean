import Verif.Props.WriteBuf

/-!
# Flushing makes room

A flush leaves no more waiting than before, in no more pieces, and does not touch the limits.
-/

namespace Hyper
open Spec

namespace Room

variable {β : Type} {I : BufI β}

theorem list_advance_length : ∀ (l : BufList β) (n : Nat) (l' : BufList β), BufList.advance I l n = some l' → l'.length ≤ l.length := by
  intro l
  induction l with
  | nil =>
    intro n l' h
    cases n with
    | zero => simp only [BufList.advance, Option.some.injEq] at h; subst h; exact Nat.le_refl _
    | succ n => simp [BufList.advance] at h
  | cons b t ih =>
    intro n l' h
    cases n with
    | zero => simp only [BufList.advance, Option.some.injEq] at h; subst h; exact Nat.le_refl _
    | succ n =>
      rw [BufList.advance] at h
      split at h
      · cases hb : I.advance b (n + 1) with
        | none => rw [hb] at h; cases h
        | some b' => rw [hb] at h; simp only [Option.map_some, Option.some.injEq] at h; subst h; exact Nat.le_refl _
      · split at h
        · exact Nat.le_trans (ih _ _ h) (Nat.le_succ _)
        · cases h

/-- `w'` has the limits of `w`, and no more pieces. -/
structure NoMore (w w' : WriteBuf β) : Prop where
  limit : w'.maxBufSize = w.maxBufSize
  pieces : w'.queue.length ≤ w.queue.length

theorem NoMore.refl (w : WriteBuf β) : NoMore w w := ⟨rfl, Nat.le_refl _⟩

theorem NoMore.trans {a b c : WriteBuf β} (h : NoMore a b) (k : NoMore b c) : NoMore a c :=
  ⟨k.limit.trans h.limit, Nat.le_trans k.pieces h.pieces⟩

theorem advance_noMore {w w' : WriteBuf β} {n : Nat} (h : WriteBuf.advance I w n = some w') : NoMore w w' := by
  unfold WriteBuf.advance at h
  split at h
  · cases h; exact ⟨rfl, Nat.le_refl _⟩
  · split at h
    · cases h; exact ⟨rfl, Nat.le_refl _⟩
    · cases hq : BufList.advance I w.queue (n - w.headers.remaining) with
      | none => rw [hq] at h; cases h
      | some q => rw [hq] at h; cases h; exact ⟨rfl, list_advance_length _ _ _ hq⟩

theorem flushQueue_noMore : ∀ (ws : List IoWrite) (w : WriteBuf β) (sent : Bytes), NoMore w (flushQueue I ws w sent).wbuf := by
  intro ws
  induction ws with
  | nil => intro w sent; exact .refl w
  | cons x t ih =>
    intro w sent
    cases x with
    | pending => exact .refl w
    | error => exact .refl w
    | wrote n =>
      rw [flushQueue]
      split
      · exact .refl w
      · rename_i w' hw
        have hn := advance_noMore hw
        repeat' split
        · exact hn
        · exact hn
        · exact hn.trans (ih _ _)

theorem flushFlat_noMore : ∀ (ws : List IoWrite) (w : WriteBuf β) (sent : Bytes), NoMore w (flushFlat ws w sent).wbuf := by
  intro ws
  induction ws with
  | nil => intro w sent; exact .refl w
  | cons x t ih =>
    intro w sent
    cases x with
    | pending => exact .refl w
    | error => exact .refl w
    | wrote n =>
      rw [flushFlat]
      simp only
      repeat' split
      · exact ⟨rfl, Nat.le_refl _⟩
      · exact ⟨rfl, Nat.le_refl _⟩
      · exact NoMore.trans (b := { w with headers := w.headers.advance (min n w.headers.chunk.length) }) ⟨rfl, Nat.le_refl _⟩ (ih _ _)

theorem finish_noMore (s : WriteSide β) (l : LoopRes β) (h : NoMore s.wbuf l.wbuf) :
    NoMore s.wbuf (s.finish l).2.wbuf ∧ (s.finish l).2.flushPipeline = s.flushPipeline := by
  unfold WriteSide.finish
  simp only
  split <;> exact ⟨h, rfl⟩

theorem pollFlush_noMore (s : WriteSide β) (rb : Bytes) :
    NoMore s.wbuf (s.pollFlush I rb).2.wbuf ∧ (s.pollFlush I rb).2.flushPipeline = s.flushPipeline := by
  unfold WriteSide.pollFlush
  repeat' split
  · exact ⟨.refl _, rfl⟩
  · exact ⟨.refl _, rfl⟩
  · exact finish_noMore s _ (flushFlat_noMore _ _ _)
  · exact finish_noMore s _ (flushQueue_noMore _ _ _)

theorem pollShutdown_noMore (s : WriteSide β) (rb : Bytes) :
    NoMore s.wbuf (s.pollShutdown I rb).2.wbuf ∧ (s.pollShutdown I rb).2.flushPipeline = s.flushPipeline := by
  have := pollFlush_noMore (I := I) s rb
  unfold WriteSide.pollShutdown
  split <;> exact this

end Room

end Hyper
