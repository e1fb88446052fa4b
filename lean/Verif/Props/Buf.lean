import Verif.Spec.Buf

/-! # Buffer lists: C36 -/

namespace Hyper

open Spec

/-- `Bytes` stands for itself. -/
theorem bytesBuf_stands : Stands bytesBuf (fun _ => True) id where
  remaining _ _ := rfl
  chunk b _ := ⟨⟨[], by simp [bytesBuf]⟩, fun h => h⟩
  advance b n _ h := ⟨b.drop n, by simp only [bytesBuf]; exact if_pos h, trivial, rfl⟩
  vectored b k _ := by
    simp only [bytesBuf, id]
    split
    · rename_i h
      refine ⟨by simp, ⟨b, by simp⟩, ?_, ?_⟩
      · intro hk
        rcases h with rfl | rfl
        · simp at hk
        · rfl
      · intro hb hk
        rcases h with rfl | rfl
        · simp at hk
        · simp at hb
    · rename_i h
      refine ⟨by simp; omega, ⟨[], by simp⟩, by simp, by simp only [List.flatten_singleton]; exact fun h _ => h⟩
  empty b k _ h := by simp only [bytesBuf]; exact if_pos (.inr h)
  copy b n _ h := ⟨b.drop n, by simp only [bytesBuf]; exact if_pos h, trivial, rfl⟩

/-- The bytes of a list of buffers. -/
def Spec.concat {β : Type} (bytes : β → Bytes) (l : BufList β) : Bytes := l.flatMap bytes

/-- Every buffer in the list is good and has bytes. -/
def Spec.AllNonempty {β : Type} (Ok : β → Prop) (bytes : β → Bytes) (l : BufList β) : Prop :=
  ∀ b ∈ l, Ok b ∧ bytes b ≠ []

section
variable {β : Type} {I : BufI β} {Ok : β → Prop} {bytes : β → Bytes}

theorem list_remaining (h : Stands I Ok bytes) (l : BufList β) (hl : AllNonempty Ok bytes l) :
    BufList.remaining I l = (concat bytes l).length := by
  induction l with
  | nil => rfl
  | cons b t ih =>
    have hb := hl b List.mem_cons_self
    have := ih (fun x hx => hl x (List.mem_cons_of_mem _ hx))
    simp only [BufList.remaining, concat, List.map_cons, List.sum_cons, List.flatMap_cons, List.length_append] at this ⊢
    rw [this, h.remaining b hb.1]

theorem list_advance (h : Stands I Ok bytes) (l : BufList β) : ∀ n, AllNonempty Ok bytes l → n ≤ (concat bytes l).length →
    ∃ l', BufList.advance I l n = some l' ∧ AllNonempty Ok bytes l' ∧ concat bytes l' = (concat bytes l).drop n := by
  induction l with
  | nil =>
    intro n hl hn
    simp only [concat, List.flatMap_nil, List.length_nil] at hn
    obtain rfl : n = 0 := by omega
    exact ⟨[], by simp [BufList.advance], hl, by simp⟩
  | cons b t ih =>
    intro n hl hn
    have hb := hl b List.mem_cons_self
    have ht : AllNonempty Ok bytes t := fun x hx => hl x (List.mem_cons_of_mem _ hx)
    cases n with
    | zero => exact ⟨b :: t, by simp [BufList.advance], hl, by simp⟩
    | succ n =>
      have hr := h.remaining b hb.1
      have hc : concat bytes (b :: t) = bytes b ++ concat bytes t := rfl
      rw [BufList.advance]
      split
      · rename_i hgt
        obtain ⟨b', e, hok, hby⟩ := h.advance b (n + 1) hb.1 (by omega)
        refine ⟨b' :: t, by rw [e]; rfl, ?_, ?_⟩
        · intro x hx
          rcases List.mem_cons.mp hx with rfl | hx
          · refine ⟨hok, ?_⟩
            rw [hby]; intro hh
            have := congrArg List.length hh
            simp only [List.length_drop, List.length_nil] at this
            omega
          · exact ht x hx
        · show bytes b' ++ concat bytes t = _
          rw [hc, List.drop_append_of_le_length (by omega), hby]
      · rename_i hgt
        obtain ⟨b', e, _, _⟩ := h.advance b (I.remaining b) hb.1 (by omega)
        rw [e]
        simp only
        rw [hc, List.length_append] at hn
        obtain ⟨l', e', hok, hby⟩ := ih (n + 1 - I.remaining b) ht (by omega)
        refine ⟨l', e', hok, ?_⟩
        rw [hby, hc, List.drop_append, List.drop_of_length_le (l := bytes b) (by omega), hr]
        rfl

theorem list_vectored (h : Stands I Ok bytes) (l : BufList β) : ∀ k, AllNonempty Ok bytes l →
    (BufList.vectoredLoop I l k).length ≤ k ∧ (∃ t, concat bytes l = (BufList.vectoredLoop I l k).flatten ++ t) ∧
    ((BufList.vectoredLoop I l k).length < k → concat bytes l = (BufList.vectoredLoop I l k).flatten) ∧
    (concat bytes l ≠ [] → 0 < k → (BufList.vectoredLoop I l k).flatten ≠ []) := by
  induction l with
  | nil => intro k _; exact ⟨by simp [BufList.vectoredLoop], ⟨[], rfl⟩, fun _ => rfl, by simp [concat]⟩
  | cons b t ih =>
    intro k hl
    have hb := hl b List.mem_cons_self
    have ht : AllNonempty Ok bytes t := fun x hx => hl x (List.mem_cons_of_mem _ hx)
    obtain ⟨v1, ⟨tl, v2⟩, v3, v4⟩ := h.vectored b k hb.1
    have hc : concat bytes (b :: t) = bytes b ++ concat bytes t := rfl
    rw [BufList.vectoredLoop]
    split
    · rename_i e
      refine ⟨v1, ⟨tl ++ concat bytes t, by rw [hc, v2]; simp⟩, by omega, fun _ hk => v4 hb.2 hk⟩
    · rename_i e
      obtain ⟨w1, ⟨tl', w2⟩, w3, _⟩ := ih (k - (I.vectored b k).length) ht
      have hfull := v3 (by omega)
      refine ⟨by rw [List.length_append]; omega, ⟨tl', ?_⟩, ?_, ?_⟩
      · rw [hc, w2, hfull]; simp
      · intro hlt
        rw [List.length_append] at hlt
        rw [hc, w3 (by omega)]
        rw [List.flatten_append]
        conv => lhs; rw [hfull]
      · intro _ hk hh
        rw [List.flatten_append] at hh
        exact v4 hb.2 hk (List.append_eq_nil_iff.mp hh).1

theorem list_chunk (h : Stands I Ok bytes) (l : BufList β) (hl : AllNonempty Ok bytes l) :
    (∃ t, concat bytes l = BufList.chunk I l ++ t) ∧ (concat bytes l ≠ [] → BufList.chunk I l ≠ []) := by
  cases l with
  | nil => exact ⟨⟨[], rfl⟩, fun h => h⟩
  | cons b t =>
    have hb := hl b List.mem_cons_self
    obtain ⟨⟨tl, e⟩, hne⟩ := h.chunk b hb.1
    refine ⟨⟨tl ++ concat bytes t, ?_⟩, fun _ => hne hb.2⟩
    show bytes b ++ concat bytes t = I.chunk b ++ _
    rw [e]; simp

theorem list_putTake (h : Stands I Ok bytes) : ∀ fuel (l : BufList β) n, AllNonempty Ok bytes l → n ≤ fuel →
    n ≤ (concat bytes l).length →
    ∃ l', BufList.putTake I fuel l n = some ((concat bytes l).take n, l') ∧ AllNonempty Ok bytes l' ∧
      concat bytes l' = (concat bytes l).drop n := by
  intro fuel
  induction fuel with
  | zero =>
    intro l n hl hf hn
    obtain rfl : n = 0 := by omega
    exact ⟨l, by simp [BufList.putTake], hl, by simp⟩
  | succ fuel ih =>
    intro l n hl hf hn
    cases n with
    | zero => exact ⟨l, by simp [BufList.putTake], hl, by simp⟩
    | succ n =>
      obtain ⟨⟨tl, e⟩, hne⟩ := list_chunk h l hl
      have hne' : BufList.chunk I l ≠ [] := hne (by intro hh; rw [hh] at hn; simp at hn)
      have hpos : 0 < (BufList.chunk I l).length := List.length_pos_iff.mpr hne'
      rw [BufList.putTake]
      generalize hs : (BufList.chunk I l).take (n + 1) = s
      have hsl : 0 < s.length ∧ s.length ≤ n + 1 := by rw [← hs, List.length_take]; omega
      have hst : (concat bytes l).take s.length = s := by
        rw [e, ← hs, List.length_take, List.take_append_of_le_length (by omega)]
        rcases Nat.le_total (n + 1) (BufList.chunk I l).length with hh | hh
        · rw [Nat.min_eq_left hh]
        · rw [Nat.min_eq_right hh, List.take_of_length_le (Nat.le_refl _), List.take_of_length_le hh]
      obtain ⟨l', e1, ok1, b1⟩ := list_advance h l s.length hl (by omega)
      rw [e1]
      simp only
      obtain ⟨l'', e2, ok2, b2⟩ := ih l' (n + 1 - s.length) ok1 (by omega) (by rw [b1, List.length_drop]; omega)
      rw [e2]
      simp only
      refine ⟨l'', ?_, ok2, ?_⟩
      · congr 2
        rw [b1]
        have : s ++ ((concat bytes l).drop s.length).take (n + 1 - s.length) =
            (concat bytes l).take s.length ++ ((concat bytes l).drop s.length).take (n + 1 - s.length) := by rw [hst]
        rw [this, ← List.take_add]
        congr 1; omega
      · rw [b2, b1, List.drop_drop]; congr 1; omega

/-- C36.  A list of non-empty buffers presents itself as the concatenation of its parts, provided each
part presents itself as a byte string: `remaining`, `chunk`, `advance`, vectored chunks and `copy_to_bytes` all
agree with it, and every such operation leaves such a list. -/
theorem C36_list_is_concatenation (h : Stands I Ok bytes) :
    Stands (bufListBuf I) (AllNonempty Ok bytes) (concat bytes) where
  remaining := list_remaining h
  chunk := list_chunk h
  advance l n := list_advance h l n
  vectored l k hl := by
    show (BufList.vectored I l k).length ≤ k ∧ _
    simp only [bufListBuf, BufList.vectored]
    split
    · subst k; exact ⟨by simp, ⟨_, rfl⟩, by simp, by simp⟩
    · exact list_vectored h l k hl
  empty l k hl he := by
    cases l with
    | nil => simp [bufListBuf, BufList.vectored, BufList.vectoredLoop]
    | cons b t => exact absurd (List.append_eq_nil_iff.mp he).1 (hl b List.mem_cons_self).2
  copy l n hl hn := by
    show ∃ b', BufList.copyToBytes I l n = _ ∧ _
    have hslow : ∃ b', BufList.copySlow I l n = some ((concat bytes l).take n, b') ∧ AllNonempty Ok bytes b' ∧
        concat bytes b' = (concat bytes l).drop n := by
      unfold BufList.copySlow
      rw [if_pos (by rw [list_remaining h l hl]; exact hn)]
      exact list_putTake h n l n hl (Nat.le_refl _) hn
    cases l with
    | nil => exact hslow
    | cons b t =>
      have hb := hl b List.mem_cons_self
      have ht : AllNonempty Ok bytes t := fun x hx => hl x (List.mem_cons_of_mem _ hx)
      have hr := h.remaining b hb.1
      have hc : concat bytes (b :: t) = bytes b ++ concat bytes t := rfl
      simp only [BufList.copyToBytes]
      split
      · rename_i e
        obtain ⟨b', e1, _, _⟩ := h.copy b n hb.1 (by omega)
        refine ⟨t, ?_, ht, ?_⟩
        · rw [e1, hc, List.take_append_of_le_length (by omega)]; rfl
        · rw [hc, List.drop_append_of_le_length (by omega), List.drop_of_length_le (by omega)]; rfl
      · split
        · rename_i e e'
          obtain ⟨b', e1, ok1, b1⟩ := h.copy b n hb.1 (by omega)
          refine ⟨b' :: t, ?_, ?_, ?_⟩
          · rw [e1, hc, List.take_append_of_le_length (by omega)]; rfl
          · intro x hx
            rcases List.mem_cons.mp hx with rfl | hx
            · refine ⟨ok1, ?_⟩
              rw [b1]; intro hh
              have := congrArg List.length hh
              simp only [List.length_drop, List.length_nil] at this
              omega
            · exact ht x hx
          · show bytes b' ++ concat bytes t = _
            rw [hc, List.drop_append_of_le_length (by omega), b1]
        · exact hslow

/-- Pushing a non-empty buffer appends its bytes. -/
theorem C36_push_appends (l : BufList β) (b : β) (hl : AllNonempty Ok bytes l) (hb : Ok b) (hne : bytes b ≠ []) :
    AllNonempty Ok bytes (l.push b) ∧ concat bytes (l.push b) = concat bytes l ++ bytes b := by
  refine ⟨?_, by simp [BufList.push, concat]⟩
  intro x hx
  rcases List.mem_append.mp hx with hx | hx
  · exact hl x hx
  · simp only [List.mem_singleton] at hx; subst hx; exact ⟨hb, hne⟩

end

/-- One operation of a reader of a buffer. -/
inductive BufOp where
  | advance (n : Nat)
  | copy (n : Nat)
  deriving DecidableEq, Repr

/-- Bytes an operation takes off the front. -/
def BufOp.size : BufOp → Nat
  | .advance n => n
  | .copy n => n

/-- Run operations; gives the bytes copied out (nothing for `advance`) and the buffer left. -/
def runBuf {β : Type} (I : BufI β) : β → List BufOp → Option (List Bytes × β)
  | b, [] => some ([], b)
  | b, .advance n :: ops =>
    match I.advance b n with
    | none => none
    | some b' => (runBuf I b' ops).map (fun r => ([] :: r.1, r.2))
  | b, .copy n :: ops =>
    match I.copyToBytes b n with
    | none => none
    | some (bs, b') => (runBuf I b' ops).map (fun r => (bs :: r.1, r.2))

/-- What the same operations give on a byte string. -/
def Spec.cutBytes : Bytes → List BufOp → List Bytes × Bytes
  | w, [] => ([], w)
  | w, .advance n :: ops => ([] :: (cutBytes (w.drop n) ops).1, (cutBytes (w.drop n) ops).2)
  | w, .copy n :: ops => (w.take n :: (cutBytes (w.drop n) ops).1, (cutBytes (w.drop n) ops).2)

/-- C36, sequences: any sequence of operations that asks for no more than there is gives what it would give on
the concatenation, never panics, and leaves a list whose chunk, vectored chunks and length are those
of what is left. -/
theorem C36_sequences {β : Type} {I : BufI β} {Ok : β → Prop} {bytes : β → Bytes} (h : Stands I Ok bytes)
    (ops : List BufOp) : ∀ (b : β), Ok b → (ops.map BufOp.size).sum ≤ (bytes b).length →
    ∃ b', runBuf I b ops = some ((cutBytes (bytes b) ops).1, b') ∧ Ok b' ∧ bytes b' = (cutBytes (bytes b) ops).2 := by
  induction ops with
  | nil => intro b hb _; exact ⟨b, rfl, hb, rfl⟩
  | cons op ops ih =>
    intro b hb hs
    simp only [List.map_cons, List.sum_cons] at hs
    cases op with
    | advance n =>
      simp only [BufOp.size] at hs
      obtain ⟨b', e, ok, hby⟩ := h.advance b n hb (by omega)
      obtain ⟨b'', e2, ok2, hby2⟩ := ih b' ok (by rw [hby, List.length_drop]; omega)
      refine ⟨b'', ?_, ok2, ?_⟩
      · simp only [runBuf, e, e2, cutBytes, hby, Option.map_some]
      · rw [hby2, hby]; rfl
    | copy n =>
      simp only [BufOp.size] at hs
      obtain ⟨b', e, ok, hby⟩ := h.copy b n hb (by omega)
      obtain ⟨b'', e2, ok2, hby2⟩ := ih b' ok (by rw [hby, List.length_drop]; omega)
      refine ⟨b'', ?_, ok2, ?_⟩
      · simp only [runBuf, e, e2, cutBytes, hby, Option.map_some]
      · rw [hby2, hby]; rfl

/-- Lists of byte strings, and lists of lists of them, are instances. -/
example : Stands (bufListBuf bytesBuf) (AllNonempty (fun _ => True) id) (concat id) :=
  C36_list_is_concatenation bytesBuf_stands

example : runBuf (bufListBuf bytesBuf) [ascii "Hello", ascii " ", ascii "World"] [.copy 4, .advance 3, .copy 2] =
    some ([ascii "Hell", [], ascii "or"], [ascii "ld"]) ∧
    BufList.vectored bytesBuf [ascii "Hello", ascii " ", ascii "World"] 2 = [ascii "Hello", ascii " "] := by decide +kernel

end Hyper
