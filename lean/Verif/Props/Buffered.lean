import Verif.Proof.Buffered
import Mathlib.Data.Nat.Find

/-! # The read buffer: C30, C31, C32 -/

namespace Hyper

open Spec

/-! ## C30 -/

/-- C30.  The quick check answers `incomplete` only if no head terminator ends within the new bytes. -/
theorem C30_no_terminator_missed (bytes : Bytes) (prevLen k : Nat)
    (h : isCompleteFast bytes prevLen = some false) (hk : prevLen < k) : ¬ HeadEndsAt bytes k := by
  rintro ⟨hle, pre, t, ht, e⟩
  unfold isCompleteFast at h
  split at h
  · simp only [Option.some.injEq] at h
    have hlen := congrArg List.length e
    rw [List.length_take, List.length_append, Nat.min_eq_left hle] at hlen
    have htl : t.length ≤ 3 := by rcases ht with rfl | rfl <;> simp
    have : scanComplete (bytes.drop (prevLen - 3)) = true := by
      rw [scanComplete_iff]
      refine ⟨pre.drop (prevLen - 3), t, bytes.drop k, ht, ?_⟩
      have hsplit : bytes = pre ++ t ++ bytes.drop k := by rw [← e, List.take_append_drop]
      conv => lhs; rw [hsplit]
      rw [List.append_assoc, List.drop_append_of_le_length (by omega), List.append_assoc]
    rw [this] at h; simp at h
  · simp at h

/-- The check is not trivial: `complete` is answered only if a terminator begins in the last three old
bytes or in the new ones. -/
theorem C30_complete_has_terminator (bytes : Bytes) (prevLen : Nat)
    (h : isCompleteFast bytes prevLen = some true) : ∃ k, prevLen - 3 < k ∧ HeadEndsAt bytes k := by
  unfold isCompleteFast at h
  split at h
  · rename_i hle
    simp only [Option.some.injEq] at h
    obtain ⟨pre, t, post, ht, e⟩ := (scanComplete_iff _).mp h
    have hsplit : bytes = bytes.take (prevLen - 3) ++ pre ++ t ++ post := by
      conv => lhs; rw [← List.take_append_drop (prevLen - 3) bytes, e]
      simp
    have hl : (bytes.take (prevLen - 3)).length = prevLen - 3 := by simp; omega
    have htl : 2 ≤ t.length := by rcases ht with rfl | rfl <;> simp
    have hlen := congrArg List.length hsplit
    rw [List.length_append, List.length_append, List.length_append, hl] at hlen
    refine ⟨prevLen - 3 + pre.length + t.length, by omega, by omega, bytes.take (prevLen - 3) ++ pre, t, ht, ?_⟩
    generalize bytes.take (prevLen - 3) = a at hsplit hl
    rw [hsplit, ← hl, ← List.length_append, ← List.length_append, List.take_left]
  · simp at h

/-- C30 where it matters: for any tokeniser of heads, if the bytes seen before held no complete head
and the bytes there are now do, the quick check lets the parser run. -/
theorem C30_complete_head_never_skipped {T : Bytes → Option Nat} (hT : Tokeniser T) (bytes : Bytes)
    (prevLen k : Nat) (hle : prevLen ≤ bytes.length) (hprev : T (bytes.take prevLen) = none)
    (hnow : T bytes = some k) : isCompleteFast bytes prevLen = some true := by
  have hk : prevLen < k := by
    rcases Nat.lt_or_ge prevLen k with h | h
    · exact h
    · rw [hT.local_ bytes k prevLen hnow h] at hprev; simp at hprev
  cases h : isCompleteFast bytes prevLen with
  | none => unfold isCompleteFast at h; rw [if_pos (by omega)] at h; simp at h
  | some b =>
    cases b with
    | true => rfl
    | false => exact absurd (hT.ends bytes k hnow) (C30_no_terminator_missed bytes prevLen k h hk)

theorem headEndsAt_take {bytes : Bytes} {n j : Nat} : HeadEndsAt (bytes.take n) j ↔ HeadEndsAt bytes j ∧ j ≤ n ∨
    HeadEndsAt bytes j ∧ bytes.length ≤ n := by
  unfold HeadEndsAt
  rw [List.length_take, List.take_take]
  constructor
  · rintro ⟨h, h2⟩
    rw [Nat.min_eq_left (by omega)] at h2
    exact .inl ⟨⟨by omega, h2⟩, by omega⟩
  · rintro (⟨⟨h, h2⟩, h3⟩ | ⟨⟨h, h2⟩, h3⟩) <;> exact ⟨by omega, by rwa [Nat.min_eq_left (by omega)]⟩

open Classical in
/-- A tokeniser: the first place where a terminator ends. -/
noncomputable def firstEnd (bytes : Bytes) : Option Nat :=
  if h : ∃ k, HeadEndsAt bytes k then some (Nat.find h) else none

/-- What is asked of tokenisers can be met. -/
theorem firstEnd_tokeniser : Tokeniser firstEnd := by
  classical
  constructor
  · intro bytes k h
    unfold firstEnd at h
    split at h
    · rename_i hx
      simp only [Option.some.injEq] at h
      rw [← h]; exact Nat.find_spec hx
    · simp at h
  · intro bytes k n h hk
    unfold firstEnd at h ⊢
    split at h
    · rename_i hx
      simp only [Option.some.injEq] at h
      have hks : HeadEndsAt bytes k := by rw [← h]; exact Nat.find_spec hx
      have hx' : ∃ k, HeadEndsAt (bytes.take n) k := ⟨k, headEndsAt_take.mpr (.inl ⟨hks, hk⟩)⟩
      rw [dif_pos hx']
      simp only [Option.some.injEq]
      rw [Nat.find_eq_iff]
      refine ⟨headEndsAt_take.mpr (.inl ⟨hks, hk⟩), ?_⟩
      intro j hj hh
      have : HeadEndsAt bytes j := by
        rcases headEndsAt_take.mp hh with g | g <;> exact g.1
      have hmin : Nat.find hx ≤ j := Nat.find_min' hx this
      omega
    · simp at h

example : isCompleteFast (ascii "GET / HTTP/1.1\r\nA: b\r\n\r\n") 23 = some true ∧
    isCompleteFast (ascii "GET / HTTP/1.1\r\nA: b\r\n\r") 22 = some false ∧
    HeadEndsAt (ascii "GET / HTTP/1.1\r\nA: b\r\n\r\n") 24 := by
  refine ⟨by decide +kernel, by decide +kernel, ⟨by decide, ascii "GET / HTTP/1.1\r\nA: b\r", [10, 13, 10], .inr rfl, by decide +kernel⟩⟩

/-! ## C32 -/

/-- The strategy after a sequence of reads, from a fresh adaptive one. -/
def adaptiveAfter (max : Nat) (reads : List Nat) : ReadStrategy :=
  reads.foldl ReadStrategy.record (ReadStrategy.withMax max)

theorem adaptiveAfter_append (max : Nat) (xs ys : List Nat) :
    adaptiveAfter max (xs ++ ys) = ys.foldl ReadStrategy.record (adaptiveAfter max xs) := by
  simp [adaptiveAfter]

theorem record_next (d : Bool) (n m x : Nat) : ((ReadStrategy.adaptive d n m).record x).next =
    if x ≥ n then min (min (n * 2) usizeMax) m
    else if x < prevPowerOfTwo n then (if d = true then Max.max (prevPowerOfTwo n) 8192 else n) else n := by
  simp only [ReadStrategy.record, incrPowerOfTwo, initBufferSize]
  repeat' split
  all_goals rfl

theorem adaptiveAfter_form (max : Nat) (hmax : 8192 ≤ max) (hm : max ≤ usizeMax) (reads : List Nat) :
    ∃ d n, adaptiveAfter max reads = .adaptive d n max ∧ 8192 ≤ n ∧ n ≤ max := by
  rcases List.eq_nil_or_concat reads with rfl | ⟨xs, x, rfl⟩
  · exact ⟨false, 8192, rfl, by omega, hmax⟩
  · obtain ⟨d, n, e, h1, h2⟩ := adaptiveAfter_form max hmax hm xs
    have hp := prevPowerOfTwo_spec (n := n) (by omega) (by omega)
    obtain ⟨_, hp1, hp2⟩ := hp
    rw [List.concat_eq_append, adaptiveAfter_append, e]
    simp only [List.foldl_cons, List.foldl_nil, ReadStrategy.record, incrPowerOfTwo, initBufferSize]
    split
    · exact ⟨_, _, rfl, by simp only [usizeMax] at *; omega, by omega⟩
    · split
      · split
        · exact ⟨_, _, rfl, Nat.le_max_right _ _, by omega⟩
        · exact ⟨_, _, rfl, h1, h2⟩
      · exact ⟨_, _, rfl, h1, h2⟩
termination_by reads.length

/-- C32.  The adaptive read size is at least 8 KiB and at most the maximum. -/
theorem C32_within_bounds (max : Nat) (hmax : 8192 ≤ max) (hm : max ≤ usizeMax) (reads : List Nat) :
    8192 ≤ (adaptiveAfter max reads).next ∧ (adaptiveAfter max reads).next ≤ max := by
  obtain ⟨d, n, e, h1, h2⟩ := adaptiveAfter_form max hmax hm reads
  rw [e]; exact ⟨h1, h2⟩

/-- C32.  The size grows only after a read that filled it, and then to twice itself or the maximum. -/
theorem C32_grows_only_when_filled (max : Nat) (hmax : 8192 ≤ max) (hm : max ≤ usizeMax) (reads : List Nat) (a : Nat) :
    (a ≥ (adaptiveAfter max reads).next →
      (adaptiveAfter max (reads ++ [a])).next = min (2 * (adaptiveAfter max reads).next) max) ∧
    (a < (adaptiveAfter max reads).next →
      (adaptiveAfter max (reads ++ [a])).next ≤ (adaptiveAfter max reads).next) := by
  obtain ⟨d, n, e, h1, h2⟩ := adaptiveAfter_form max hmax hm reads
  have hp := prevPowerOfTwo_spec (n := n) (by omega) (by omega)
  obtain ⟨_, hp1, hp2⟩ := hp
  rw [adaptiveAfter_append, e]
  simp only [List.foldl_cons, List.foldl_nil, record_next]
  simp only [ReadStrategy.next]
  constructor
  · intro h
    rw [if_pos h]
    simp only [usizeMax] at *
    omega
  · intro h
    rw [if_neg (by omega)]
    split
    · split
      · omega
      · exact Nat.le_refl _
    · exact Nat.le_refl _

/-- C32.  The size shrinks only after two consecutive reads each smaller than half of it, and then to the
largest power of two that is at most its half, but not below 8 KiB. -/
theorem C32_shrinks_after_two (max : Nat) (hmax : 8192 ≤ max) (hm : max ≤ usizeMax) (reads : List Nat) (b : Nat)
    (h : (adaptiveAfter max (reads ++ [b])).next < (adaptiveAfter max reads).next) :
    ∃ before a p, reads = before ++ [a] ∧ HalfPower (adaptiveAfter max reads).next p ∧
      (adaptiveAfter max before).next = (adaptiveAfter max reads).next ∧ a < p ∧ b < p ∧
      (adaptiveAfter max (reads ++ [b])).next = Max.max p 8192 := by
  have key : ∀ d n, adaptiveAfter max reads = .adaptive d n max → d = true →
      ∃ before a, reads = before ++ [a] ∧ (adaptiveAfter max before).next = n ∧ a < prevPowerOfTwo n := by
    intro d n e hd
    subst hd
    rcases List.eq_nil_or_concat reads with rfl | ⟨xs, x, rfl⟩
    · simp [adaptiveAfter, ReadStrategy.withMax] at e
    · obtain ⟨d', n', e', h1, h2⟩ := adaptiveAfter_form max hmax hm xs
      refine ⟨xs, x, List.concat_eq_append, ?_⟩
      rw [List.concat_eq_append, adaptiveAfter_append, e'] at e
      simp only [List.foldl_cons, List.foldl_nil, ReadStrategy.record] at e
      rw [e']
      simp only [ReadStrategy.next]
      split at e
      · simp at e
      · split at e
        · split at e
          · simp at e
          · simp only [ReadStrategy.adaptive.injEq, true_and, and_true] at e
            subst e
            exact ⟨rfl, by assumption⟩
        · simp at e
  obtain ⟨d, n, e, h1, h2⟩ := adaptiveAfter_form max hmax hm reads
  have hp := prevPowerOfTwo_spec (n := n) (by omega) (by omega)
  rw [adaptiveAfter_append, e] at h ⊢
  simp only [List.foldl_cons, List.foldl_nil, record_next] at h ⊢
  simp only [ReadStrategy.next] at h ⊢
  split at h
  · simp only [usizeMax] at *; omega
  · split at h
    · split at h
      · rename_i g1 g2 g3
        obtain ⟨before, a, e1, e2, e3⟩ := key d n e g3
        refine ⟨before, a, prevPowerOfTwo n, e1, hp, e2, e3, g2, ?_⟩
        rw [if_neg g1, if_pos g2, if_pos g3]
      · omega
    · omega

example : (adaptiveAfter 20000 [8192]).next = 16384 ∧ (adaptiveAfter 20000 [8192, 16384]).next = 20000 ∧
    (adaptiveAfter 20000 [8192, 16384, 1, 2]).next = 8192 ∧ (adaptiveAfter 20000 [8192, 16384, 1, 9000, 2]).next = 20000 := by
  decide +kernel

/-- The exact strategy never changes. -/
theorem C32_exact_constant (n : Nat) (reads : List Nat) :
    reads.foldl ReadStrategy.record (.exact n) = .exact n := by
  induction reads with
  | nil => rfl
  | cons a t ih => exact ih

/-! ## C31 -/

/-- Read buffers a connection can have: a fresh one with some strategy, and what calls of `parse`,
reads into an empty buffer, and taking bytes off the front make of it.  After a `parse` that failed
the connection does not parse again (`on_read_head_error`, conn.rs 333-357). -/
inductive Buffered {M : Type} (grow : Reserve) (P : HeadParser M) (strategy : ReadStrategy) : ReadSide → Prop where
  | fresh : Buffered grow P strategy ⟨[], 0, none, false, strategy⟩
  | parse {s} (ios : List IoRead) : Buffered grow P strategy s →
      ((s.parse grow P ios).1 = .pending ∨ ∃ m, (s.parse grow P ios).1 = .message m) →
      Buffered grow P strategy (s.parse grow P ios).2.1
  | read {s} (io : IoRead) : Buffered grow P strategy s → s.buf = [] →
      Buffered grow P strategy (s.pollRead grow io).2
  | consume {s} (n : Nat) : Buffered grow P strategy s → n ≤ s.buf.length → s.partialLen = none →
      Buffered grow P strategy (s.leave (s.buf.drop n))

theorem record_max (s : ReadStrategy) (n : Nat) : (s.record n).max = s.max := by
  cases s with
  | adaptive d a b => unfold ReadStrategy.record; simp only; (repeat' split) <;> rfl
  | exact n => rfl

/-- The loop of `parse` keeps what one turn of it keeps. -/
theorem parse_keeps {M : Type} {grow : Reserve} {P : HeadParser M} {I : ReadSide → Prop}
    (hleave : ∀ s, I s → I (s.leave (P s.buf).2))
    (hself : ∀ s, I s → I (s.leave s.buf))
    (hnone : ∀ s, I s → I { s with partialLen := none })
    (hset : ∀ s, I s → I s.setPartial)
    (hread : ∀ s io, I s → s.buf.length < s.strategy.max → s.partialLen = (if s.buf.length > 0 then some s.buf.length else none) →
      I (s.pollRead grow io).2) :
    ∀ ios s, I s → I (s.parse grow P ios).2.1 := by
  have hph : ∀ s : ReadSide, I s → I (s.leave (parseHeaders P s.buf s.partialLen).2) := by
    intro s hs
    unfold parseHeaders
    have ho : ∀ r : Except Unit (Option M) × Bytes, (HeadRes.ofParser r).2 = r.2 := by
      rintro ⟨(_ | _ | _), b⟩ <;> rfl
    split
    · exact hself s hs
    · split
      · rw [ho]; exact hleave s hs
      · split
        · exact hself s hs
        · exact hself s hs
        · rw [ho]; exact hleave s hs
  intro ios
  induction ios with
  | nil =>
    intro s hs
    have hl := hph s hs
    unfold ReadSide.parse
    split
    · rename_i m b heq; rw [heq] at hl; exact hnone _ hl
    · rename_i b heq; rw [heq] at hl; exact hl
    · rename_i b heq; rw [heq] at hl; exact hl
    · rename_i b heq
      rw [heq] at hl
      split
      · exact hl
      · rename_i hlt
        refine hread _ .pending (hset _ hl) ?_ rfl
        simp only [ReadSide.leave, ReadSide.setPartial]; omega
  | cons io rest ih =>
    intro s hs
    have hl := hph s hs
    unfold ReadSide.parse
    split
    · rename_i m b heq; rw [heq] at hl; exact hnone _ hl
    · rename_i b heq; rw [heq] at hl; exact hl
    · rename_i b heq; rw [heq] at hl; exact hl
    · rename_i b heq
      rw [heq] at hl
      split
      · exact hl
      · rename_i hlt
        have hr := hread _ io (hset _ hl) (by simp only [ReadSide.leave, ReadSide.setPartial]; omega) rfl
        split <;> (rename_i s' heq2; rw [heq2] at hr)
        · exact hr
        · exact hr
        · exact hr
        · exact ih s' hr

/-- What is asked of `BytesMut::reserve`: room for the additional bytes. -/
def Spec.Reserves (grow : Reserve) : Prop := ∀ len cap add, len + add ≤ grow len cap add

/-- `reserve` allocates exactly what is asked for. -/
def Spec.ReservesExactly (grow : Reserve) : Prop := ∀ len cap add, grow len cap add = len + add

/-- `reserve` allocates what is asked for or doubles, as `Vec` does. -/
def Spec.ReservesDoubling (grow : Reserve) : Prop :=
  ∀ len cap add, len + add ≤ grow len cap add ∧ grow len cap add ≤ Max.max (2 * cap) (len + add)

/-- The parser hands back no more than it was given. -/
def Spec.Takes {M : Type} (P : HeadParser M) : Prop := ∀ b, (P b).2.length ≤ b.length

theorem room_ge {grow : Reserve} (hg : Reserves grow) {s : ReadSide} (h : s.buf.length ≤ s.cap) :
    s.cap ≤ s.room grow ∨ s.buf.length + s.want ≤ s.room grow := by
  unfold ReadSide.room; split
  · exact .inr (hg _ _ _)
  · exact .inl (Nat.le_refl _)

theorem pollRead_bounds {grow : Reserve} {B max : Nat} (hg : Reserves grow)
    (hB : ∀ len cap add, len ≤ cap → cap < max → len + add ≤ max → grow len cap add ≤ B)
    (s : ReadSide) (io : IoRead) (h1 : s.strategy.max = max) (h2 : s.buf.length ≤ s.cap) (h3 : s.cap ≤ B) :
    (s.pollRead grow io).2.strategy.max = max ∧ (s.pollRead grow io).2.buf.length ≤ (s.pollRead grow io).2.cap ∧
      (s.pollRead grow io).2.cap ≤ B := by
  have hw : s.want ≤ max - s.buf.length := by unfold ReadSide.want; rw [h1]; omega
  have hr : s.room grow ≤ B ∧ s.buf.length ≤ s.room grow := by
    unfold ReadSide.room
    split
    · have := hg s.buf.length s.cap s.want
      exact ⟨hB _ _ _ h2 (by omega) (by omega), by omega⟩
    · exact ⟨h3, h2⟩
  unfold ReadSide.pollRead
  cases io with
  | data bs =>
    refine ⟨by simp only [record_max]; exact h1, ?_, hr.1⟩
    simp only [List.length_append, List.length_take]
    omega
  | pending => exact ⟨h1, hr.2, hr.1⟩
  | error => exact ⟨h1, hr.2, hr.1⟩

/-- How much can be buffered depends only on how much `reserve` grants to a buffer that is below the
maximum and asks for no more than the maximum. -/
theorem buffered_bound {M : Type} {grow : Reserve} {P : HeadParser M} {strategy : ReadStrategy} {B : Nat}
    (hg : Reserves grow) (hP : Takes P)
    (hB : ∀ len cap add, len ≤ cap → cap < strategy.max → len + add ≤ strategy.max → grow len cap add ≤ B)
    {s : ReadSide} (h : Buffered grow P strategy s) :
    (s.strategy.max = strategy.max ∧ s.buf.length ≤ s.cap ∧ s.cap ≤ B) ∧
    ∀ ios, (s.parse grow P ios).2.1.strategy.max = strategy.max ∧
      (s.parse grow P ios).2.1.buf.length ≤ (s.parse grow P ios).2.1.cap ∧ (s.parse grow P ios).2.1.cap ≤ B := by
  have hp : ∀ ios (s : ReadSide), (s.strategy.max = strategy.max ∧ s.buf.length ≤ s.cap ∧ s.cap ≤ B) →
      (s.parse grow P ios).2.1.strategy.max = strategy.max ∧
      (s.parse grow P ios).2.1.buf.length ≤ (s.parse grow P ios).2.1.cap ∧ (s.parse grow P ios).2.1.cap ≤ B := by
    refine parse_keeps (I := fun s => s.strategy.max = strategy.max ∧ s.buf.length ≤ s.cap ∧ s.cap ≤ B)
      ?_ ?_ ?_ ?_ ?_
    · rintro s ⟨h1, h2, h3⟩
      have := hP s.buf
      exact ⟨h1, by simp only [ReadSide.leave]; omega, by simp only [ReadSide.leave]; omega⟩
    · rintro s ⟨h1, h2, h3⟩
      exact ⟨h1, by simp only [ReadSide.leave]; omega, by simp only [ReadSide.leave]; omega⟩
    · exact fun s h => h
    · exact fun s h => h
    · rintro s io ⟨h1, h2, h3⟩ _ _
      exact pollRead_bounds hg hB s io h1 h2 h3
  have hs : s.strategy.max = strategy.max ∧ s.buf.length ≤ s.cap ∧ s.cap ≤ B := by
    induction h with
    | fresh => exact ⟨rfl, by simp, by simp⟩
    | parse ios _ _ ih => exact hp ios _ ih
    | read io _ _ ih => exact pollRead_bounds hg hB _ io ih.1 ih.2.1 ih.2.2
    | consume n _ hn _ ih =>
      obtain ⟨h1, h2, h3⟩ := ih
      refine ⟨h1, ?_, ?_⟩ <;> simp only [ReadSide.leave, List.length_drop] <;> omega
  exact ⟨hs, fun ios => hp ios s hs⟩

/-- C31, first half, for an allocator that grants exactly what is asked: the buffer never exceeds the
maximum.  For `Vec`'s doubling the claim is false (`C31_maximum_exceeded`). -/
theorem C31_never_exceeds_partial {M : Type} (grow : Reserve) (P : HeadParser M) (strategy : ReadStrategy)
    (hg : ReservesExactly grow) (hP : Takes P) (s : ReadSide) (h : Buffered grow P strategy s) :
    s.buf.length ≤ strategy.max ∧ ∀ ios, (s.parse grow P ios).2.1.buf.length ≤ strategy.max := by
  have := buffered_bound (B := strategy.max) (fun l c a => by rw [hg]) hP
    (fun l c a _ _ h => by rw [hg]; exact h) h
  exact ⟨by omega, fun ios => by have := this.2 ios; omega⟩

/-- C31: with a doubling allocator the buffer stays within twice the maximum. -/
theorem C31_at_most_twice {M : Type} (grow : Reserve) (P : HeadParser M) (strategy : ReadStrategy)
    (hg : ReservesDoubling grow) (hP : Takes P) (s : ReadSide) (h : Buffered grow P strategy s) :
    s.buf.length ≤ 2 * strategy.max ∧ ∀ ios, (s.parse grow P ios).2.1.buf.length ≤ 2 * strategy.max := by
  have := buffered_bound (B := 2 * strategy.max) (fun l c a => (hg l c a).1) hP
    (fun l c a _ _ h => by have := (hg l c a).2; omega) h
  exact ⟨by omega, fun ios => by have := this.2 ios; omega⟩

/-- C31, second half: with the maximum reached and no head complete, the outcome is `too large`, nothing more is
read and nothing is added to the buffer. -/
theorem C31_too_large_reported {M : Type} (grow : Reserve) (P : HeadParser M) (s : ReadSide) (ios : List IoRead)
    (b : Bytes) (h : parseHeaders P s.buf s.partialLen = (.none, b)) (hmax : s.strategy.max ≤ b.length) :
    s.parse grow P ios = (.tooLarge, s.leave b, ios) := by
  cases ios <;> (unfold ReadSide.parse; rw [h]; simp only [ge_iff_le]; rw [if_pos hmax])

/-- C31: only then; and a call that ends waiting for more leaves less than the maximum in the buffer. -/
theorem C31_waits_below_maximum {M : Type} (grow : Reserve) (P : HeadParser M) (s : ReadSide) (ios : List IoRead) :
    ((s.parse grow P ios).1 = .pending → (s.parse grow P ios).2.1.buf.length < (s.parse grow P ios).2.1.strategy.max) ∧
    ((s.parse grow P ios).1 = .tooLarge → (s.parse grow P ios).2.1.strategy.max ≤ (s.parse grow P ios).2.1.buf.length) := by
  induction ios generalizing s with
  | nil =>
    unfold ReadSide.parse
    split
    · simp
    · simp
    · simp
    · split
      · rename_i b _ hh; simpa [ReadSide.leave] using hh
      · rename_i b _ hh; simpa [ReadSide.leave, ReadSide.setPartial, ReadSide.pollRead] using hh
  | cons io rest ih =>
    unfold ReadSide.parse
    split
    · simp
    · simp
    · simp
    · rename_i b heq
      split
      · rename_i hh; simpa [ReadSide.leave] using hh
      · rename_i hh
        split
        · rename_i s' heq2
          cases io with
          | data bs => simp [ReadSide.pollRead] at heq2
          | error => simp [ReadSide.pollRead] at heq2
          | pending =>
            simp only [ReadSide.pollRead, Prod.mk.injEq, true_and] at heq2
            subst heq2
            simpa [ReadSide.leave, ReadSide.setPartial] using hh
        · simp
        · simp
        · rename_i s' _; exact ih s'

/-- C31: below the maximum there is always room for at least one byte, so data offered by the transport is never
mistaken for the end of the stream. -/
theorem C31_room_to_read (grow : Reserve) (hg : Reserves grow) (s : ReadSide) (b : Byte) (bs : Bytes)
    (hlen : s.buf.length < s.strategy.max) (hnext : 0 < s.strategy.next) (hcap : s.buf.length ≤ s.cap) :
    ∃ n, (s.pollRead grow (.data (b :: bs))).1 = .read (n + 1) := by
  have hw : 0 < s.want := by unfold ReadSide.want; omega
  have : s.buf.length < s.room grow := by
    unfold ReadSide.room
    split
    · have := hg s.buf.length s.cap s.want; omega
    · omega
  refine ⟨min (s.room grow - s.buf.length) (b :: bs).length - 1, ?_⟩
  simp only [ReadSide.pollRead, List.length_take, ReadRes.read.injEq, List.length_cons]
  omega

/-- C31: the quick check never panics: the length remembered is within the buffer. -/
theorem C31_no_panic {M : Type} (grow : Reserve) (P : HeadParser M) (strategy : ReadStrategy)
    (s : ReadSide) (h : Buffered grow P strategy s) (ios : List IoRead) : (s.parse grow P ios).1 ≠ .panic := by
  have hph : ∀ s : ReadSide, (∀ n, s.partialLen = some n → n ≤ s.buf.length) → ∀ b,
      parseHeaders P s.buf s.partialLen ≠ (.panic, b) := by
    intro s hs b hh
    have ho : ∀ r : Except Unit (Option M) × Bytes, HeadRes.ofParser r ≠ (.panic, b) := by
      rintro ⟨(_ | _ | _), b⟩ <;> simp [HeadRes.ofParser]
    unfold parseHeaders at hh
    split at hh
    · simp at hh
    · split at hh
      · exact ho _ hh
      · rename_i n hn
        have := hs n hn
        unfold isCompleteFast at hh
        rw [if_pos (by omega)] at hh
        split at hh
        · simp at *
        · simp at hh
        · exact ho _ hh
  have hset : ∀ s : ReadSide, ∀ n, s.setPartial.partialLen = some n → n ≤ s.setPartial.buf.length := by
    intro s n hn
    simp only [ReadSide.setPartial] at hn ⊢
    split at hn
    · simp only [Option.some.injEq] at hn; omega
    · simp at hn
  have hrd : ∀ (s : ReadSide) io, (∀ n, s.partialLen = some n → n ≤ s.buf.length) →
      ∀ n, (s.pollRead grow io).2.partialLen = some n → n ≤ (s.pollRead grow io).2.buf.length := by
    intro s io hs n hn
    cases io with
    | data bs =>
      have := hs n hn
      simp only [ReadSide.pollRead, List.length_append]; omega
    | pending => exact hs n hn
    | error => exact hs n hn
  have hloop : ∀ ios (s : ReadSide), (∀ n, s.partialLen = some n → n ≤ s.buf.length) →
      (s.parse grow P ios).1 ≠ .panic ∧
      ((s.parse grow P ios).1 = .pending ∨ (∃ m, (s.parse grow P ios).1 = .message m) → ∀ n,
        (s.parse grow P ios).2.1.partialLen = some n → n ≤ (s.parse grow P ios).2.1.buf.length) := by
    intro ios
    induction ios with
    | nil =>
      intro s hs
      unfold ReadSide.parse
      split
      · simp
      · simp
      · rename_i b heq; exact absurd heq (hph s hs b)
      · split
        · simp
        · exact ⟨by simp, fun _ => hrd _ _ (hset _)⟩
    | cons io rest ih =>
      intro s hs
      unfold ReadSide.parse
      split
      · simp
      · simp
      · rename_i b heq; exact absurd heq (hph s hs b)
      · rename_i b heq
        split
        · simp
        · have h2 := hrd (s.leave b).setPartial io (hset _)
          split <;> (rename_i s' heq2; rw [heq2] at h2)
          · exact ⟨by simp, fun _ => h2⟩
          · simp
          · simp
          · exact ih s' h2
  refine (hloop ios s ?_).1
  induction h with
  | fresh => simp
  | parse ios _ hok ih => exact (hloop ios _ ih).2 hok
  | read io _ _ ih => exact hrd _ io ih
  | consume n _ hn hnone _ => simp [ReadSide.leave, hnone]

/-- A parser that never finds a head. -/
def neverP : HeadParser Unit := fun b => (.ok none, b)

theorem parseHeaders_never (b : Bytes) (prev : Option Nat) (h : ∀ n, prev = some n → n ≤ b.length) :
    parseHeaders neverP b prev = (.none, b) := by
  unfold parseHeaders
  split
  · rfl
  · cases prev with
    | none => rfl
    | some n =>
      have := h n rfl
      simp only [isCompleteFast]
      rw [if_pos (by omega)]
      cases scanComplete (b.drop (n - 3)) <;> rfl

/-- C31 is false of the code as it stands with `Vec`'s doubling: with a maximum of 10000, two reads
put 16384 bytes of an incomplete head into the buffer before the too-large error. -/
theorem C31_maximum_exceeded :
    ∃ (grow : Reserve) (ios : List IoRead), ReservesDoubling grow ∧
      ((ReadSide.mk [] 0 none false (.withMax 10000)).parse grow neverP ios).1 = .tooLarge ∧
      ((ReadSide.mk [] 0 none false (.withMax 10000)).parse grow neverP ios).2.1.buf.length = 16384 := by
  obtain ⟨a, ha⟩ : ∃ a : Bytes, a.length = 8192 := ⟨List.replicate 8192 65, List.length_replicate⟩
  refine ⟨fun len cap add => Max.max (2 * cap) (len + add),
    [.data (a), .data (a)], ?_, ?_⟩
  · intro len cap add; simp only; omega
  · generalize hgrow : (fun len cap add => Max.max (2 * cap) (len + add) : Reserve) = grow
    have hg : ∀ len cap add, grow len cap add = Max.max (2 * cap) (len + add) := by subst hgrow; simp
    have e1 : ∀ s : ReadSide, s.leave s.buf = s := by intro s; simp [ReadSide.leave]
    have step : ∀ (s : ReadSide) (io : IoRead) (rest : List IoRead) (n : Nat) (s' : ReadSide),
        (∀ n, s.partialLen = some n → n ≤ s.buf.length) → s.buf.length < s.strategy.max →
        s.setPartial.pollRead grow io = (.read (n + 1), s') → s.parse grow neverP (io :: rest) = s'.parse grow neverP rest := by
      intro s io rest n s' h1 h2 h3
      conv => lhs; unfold ReadSide.parse
      rw [parseHeaders_never _ _ h1]
      simp only [e1]
      rw [if_neg (by omega), h3]
    have p1 : (ReadSide.mk [] 0 none false (.withMax 10000)).setPartial.pollRead grow (.data (a)) =
        (.read (8191 + 1), ⟨a, 8192, none, false, .adaptive false 10000 10000⟩) := by
      have ht : a.take 8192 = a := List.take_of_length_le (by omega)
      simp [ha, ht, ReadSide.pollRead, ReadSide.setPartial, ReadSide.room, ReadSide.want, ReadStrategy.withMax, ReadStrategy.next,
        ReadStrategy.max, hg, initBufferSize, ReadStrategy.record, incrPowerOfTwo, usizeMax]
    have p2 : (ReadSide.mk (a) 8192 none false (.adaptive false 10000 10000)).setPartial.pollRead grow
          (.data (a)) =
        (.read (8191 + 1), ⟨a ++ a, 16384, some 8192, false,
          (ReadStrategy.adaptive false 10000 10000).record 8192⟩) := by
      have ht : a.take 8192 = a := List.take_of_length_le (by omega)
      simp [ha, ht, ReadSide.pollRead, ReadSide.setPartial, ReadSide.room, ReadSide.want, ReadStrategy.next, ReadStrategy.max, hg]
    rw [step _ _ _ _ _ (by simp) (by simp [ReadStrategy.withMax, ReadStrategy.max]) p1,
      step _ _ _ _ _ (by simp) (by simp [ha, ReadStrategy.max]) p2]
    rw [C31_too_large_reported grow neverP _ [] _ (parseHeaders_never _ _ (by simp [ha])) (by rw [record_max]; simp [ha, ReadStrategy.max])]
    simp [ReadSide.leave, ha]

example : ReservesExactly (fun len _ add => len + add) ∧ Takes neverP ∧
    Buffered (fun len _ add => len + add) neverP (.withMax 8192)
      ((ReadSide.mk [] 0 none false (.withMax 8192)).parse (fun len _ add => len + add) neverP
        [.data (ascii "GET /"), .data (ascii " HTTP/1.1\r\n"), .pending]).2.1 ∧
    ((ReadSide.mk [] 0 none false (.withMax 8192)).parse (fun len _ add => len + add) neverP
        [.data (ascii "GET /"), .data (ascii " HTTP/1.1\r\n"), .pending]).2.1.partialLen = some 16 :=
  ⟨fun _ _ _ => rfl, fun _ => Nat.le_refl _, .parse _ .fresh (.inl (by decide +kernel)), by decide +kernel⟩

end Hyper
