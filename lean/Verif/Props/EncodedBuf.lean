import Verif.Model.EncodedBuf
import Verif.Props.WriteBuf
import Verif.Proof.Encode

/-! # Encoded buffers: C86 -/

namespace Hyper

open Spec

/-- The bytes an encoded buffer is made to hold: those of its parts, in order; of a limited one the first so many. -/
def Spec.encHeld {β : Type} (bytes : β → Bytes) : EncodedBuf β → Bytes
  | .exact b => bytes b
  | .limited p => (bytes p.1).take p.2
  | .chunked p => (p.1.1.bytes.take p.1.1.len).drop p.1.1.pos ++ bytes p.1.2 ++ p.2
  | .chunkedEnd b => b
  | .trailers p => p.1.1 ++ p.1.2 ++ p.2

/-- The positions of a chunk size are in its array, in order. -/
def ChunkSize.Good (s : ChunkSize) : Prop := s.pos ≤ s.len ∧ s.len ≤ s.bytes.length

/-- The parts of an encoded buffer are good. -/
def EncodedBuf.Good {β : Type} (Ok : β → Prop) : EncodedBuf β → Prop
  | .exact b => Ok b
  | .limited p => Ok p.1
  | .chunked p => p.1.1.Good ∧ Ok p.1.2
  | .chunkedEnd _ => True
  | .trailers _ => True

/-- What is asked of the way `Take` fills slots: the same as of any buffer. -/
def TakeVec.Fine {β : Type} (tv : TakeVec β) (Ok : β → Prop) (bytes : β → Bytes) : Prop :=
  ∀ b n k, Ok b → (tv b n k).length ≤ k ∧ (∃ t, (bytes b).take n = (tv b n k).flatten ++ t) ∧
    ((tv b n k).length < k → (bytes b).take n = (tv b n k).flatten) ∧
    ((bytes b).take n ≠ [] → 0 < k → (tv b n k).flatten ≠ []) ∧ ((bytes b).take n = [] → tv b n k = [])

section
variable {α β : Type} {I : BufI β} {Ok : β → Prop} {bytes : β → Bytes}

/-- The default `copy_to_bytes` is right when `remaining`, `chunk` and `advance` are. -/
theorem putTake_ok (h1 : ∀ b, Ok b → I.remaining b = (bytes b).length)
    (h2 : ∀ b, Ok b → (∃ t, bytes b = I.chunk b ++ t) ∧ (bytes b ≠ [] → I.chunk b ≠ []))
    (h3 : ∀ b n, Ok b → n ≤ (bytes b).length → ∃ b', I.advance b n = some b' ∧ Ok b' ∧ bytes b' = (bytes b).drop n) :
    ∀ fuel b n, Ok b → n ≤ fuel → n ≤ (bytes b).length →
    ∃ b', putTake I.remaining I.chunk I.advance fuel b n = some ((bytes b).take n, b') ∧ Ok b' ∧ bytes b' = (bytes b).drop n := by
  intro fuel
  induction fuel with
  | zero =>
    intro l n hl hf hn
    obtain rfl : n = 0 := by omega
    exact ⟨l, by simp [putTake], hl, by simp⟩
  | succ fuel ih =>
    intro l n hl hf hn
    cases n with
    | zero => exact ⟨l, by simp [putTake], hl, by simp⟩
    | succ n =>
      obtain ⟨⟨tl, e⟩, hne⟩ := h2 l hl
      have hne' : I.chunk l ≠ [] := hne (by intro hh; rw [hh] at hn; simp at hn)
      have hpos : 0 < (I.chunk l).length := List.length_pos_iff.mpr hne'
      rw [putTake, if_neg (by rw [h1 l hl]; omega)]
      generalize hs : (I.chunk l).take (n + 1) = s
      have hsl : 0 < s.length ∧ s.length ≤ n + 1 := by rw [← hs, List.length_take]; omega
      have hst : (bytes l).take s.length = s := by
        rw [e, ← hs, List.length_take, List.take_append_of_le_length (by omega)]
        rcases Nat.le_total (n + 1) (I.chunk l).length with hh | hh
        · rw [Nat.min_eq_left hh]
        · rw [Nat.min_eq_right hh, List.take_of_length_le (Nat.le_refl _), List.take_of_length_le hh]
      obtain ⟨l', e1, ok1, b1⟩ := h3 l s.length hl (by omega)
      simp only [e1]
      obtain ⟨l'', e2, ok2, b2⟩ := ih l' (n + 1 - s.length) ok1 (by omega) (by rw [b1, List.length_drop]; omega)
      rw [e2]
      refine ⟨l'', ?_, ok2, ?_⟩
      · simp only [Option.map_some]
        congr 2
        rw [b1]
        have : s ++ ((bytes l).drop s.length).take (n + 1 - s.length) =
            (bytes l).take s.length ++ ((bytes l).drop s.length).take (n + 1 - s.length) := by rw [hst]
        rw [this, ← List.take_add]
        congr 1; omega
      · rw [b2, b1, List.drop_drop]; congr 1; omega

/-- The default `chunks_vectored` is right for a buffer whose chunk is all of it. -/
theorem defaultVectored_ok (b : β) (k : Nat) (h1 : I.remaining b = (bytes b).length) (h2 : I.chunk b = bytes b) :
    (defaultVectored I.remaining I.chunk b k).length ≤ k ∧ (∃ t, bytes b = (defaultVectored I.remaining I.chunk b k).flatten ++ t) ∧
    ((defaultVectored I.remaining I.chunk b k).length < k → bytes b = (defaultVectored I.remaining I.chunk b k).flatten) ∧
    (bytes b ≠ [] → 0 < k → (defaultVectored I.remaining I.chunk b k).flatten ≠ []) := by
  simp only [defaultVectored]
  by_cases hk : k = 0
  · subst hk; simp
  · rw [if_neg hk, h1, h2]
    by_cases hb : 0 < (bytes b).length
    · rw [if_pos hb]
      refine ⟨by simp; omega, ⟨[], by simp⟩, by simp, by simp only [List.flatten_singleton]; exact fun h _ => h⟩
    · rw [if_neg hb]
      have : bytes b = [] := List.eq_nil_of_length_eq_zero (by omega)
      rw [this]; simp

theorem chain_stands {J : BufI α} {Ok' : α → Prop} {bytes' : α → Bytes} (h : Stands I Ok bytes) (h' : Stands J Ok' bytes') :
    Stands (chainBuf I J) (fun p => Ok p.1 ∧ Ok' p.2) (fun p => bytes p.1 ++ bytes' p.2) where
  remaining p hp := by
    simp only [chainBuf, h.remaining _ hp.1, h'.remaining _ hp.2, List.length_append]
  chunk p hp := by
    obtain ⟨⟨t, e⟩, hne⟩ := h.chunk p.1 hp.1
    obtain ⟨⟨t', e'⟩, hne'⟩ := h'.chunk p.2 hp.2
    simp only [chainBuf, h.remaining _ hp.1]
    by_cases hz : 0 < (bytes p.1).length
    · rw [if_pos hz]
      exact ⟨⟨t ++ bytes' p.2, by rw [← List.append_assoc, ← e]⟩, fun _ => hne (List.length_pos_iff.mp hz)⟩
    · rw [if_neg hz]
      have : bytes p.1 = [] := List.eq_nil_of_length_eq_zero (by omega)
      rw [this]
      exact ⟨⟨t', by simpa using e'⟩, fun hh => hne' (by simpa using hh)⟩
  advance p n hp hn := by
    simp only [List.length_append] at hn
    simp only [chainBuf, h.remaining _ hp.1]
    by_cases hz : (bytes p.1).length = 0
    · rw [if_neg (by omega), if_neg (by omega)]
      obtain ⟨b', e, ok, hb⟩ := h'.advance p.2 n hp.2 (by omega)
      refine ⟨(p.1, b'), by rw [e]; rfl, ⟨hp.1, ok⟩, ?_⟩
      have : bytes p.1 = [] := List.eq_nil_of_length_eq_zero hz
      simp only [this, hb, List.nil_append]
    · by_cases hle : n ≤ (bytes p.1).length
      · rw [if_pos ⟨hz, hle⟩]
        obtain ⟨a', e, ok, hb⟩ := h.advance p.1 n hp.1 hle
        refine ⟨(a', p.2), by rw [e]; rfl, ⟨ok, hp.2⟩, ?_⟩
        simp only [hb]
        rw [List.drop_append_of_le_length hle]
      · rw [if_neg (by omega), if_pos hz]
        obtain ⟨a', e, ok, hb⟩ := h.advance p.1 (bytes p.1).length hp.1 (Nat.le_refl _)
        obtain ⟨b', e', ok', hb'⟩ := h'.advance p.2 (n - (bytes p.1).length) hp.2 (by omega)
        refine ⟨(a', b'), by rw [e]; simp only [e']; rfl, ⟨ok, ok'⟩, ?_⟩
        simp only [hb, hb', List.drop_length, List.nil_append]
        rw [List.drop_append, List.drop_of_length_le (l := bytes p.1) (by omega), List.nil_append]
  vectored p k hp := by
    obtain ⟨v1, ⟨t, e⟩, v3, v4⟩ := h.vectored p.1 k hp.1
    obtain ⟨w1, ⟨t', e'⟩, w3, w4⟩ := h'.vectored p.2 (k - (I.vectored p.1 k).length) hp.2
    simp only [chainBuf, List.length_append, List.flatten_append]
    by_cases hlt : (I.vectored p.1 k).length < k
    · have ev := v3 hlt
      refine ⟨by omega, ⟨t', by rw [← ev, e']; simp⟩, fun hh => by rw [← ev, ← w3 (by omega)], ?_⟩
      intro hne hk
      rw [← ev]
      intro hh
      obtain ⟨x, y⟩ := List.append_eq_nil_iff.mp hh
      rw [x] at hne
      exact w4 (by simpa using hne) (by omega) y
    · have hk : k - (I.vectored p.1 k).length = 0 := by omega
      have hl : (J.vectored p.2 (k - (I.vectored p.1 k).length)) = [] := List.eq_nil_of_length_eq_zero (by omega)
      rw [hl]
      refine ⟨by simp; omega, ⟨t ++ bytes' p.2, by rw [e]; simp⟩, fun hh => by simp at hh; omega, ?_⟩
      intro hne hk0
      simp only [List.flatten_nil, List.append_nil]
      by_cases hb : bytes p.1 = []
      · rw [h.empty p.1 k hp.1 hb] at hlt
        exact absurd hk0 hlt
      · exact v4 hb hk0
  empty p k hp he := by
    obtain ⟨x, y⟩ := List.append_eq_nil_iff.mp he
    simp only [chainBuf, h.empty p.1 k hp.1 x, h'.empty p.2 _ hp.2 y, List.append_nil]
  copy p n hp hn := by
    simp only [List.length_append] at hn
    simp only [chainBuf, h.remaining _ hp.1, h'.remaining _ hp.2]
    by_cases hle : n ≤ (bytes p.1).length
    · rw [if_pos hle]
      obtain ⟨a', e, ok, hb⟩ := h.copy p.1 n hp.1 hle
      refine ⟨(a', p.2), by rw [e]; simp [List.take_append_of_le_length hle], ⟨ok, hp.2⟩, ?_⟩
      simp only [hb]
      rw [List.drop_append_of_le_length hle]
    · rw [if_neg hle]
      have hdrop : (bytes p.1 ++ bytes' p.2).drop n = (bytes' p.2).drop (n - (bytes p.1).length) := by
        rw [List.drop_append, List.drop_of_length_le (l := bytes p.1) (by omega), List.nil_append]
      have htake : (bytes p.1 ++ bytes' p.2).take n = bytes p.1 ++ (bytes' p.2).take (n - (bytes p.1).length) := by
        rw [List.take_append, List.take_of_length_le (l := bytes p.1) (by omega)]
      by_cases hz : (bytes p.1).length = 0
      · rw [if_pos hz]
        obtain ⟨b', e, ok, hb⟩ := h'.copy p.2 n hp.2 (by omega)
        have : bytes p.1 = [] := List.eq_nil_of_length_eq_zero hz
        refine ⟨(p.1, b'), by rw [e, this]; rfl, ⟨hp.1, ok⟩, ?_⟩
        simp only [this, hb, List.nil_append]
      · rw [if_neg hz, if_pos (by omega)]
        obtain ⟨a', e, ok, hb⟩ := putTake_ok h.remaining h.chunk h.advance (bytes p.1).length p.1 (bytes p.1).length hp.1 (Nat.le_refl _) (Nat.le_refl _)
        obtain ⟨b', e', ok', hb'⟩ := putTake_ok h'.remaining h'.chunk h'.advance (n - (bytes p.1).length) p.2 (n - (bytes p.1).length) hp.2 (Nat.le_refl _) (by omega)
        refine ⟨(a', b'), by rw [e]; simp only [e', Option.map_some, htake, List.take_length], ⟨ok, ok'⟩, ?_⟩
        simp only [hb, hb', List.drop_length, List.nil_append, hdrop]

theorem take_stands {tv : TakeVec β} (h : Stands I Ok bytes) (ht : tv.Fine Ok bytes) :
    Stands (takeBuf I tv) (fun p => Ok p.1) (fun p => (bytes p.1).take p.2) where
  remaining p hp := by simp only [takeBuf, h.remaining _ hp, List.length_take]; omega
  chunk p hp := by
    obtain ⟨⟨t, e⟩, hne⟩ := h.chunk p.1 hp
    simp only [takeBuf]
    refine ⟨?_, ?_⟩
    · have : (I.chunk p.1).take (min (I.chunk p.1).length p.2) = (I.chunk p.1).take p.2 := by
        rcases Nat.le_total (I.chunk p.1).length p.2 with hh | hh
        · rw [Nat.min_eq_left hh, List.take_of_length_le (Nat.le_refl _), List.take_of_length_le hh]
        · rw [Nat.min_eq_right hh]
      rw [this, e, List.take_append]
      exact ⟨_, rfl⟩
    · intro hb hh
      have h1 : bytes p.1 ≠ [] := fun x => hb (by rw [x]; simp)
      have h2 : p.2 ≠ 0 := fun x => hb (by rw [x]; simp)
      have h3 := List.length_pos_iff.mpr (hne h1)
      have := congrArg List.length hh
      simp only [List.length_take, List.length_nil] at this
      omega
  advance p n hp hn := by
    simp only [List.length_take] at hn
    simp only [takeBuf]
    rw [if_pos (by omega)]
    obtain ⟨b', e, ok, hb⟩ := h.advance p.1 n hp (by omega)
    exact ⟨(b', p.2 - n), by rw [e]; rfl, ok, by simp only [hb, List.drop_take]⟩
  vectored p k hp := have t := ht p.1 p.2 k hp; ⟨t.1, t.2.1, t.2.2.1, t.2.2.2.1⟩
  empty p k hp h0 := (ht p.1 p.2 k hp).2.2.2.2 h0
  copy p n hp hn := by
    simp only [List.length_take] at hn
    simp only [takeBuf, h.remaining _ hp]
    rw [if_pos (by omega)]
    obtain ⟨b', e, ok, hb⟩ := h.copy p.1 n hp (by omega)
    refine ⟨(b', p.2 - n), by rw [e]; simp only [Option.map_some, List.take_take]; congr 3; omega, ok, by simp only [hb, List.drop_take]⟩

theorem cutSlots_ok (vs : List Bytes) : ∀ n, (cutSlots n vs).length ≤ vs.length ∧ (cutSlots n vs).flatten = vs.flatten.take n ∧
    ((cutSlots n vs).length < vs.length → n ≤ vs.flatten.length) := by
  induction vs with
  | nil => intro n; simp [cutSlots]
  | cons s t ih =>
    intro n
    rw [cutSlots]
    by_cases h0 : n = 0
    · subst h0; simp
    · rw [if_neg h0]
      by_cases hle : n ≤ s.length
      · rw [if_pos hle]
        refine ⟨by simp, ?_, fun _ => by simp; omega⟩
        simp only [List.flatten_cons, List.flatten_nil, List.append_nil]
        rw [List.take_append_of_le_length hle]
      · rw [if_neg hle]
        obtain ⟨i1, i2, i3⟩ := ih (n - s.length)
        refine ⟨by simp; omega, ?_, ?_⟩
        · simp only [List.flatten_cons, i2]
          rw [List.take_append, List.take_of_length_le (l := s) (by omega)]
        · intro hh
          simp only [List.length_cons] at hh
          have := i3 (by omega)
          simp only [List.flatten_cons, List.length_append]; omega

/-- The newer `Take` fills slots as it should over any buffer that does. -/
theorem takeVecCut_fine (h : Stands I Ok bytes) : (takeVecCut I).Fine Ok bytes := by
  intro b n k hb
  have hempty : (bytes b).take n = [] → takeVecCut I b n k = [] := by
    intro he
    simp only [takeVecCut]
    rcases List.take_eq_nil_iff.mp he with h0 | h0
    · subst h0
      cases I.vectored b k <;> simp [cutSlots]
    · rw [h.empty b k hb h0]; simp [cutSlots]
  · obtain ⟨v1, ⟨t, e⟩, v3, v4⟩ := h.vectored b k hb
    obtain ⟨c1, c2, c3⟩ := cutSlots_ok (I.vectored b k) n
    refine ⟨by simp only [takeVecCut]; omega, ?_, ?_, ?_, hempty⟩ <;> simp only [takeVecCut]
    · rw [c2, e, List.take_append]; exact ⟨_, rfl⟩
    · intro hlt
      rw [c2, e]
      by_cases hf : (cutSlots n (I.vectored b k)).length < (I.vectored b k).length
      · rw [List.take_append_of_le_length (c3 hf)]
      · have : bytes b = (I.vectored b k).flatten := v3 (by omega)
        rw [← e, this]
    · intro hne hk hh
      rw [c2] at hh
      have h1 : bytes b ≠ [] := fun x => hne (by rw [x]; simp)
      have h2 : n ≠ 0 := fun x => hne (by rw [x]; simp)
      have h3 := List.length_pos_iff.mpr (v4 h1 hk)
      have := congrArg List.length hh
      simp only [List.length_take, List.length_nil] at this
      omega

/-- The older `Take` does over a buffer whose chunk is all of it, such as `Bytes`. -/
theorem takeVecDefault_fine (h : Stands I Ok bytes) (h1 : ∀ b, Ok b → I.chunk b = bytes b) : (takeVecDefault I).Fine Ok bytes := by
  have hc : ∀ b n, Ok b → (takeBuf I (takeVecDefault I)).chunk (b, n) = (bytes b).take n := by
    intro b n hb
    simp only [takeBuf, h1 b hb]
    rcases Nat.le_total (bytes b).length n with hh | hh
    · rw [Nat.min_eq_left hh, List.take_of_length_le (Nat.le_refl _), List.take_of_length_le hh]
    · rw [Nat.min_eq_right hh]
  have hr : ∀ b n, Ok b → (takeBuf I (takeVecDefault I)).remaining (b, n) = ((bytes b).take n).length := by
    intro b n hb
    simp only [takeBuf, h.remaining b hb, List.length_take]; omega
  intro b n k hb
  have t := defaultVectored_ok (I := takeBuf I (takeVecDefault I)) (bytes := fun p => (bytes p.1).take p.2) (b, n) k (hr b n hb) (hc b n hb)
  refine ⟨t.1, t.2.1, t.2.2.1, t.2.2.2, ?_⟩
  · intro he
    have := hr b n hb
    rw [he] at this
    show defaultVectored (takeBuf I (takeVecDefault I)).remaining _ (b, n) k = []
    simp only [defaultVectored, this]
    simp

theorem chunkSize_stands : Stands chunkSizeBuf ChunkSize.Good (fun s => (s.bytes.take s.len).drop s.pos) := by
  have hr : ∀ s : ChunkSize, s.Good → chunkSizeBuf.remaining s = ((s.bytes.take s.len).drop s.pos).length := by
    intro s hs
    have h1 := hs.1; have h2 := hs.2
    simp only [chunkSizeBuf, ChunkSize.remaining, List.length_drop, List.length_take]; omega
  have hc : ∀ s : ChunkSize, s.Good → (∃ t, (s.bytes.take s.len).drop s.pos = chunkSizeBuf.chunk s ++ t) ∧
      ((s.bytes.take s.len).drop s.pos ≠ [] → chunkSizeBuf.chunk s ≠ []) :=
    fun s _ => ⟨⟨[], by simp [chunkSizeBuf, ChunkSize.chunk]⟩, fun h => h⟩
  have ha : ∀ (s : ChunkSize) n, s.Good → n ≤ ((s.bytes.take s.len).drop s.pos).length →
      ∃ s', chunkSizeBuf.advance s n = some s' ∧ s'.Good ∧ (s'.bytes.take s'.len).drop s'.pos = ((s.bytes.take s.len).drop s.pos).drop n := by
    intro s n hs hn
    have h1 := hs.1; have h2 := hs.2
    simp only [List.length_drop, List.length_take] at hn
    refine ⟨{ s with pos := s.pos + n }, ?_, ⟨by simp only; omega, h2⟩, by simp only [List.drop_drop]⟩
    simp only [chunkSizeBuf, ChunkSize.advance, ChunkSize.remaining]
    exact if_pos (by omega)
  refine ⟨hr, hc, ha, ?_, ?_, ?_⟩
  · intro s k hs
    exact defaultVectored_ok (I := chunkSizeBuf) (bytes := fun s => (s.bytes.take s.len).drop s.pos) s k (hr s hs) rfl
  · intro s k hs he
    have := hr s hs
    rw [he] at this
    show defaultVectored chunkSizeBuf.remaining _ s k = []
    simp only [defaultVectored, this]; simp
  · intro s n hs hn
    show ∃ b', defaultCopy chunkSizeBuf.remaining chunkSizeBuf.chunk chunkSizeBuf.advance s n = _ ∧ _
    rw [defaultCopy, if_pos (by rw [hr s hs]; exact hn)]
    exact putTake_ok hr hc ha n s n hs (Nat.le_refl _) hn

theorem writeStr_ok (s : ChunkSize) (num : Bytes) (hs : s.Good) (hn : num.length ≤ s.bytes.length - s.len) :
    ∃ s', s.writeStr num = some s' ∧ s'.Good ∧ s'.pos = s.pos ∧ s'.len = s.len + num.length ∧ s'.bytes.length = s.bytes.length ∧
      s'.bytes.take s'.len = s.bytes.take s.len ++ num := by
  have h1 := hs.1; have h2 := hs.2
  have hl : (s.bytes.take s.len ++ num ++ s.bytes.drop (s.len + num.length)).length = s.bytes.length := by
    simp only [List.length_append, List.length_take, List.length_drop]; omega
  refine ⟨_, if_pos hn, ⟨by simp only; omega, by simp only [hl]; omega⟩, rfl, rfl, hl, ?_⟩
  simp only
  rw [List.take_append_of_le_length (by simp only [List.length_append, List.length_take]; omega)]
  exact List.take_of_length_le (by simp only [List.length_append, List.length_take]; omega)

/-- C86, the size line: for every length there can be, it fits in its array, and is the length in hexadecimal and the end of a line. -/
theorem C86_size_line (n : Nat) (hn : n < 2 ^ 64) :
    ∃ s, ChunkSize.new n = some s ∧ s.Good ∧ (s.bytes.take s.len).drop s.pos = hexUpper n ++ CRLF := by
  have hlen : (hexUpper n).length ≤ 16 := hexUpper_length 15 n (by simpa using hn)
  obtain ⟨s, e, g, p, l, bl, t⟩ := writeStr_ok ⟨List.replicate CHUNK_SIZE_ROOM 0, 0, 0⟩ (hexUpper n) ⟨Nat.le_refl _, by simp⟩
    (by simp [CHUNK_SIZE_ROOM]; omega)
  simp only [List.length_replicate] at bl
  simp only [Nat.zero_add] at l
  obtain ⟨s', e', g', p', l', bl', t'⟩ := writeStr_ok s CRLF g (by rw [bl, l]; simp [CRLF, CHUNK_SIZE_ROOM]; omega)
  refine ⟨s', by rw [ChunkSize.new, e]; exact e', g', ?_⟩
  rw [p', p, t', t]; simp

theorem chunked_stands (h : Stands I Ok bytes) : Stands (chunkedBuf I) (fun p => (p.1.1.Good ∧ Ok p.1.2) ∧ True)
    (fun p => ((p.1.1.bytes.take p.1.1.len).drop p.1.1.pos ++ bytes p.1.2) ++ p.2) :=
  chain_stands (chain_stands chunkSize_stands h) bytesBuf_stands

theorem trailers_stands : Stands trailersBuf (fun _ => (True ∧ True) ∧ True) (fun p => (p.1.1 ++ p.1.2) ++ p.2) :=
  chain_stands (chain_stands bytesBuf_stands bytesBuf_stands) bytesBuf_stands

/-- C86.  An encoded buffer presents itself as the bytes it is made to hold, for every buffer of the user's that presents itself as bytes: `remaining`,
`chunk`, `advance`, vectored chunks and `copy_to_bytes` all agree with them, through any number of operations. -/
theorem C86_encoded_stands {tv : TakeVec β} (h : Stands I Ok bytes) (ht : tv.Fine Ok bytes) :
    Stands (encodedBuf I tv) (EncodedBuf.Good Ok) (encHeld bytes) := by
  have hl := take_stands h ht
  have hk := chunked_stands h
  have hr : ∀ b, EncodedBuf.Good Ok b → (encodedBuf I tv).remaining b = (encHeld bytes b).length := by
    intro b hb
    cases b with
    | exact b => exact h.remaining b hb
    | limited p => exact hl.remaining p hb
    | chunked p => exact hk.remaining p ⟨hb, trivial⟩
    | chunkedEnd b => exact bytesBuf_stands.remaining b trivial
    | trailers p => exact trailers_stands.remaining p ⟨⟨trivial, trivial⟩, trivial⟩
  have hc : ∀ b, EncodedBuf.Good Ok b → (∃ t, encHeld bytes b = (encodedBuf I tv).chunk b ++ t) ∧
      (encHeld bytes b ≠ [] → (encodedBuf I tv).chunk b ≠ []) := by
    intro b hb
    cases b with
    | exact b => exact h.chunk b hb
    | limited p => exact hl.chunk p hb
    | chunked p => exact hk.chunk p ⟨hb, trivial⟩
    | chunkedEnd b => exact bytesBuf_stands.chunk b trivial
    | trailers p => exact trailers_stands.chunk p ⟨⟨trivial, trivial⟩, trivial⟩
  have ha : ∀ b n, EncodedBuf.Good Ok b → n ≤ (encHeld bytes b).length →
      ∃ b', (encodedBuf I tv).advance b n = some b' ∧ EncodedBuf.Good Ok b' ∧ encHeld bytes b' = (encHeld bytes b).drop n := by
    intro b n hb hn
    cases b with
    | exact b =>
      obtain ⟨b', e, ok, hh⟩ := h.advance b n hb hn
      exact ⟨.exact b', by simp only [encodedBuf, EncodedBuf.advance, e]; rfl, ok, hh⟩
    | limited p =>
      obtain ⟨b', e, ok, hh⟩ := hl.advance p n hb hn
      exact ⟨.limited b', by simp only [encodedBuf, EncodedBuf.advance, e]; rfl, ok, hh⟩
    | chunked p =>
      obtain ⟨b', e, ok, hh⟩ := hk.advance p n ⟨hb, trivial⟩ hn
      exact ⟨.chunked b', by simp only [encodedBuf, EncodedBuf.advance, e]; rfl, ok.1, hh⟩
    | chunkedEnd b =>
      obtain ⟨b', e, ok, hh⟩ := bytesBuf_stands.advance b n trivial hn
      exact ⟨.chunkedEnd b', by simp only [encodedBuf, EncodedBuf.advance, e]; rfl, trivial, hh⟩
    | trailers p =>
      obtain ⟨b', e, ok, hh⟩ := trailers_stands.advance p n ⟨⟨trivial, trivial⟩, trivial⟩ hn
      exact ⟨.trailers b', by simp only [encodedBuf, EncodedBuf.advance, e]; rfl, trivial, hh⟩
  refine ⟨hr, hc, ha, ?_, ?_, ?_⟩
  · intro b k hb
    cases b with
    | exact b => exact h.vectored b k hb
    | limited p => exact hl.vectored p k hb
    | chunked p => exact hk.vectored p k ⟨hb, trivial⟩
    | chunkedEnd b => exact bytesBuf_stands.vectored b k trivial
    | trailers p => exact trailers_stands.vectored p k ⟨⟨trivial, trivial⟩, trivial⟩
  · intro b k hb
    cases b with
    | exact b => exact h.empty b k hb
    | limited p => exact hl.empty p k hb
    | chunked p => exact hk.empty p k ⟨hb, trivial⟩
    | chunkedEnd b => exact bytesBuf_stands.empty b k trivial
    | trailers p => exact trailers_stands.empty p k ⟨⟨trivial, trivial⟩, trivial⟩
  · intro b n hb hn
    show ∃ b', defaultCopy (encodedBuf I tv).remaining (encodedBuf I tv).chunk (encodedBuf I tv).advance b n = _ ∧ _
    rw [defaultCopy, if_pos (by rw [hr b hb]; exact hn)]
    exact putTake_ok hr hc ha n b n hb (Nat.le_refl _) hn

/-- C86, data: the buffer that `encode` makes of the user's buffer holds what is to be written for its bytes, and the encoder left is the one for what is
still to come.  Nothing panics. -/
theorem C86_encode (h : Stands I Ok bytes) (e : Encoder) (msg : β) (hm : Ok msg) (hlen : (bytes msg).length < 2 ^ 64) :
    ∃ b, e.encodeBuf I msg = some (b, (e.encode (bytes msg)).2) ∧ b.Good Ok ∧ encHeld bytes b = (e.encode (bytes msg)).1 := by
  obtain ⟨k, l⟩ := e
  simp only [Encoder.encodeBuf, Encoder.encode, h.remaining msg hm]
  cases k with
  | chunked ts =>
    obtain ⟨s, e1, g, hs⟩ := C86_size_line _ hlen
    simp only [e1]
    exact ⟨_, rfl, ⟨g, hm⟩, by simp only [encHeld, hs, chunkSize]⟩
  | length n =>
    simp only
    by_cases hn : (bytes msg).length > n
    · rw [if_pos hn, if_pos hn]; exact ⟨_, rfl, hm, rfl⟩
    · rw [if_neg hn, if_neg hn]; exact ⟨_, rfl, hm, rfl⟩
  | closeDelimited => exact ⟨_, rfl, hm, rfl⟩

/-- C86, the last data: the same for `encode_and_end`. -/
theorem C86_encode_and_end (h : Stands I Ok bytes) (e : Encoder) (msg : β) (hm : Ok msg) (hlen : (bytes msg).length < 2 ^ 64) :
    ∃ b, e.encodeAndEndBuf I msg = some (b, (e.encodeAndEnd (bytes msg)).2) ∧ b.Good Ok ∧ encHeld bytes b = (e.encodeAndEnd (bytes msg)).1 := by
  obtain ⟨k, l⟩ := e
  simp only [Encoder.encodeAndEndBuf, Encoder.encodeAndEnd, h.remaining msg hm]
  cases k with
  | chunked ts =>
    obtain ⟨s, e1, g, hs⟩ := C86_size_line _ hlen
    simp only [e1]
    exact ⟨_, rfl, ⟨g, hm⟩, by simp only [encHeld, hs, chunkSize]⟩
  | length n =>
    simp only
    by_cases hn : (bytes msg).length = n
    · rw [if_pos hn, if_pos hn]; exact ⟨_, rfl, hm, rfl⟩
    · rw [if_neg hn, if_neg hn]
      by_cases hg : (bytes msg).length > n
      · rw [if_pos hg, if_pos hg]; exact ⟨_, rfl, hm, rfl⟩
      · rw [if_neg hg, if_neg hg]; exact ⟨_, rfl, hm, rfl⟩
  | closeDelimited => exact ⟨_, rfl, hm, rfl⟩

/-- C86, the end of a body and its trailers: the same for `end` and `encode_trailers`. -/
theorem C86_end_and_trailers (Ok : β → Prop) (bytes : β → Bytes) (e : Encoder) (m : HeaderMap) (title : Bool) :
    (match (e.finishBuf : Except Nat (Option (EncodedBuf β))) with
      | .ok b => (∀ x, b = some x → x.Good Ok) ∧ e.finish = .ok (b.map (encHeld bytes))
      | .error n => e.finish = .error n) ∧
    (∀ x, (e.encodeTrailersBuf m title : Option (EncodedBuf β)) = some x → x.Good Ok) ∧
    (e.encodeTrailersBuf m title).map (encHeld bytes) = e.encodeTrailers m title := by
  obtain ⟨k, l⟩ := e
  refine ⟨?_, ?_, ?_⟩
  · simp only [Encoder.finishBuf, Encoder.finish]
    cases k with
    | chunked ts => exact ⟨fun x hx => by cases hx; trivial, rfl⟩
    | length n => cases n with
      | zero => exact ⟨fun x hx => (by cases hx), rfl⟩
      | succ n => rfl
    | closeDelimited => exact ⟨fun x hx => (by cases hx), rfl⟩
  · intro x hx
    cases x with
    | trailers p => trivial
    | chunkedEnd p => trivial
    | _ =>
      exfalso
      simp only [Encoder.encodeTrailersBuf] at hx
      split at hx
      · split at hx
        · cases hx
        · rename_i kept _
          generalize (if title = true then writeHeadersTitleCase kept else writeHeaders kept) = w at hx
          by_cases hw : w = []
          · rw [if_pos hw] at hx; cases hx
          · rw [if_neg hw] at hx; cases hx
      · cases hx
  · simp only [Encoder.encodeTrailersBuf, Encoder.encodeTrailers]
    cases k with
    | length n => rfl
    | closeDelimited => rfl
    | chunked ts =>
      cases ts with
      | none => rfl
      | some allowed =>
        simp only
        cases filterTrailers allowed none [] m.drain with
        | none => rfl
        | some kept =>
          simp only
          by_cases hb : (if title = true then writeHeadersTitleCase kept else writeHeaders kept) = []
          · rw [if_pos hb, if_pos hb]; rfl
          · rw [if_neg hb, if_neg hb]; rfl

theorem cursor_stands : Stands cursorBuf (fun c => c.2 ≤ c.1.length) (fun c => c.1.drop c.2) := by
  have hr : ∀ c : Bytes × Nat, c.2 ≤ c.1.length → cursorBuf.remaining c = (c.1.drop c.2).length := by
    intro c _; simp only [cursorBuf, List.length_drop]
  have hcc : ∀ c : Bytes × Nat, c.2 ≤ c.1.length → cursorBuf.chunk c = c.1.drop c.2 := by
    intro c hc; simp only [cursorBuf, Nat.min_eq_left hc]
  have hc : ∀ c : Bytes × Nat, c.2 ≤ c.1.length → (∃ t, c.1.drop c.2 = cursorBuf.chunk c ++ t) ∧ (c.1.drop c.2 ≠ [] → cursorBuf.chunk c ≠ []) := by
    intro c h; rw [hcc c h]; exact ⟨⟨[], by simp⟩, fun h => h⟩
  have ha : ∀ (c : Bytes × Nat) n, c.2 ≤ c.1.length → n ≤ (c.1.drop c.2).length →
      ∃ c', cursorBuf.advance c n = some c' ∧ c'.2 ≤ c'.1.length ∧ c'.1.drop c'.2 = (c.1.drop c.2).drop n := by
    intro c n hc hn
    simp only [List.length_drop] at hn
    exact ⟨(c.1, c.2 + n), by simp only [cursorBuf]; exact if_pos hn, by simp only; omega, by simp only [List.drop_drop]⟩
  refine ⟨hr, hc, ha, ?_, ?_, ?_⟩
  · intro c k h
    exact defaultVectored_ok (I := cursorBuf) (bytes := fun c => c.1.drop c.2) c k (hr c h) (hcc c h)
  · intro c k h he
    have := hr c h
    rw [he] at this
    show defaultVectored cursorBuf.remaining cursorBuf.chunk c k = []
    simp only [defaultVectored, this]; simp
  · intro c n h hn
    show ∃ b', defaultCopy cursorBuf.remaining cursorBuf.chunk cursorBuf.advance c n = _ ∧ _
    rw [defaultCopy, if_pos (by rw [hr c h]; exact hn)]
    exact putTake_ok hr hc ha n c n h (Nat.le_refl _) hn

/-- The bytes of a buffer handed to an HTTP/2 stream. -/
def Spec.sent {β : Type} (bytes : β → Bytes) : SendBuf β → Bytes
  | .buf b => bytes b
  | .cursor c => c.1.drop c.2
  | .none => []

/-- Its parts are good. -/
def SendBuf.Good {β : Type} (Ok : β → Prop) : SendBuf β → Prop
  | .buf b => Ok b
  | .cursor c => c.2 ≤ c.1.length
  | .none => True

/-- C86, HTTP/2: a buffer handed to an HTTP/2 stream presents itself as its bytes: the user's, what is left of the bytes written to an upgraded stream, or none. -/
theorem C86_send_stands (h : Stands I Ok bytes) : Stands (sendBuf I) (SendBuf.Good Ok) (Spec.sent bytes) := by
  have hr : ∀ b, SendBuf.Good Ok b → (sendBuf I).remaining b = (Spec.sent bytes b).length := by
    intro b hb
    cases b with
    | buf b => exact h.remaining b hb
    | cursor c => exact cursor_stands.remaining c hb
    | none => rfl
  have hc : ∀ b, SendBuf.Good Ok b → (∃ t, Spec.sent bytes b = (sendBuf I).chunk b ++ t) ∧ (Spec.sent bytes b ≠ [] → (sendBuf I).chunk b ≠ []) := by
    intro b hb
    cases b with
    | buf b => exact h.chunk b hb
    | cursor c => exact cursor_stands.chunk c hb
    | none => exact ⟨⟨[], rfl⟩, fun h => h⟩
  have ha : ∀ b n, SendBuf.Good Ok b → n ≤ (Spec.sent bytes b).length →
      ∃ b', (sendBuf I).advance b n = some b' ∧ SendBuf.Good Ok b' ∧ Spec.sent bytes b' = (Spec.sent bytes b).drop n := by
    intro b n hb hn
    cases b with
    | buf b =>
      obtain ⟨b', e, ok, hh⟩ := h.advance b n hb hn
      exact ⟨.buf b', by simp only [sendBuf, SendBuf.advance, e]; rfl, ok, hh⟩
    | cursor c =>
      obtain ⟨b', e, ok, hh⟩ := cursor_stands.advance c n hb hn
      exact ⟨.cursor b', by simp only [sendBuf, SendBuf.advance, e]; rfl, ok, hh⟩
    | none => exact ⟨.none, rfl, trivial, by simp [Spec.sent]⟩
  refine ⟨hr, hc, ha, ?_, ?_, ?_⟩
  · intro b k hb
    cases b with
    | buf b => exact h.vectored b k hb
    | cursor c => exact cursor_stands.vectored c k hb
    | none => exact ⟨Nat.zero_le _, ⟨[], rfl⟩, fun _ => rfl, fun h => absurd rfl h⟩
  · intro b k hb
    cases b with
    | buf b => exact h.empty b k hb
    | cursor c => exact cursor_stands.empty c k hb
    | none => exact fun _ => rfl
  · intro b n hb hn
    show ∃ b', defaultCopy (sendBuf I).remaining (sendBuf I).chunk (sendBuf I).advance b n = _ ∧ _
    rw [defaultCopy, if_pos (by rw [hr b hb]; exact hn)]
    exact putTake_ok hr hc ha n b n hb (Nat.le_refl _) hn

/-- What the writes of one body become: data goes through `encode`; flushes and the rest stay as they are. -/
def encodeOps {β : Type} (I : BufI β) : Encoder → List (WriteOp β) → Option (List (WriteOp (EncodedBuf β)))
  | _, [] => some []
  | e, .body b room :: t =>
    match e.encodeBuf I b with
    | none => none
    | some (x, e') => (encodeOps I e' t).map (.body x room :: ·)
  | e, .head bs :: t => (encodeOps I e t).map (.head bs :: ·)
  | e, .flush rb :: t => (encodeOps I e t).map (.flush rb :: ·)
  | e, .shutdown rb :: t => (encodeOps I e t).map (.shutdown rb :: ·)

/-- The writes of one body: good buffers with bytes in them, no more once the announced length is reached, and no heads. -/
def Spec.OneBody {β : Type} (Ok : β → Prop) (bytes : β → Bytes) : Encoder → List (WriteOp β) → Prop
  | _, [] => True
  | e, .body b _ :: t => Ok b ∧ bytes b ≠ [] ∧ (bytes b).length < 2 ^ 64 ∧ e.isEof = false ∧ OneBody Ok bytes (e.encode (bytes b)).2 t
  | _, .head _ :: _ => False
  | e, _ :: t => OneBody Ok bytes e t

/-- The bytes to be written for a body. -/
def Spec.coded {β : Type} (bytes : β → Bytes) : Encoder → List (WriteOp β) → Bytes
  | _, [] => []
  | e, .body b _ :: t => (e.encode (bytes b)).1 ++ coded bytes (e.encode (bytes b)).2 t
  | e, _ :: t => coded bytes e t

theorem encode_nonempty (e : Encoder) (w : Bytes) (hw : w ≠ []) (he : e.isEof = false) : (e.encode w).1 ≠ [] := by
  obtain ⟨k, l⟩ := e
  cases k with
  | chunked ts => simp [Encoder.encode, hw]
  | closeDelimited => simpa [Encoder.encode] using hw
  | length n =>
    have hn : n ≠ 0 := by simpa [Encoder.isEof] using he
    simp only [Encoder.encode]
    split
    · intro h
      rcases List.take_eq_nil_iff.mp h with h | h
      · exact hn h
      · exact hw h
    · exact hw

theorem encodeOps_ok {tv : TakeVec β} (h : Stands I Ok bytes) (ops : List (WriteOp β)) : ∀ e, OneBody Ok bytes e ops →
    ∃ ops', encodeOps I e ops = some ops' ∧ written (encHeld bytes) ops' = coded bytes e ops ∧
      ∀ s, Gated (encodedBuf I tv) (EncodedBuf.Good Ok) (encHeld bytes) s ops' := by
  induction ops with
  | nil => intro e _; exact ⟨[], rfl, rfl, fun _ => trivial⟩
  | cons op t ih =>
    intro e ho
    cases op with
    | head bs => exact ho.elim
    | body b room =>
      obtain ⟨o1, o2, o3, o4, o5⟩ := ho
      obtain ⟨x, e1, g, hx⟩ := C86_encode h e b o1 o3
      obtain ⟨t', e2, e3, e4⟩ := ih _ o5
      refine ⟨.body x room :: t', by simp only [encodeOps, e1, e2, Option.map_some], by simp only [written, coded, e3, hx], fun s => ⟨⟨g, ?_⟩, ?_⟩⟩
      · rw [hx]; exact encode_nonempty e _ o2 o4
      · split
        · trivial
        · exact e4 _
    | flush rb =>
      obtain ⟨t', e2, e3, e4⟩ := ih e ho
      refine ⟨.flush rb :: t', by simp only [encodeOps, e2, Option.map_some], e3, fun s => ⟨trivial, ?_⟩⟩
      split
      · trivial
      · exact e4 _
    | shutdown rb =>
      obtain ⟨t', e2, e3, e4⟩ := ih e ho
      refine ⟨.shutdown rb :: t', by simp only [encodeOps, e2, Option.map_some], e3, fun s => ⟨trivial, ?_⟩⟩
      split
      · trivial
      · exact e4 _

/-- C86, on the wire: a head and the frames of a body, encoded as buffers and written with either strategy to any transport, however it splits the writes, arrive in
order: the bytes accepted, followed by those waiting, are the head and what is to be written for the frames' bytes.  Nothing panics. -/
theorem C86_on_the_wire {tv : TakeVec β} (h : Stands I Ok bytes) (ht : tv.Fine Ok bytes) (st : WriteStrategy) (fp : Bool) (k : Sink) (head : Bytes)
    (e : Encoder) (ops : List (WriteOp β)) (ho : OneBody Ok bytes e ops) :
    ∃ ops' s, encodeOps I e ops = some ops' ∧ (WriteSide.start st fp k).run (encodedBuf I tv) (.head head :: ops') = some s ∧
      s.sink.sent ++ waiting (encHeld bytes) s.wbuf = k.sent ++ head ++ coded bytes e ops := by
  obtain ⟨ops', e1, e2, e3⟩ := encodeOps_ok (tv := tv) h ops e ho
  obtain ⟨s, r1, r2⟩ := C33_in_order_partial (C86_encoded_stands h ht) st fp k (.head head :: ops')
    ⟨by simp [WriteOp.Allowed, WriteSide.start, WriteBuf.new, WriteBuf.canHeadersBuf, BufList.remaining], e3 _⟩
  refine ⟨ops', s, e1, r1, ?_⟩
  rw [r2]
  simp only [written, e2, List.append_assoc]

end

/-- A buffer of several pieces with the default `chunks_vectored` and `copy_to_bytes`. -/
def piecesBuf : BufI (List Bytes) where
  remaining l := l.flatten.length
  chunk l := (l.find? (· ≠ [])).getD []
  advance l n := if n ≤ l.flatten.length then some [l.flatten.drop n] else none
  vectored := defaultVectored (fun l => l.flatten.length) (fun l => (l.find? (· ≠ [])).getD [])
  copyToBytes l n := if n ≤ l.flatten.length then some (l.flatten.take n, [l.flatten.drop n]) else none

/-- C86 needs the user's buffer to show all of itself when it leaves slots over.  The default `chunks_vectored` of the trait shows one piece only; with it a
buffer of several pieces, queued before another, is written with a gap: `BufList::chunks_vectored` (buf.rs 59-71) puts the next buffer's bytes right after. -/
theorem C86_default_vectored_gap :
    ((encodeOps piecesBuf (Encoder.length 6) [.body [ascii "ab", ascii "cd"] true, .body [ascii "ef"] true, .flush []]).bind fun ops =>
      ((WriteSide.start .queue false ⟨[.wrote 100, .wrote 100], [.ok], [], false⟩).run (encodedBuf piecesBuf (takeVecDefault piecesBuf)) ops).map (·.sink.sent)) =
      some (ascii "abefef") := by decide +kernel

/-- `Bytes` is such a buffer, with the older and the newer `Take`. -/
example : Stands (encodedBuf bytesBuf (takeVecDefault bytesBuf)) (EncodedBuf.Good (fun _ => True)) (encHeld id) :=
  C86_encoded_stands bytesBuf_stands (takeVecDefault_fine bytesBuf_stands (fun _ _ => rfl))

example : Stands (encodedBuf bytesBuf (takeVecCut bytesBuf)) (EncodedBuf.Good (fun _ => True)) (encHeld id) :=
  C86_encoded_stands bytesBuf_stands (takeVecCut_fine bytesBuf_stands)

/-- And so is a list of them, with the newer one. -/
example : Stands (encodedBuf (bufListBuf bytesBuf) (takeVecCut (bufListBuf bytesBuf)))
    (EncodedBuf.Good (AllNonempty (fun _ => True) id)) (encHeld (concat id)) :=
  C86_encoded_stands (C36_list_is_concatenation bytesBuf_stands) (takeVecCut_fine (C36_list_is_concatenation bytesBuf_stands))

/-- A chunk through buffers: the size line, two pieces of data and the end, four slots; then what is left after five bytes. -/
example :
    (Encoder.chunked.encodeBuf (bufListBuf bytesBuf) [ascii "Hello, ", ascii "chunked world"]).map (fun r =>
      ((encodedBuf (bufListBuf bytesBuf) (takeVecCut (bufListBuf bytesBuf))).vectored r.1 8,
       ((encodedBuf (bufListBuf bytesBuf) (takeVecCut (bufListBuf bytesBuf))).advance r.1 5).map
         (fun b => (encodedBuf (bufListBuf bytesBuf) (takeVecCut (bufListBuf bytesBuf))).vectored b 2))) =
      some ([ascii "14\r\n", ascii "Hello, ", ascii "chunked world", CRLF], some [ascii "ello, ", ascii "chunked world"]) := by decide +kernel

example : (Encoder.length 4).encodeBuf bytesBuf (ascii "abcdef") = some (.limited (ascii "abcdef", 4), Encoder.length 0) ∧
    (encodedBuf bytesBuf (takeVecCut bytesBuf)).copyToBytes (.limited (ascii "abcdef", 4)) 4 = some (ascii "abcd", .limited (ascii "ef", 0)) := by
  exact ⟨rfl, by rfl⟩

example : OneBody (fun _ => True) id Encoder.chunked [.body (ascii "a") true, .flush [], .body (ascii "bc") false] ∧
    coded id Encoder.chunked [.body (ascii "a") true, .flush [], .body (ascii "bc") false] = ascii "1\r\na\r\n2\r\nbc\r\n" :=
  ⟨⟨trivial, by decide, by decide, rfl, trivial, by decide, by decide, rfl, trivial⟩, by decide +kernel⟩

end Hyper
