import Verif.Model.ReadBuf

/-! # Read cursors and replayed bytes: C37, C35 -/

namespace Hyper

/-! ## C37 -/

/-- One operation of the user of a cursor.  `initWrite n src` asks for `n` initialised bytes and writes `src` into
the front of them; `advance n` is the unsafe operation, to be used within its contract. -/
inductive CursorOp where
  | put (src : Bytes)
  | initTo (n : Nat)
  | initAll
  | initWrite (n : Nat) (src : Bytes)
  | advance (n : Nat)
  deriving DecidableEq, Repr

/-- One operation on the model. -/
def ReadBuf.step (b : ReadBuf) : CursorOp → OrPanic ReadBuf
  | .put src => b.putSlice src
  | .initTo n => b.initializeUnfilledTo n
  | .initAll => b.initializeUnfilled
  | .initWrite n src => ⟨(b.initializeUnfilledTo n).panicked,
      if (b.initializeUnfilledTo n).panicked then (b.initializeUnfilledTo n).val else (b.initializeUnfilledTo n).val.writeSlice src⟩
  | .advance n => ⟨false, b.advance n⟩

/-- The contracts: a slice has room for what is written into it; only initialised bytes are skipped. -/
def CursorOp.Allowed (b : ReadBuf) : CursorOp → Prop
  | .initWrite n src => src.length ≤ n
  | .advance n => b.filled + n ≤ b.init
  | _ => True

/-- Bytes an operation needs. -/
def CursorOp.need : CursorOp → Nat
  | .put src => src.length
  | .initTo n => n
  | .initWrite n _ => n
  | .initAll => 0
  | .advance _ => 0

/-- What holds of a cursor with this capacity and these filled bytes. -/
structure Spec.CursorOk (cap : Nat) (data : Bytes) (b : ReadBuf) : Prop where
  cap : b.capacity = cap
  filled_init : b.filled ≤ b.init
  init_cap : b.init ≤ b.capacity
  inited : ∀ c ∈ b.raw.take b.init, c ≠ none
  data : b.filledCells = data.map some

open Spec

theorem length_writeCells {raw bs : List (Option Byte)} {pos : Nat} (h : pos + bs.length ≤ raw.length) :
    (writeCells raw pos bs).length = raw.length := by
  simp only [writeCells, List.length_append, List.length_take, List.length_drop]; omega

theorem take_writeCells_before {raw bs : List (Option Byte)} {pos n : Nat} (h : pos ≤ raw.length) (hn : n ≤ pos) :
    (writeCells raw pos bs).take n = raw.take n := by
  unfold writeCells
  rw [List.append_assoc, List.take_append_of_le_length (by rw [List.length_take]; omega), List.take_take, Nat.min_eq_left hn]

theorem take_writeCells_after {raw bs : List (Option Byte)} {pos n : Nat} (h : pos + bs.length ≤ raw.length)
    (hn : pos + bs.length ≤ n) :
    (writeCells raw pos bs).take n = raw.take pos ++ bs ++ (raw.drop (pos + bs.length)).take (n - (pos + bs.length)) := by
  unfold writeCells
  rw [List.take_append]
  have : (raw.take pos ++ bs).length = pos + bs.length := by rw [List.length_append, List.length_take]; omega
  rw [this, List.take_of_length_le (by omega)]

theorem mem_take_mono {α : Type} {l : List α} {n m : Nat} {x : α} (h : n ≤ m) (hx : x ∈ l.take n) : x ∈ l.take m := by
  have : l.take n = (l.take m).take n := by rw [List.take_take, Nat.min_eq_left h]
  rw [this] at hx
  exact List.mem_of_mem_take hx

theorem mem_drop_take {α : Type} {l : List α} {p n : Nat} {x : α} (h : x ∈ (l.drop p).take (n - p)) : x ∈ l.take n := by
  rw [← List.drop_take] at h
  exact List.mem_of_mem_drop h

/-- Every cell up to `n` of a written buffer is new or was there. -/
theorem mem_writeCells {raw bs : List (Option Byte)} {pos n : Nat} {c : Option Byte} (h : pos + bs.length ≤ raw.length)
    (hn : pos + bs.length ≤ n) (hc : c ∈ (writeCells raw pos bs).take n) :
    c ∈ bs ∨ c ∈ raw.take pos ∨ c ∈ (raw.drop (pos + bs.length)).take (n - (pos + bs.length)) := by
  rw [take_writeCells_after h hn] at hc
  simp only [List.mem_append] at hc
  rcases hc with (hc | hc) | hc
  · exact .inr (.inl hc)
  · exact .inl hc
  · exact .inr (.inr hc)

theorem putSlice_ok {cap : Nat} {data : Bytes} {b : ReadBuf} (h : CursorOk cap data b) (src : Bytes)
    (hr : src.length ≤ b.remaining) :
    (b.putSlice src).panicked = false ∧ CursorOk cap (data ++ src) (b.putSlice src).val := by
  have h1 := h.filled_init
  have h2 := h.init_cap
  unfold ReadBuf.putSlice
  rw [if_pos hr]
  simp only [ReadBuf.remaining, ReadBuf.capacity] at hr h2
  have hlen : b.filled + (src.map some).length ≤ b.raw.length := by rw [List.length_map]; omega
  refine ⟨rfl, ⟨?_, ?_, ?_, ?_, ?_⟩⟩
  · simp only [ReadBuf.capacity]; rw [length_writeCells hlen]; exact h.cap
  · simp only; split <;> omega
  · simp only [ReadBuf.capacity]; rw [length_writeCells hlen]; split <;> omega
  · intro c hc
    simp only at hc
    have hlm : (src.map some).length = src.length := List.length_map _
    rcases mem_writeCells hlen (by rw [hlm]; split <;> omega) hc with hc | hc | hc
    · simp only [List.mem_map] at hc; obtain ⟨x, _, rfl⟩ := hc; simp
    · exact h.inited c (mem_take_mono h1 hc)
    · rw [hlm] at hc
      split at hc
      · simp at hc
      · exact h.inited c (mem_drop_take hc)
  · simp only [ReadBuf.filledCells]
    rw [take_writeCells_after hlen (by rw [List.length_map]; exact Nat.le_refl _)]
    have := h.data
    simp only [ReadBuf.filledCells] at this
    rw [this]; simp

theorem initTo_ok {cap : Nat} {data : Bytes} {b : ReadBuf} (h : CursorOk cap data b) (n : Nat)
    (hr : n ≤ b.remaining) :
    (b.initializeUnfilledTo n).panicked = false ∧ CursorOk cap data (b.initializeUnfilledTo n).val ∧
      (b.initializeUnfilledTo n).val.filled = b.filled ∧ b.filled + n ≤ (b.initializeUnfilledTo n).val.init := by
  have h1 := h.filled_init
  have h2 := h.init_cap
  unfold ReadBuf.initializeUnfilledTo
  rw [if_pos hr]
  simp only [ReadBuf.remaining, ReadBuf.capacity] at hr h2
  simp only
  split
  · have hlen : b.init + (List.replicate (b.filled + n - b.init) (some (0 : Byte))).length ≤ b.raw.length := by
      rw [List.length_replicate]; omega
    refine ⟨rfl, ⟨?_, ?_, ?_, ?_, ?_⟩, rfl, Nat.le_refl _⟩
    · simp only [ReadBuf.capacity]; rw [length_writeCells hlen]; exact h.cap
    · simp only; omega
    · simp only [ReadBuf.capacity]; rw [length_writeCells hlen]; omega
    · intro c hc
      simp only at hc
      rcases mem_writeCells hlen (by rw [List.length_replicate]; omega) hc with hc | hc | hc
      · rw [List.mem_replicate] at hc; rw [hc.2]; simp
      · exact h.inited c hc
      · rw [List.length_replicate] at hc
        have : b.filled + n - (b.init + (b.filled + n - b.init)) = 0 := by omega
        rw [this] at hc; simp at hc
    · simp only [ReadBuf.filledCells]
      rw [take_writeCells_before (by omega) h1]; exact h.data
  · exact ⟨rfl, h, rfl, by simp only; omega⟩

theorem writeSlice_ok {cap : Nat} {data : Bytes} {b : ReadBuf} (h : CursorOk cap data b) (src : Bytes)
    (hr : b.filled + src.length ≤ b.init) : CursorOk cap data (b.writeSlice src) := by
  have h1 := h.filled_init
  have h2 := h.init_cap
  unfold ReadBuf.writeSlice
  simp only [ReadBuf.capacity] at h2
  have hlm : (src.map some).length = src.length := List.length_map _
  have hlen : b.filled + (src.map some).length ≤ b.raw.length := by rw [hlm]; omega
  refine ⟨?_, h1, ?_, ?_, ?_⟩
  · simp only [ReadBuf.capacity]; rw [length_writeCells hlen]; exact h.cap
  · simp only [ReadBuf.capacity]; rw [length_writeCells hlen]; exact h2
  · intro c hc
    simp only at hc
    rcases mem_writeCells hlen (by rw [hlm]; omega) hc with hc | hc | hc
    · simp only [List.mem_map] at hc; obtain ⟨x, _, rfl⟩ := hc; simp
    · exact h.inited c (mem_take_mono h1 hc)
    · exact h.inited c (mem_drop_take hc)
  · simp only [ReadBuf.filledCells]
    rw [take_writeCells_before (by omega) (Nat.le_refl _)]; exact h.data

/-- Writing into the unfilled part (`as_mut`, rt/io.rs 330-332) and advancing over what was written is what `put_slice` does. -/
theorem raw_eq_put (b : ReadBuf) (src : Bytes) (h : src.length ≤ b.remaining) : (b.writeSlice src).advance src.length = (b.putSlice src).val := by
  unfold ReadBuf.putSlice
  rw [if_pos h]
  simp only [ReadBuf.writeSlice, ReadBuf.advance, ReadBuf.mk.injEq, true_and]
  split <;> omega

/-- Histories of a cursor: its state, and the bytes it should hold.  `raw` is the way by `as_mut`, which writes bytes that may be
uninitialised. -/
inductive CursorHist (cap : Nat) : Bytes → ReadBuf → Prop where
  | new (raw : Bytes) : raw.length = cap → CursorHist cap [] (ReadBuf.new raw)
  | uninit : CursorHist cap [] (ReadBuf.uninit cap)
  | put {data b} (src : Bytes) : CursorHist cap data b → (b.putSlice src).panicked = false →
      CursorHist cap (data ++ src) (b.putSlice src).val
  | other {data b} (op : CursorOp) : CursorHist cap data b → op.Allowed b → (∀ src, op ≠ .put src) → (∀ n, op ≠ .advance n) →
      CursorHist cap data (b.step op).val
  | raw {data b} (src : Bytes) : CursorHist cap data b → src.length ≤ b.remaining →
      CursorHist cap (data ++ src) ((b.writeSlice src).advance src.length)
  | advance {data b} (n : Nat) (more : Bytes) : CursorHist cap data b → CursorOp.Allowed b (.advance n) →
      (b.raw.drop b.filled).take n = more.map some → CursorHist cap (data ++ more) (b.advance n)
  | panicked {data b} (op : CursorOp) : CursorHist cap data b → (b.step op).panicked = true → CursorHist cap data (b.step op).val

/-- An operation that needs more than remains panics and leaves the buffer as it was; otherwise it does
not panic. -/
theorem step_panic (b : ReadBuf) (op : CursorOp) :
    ((b.step op).panicked = true ↔ b.remaining < op.need) ∧ ((b.step op).panicked = true → (b.step op).val = b) := by
  have hi : ∀ n, ((b.initializeUnfilledTo n).panicked = true ↔ b.remaining < n) ∧
      ((b.initializeUnfilledTo n).panicked = true → (b.initializeUnfilledTo n).val = b) := by
    intro n
    unfold ReadBuf.initializeUnfilledTo
    split
    · simp only
      split
      · simp; omega
      · simp; omega
    · simp; omega
  cases op with
  | put src =>
    simp only [ReadBuf.step, ReadBuf.putSlice, CursorOp.need]
    split
    · simp; omega
    · simp; omega
  | initTo n => exact hi n
  | initAll =>
    have := hi b.remaining
    simp only [ReadBuf.step, ReadBuf.initializeUnfilled, CursorOp.need, Nat.not_lt_zero]
    exact ⟨by rw [this.1]; simp, this.2⟩
  | initWrite n src =>
    simp only [ReadBuf.step, CursorOp.need]
    refine ⟨(hi n).1, fun h => ?_⟩
    rw [if_pos h]; exact (hi n).2 h
  | advance n => simp [ReadBuf.step, CursorOp.need]

/-- C37.  Through every history of cursor operations, `filled ≤ initialised ≤ capacity`, the capacity does not
change, the initialised bytes are initialised, and the filled bytes are exactly the bytes put (or
skipped over with `advance`, which may only skip initialised bytes). -/
theorem C37_cursor_accounting (cap : Nat) (data : Bytes) (b : ReadBuf) (h : CursorHist cap data b) : CursorOk cap data b := by
  induction h with
  | new raw hr =>
    refine ⟨by simp [ReadBuf.new, ReadBuf.capacity, hr], by simp [ReadBuf.new], by simp [ReadBuf.new, ReadBuf.capacity], ?_, rfl⟩
    intro c hc
    simp only [ReadBuf.new] at hc
    have := List.mem_of_mem_take hc
    simp only [List.mem_map] at this
    obtain ⟨x, _, rfl⟩ := this; simp
  | uninit =>
    refine ⟨by simp [ReadBuf.uninit, ReadBuf.capacity], by simp [ReadBuf.uninit], by simp [ReadBuf.uninit], ?_, rfl⟩
    simp [ReadBuf.uninit]
  | @put data b src _ hp ih =>
    have := (step_panic b (.put src)).1
    simp only [ReadBuf.step, CursorOp.need] at this
    exact (putSlice_ok ih src (by rw [hp] at this; simp at this; omega)).2
  | @other data b op _ hall h1 h2 ih =>
    have hpan := step_panic b op
    cases hp : (b.step op).panicked with
    | true => rw [hpan.2 hp]; exact ih
    | false =>
      have hn : op.need ≤ b.remaining := by
        have := hpan.1; rw [hp] at this; simp at this; omega
      cases op with
      | put src => exact absurd rfl (h1 src)
      | advance n => exact absurd rfl (h2 n)
      | initTo n => exact (initTo_ok ih n hn).2.1
      | initAll => exact (initTo_ok ih b.remaining (Nat.le_refl _)).2.1
      | initWrite n src =>
        obtain ⟨g1, g2, g3, g4⟩ := initTo_ok ih n hn
        simp only [ReadBuf.step, g1, Bool.false_eq_true, if_false]
        refine writeSlice_ok g2 src ?_
        have hs : src.length ≤ n := hall
        omega
  | @raw data b src _ hr ih => rw [raw_eq_put b src hr]; exact (putSlice_ok ih src hr).2
  | @advance data b n more _ hall hmore ih =>
    have h1 := ih.filled_init
    have h2 := ih.init_cap
    have hall' : b.filled + n ≤ b.init := hall
    have hinit : max (b.filled + n) b.init = b.init := by omega
    refine ⟨ih.cap, ?_, ?_, ?_, ?_⟩
    · simp only [ReadBuf.advance, hinit]; exact hall'
    · simp only [ReadBuf.advance, hinit]; exact h2
    · simp only [ReadBuf.advance, hinit]; exact ih.inited
    · have := ih.data
      simp only [ReadBuf.filledCells, ReadBuf.advance] at this ⊢
      rw [List.take_add, this, hmore]; simp
  | @panicked data b op _ hp ih => rw [(step_panic b op).2 hp]; exact ih

/-- C37.  An operation panics exactly if it needs more room than there is, and then nothing was written. -/
theorem C37_panics_without_writing (b : ReadBuf) (op : CursorOp) :
    ((b.step op).panicked = true ↔ b.remaining < op.need) ∧ ((b.step op).panicked = true → (b.step op).val = b) :=
  step_panic b op

example : ((ReadBuf.uninit 4).putSlice (ascii "ab")).val.filledCells = (ascii "ab").map some ∧
    ((ReadBuf.uninit 4).putSlice (ascii "abcde")).panicked = true ∧
    ((((ReadBuf.uninit 4).putSlice (ascii "ab")).val.initializeUnfilled.val.writeSlice (ascii "c")).advance 2).filledCells =
      [some 97, some 98, some 99, some 0] := by decide +kernel

/-! ## C35 -/

/-- The bytes an inner transport still has. -/
def Spec.innerBytes : Inner → Bytes
  | [] => []
  | .data bs :: t => bs ++ innerBytes t
  | _ :: t => innerBytes t

/-- The bytes a rewound transport still has: those replayed, then the transport's. -/
def Spec.streamBytes (r : Rewind) : Bytes := r.pre.getD [] ++ innerBytes r.inner

/-- A series of reads into fresh buffers of these capacities: what each of them was filled with. -/
def Rewind.reads : Rewind → List Nat → List (List (Option Byte)) × Rewind
  | r, [] => ([], r)
  | r, n :: ns =>
    let s := r.pollRead (ReadBuf.uninit n)
    (s.2.2.val.filledCells :: (Rewind.reads s.2.1 ns).1, (Rewind.reads s.2.1 ns).2)

/-- One read into a cursor that holds some bytes: what it adds are the next bytes of the stream; it
never panics. -/
theorem C35_read_takes_next (r : Rewind) (cap : Nat) (data : Bytes) (b : ReadBuf) (hb : CursorOk cap data b) :
    ∃ got, (r.pollRead b).2.2.panicked = false ∧ CursorOk cap (data ++ got) (r.pollRead b).2.2.val ∧
      streamBytes r = got ++ streamBytes (r.pollRead b).2.1 := by
  have hinner : ∀ inner : Inner, ∃ got, (inner.pollRead b).2.2.panicked = false ∧
      CursorOk cap (data ++ got) (inner.pollRead b).2.2.val ∧
      innerBytes inner = got ++ innerBytes (inner.pollRead b).2.1 := by
    intro inner
    cases inner with
    | nil => exact ⟨[], rfl, by rw [List.append_nil]; exact hb, rfl⟩
    | cons a t =>
      cases a with
      | pending => exact ⟨[], rfl, by rw [List.append_nil]; exact hb, rfl⟩
      | error => exact ⟨[], rfl, by rw [List.append_nil]; exact hb, rfl⟩
      | data bs =>
        obtain ⟨h1, h2⟩ := putSlice_ok hb (bs.take b.remaining) (by rw [List.length_take]; omega)
        refine ⟨bs.take b.remaining, h1, h2, ?_⟩
        simp only [Inner.pollRead]
        split
        · rename_i h; rw [List.take_of_length_le h]; rfl
        · simp only [innerBytes]; rw [← List.append_assoc, List.take_append_drop]
  have hread : ∀ inner : Inner, r.pre.getD [] = [] → inner = r.inner →
      r.pollRead b = Rewind.readInner inner b → ∃ got, (r.pollRead b).2.2.panicked = false ∧
        CursorOk cap (data ++ got) (r.pollRead b).2.2.val ∧ streamBytes r = got ++ streamBytes (r.pollRead b).2.1 := by
    intro inner hp hi he
    obtain ⟨got, g1, g2, g3⟩ := hinner inner
    rw [he]
    refine ⟨got, g1, g2, ?_⟩
    simp only [streamBytes, Rewind.readInner, hp, ← hi, Option.getD_none, List.nil_append]
    exact g3
  unfold Rewind.pollRead at hread ⊢
  cases hp : r.pre with
  | none => rw [hp] at hread; exact hread r.inner rfl rfl rfl
  | some p =>
    rw [hp] at hread
    simp only at hread ⊢
    split
    · rename_i hne
      obtain ⟨h1, h2⟩ := putSlice_ok hb (p.take (min p.length b.remaining)) (by rw [List.length_take]; omega)
      refine ⟨_, h1, h2, ?_⟩
      simp only [streamBytes, hp, Option.getD_some]
      rw [← List.append_assoc]
      congr 1
      split
      · simp
      · rename_i hh
        simp only [ne_eq, Decidable.not_not] at hh
        conv => lhs; rw [← List.take_append_drop (min p.length b.remaining) p, hh]
        simp
    · rename_i hne
      simp only [ne_eq, Decidable.not_not] at hne
      rw [if_neg (by simp [hne])] at hread
      exact hread r.inner (by simp [hne]) rfl rfl

/-- C35.  However the reads are sized and whatever the transport does, the bytes delivered so far
followed by those still to come are the buffered bytes followed by the transport's. -/
theorem C35_each_byte_once (buf : Bytes) (io : Inner) (sizes : List Nat) :
    ∃ got : List Bytes, ((Rewind.newBuffered io buf).reads sizes).1 = got.map (·.map some) ∧
      got.flatten ++ streamBytes ((Rewind.newBuffered io buf).reads sizes).2 = buf ++ innerBytes io := by
  have main : ∀ sizes r, ∃ got : List Bytes, (Rewind.reads r sizes).1 = got.map (·.map some) ∧
      got.flatten ++ streamBytes (Rewind.reads r sizes).2 = streamBytes r := by
    intro sizes
    induction sizes with
    | nil => intro r; exact ⟨[], rfl, rfl⟩
    | cons n ns ih =>
      intro r
      obtain ⟨got, _, g2, g3⟩ := C35_read_takes_next r n [] (ReadBuf.uninit n) (C37_cursor_accounting n [] _ .uninit)
      obtain ⟨gots, e1, e2⟩ := ih (r.pollRead (ReadBuf.uninit n)).2.1
      refine ⟨got :: gots, ?_, ?_⟩
      · simp only [Rewind.reads, List.map_cons, e1]
        congr 1
        have := g2.data
        simpa using this
      · simp only [Rewind.reads, List.flatten_cons, List.append_assoc]
        rw [e2, ← g3]
  exact main sizes (Rewind.newBuffered io buf)

/-- C35.  Buffered bytes come before the transport is asked: while some are left and the reader has room, a read is ready
with at least one of them and leaves the transport alone. -/
theorem C35_buffered_first (p : Bytes) (io : Inner) (b : ReadBuf) (hp : p ≠ []) (hr : 0 < b.remaining) :
    ((Rewind.mk (some p) io).pollRead b).1 = .ready ∧ ((Rewind.mk (some p) io).pollRead b).2.1.inner = io ∧
      ((Rewind.mk (some p) io).pollRead b).2.2.val.filled = b.filled + min p.length b.remaining := by
  have hl : (p.take (min p.length b.remaining)).length = min p.length b.remaining := by rw [List.length_take]; omega
  simp only [Rewind.pollRead, if_pos hp, true_and]
  unfold ReadBuf.putSlice
  rw [if_pos (by rw [hl]; omega), hl]

/-- C35.  With nothing buffered the transport's own answer is given: an end is reported only if it is the transport's. -/
theorem C35_then_transport (r : Rewind) (b : ReadBuf) (h : r.pre.getD [] = []) :
    (r.pollRead b).1 = (r.inner.pollRead b).1 ∧ (r.pollRead b).2.2 = (r.inner.pollRead b).2.2 ∧
      (r.pollRead b).2.1.inner = (r.inner.pollRead b).2.1 := by
  have : r.pollRead b = Rewind.readInner r.inner b := by
    unfold Rewind.pollRead
    cases hp : r.pre with
    | none => rfl
    | some p =>
      rw [hp] at h
      simp only [Option.getD_some] at h
      simp [h]
  rw [this]
  exact ⟨rfl, rfl, rfl⟩

/-- C35.  Taking the stream apart gives back the bytes not yet delivered. -/
theorem C35_into_inner (r : Rewind) : r.intoInner.2 ++ innerBytes r.intoInner.1 = streamBytes r := rfl

example : ((Rewind.newBuffered [.pending, .data (ascii "def")] (ascii "abc")).reads [2, 5, 5, 2, 2]).1 =
    [ascii "ab", ascii "c", [], ascii "de", ascii "f"].map (·.map some) := by decide +kernel

end Hyper
