import Verif.Model.Compat
import Verif.Props.ReadBuf

/-!
# C72: the adapter through which h2 reads from hyper's transport
-/

namespace Hyper

open Spec

/-- What a transport may do with a cursor in one `poll_read`: add bytes, and initialise more; nothing it got is taken away. -/
structure Spec.Fills (got : Bytes) (b b' : ReadBuf) : Prop where
  ok : ∀ cap data, CursorOk cap data b → CursorOk cap (data ++ got) b'
  init : b.init ≤ b'.init

/-- The operations of a cursor within their contracts do that. -/
inductive CursorRun : Bytes → ReadBuf → ReadBuf → Prop where
  | refl (b : ReadBuf) : CursorRun [] b b
  | put {got : Bytes} {b b' : ReadBuf} (src : Bytes) : CursorRun got b b' → src.length ≤ b'.remaining →
      CursorRun (got ++ src) b (b'.putSlice src).val
  | raw {got : Bytes} {b b' : ReadBuf} (src : Bytes) : CursorRun got b b' → src.length ≤ b'.remaining →
      CursorRun (got ++ src) b ((b'.writeSlice src).advance src.length)
  | initTo {got : Bytes} {b b' : ReadBuf} (n : Nat) : CursorRun got b b' → n ≤ b'.remaining → CursorRun got b (b'.initializeUnfilledTo n).val

/-- C72, the assumption is met: whatever a transport does through a cursor's operations is allowed. -/
theorem C72_contract (got : Bytes) (b b' : ReadBuf) (h : CursorRun got b b') : Fills got b b' := by
  have hput : ∀ (x : ReadBuf) (src : Bytes), x.init ≤ (x.putSlice src).val.init := by
    intro x src; unfold ReadBuf.putSlice; split
    · simp only; split <;> omega
    · exact Nat.le_refl _
  induction h with
  | refl b => exact ⟨fun cap data h => by simpa using h, Nat.le_refl _⟩
  | put src _ hr ih =>
    exact ⟨fun cap data h => by rw [← List.append_assoc]; exact (putSlice_ok (ih.ok cap data h) src hr).2, Nat.le_trans ih.init (hput _ src)⟩
  | raw src _ hr ih =>
    rw [raw_eq_put _ src hr]
    exact ⟨fun cap data h => by rw [← List.append_assoc]; exact (putSlice_ok (ih.ok cap data h) src hr).2, Nat.le_trans ih.init (hput _ src)⟩
  | @initTo got b b' n _ hr ih =>
    refine ⟨fun cap data h => (initTo_ok (ih.ok cap data h) n hr).2.1, Nat.le_trans ih.init ?_⟩
    unfold ReadBuf.initializeUnfilledTo
    rw [if_pos hr]; simp only
    split
    · simp only; omega
    · exact Nat.le_refl _

/-- The cursor is the buffer itself. -/
theorem compatCursor_eq (t : ReadBuf) : compatCursor t = t := by
  simp [compatCursor, ReadBuf.setInit, ReadBuf.setFilled]

theorem cursorOk_back {cap : Nat} {data got : Bytes} {t b : ReadBuf} (ht : CursorOk cap data t) (hb : CursorOk cap (data ++ got) b)
    (hi : t.init ≤ b.init) : CursorOk cap data { t with raw := b.raw } := by
  have h1 := ht.init_cap
  have h2 := ht.filled_init
  have hc : b.raw.length = t.raw.length := by have h1 := hb.cap; have h2 := ht.cap; simp only [ReadBuf.capacity] at h1 h2; omega
  have hlen : data.length = t.filled := by
    have := congrArg List.length ht.data
    simp only [ReadBuf.filledCells, List.length_take, List.length_map, ReadBuf.capacity] at this h1
    omega
  have hlen' : (data ++ got).length = b.filled := by
    have := congrArg List.length hb.data
    have h3 := hb.init_cap
    have h4 := hb.filled_init
    simp only [ReadBuf.filledCells, List.length_take, List.length_map, ReadBuf.capacity] at this h3
    omega
  refine ⟨?_, h2, ?_, ?_, ?_⟩
  · simp only [ReadBuf.capacity]; rw [hc]; exact ht.cap
  · simp only [ReadBuf.capacity] at h1 ⊢; rw [hc]; exact h1
  · exact fun c hcm => hb.inited c (mem_take_mono hi hcm)
  · have := hb.data
    simp only [ReadBuf.filledCells] at this ⊢
    rw [List.length_append] at hlen'
    have e : b.raw.take t.filled = (b.raw.take b.filled).take t.filled := by rw [List.take_take, Nat.min_eq_left (by omega)]
    rw [e, this, List.map_append, List.take_append_of_le_length (by simp [hlen]), List.take_of_length_le (by simp [hlen])]

/-- C72: whatever the transport does within its contract, the buffer's account stays true: nothing is taken for initialised that is not, what
was filled stays.  When the read succeeds and does not panic, exactly the bytes the transport put were added; when it does not succeed, or
panics, none was. -/
theorem C72_read (inner : ReadBuf → PollIo × ReadBuf) (cap : Nat) (data got : Bytes) (t : ReadBuf) (ht : CursorOk cap data t)
    (hin : Fills got t (inner t).2) :
    (compatPollRead inner t).1 = (inner t).1 ∧ t.init ≤ (inner t).2.init ∧
      ((inner t).1 = .ready → (compatPollRead inner t).2.panicked = false → CursorOk cap (data ++ got) (compatPollRead inner t).2.val) ∧
      ((inner t).1 ≠ .ready → (compatPollRead inner t).2.panicked = false) ∧
      ((inner t).1 ≠ .ready ∨ (compatPollRead inner t).2.panicked = true → CursorOk cap data (compatPollRead inner t).2.val) := by
  have hok := hin.ok cap data ht
  have hi := hin.init
  have hback := cursorOk_back ht hok hi
  have h1 := hok.filled_init
  have h2 := hok.init_cap
  unfold compatPollRead
  rw [compatCursor_eq]
  simp only
  by_cases hr : (inner t).1 = .ready
  · rw [if_pos hr]
    refine ⟨hr.symm, hi, ?_, fun h => absurd hr h, ?_⟩
    · intro _ hp
      have hset : ∀ x : ReadBuf, x.raw = (inner t).2.raw → x.init ≤ (inner t).2.init → (x.tokioSetFilled (inner t).2.filled).panicked = false →
          CursorOk cap (data ++ got) (x.tokioSetFilled (inner t).2.filled).val := by
        intro x hraw hx hpx
        unfold ReadBuf.tokioSetFilled at hpx ⊢
        split at hpx
        · rename_i hle
          rw [if_pos hle]
          refine ⟨?_, hle, ?_, ?_, ?_⟩
          · simp only [ReadBuf.capacity, hraw]; exact hok.cap
          · simp only [ReadBuf.capacity, hraw] at h2 ⊢; omega
          · simp only [hraw]; exact fun c hc => hok.inited c (mem_take_mono hx hc)
          · simp only [ReadBuf.filledCells, hraw]; exact hok.data
        · simp at hpx
      refine hset _ ?_ ?_ hp
      · unfold ReadBuf.tokioAssumeInit; split <;> rfl
      · have := ht.filled_init
        unfold ReadBuf.tokioAssumeInit; split
        · simp only; omega
        · exact hi
    · rintro (h | hp)
      · exact absurd hr h
      · have hx : CursorOk cap data (ReadBuf.tokioAssumeInit { t with raw := (inner t).2.raw } ((inner t).2.init - t.init)) := by
          unfold ReadBuf.tokioAssumeInit
          split
          · rename_i hlt
            simp only at hlt
            have := ht.filled_init
            refine ⟨hback.cap, by simp only; omega, ?_, ?_, hback.data⟩
            · simp only [ReadBuf.capacity] at h2 ⊢; omega
            · exact fun c hc => hok.inited c (mem_take_mono (by simp only; omega) hc)
          · exact hback
        revert hp
        unfold ReadBuf.tokioSetFilled
        split
        · intro hp; simp at hp
        · intro _; exact hx
  · rw [if_neg hr]
    exact ⟨rfl, hi, fun h => absurd h hr, fun _ => rfl, fun _ => hback⟩

/-- C72: it panics exactly if the transport filled more than was known to be initialised before, and fewer bytes were known to be filled
than to be initialised, and the bytes newly initialised do not reach to the end of those filled when counted from the end of those filled
before. -/
theorem C72_panics_iff (inner : ReadBuf → PollIo × ReadBuf) (t : ReadBuf) (hr : (inner t).1 = .ready) :
    (compatPollRead inner t).2.panicked = true ↔
      t.init < (inner t).2.filled ∧ t.filled + ((inner t).2.init - t.init) < (inner t).2.filled := by
  unfold compatPollRead
  rw [compatCursor_eq]
  simp only [hr, if_true]
  unfold ReadBuf.tokioSetFilled ReadBuf.tokioAssumeInit
  simp only
  split <;> split <;> simp_all <;> omega

/-- C72 in part: with a buffer that is initialised as far as it is filled, or as a whole, the read does not panic.  Missing: buffers
initialised farther than filled and not to their end; for these it is false (`C72_panics`). -/
theorem C72_no_panic_partial (inner : ReadBuf → PollIo × ReadBuf) (cap : Nat) (data got : Bytes) (t : ReadBuf) (ht : CursorOk cap data t)
    (hin : Fills got t (inner t).2) (h : t.init = t.filled ∨ t.init = cap) : (compatPollRead inner t).2.panicked = false := by
  have hok := hin.ok cap data ht
  have hi := hin.init
  have h1 := hok.filled_init
  have h2 := hok.init_cap
  have h3 := hok.cap
  by_cases hr : (inner t).1 = .ready
  · have := C72_panics_iff inner t hr
    cases hp : (compatPollRead inner t).2.panicked with
    | false => rfl
    | true => rw [hp] at this; have := this.1 rfl; omega
  · exact (C72_read inner cap data got t ht hin).2.2.2.1 hr

/-- Four of eight bytes are known to be initialised, none is filled, the transport has eight: `assume_init` counts the four new ones from
the start of the buffer. -/
theorem C72_panics :
    let t : ReadBuf := ⟨[some 0, some 0, some 0, some 0, none, none, none, none], 0, 4⟩
    let inner : ReadBuf → PollIo × ReadBuf := fun b => (.ready, (b.putSlice (ascii "abcdefgh")).val)
    CursorOk 8 [] t ∧ Fills (ascii "abcdefgh") t (inner t).2 ∧ (compatPollRead inner t).2.panicked = true := by
  refine ⟨⟨rfl, by decide, by decide, by decide, rfl⟩, C72_contract _ _ _ ?_, by decide +kernel⟩
  exact .put (got := []) _ (.refl _) (by decide)

/-- Reads into fresh buffers, as h2's codec makes them (`tokio_util::io::poll_read_buf`). -/
def compatReads : Inner → List Nat → List (OrPanic (List (Option Byte))) × Inner
  | io, [] => ([], io)
  | io, n :: ns =>
    let r := (compatPollRead (fun b => ((io.pollRead b).1, (io.pollRead b).2.2.val)) (ReadBuf.uninit n)).2
    let s := compatReads (io.pollRead (ReadBuf.uninit n)).2.1 ns
    (⟨r.panicked, r.val.filledCells⟩ :: s.1, s.2)

/-- C72: h2 gets the transport's bytes, each once and in order, whatever the sizes of its buffers, and no read panics. -/
theorem C72_h2 (sizes : List Nat) (io : Inner) :
    ∃ got : List Bytes, (compatReads io sizes).1 = got.map (fun bs => ⟨false, bs.map some⟩) ∧
      got.flatten ++ innerBytes (compatReads io sizes).2 = innerBytes io := by
  induction sizes generalizing io with
  | nil => exact ⟨[], rfl, rfl⟩
  | cons n ns ih =>
    have hu : CursorOk n [] (ReadBuf.uninit n) := C37_cursor_accounting n [] _ .uninit
    have hinner : ∃ got, (io.pollRead (ReadBuf.uninit n)).2.2.val = ((ReadBuf.uninit n).putSlice got).val ∧ got.length ≤ (ReadBuf.uninit n).remaining ∧
        ((io.pollRead (ReadBuf.uninit n)).1 ≠ .ready → got = []) ∧ innerBytes io = got ++ innerBytes (io.pollRead (ReadBuf.uninit n)).2.1 := by
      have hnil : ReadBuf.uninit n = ((ReadBuf.uninit n).putSlice []).val := by
        simp [ReadBuf.putSlice, writeCells, ReadBuf.uninit]
      cases io with
      | nil => exact ⟨[], hnil, by simp, fun _ => rfl, rfl⟩
      | cons a t =>
        cases a with
        | pending => exact ⟨[], hnil, by simp, fun _ => rfl, rfl⟩
        | error => exact ⟨[], hnil, by simp, fun _ => rfl, rfl⟩
        | data bs =>
          refine ⟨bs.take (ReadBuf.uninit n).remaining, rfl, by rw [List.length_take]; omega, fun h => absurd rfl h, ?_⟩
          simp only [Inner.pollRead]
          split
          · rename_i h; rw [List.take_of_length_le h]; rfl
          · simp only [innerBytes]; rw [← List.append_assoc, List.take_append_drop]
    obtain ⟨got, g1, g2, g3, g4⟩ := hinner
    obtain ⟨gots, e1, e2⟩ := ih (io.pollRead (ReadBuf.uninit n)).2.1
    refine ⟨got :: gots, ?_, ?_⟩
    · have hf : Fills got (ReadBuf.uninit n) ((fun b => ((io.pollRead b).1, (io.pollRead b).2.2.val)) (ReadBuf.uninit n)).2 := by
        simp only [g1]
        exact C72_contract _ _ _ (.put (got := []) got (.refl _) g2)
      have hp := C72_no_panic_partial (fun b => ((io.pollRead b).1, (io.pollRead b).2.2.val)) n [] got _ hu hf (.inl rfl)
      have hrd := C72_read (fun b => ((io.pollRead b).1, (io.pollRead b).2.2.val)) n [] got _ hu hf
      have hdata : (compatPollRead (fun b => ((io.pollRead b).1, (io.pollRead b).2.2.val)) (ReadBuf.uninit n)).2.val.filledCells = got.map some := by
        by_cases hr : (io.pollRead (ReadBuf.uninit n)).1 = .ready
        · simpa using (hrd.2.2.1 hr hp).data
        · have := (hrd.2.2.2.2 (.inl hr)).data
          rw [g3 hr]; exact this
      simp only [compatReads, List.map_cons, e1, hp, hdata]
    · simp only [compatReads, List.flatten_cons, List.append_assoc]
      rw [e2, ← g4]

example : (compatReads [.pending, .data (ascii "defg"), .error] [2, 3, 5, 5]) =
    ([[], ascii "def", ascii "g", []].map (fun bs => ⟨false, bs.map some⟩), []) := by decide +kernel

/-- A buffer some of which is filled. -/
example : let t : ReadBuf := ⟨[some 1, some 2, none, none, none], 2, 2⟩
    let inner : ReadBuf → PollIo × ReadBuf := fun b => (.ready, (b.putSlice [3, 4]).val)
    CursorOk 5 [1, 2] t ∧ (compatPollRead inner t).2 = ⟨false, ⟨[some 1, some 2, some 3, some 4, none], 4, 4⟩⟩ := by
  exact ⟨⟨rfl, by decide, by decide, by decide, rfl⟩, by decide +kernel⟩

end Hyper
