import Verif.Model.WriteBuf
import Verif.Props.Buf

/-! # Buffered writes: C33, C34 -/

namespace Hyper

open Spec

/-- What is done to the write half: bytes put in the head buffer, a frame buffered, a flush (with these bytes in the
read buffer), a shutdown. -/
inductive WriteOp (β : Type) where
  | head (bs : Bytes)
  | body (b : β) (room : Bool)
  | flush (readBuf : Bytes)
  | shutdown (readBuf : Bytes)

/-- One operation on the model; `none` is a panic. -/
def WriteSide.step {β : Type} (I : BufI β) (s : WriteSide β) : WriteOp β → Option (WriteSide β)
  | .head bs => some { s with wbuf := s.wbuf.putHead bs }
  | .body b room => (s.wbuf.buffer I room b).map fun w => { s with wbuf := w }
  | .flush readBuf => if (s.pollFlush I readBuf).1 = .panic then none else some (s.pollFlush I readBuf).2
  | .shutdown readBuf => if (s.pollShutdown I readBuf).1 = .panic then none else some (s.pollShutdown I readBuf).2

/-- A sequence of operations. -/
def WriteSide.run {β : Type} (I : BufI β) : WriteSide β → List (WriteOp β) → Option (WriteSide β)
  | s, [] => some s
  | s, op :: ops =>
    match s.step I op with
    | none => none
    | some s' => WriteSide.run I s' ops

/-- The bytes a sequence of operations buffers, in order. -/
def Spec.written {β : Type} (bytes : β → Bytes) : List (WriteOp β) → Bytes
  | [] => []
  | .head bs :: t => bs ++ written bytes t
  | .body b _ :: t => bytes b ++ written bytes t
  | _ :: t => written bytes t

/-- The bytes waiting: those of the head buffer, then the queue's. -/
def Spec.waiting {β : Type} (bytes : β → Bytes) (w : WriteBuf β) : Bytes :=
  w.headers.bytes.drop w.headers.pos ++ concat bytes w.queue

/-- One operation is allowed: a head may be put only when the queue has drained; a frame is a good buffer with
bytes in it. -/
def WriteOp.Allowed {β : Type} (I : BufI β) (Ok : β → Prop) (bytes : β → Bytes) (s : WriteSide β) : WriteOp β → Prop
  | .head _ => s.wbuf.canHeadersBuf I = true
  | .body b _ => Ok b ∧ bytes b ≠ []
  | _ => True

/-- The user's side of it: frames are good buffers with bytes in them, and heads are put only when the queue has
drained (`can_headers_buf`). -/
def Gated {β : Type} (I : BufI β) (Ok : β → Prop) (bytes : β → Bytes) : WriteSide β → List (WriteOp β) → Prop
  | _, [] => True
  | s, op :: ops =>
    op.Allowed I Ok bytes s ∧
    (match s.step I op with
      | none => True
      | some s' => Gated I Ok bytes s' ops)

/-- What holds of the write buffer. -/
structure WBufOk {β : Type} (Ok : β → Prop) (bytes : β → Bytes) (w : WriteBuf β) : Prop where
  pos : w.headers.pos ≤ w.headers.bytes.length
  queue : AllNonempty Ok bytes w.queue
  flat : w.strategy = .flatten → w.queue = []

section
variable {β : Type} {I : BufI β} {Ok : β → Prop} {bytes : β → Bytes}

theorem concat_nil_iff {l : BufList β} (hl : AllNonempty Ok bytes l) : concat bytes l = [] ↔ l = [] := by
  cases l with
  | nil => simp [concat]
  | cons b t =>
    have := (hl b List.mem_cons_self).2
    simp [concat, this]

theorem wbuf_remaining (h : Stands I Ok bytes) {w : WriteBuf β} (hw : WBufOk Ok bytes w) :
    WriteBuf.remaining I w = (waiting bytes w).length := by
  simp only [WriteBuf.remaining, waiting, List.length_append, List.length_drop, list_remaining h w.queue hw.queue, Cursor.remaining]

theorem wbuf_advance (h : Stands I Ok bytes) {w : WriteBuf β} (hw : WBufOk Ok bytes w) (n : Nat)
    (hn : n ≤ (waiting bytes w).length) :
    ∃ w', WriteBuf.advance I w n = some w' ∧ WBufOk Ok bytes w' ∧ w'.strategy = w.strategy ∧ waiting bytes w' = (waiting bytes w).drop n := by
  have hp := hw.pos
  simp only [waiting, List.length_append, List.length_drop] at hn
  unfold WriteBuf.advance
  split
  · rename_i e
    simp only [Cursor.remaining] at e
    refine ⟨_, rfl, ⟨Nat.le_refl _, hw.queue, hw.flat⟩, rfl, ?_⟩
    simp only [waiting, Cursor.reset, List.drop_nil, List.nil_append]
    rw [List.drop_append, List.drop_of_length_le (by rw [List.length_drop]; omega), List.length_drop, e]
    simp
  · split
    · rename_i e
      simp only [Cursor.remaining] at e
      refine ⟨_, rfl, ⟨by simp only [Cursor.advance]; omega, hw.queue, hw.flat⟩, rfl, ?_⟩
      simp only [waiting, Cursor.advance]
      rw [List.drop_append_of_le_length (by rw [List.length_drop]; omega), List.drop_drop]
    · rename_i e
      simp only [Cursor.remaining] at e
      obtain ⟨q, e1, e2, e3⟩ := list_advance h w.queue (n - w.headers.remaining) hw.queue (by simp only [Cursor.remaining]; omega)
      refine ⟨{ w with headers := w.headers.reset, queue := q }, by rw [e1]; rfl, ⟨Nat.le_refl _, e2, ?_⟩, rfl, ?_⟩
      · intro hf
        have hq := hw.flat hf
        rw [hq] at e3
        exact (concat_nil_iff e2).mp (by rw [e3]; simp [concat])
      · simp only [waiting, Cursor.reset, List.drop_nil, List.nil_append]
        rw [e3, List.drop_append, List.drop_of_length_le (l := List.drop _ _) (by rw [List.length_drop]; omega), List.length_drop]
        rfl

theorem wbuf_vectored (h : Stands I Ok bytes) {w : WriteBuf β} (hw : WBufOk Ok bytes w) (k : Nat) :
    (WriteBuf.vectored I w k).length ≤ k ∧ (∃ t, waiting bytes w = (WriteBuf.vectored I w k).flatten ++ t) ∧
    ((WriteBuf.vectored I w k).length < k → waiting bytes w = (WriteBuf.vectored I w k).flatten) ∧
    (waiting bytes w ≠ [] → 0 < k → (WriteBuf.vectored I w k).flatten ≠ []) := by
  have hv := ((C36_list_is_concatenation h).vectored w.queue (k - (w.headers.vectored k).length) hw.queue)
  obtain ⟨v1, ⟨t, v2⟩, v3, v4⟩ := hv
  simp only [bufListBuf] at v1 v2 v3 v4
  have hh : w.headers.vectored k = if k = 0 then [] else if 0 < w.headers.remaining then [w.headers.chunk] else [] := rfl
  have hp := hw.pos
  unfold WriteBuf.vectored
  by_cases hk : k = 0
  · subst hk
    rw [if_pos rfl] at hh
    rw [hh] at v1 ⊢
    simp only [List.nil_append, List.length_nil, Nat.sub_zero] at v1 ⊢
    have : BufList.vectored I w.queue 0 = [] := by simp [BufList.vectored]
    rw [this]
    exact ⟨by simp, ⟨_, rfl⟩, by simp, by simp⟩
  · rw [if_neg hk] at hh
    by_cases hr : 0 < w.headers.remaining
    · rw [if_pos hr] at hh
      rw [hh] at v1 v2 v3 v4 ⊢
      simp only [List.length_singleton] at v1 v2 v3 v4 ⊢
      simp only [waiting, Cursor.chunk, List.length_append, List.length_singleton, List.flatten_append, List.flatten_singleton,
        List.append_assoc]
      refine ⟨by omega, ⟨t, by rw [← v2]⟩, fun hl => by rw [← v3 (by omega)], ?_⟩
      intro _ _ hnil
      have := congrArg List.length hnil
      simp only [Cursor.remaining] at hr
      simp only [List.length_append, List.length_drop, List.length_nil] at this
      omega
    · rw [if_neg hr] at hh
      rw [hh] at v1 v2 v3 v4 ⊢
      simp only [List.length_nil, Nat.sub_zero, List.nil_append] at v1 v2 v3 v4 ⊢
      have hd : w.headers.bytes.drop w.headers.pos = [] := by
        apply List.drop_of_length_le
        simp only [Cursor.remaining] at hr; omega
      simp only [waiting, hd, List.nil_append]
      exact ⟨v1, ⟨t, v2⟩, v3, v4⟩

/-- The `Buf` implementation of the write buffer stands for the waiting bytes. -/
theorem wbuf_chunk (h : Stands I Ok bytes) {w : WriteBuf β} (hw : WBufOk Ok bytes w) :
    (∃ t, waiting bytes w = WriteBuf.chunk I w ++ t) ∧ (waiting bytes w ≠ [] → WriteBuf.chunk I w ≠ []) := by
  obtain ⟨⟨t, c1⟩, c2⟩ := (C36_list_is_concatenation h).chunk w.queue hw.queue
  simp only [bufListBuf] at c1 c2
  unfold WriteBuf.chunk
  split
  · rename_i hne
    exact ⟨⟨_, rfl⟩, fun _ => hne⟩
  · rename_i hne
    simp only [ne_eq, Decidable.not_not, Cursor.chunk] at hne
    simp only [waiting, hne, List.nil_append]
    exact ⟨⟨t, c1⟩, c2⟩

/-- The copying loop copies all of a buffer. -/
theorem extendLoop_spec (h : Stands I Ok bytes) : ∀ fuel b acc, Ok b → (bytes b).length < fuel →
    extendLoop I fuel b acc = some (acc ++ bytes b) := by
  intro fuel
  induction fuel with
  | zero => intro b acc _ hf; omega
  | succ fuel ih =>
    intro b acc hb hf
    obtain ⟨⟨t, c1⟩, c2⟩ := h.chunk b hb
    rw [extendLoop]
    split
    · rename_i hc
      have : bytes b = [] := Classical.byContradiction fun hne => c2 hne hc
      simp [this]
    · rename_i hc
      obtain ⟨b', e1, e2, e3⟩ := h.advance b (I.chunk b).length hb (by rw [c1, List.length_append]; omega)
      rw [e1]
      have hb' : bytes b' = t := by rw [e3, c1]; simp
      simp only
      have hpos : 0 < (I.chunk b).length := List.length_pos_iff.mpr hc
      have hlen : (bytes b).length = (I.chunk b).length + t.length := by rw [c1, List.length_append]
      rw [ih b' _ e2 (by rw [hb']; omega), hb', List.append_assoc, ← c1]

theorem buffer_spec (h : Stands I Ok bytes) {w : WriteBuf β} (hw : WBufOk Ok bytes w) (room : Bool) (b : β)
    (hb : Ok b) (hne : bytes b ≠ []) :
    ∃ w', w.buffer I room b = some w' ∧ WBufOk Ok bytes w' ∧ w'.strategy = w.strategy ∧ waiting bytes w' = waiting bytes w ++ bytes b := by
  have hp := hw.pos
  rcases w with ⟨hd, mx, q, st⟩
  unfold WriteBuf.buffer
  simp only at hp
  cases st with
  | flatten =>
    have hq : q = [] := hw.flat rfl
    simp only
    rw [extendLoop_spec h _ b _ hb (by rw [h.remaining b hb]; omega)]
    have hu : (hd.maybeUnshift room).pos ≤ (hd.maybeUnshift room).bytes.length ∧
        (hd.maybeUnshift room).bytes.drop (hd.maybeUnshift room).pos = hd.bytes.drop hd.pos := by
      unfold Cursor.maybeUnshift
      split
      · exact ⟨hp, rfl⟩
      · split
        · exact ⟨hp, rfl⟩
        · exact ⟨Nat.zero_le _, by simp⟩
    refine ⟨_, rfl, ⟨?_, hw.queue, hw.flat⟩, rfl, ?_⟩
    · simp only [List.length_append]; omega
    · simp only [waiting, hq]
      rw [List.drop_append_of_le_length hu.1, hu.2]
      simp [concat]
  | queue =>
    refine ⟨_, rfl, ⟨hp, ?_, fun hf => by cases hf⟩, rfl, ?_⟩
    · intro x hx
      simp only [BufList.push, List.mem_append, List.mem_singleton] at hx
      rcases hx with hx | rfl
      · exact hw.queue x hx
      · exact ⟨hb, hne⟩
    · simp [waiting, BufList.push, concat]

theorem putHead_spec (h : Stands I Ok bytes) {w : WriteBuf β} (hw : WBufOk Ok bytes w) (bs : Bytes)
    (hc : w.canHeadersBuf I = true) :
    WBufOk Ok bytes (w.putHead bs) ∧ waiting bytes (w.putHead bs) = waiting bytes w ++ bs := by
  have hp := hw.pos
  have hq : concat bytes w.queue = [] := by
    simp only [WriteBuf.canHeadersBuf, beq_iff_eq, list_remaining h w.queue hw.queue] at hc
    exact List.eq_nil_of_length_eq_zero hc
  refine ⟨⟨by simp only [WriteBuf.putHead, List.length_append]; omega, hw.queue, hw.flat⟩, ?_⟩
  simp only [waiting, WriteBuf.putHead, hq, List.append_nil]
  rw [List.drop_append_of_le_length hp]

/-- What a writing loop does: nothing is lost or repeated, and it reports success only when all was accepted. -/
structure LoopOk (Ok : β → Prop) (bytes : β → Bytes) (w : WriteBuf β) (sent : Bytes) (l : LoopRes β) : Prop where
  ok : WBufOk Ok bytes l.wbuf
  strategy : l.wbuf.strategy = w.strategy
  conserve : l.sent ++ waiting bytes l.wbuf = sent ++ waiting bytes w
  more : ∃ t, l.sent = sent ++ t
  noPanic : l.res ≠ .panic
  done : l.res = .ok → waiting bytes l.wbuf = []
  zero : l.res = .writeZero → waiting bytes l.wbuf ≠ []

theorem take_min_drop {offered all t : Bytes} (h : all = offered ++ t) (n : Nat) :
    offered.take (min n offered.length) ++ all.drop (min n offered.length) = all := by
  have : offered.take (min n offered.length) = all.take (min n offered.length) := by
    rw [h, List.take_append_of_le_length (Nat.min_le_right _ _)]
  rw [this, List.take_append_drop]

theorem flushQueue_ok (h : Stands I Ok bytes) : ∀ (ws : List IoWrite) (w : WriteBuf β) (sent : Bytes), WBufOk Ok bytes w →
    LoopOk Ok bytes w sent (flushQueue I ws w sent) := by
  intro ws
  induction ws with
  | nil => intro w sent hw; exact ⟨hw, rfl, rfl, ⟨[], by simp [flushQueue]⟩, by simp [flushQueue], by simp [flushQueue], by simp [flushQueue]⟩
  | cons a t ih =>
    intro w sent hw
    cases a with
    | pending => exact ⟨hw, rfl, rfl, ⟨[], by simp [flushQueue]⟩, by simp [flushQueue], by simp [flushQueue], by simp [flushQueue]⟩
    | error => exact ⟨hw, rfl, rfl, ⟨[], by simp [flushQueue]⟩, by simp [flushQueue], by simp [flushQueue], by simp [flushQueue]⟩
    | wrote n =>
      obtain ⟨_, ⟨tl, v2⟩, _, _⟩ := wbuf_vectored h hw maxWritevBufs
      obtain ⟨w', a1, a2, a2', a3⟩ := wbuf_advance h hw (min n (WriteBuf.vectored I w maxWritevBufs).flatten.length)
        (by rw [v2, List.length_append]; omega)
      have hcons := take_min_drop v2 n
      rw [flushQueue]
      simp only [a1]
      have hrem := wbuf_remaining h a2
      split
      · rename_i h0
        have hnil : waiting bytes w' = [] := by rw [hrem] at h0; exact List.eq_nil_of_length_eq_zero h0
        exact ⟨a2, a2', by rw [a3, List.append_assoc, hcons], ⟨_, rfl⟩, by simp, fun _ => hnil, by simp⟩
      · rename_i h0
        have hne : waiting bytes w' ≠ [] := by intro hh; rw [hrem, hh] at h0; exact h0 rfl
        split
        · exact ⟨a2, a2', by rw [a3, List.append_assoc, hcons], ⟨_, rfl⟩, by simp, by simp, fun _ => hne⟩
        · have r := ih w' (sent ++ (WriteBuf.vectored I w maxWritevBufs).flatten.take (min n (WriteBuf.vectored I w maxWritevBufs).flatten.length)) a2
          obtain ⟨tt, hm⟩ := r.more
          exact ⟨r.ok, by rw [r.strategy, a2'], by rw [r.conserve, a3, List.append_assoc, hcons], ⟨_, by rw [hm, List.append_assoc]⟩, r.noPanic,
            r.done, r.zero⟩

theorem flushFlat_ok (bytes : β → Bytes) (Ok : β → Prop) : ∀ (ws : List IoWrite) (w : WriteBuf β) (sent : Bytes), WBufOk Ok bytes w →
    w.strategy = .flatten → LoopOk Ok bytes w sent (flushFlat ws w sent) := by
  intro ws
  induction ws with
  | nil => intro w sent hw _; exact ⟨hw, rfl, rfl, ⟨[], by simp [flushFlat]⟩, by simp [flushFlat], by simp [flushFlat], by simp [flushFlat]⟩
  | cons a t ih =>
    intro w sent hw hs
    cases a with
    | pending => exact ⟨hw, rfl, rfl, ⟨[], by simp [flushFlat]⟩, by simp [flushFlat], by simp [flushFlat], by simp [flushFlat]⟩
    | error => exact ⟨hw, rfl, rfl, ⟨[], by simp [flushFlat]⟩, by simp [flushFlat], by simp [flushFlat], by simp [flushFlat]⟩
    | wrote n =>
      have hp := hw.pos
      have hq := hw.flat hs
      have hwait : waiting bytes w = w.headers.chunk ++ [] := by simp [waiting, hq, concat, Cursor.chunk]
      have hcons := take_min_drop hwait n
      have hl : w.headers.chunk.length = w.headers.bytes.length - w.headers.pos := by rw [Cursor.chunk, List.length_drop]
      have a2 : WBufOk Ok bytes { w with headers := w.headers.advance (min n w.headers.chunk.length) } :=
        ⟨by simp only [Cursor.advance]; omega, hw.queue, hw.flat⟩
      have a3 : waiting bytes { w with headers := w.headers.advance (min n w.headers.chunk.length) } =
          (waiting bytes w).drop (min n w.headers.chunk.length) := by
        rw [hwait]
        simp only [waiting, hq, Cursor.advance, Cursor.chunk, concat, List.flatMap_nil, List.append_nil, List.drop_drop]
      rw [flushFlat]
      simp only
      split
      · rename_i h0
        have hd : w.headers.bytes.drop (w.headers.pos + min n w.headers.chunk.length) = [] := by
          apply List.drop_of_length_le
          simp only [Cursor.remaining, Cursor.advance] at h0
          omega
        have a4 : waiting bytes { w with headers := w.headers.advance (min n w.headers.chunk.length) } = [] := by
          simp only [waiting, Cursor.advance, hd, hq, concat, List.flatMap_nil, List.append_nil]
        refine ⟨⟨Nat.le_refl _, hw.queue, hw.flat⟩, rfl, ?_, ⟨_, rfl⟩, by simp, ?_, by simp⟩
        · simp only [waiting, Cursor.reset, List.drop_nil, List.nil_append, hq]
          rw [List.append_assoc, show concat bytes ([] : BufList β) = [] from rfl]
          have hcons' := hcons
          rw [← a3, a4] at hcons'
          rw [hcons', hwait]; simp [Cursor.chunk, concat]
        · intro _
          simp [waiting, Cursor.reset, hq, concat]
      · rename_i h0
        have hne : waiting bytes { w with headers := w.headers.advance (min n w.headers.chunk.length) } ≠ [] := by
          intro hh
          apply h0
          have := congrArg List.length hh
          simp only [waiting, List.length_append, List.length_drop, List.length_nil] at this
          simp only [Cursor.remaining]
          omega
        split
        · exact ⟨a2, rfl, by rw [a3, List.append_assoc, hcons], ⟨_, rfl⟩, by simp, by simp, fun _ => hne⟩
        · have r := ih _ (sent ++ w.headers.chunk.take (min n w.headers.chunk.length)) a2 hs
          obtain ⟨tt, hm⟩ := r.more
          exact ⟨r.ok, r.strategy, by rw [r.conserve, a3, List.append_assoc, hcons], ⟨_, by rw [hm, List.append_assoc]⟩, r.noPanic,
            r.done, r.zero⟩

/-- What a flush does to a write half. -/
structure FlushOk (Ok : β → Prop) (bytes : β → Bytes) (s : WriteSide β) (r : FlushRes × WriteSide β) : Prop where
  ok : WBufOk Ok bytes r.2.wbuf
  strategy : r.2.wbuf.strategy = s.wbuf.strategy
  pipeline : r.2.flushPipeline = s.flushPipeline
  conserve : r.2.sink.sent ++ waiting bytes r.2.wbuf = s.sink.sent ++ waiting bytes s.wbuf
  more : ∃ t, r.2.sink.sent = s.sink.sent ++ t
  noPanic : r.1 ≠ .panic

theorem sinkFlush_spec (k : Sink) : k.flush.2.sent = k.sent ∧ k.flush.2.shut = k.shut ∧ k.flush.1 ≠ .panic ∧ k.flush.1 ≠ .writeZero := by
  unfold Sink.flush
  split <;> simp

theorem finish_ok {s : WriteSide β} {l : LoopRes β} (hl : LoopOk Ok bytes s.wbuf s.sink.sent l) :
    FlushOk Ok bytes s (s.finish l) ∧ ((s.finish l).1 = .ok → waiting bytes (s.finish l).2.wbuf = []) ∧
      (s.finish l).2.sink.shut = s.sink.shut := by
  obtain ⟨g1, g2, g3, _⟩ := sinkFlush_spec { s.sink with writes := l.writes, sent := l.sent }
  unfold WriteSide.finish
  simp only
  split
  · rename_i e
    exact ⟨⟨hl.ok, hl.strategy, rfl, by simp only [g1]; exact hl.conserve, by simp only [g1]; exact hl.more, g3⟩, fun _ => hl.done e, g2⟩
  · rename_i e
    exact ⟨⟨hl.ok, hl.strategy, rfl, hl.conserve, hl.more, hl.noPanic⟩, fun e' => absurd e' e, rfl⟩

theorem pollFlush_ok (h : Stands I Ok bytes) (s : WriteSide β) (hw : WBufOk Ok bytes s.wbuf) (readBuf : Bytes) :
    FlushOk Ok bytes s (s.pollFlush I readBuf) ∧
      ((s.pollFlush I readBuf).1 = .ok → ¬ (s.flushPipeline ∧ readBuf ≠ []) → waiting bytes (s.pollFlush I readBuf).2.wbuf = []) ∧
      (s.pollFlush I readBuf).2.sink.shut = s.sink.shut := by
  have hrem := wbuf_remaining h hw
  unfold WriteSide.pollFlush
  split
  · rename_i e
    exact ⟨⟨hw, rfl, rfl, rfl, ⟨[], by simp⟩, by simp⟩, fun _ hn => absurd e hn, rfl⟩
  · split
    · rename_i e
      obtain ⟨g1, g2, g3, _⟩ := sinkFlush_spec s.sink
      refine ⟨⟨hw, rfl, rfl, by simp only [g1], ⟨[], by simp [g1]⟩, g3⟩, fun _ _ => ?_, g2⟩
      rw [hrem] at e
      exact List.eq_nil_of_length_eq_zero e
    · cases hs : s.wbuf.strategy with
      | flatten =>
        obtain ⟨a, b, c⟩ := finish_ok (flushFlat_ok bytes Ok s.sink.writes s.wbuf s.sink.sent hw hs)
        exact ⟨a, fun e _ => b e, c⟩
      | queue =>
        obtain ⟨a, b, c⟩ := finish_ok (flushQueue_ok h s.sink.writes s.wbuf s.sink.sent hw)
        exact ⟨a, fun e _ => b e, c⟩

/-- One step keeps the books. -/
theorem step_ok (h : Stands I Ok bytes) (s : WriteSide β) (hw : WBufOk Ok bytes s.wbuf) (op : WriteOp β)
    (hg : op.Allowed I Ok bytes s) :
    ∃ s', s.step I op = some s' ∧ WBufOk Ok bytes s'.wbuf ∧
      s'.sink.sent ++ waiting bytes s'.wbuf = s.sink.sent ++ waiting bytes s.wbuf ++ written bytes [op] ∧
      ∃ t, s'.sink.sent = s.sink.sent ++ t := by
  cases op with
  | head bs =>
    obtain ⟨a, b⟩ := putHead_spec h hw bs hg
    exact ⟨_, rfl, a, by simp [b, written, List.append_assoc], ⟨[], by simp⟩⟩
  | body b room =>
    obtain ⟨w', e1, e2, _, e3⟩ := buffer_spec h hw room b hg.1 hg.2
    exact ⟨_, by simp only [WriteSide.step, e1]; rfl, e2, by simp [e3, written, List.append_assoc], ⟨[], by simp⟩⟩
  | flush rb =>
    obtain ⟨f, _, _⟩ := pollFlush_ok h s hw rb
    exact ⟨_, by simp only [WriteSide.step]; rw [if_neg f.noPanic], f.ok, by simp [f.conserve, written], f.more⟩
  | shutdown rb =>
    obtain ⟨f, _, _⟩ := pollFlush_ok h s hw rb
    have hsd : (s.pollShutdown I rb).1 ≠ .panic ∧ (s.pollShutdown I rb).2.wbuf = (s.pollFlush I rb).2.wbuf ∧
        (s.pollShutdown I rb).2.sink.sent = (s.pollFlush I rb).2.sink.sent := by
      unfold WriteSide.pollShutdown
      split
      · obtain ⟨g1, g2, g3, _⟩ := sinkFlush_spec (s.pollFlush I rb).2.sink
        exact ⟨g3, rfl, g1⟩
      · exact ⟨f.noPanic, rfl, rfl⟩
    refine ⟨_, by simp only [WriteSide.step]; rw [if_neg hsd.1], by rw [hsd.2.1]; exact f.ok, ?_, by rw [hsd.2.2]; exact f.more⟩
    rw [hsd.2.1, hsd.2.2, f.conserve]; simp [written]

theorem written_cons (bytes : β → Bytes) (op : WriteOp β) (ops : List (WriteOp β)) :
    written bytes (op :: ops) = written bytes [op] ++ written bytes ops := by
  cases op <;> simp [written]

theorem run_ok (h : Stands I Ok bytes) : ∀ (ops : List (WriteOp β)) (s : WriteSide β), WBufOk Ok bytes s.wbuf →
    Gated I Ok bytes s ops → ∃ s', s.run I ops = some s' ∧ WBufOk Ok bytes s'.wbuf ∧
      s'.sink.sent ++ waiting bytes s'.wbuf = s.sink.sent ++ waiting bytes s.wbuf ++ written bytes ops ∧
      ∃ t, s'.sink.sent = s.sink.sent ++ t := by
  intro ops
  induction ops with
  | nil => intro s hw _; exact ⟨s, rfl, hw, by simp [written], ⟨[], by simp⟩⟩
  | cons op ops ih =>
    intro s hw hg
    obtain ⟨g1, g2⟩ := hg
    obtain ⟨s1, e1, e2, e3, ⟨t1, e4⟩⟩ := step_ok h s hw op g1
    rw [e1] at g2
    obtain ⟨s2, f1, f2, f3, ⟨t2, f4⟩⟩ := ih s1 e2 g2
    refine ⟨s2, by simp only [WriteSide.run, e1]; exact f1, f2, ?_, ⟨t1 ++ t2, by rw [f4, e4, List.append_assoc]⟩⟩
    rw [f3, e3, written_cons bytes op ops, ← List.append_assoc]

theorem start_ok (st : WriteStrategy) (fp : Bool) (k : Sink) : WBufOk Ok bytes (WriteSide.start (β := β) st fp k).wbuf :=
  ⟨Nat.le_refl _, (by intro b hb; cases hb), fun _ => rfl⟩

/-- C33, for heads put only when the queue has drained (which `can_headers_buf` tests and the writing of message heads respects).  At every moment the bytes
the transport has accepted, followed by those waiting, are everything buffered, in order; nothing panics. -/
theorem C33_in_order_partial (h : Stands I Ok bytes) (st : WriteStrategy) (fp : Bool) (k : Sink) (ops : List (WriteOp β))
    (hg : Gated I Ok bytes (WriteSide.start st fp k) ops) :
    ∃ s, (WriteSide.start st fp k).run I ops = some s ∧
      s.sink.sent ++ waiting bytes s.wbuf = k.sent ++ written bytes ops := by
  obtain ⟨s, e1, _, e3, _⟩ := run_ok h ops _ (start_ok (Ok := Ok) (bytes := bytes) st fp k) hg
  exact ⟨s, e1, by rw [e3]; simp [WriteSide.start, WriteBuf.new, Cursor.new, waiting, concat]⟩

/-- C33.  What is accepted is never taken back: later accepted bytes extend earlier ones. -/
theorem C33_accepted_grows (h : Stands I Ok bytes) (st : WriteStrategy) (fp : Bool) (k : Sink) (ops more : List (WriteOp β)) (s s' : WriteSide β)
    (hg : Gated I Ok bytes (WriteSide.start st fp k) ops) (hr : (WriteSide.start st fp k).run I ops = some s)
    (hg' : Gated I Ok bytes s more) (hr' : s.run I more = some s') : ∃ t, s'.sink.sent = s.sink.sent ++ t := by
  obtain ⟨s1, e1, e2, _, _⟩ := run_ok h ops _ (start_ok (Ok := Ok) (bytes := bytes) st fp k) hg
  rw [hr] at e1
  obtain rfl := Option.some.inj e1
  obtain ⟨s2, f1, _, _, f4⟩ := run_ok h more s e2 hg'
  rw [hr'] at f1
  obtain rfl := Option.some.inj f1
  exact f4

/-- C33.  A flush that reports success has handed over everything buffered so far; unless the connection is set to
aggregate the flushes of pipelined responses and bytes of a further request are waiting. -/
theorem C33_flush_hands_over_all (h : Stands I Ok bytes) (st : WriteStrategy) (fp : Bool) (k : Sink) (ops : List (WriteOp β))
    (hg : Gated I Ok bytes (WriteSide.start st fp k) ops) (s : WriteSide β) (hr : (WriteSide.start st fp k).run I ops = some s)
    (readBuf : Bytes) (hp : fp = false ∨ readBuf = []) (hok : (s.pollFlush I readBuf).1 = .ok) :
    (s.pollFlush I readBuf).2.sink.sent = k.sent ++ written bytes ops := by
  obtain ⟨s1, e1, e2, e3, _⟩ := run_ok h ops _ (start_ok (Ok := Ok) (bytes := bytes) st fp k) hg
  rw [hr] at e1
  obtain rfl := Option.some.inj e1
  obtain ⟨f, g, _⟩ := pollFlush_ok h s e2 readBuf
  have hfp : s.flushPipeline = fp := by
    have : ∀ (ops : List (WriteOp β)) (s s' : WriteSide β), WBufOk Ok bytes s.wbuf → Gated I Ok bytes s ops → s.run I ops = some s' →
        s'.flushPipeline = s.flushPipeline := by
      intro ops
      induction ops with
      | nil => intro s s' _ _ h; simp only [WriteSide.run, Option.some.injEq] at h; rw [h]
      | cons op ops ih =>
        intro s s' hw hg hr
        obtain ⟨s1, a1, a2, _, _⟩ := step_ok h s hw op hg.1
        have hg2 := hg.2
        rw [a1] at hg2
        simp only [WriteSide.run, a1] at hr
        rw [ih s1 s' a2 hg2 hr]
        cases op with
        | head bs => simp only [WriteSide.step, Option.some.injEq] at a1; rw [← a1]
        | body b room =>
          simp only [WriteSide.step, Option.map_eq_some_iff] at a1
          obtain ⟨_, _, rfl⟩ := a1; rfl
        | flush rb =>
          have p := (pollFlush_ok h s hw rb).1
          simp only [WriteSide.step, if_neg p.noPanic, Option.some.injEq] at a1
          rw [← a1]; exact p.pipeline
        | shutdown rb =>
          have p := (pollFlush_ok h s hw rb).1
          simp only [WriteSide.step] at a1
          split at a1
          · cases a1
          · simp only [Option.some.injEq] at a1
            rw [← a1, ← p.pipeline]
            unfold WriteSide.pollShutdown
            split <;> rfl
    exact this ops _ s (start_ok st fp k) hg hr
  have hnil := g hok (by rw [hfp]; rcases hp with rfl | rfl <;> simp)
  have := f.conserve
  rw [hnil, List.append_nil] at this
  rw [this, e3]
  simp [WriteSide.start, WriteBuf.new, Cursor.new, waiting, concat]

/-- C33.  The transport is shut down only after everything buffered was handed over (with the same exception). -/
theorem C33_shutdown_after_all (h : Stands I Ok bytes) (s : WriteSide β) (hw : WBufOk Ok bytes s.wbuf) (hns : s.sink.shut = false)
    (readBuf : Bytes) (hp : s.flushPipeline = false ∨ readBuf = []) (hsd : (s.pollShutdown I readBuf).2.sink.shut = true) :
    waiting bytes (s.pollShutdown I readBuf).2.wbuf = [] ∧
      (s.pollShutdown I readBuf).2.sink.sent = s.sink.sent ++ waiting bytes s.wbuf := by
  obtain ⟨f, g, f3⟩ := pollFlush_ok h s hw readBuf
  unfold WriteSide.pollShutdown at hsd ⊢
  split
  · rename_i e
    have hnil := g e (by rcases hp with hp | hp <;> simp [hp])
    refine ⟨hnil, ?_⟩
    have := f.conserve
    rw [hnil, List.append_nil] at this
    rw [← this]
    exact (sinkFlush_spec _).1
  · rename_i e
    rw [if_neg e, f3, hns] at hsd
    cases hsd

/-- C34, for heads put only when the queue has drained (without that it is false: `C34_ungated_differs`).  The same writes put the same bytes on the wire under both strategies: whatever the transports do, what they accept is a prefix of
the same byte string, and if both are left with nothing waiting they have accepted the same. -/
theorem C34_strategies_agree_partial (h : Stands I Ok bytes) (fp fp' : Bool) (k k' : Sink) (hk : k.sent = k'.sent) (ops : List (WriteOp β))
    (hg : Gated I Ok bytes (WriteSide.start .queue fp k) ops) (hg' : Gated I Ok bytes (WriteSide.start .flatten fp' k') ops) :
    ∃ s s', (WriteSide.start .queue fp k).run I ops = some s ∧ (WriteSide.start .flatten fp' k').run I ops = some s' ∧
      s.sink.sent ++ waiting bytes s.wbuf = s'.sink.sent ++ waiting bytes s'.wbuf ∧
      (waiting bytes s.wbuf = [] → waiting bytes s'.wbuf = [] → s.sink.sent = s'.sink.sent) := by
  obtain ⟨s, e1, e2⟩ := C33_in_order_partial h .queue fp k ops hg
  obtain ⟨s', f1, f2⟩ := C33_in_order_partial h .flatten fp' k' ops hg'
  have heq : s.sink.sent ++ waiting bytes s.wbuf = s'.sink.sent ++ waiting bytes s'.wbuf := by rw [e2, f2, hk]
  exact ⟨s, s', e1, f1, heq, fun h1 h2 => by rw [h1, h2, List.append_nil, List.append_nil] at heq; exact heq⟩

/-- The flattening strategy never refuses a head. -/
theorem C34_flatten_always_gated (h : Stands I Ok bytes) (fp : Bool) (k : Sink) (ops : List (WriteOp β))
    (hb : ∀ b room, WriteOp.body b room ∈ ops → Ok b ∧ bytes b ≠ []) : Gated I Ok bytes (WriteSide.start .flatten fp k) ops := by
  have main : ∀ (ops : List (WriteOp β)) (s : WriteSide β), WBufOk Ok bytes s.wbuf → s.wbuf.strategy = .flatten →
      (∀ b room, WriteOp.body b room ∈ ops → Ok b ∧ bytes b ≠ []) → Gated I Ok bytes s ops := by
    intro ops
    induction ops with
    | nil => intro s _ _ _; trivial
    | cons op ops ih =>
      intro s hw hs hb
      have hgate : op.Allowed I Ok bytes s := by
        cases op with
        | head bs => simp [WriteOp.Allowed, WriteBuf.canHeadersBuf, hw.flat hs, BufList.remaining]
        | body b room => exact hb b room List.mem_cons_self
        | flush _ => trivial
        | shutdown _ => trivial
      refine ⟨hgate, ?_⟩
      obtain ⟨s', e1, e2, _, _⟩ := step_ok h s hw op hgate
      rw [e1]
      refine ih s' e2 ?_ (fun b room hm => hb b room (List.mem_cons_of_mem _ hm))
      cases op with
      | head bs => simp only [WriteSide.step, Option.some.injEq] at e1; rw [← e1]; exact hs
      | body b room =>
        obtain ⟨w', a1, _, a3, _⟩ := buffer_spec h hw room b hgate.1 hgate.2
        simp only [WriteSide.step, a1, Option.map_some, Option.some.injEq] at e1
        rw [← e1]; simp only; rw [a3]; exact hs
      | flush rb =>
        have p := (pollFlush_ok h s hw rb).1
        simp only [WriteSide.step, if_neg p.noPanic, Option.some.injEq] at e1
        rw [← e1, p.strategy]; exact hs
      | shutdown rb =>
        have p := (pollFlush_ok h s hw rb).1
        simp only [WriteSide.step] at e1
        split at e1
        · cases e1
        · simp only [Option.some.injEq] at e1
          rw [← e1]
          have : (s.pollShutdown I rb).2.wbuf = (s.pollFlush I rb).2.wbuf := by
            unfold WriteSide.pollShutdown
            split <;> rfl
          rw [this, p.strategy]; exact hs
  exact main ops _ (start_ok .flatten fp k) rfl hb

end

/-- Without the gate C33 is false with the queueing strategy: a head put while body bytes are queued
overtakes them.  `poll_read_body` puts `100 Continue` this way (conn.rs 405-416). -/
theorem C33_ungated_head_overtakes :
    (((WriteSide.start (β := Bytes) .queue false ⟨[.wrote 100], [.ok], [], false⟩).run bytesBuf
      [.body (ascii "body") true, .head (ascii "head"), .flush []]).map (·.sink.sent)) = some (ascii "headbody") := by
  decide +kernel

/-- Without the gate C34 is false: the same writes put different bytes on the wire under the two strategies. -/
theorem C34_ungated_differs :
    (((WriteSide.start (β := Bytes) .queue false ⟨[.wrote 100], [.ok], [], false⟩).run bytesBuf
      [.body (ascii "body") true, .head (ascii "head"), .flush []]).map (·.sink.sent)) = some (ascii "headbody") ∧
    (((WriteSide.start (β := Bytes) .flatten false ⟨[.wrote 100], [.ok], [], false⟩).run bytesBuf
      [.body (ascii "body") true, .head (ascii "head"), .flush []]).map (·.sink.sent)) = some (ascii "bodyhead") := by
  decide +kernel

example : (((WriteSide.start (β := Bytes) .queue false ⟨[.wrote 3, .pending, .wrote 1, .wrote 100], [.ok], [], false⟩).run bytesBuf
      [.head (ascii "head"), .body (ascii "bo") true, .flush [], .body (ascii "dy") true, .flush []]).map (·.sink.sent)) =
      some (ascii "headbody") ∧
    (((WriteSide.start (β := Bytes) .flatten false ⟨[.wrote 3, .pending, .wrote 1, .wrote 100], [.ok], [], false⟩).run bytesBuf
      [.head (ascii "head"), .body (ascii "bo") true, .flush [], .body (ascii "dy") false, .flush []]).map (·.sink.sent)) =
      some (ascii "headbody") := by decide +kernel

end Hyper
