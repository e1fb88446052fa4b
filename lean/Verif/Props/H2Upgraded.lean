import Verif.Model.H2Upgraded
import Verif.Props.ReadBuf
import Verif.Props.H2Upgrade

/-!
# C56: reading from an upgraded HTTP/2 stream
# C57: what the calls on its write half report
-/

namespace Hyper

/-! ## C56 -/

/-- The bytes of the data frames that the stream has still to give. -/
def Spec.frameBytes : List UpRd.Ev → Bytes
  | [] => []
  | .data bs _ :: t => bs ++ frameBytes t
  | _ :: t => frameBytes t

/-- The answers that a read goes through without returning: data frames without data that are not the last. -/
def Spec.skipped : List UpRd.Ev → List UpRd.Ev
  | .data [] false :: t => skipped t
  | l => l

open Spec

namespace UpRd

/-- Reads into fresh buffers of these sizes: their results, and what they were filled with. -/
def reads : St → List Nat → List (Res × List (Option Byte)) × St
  | s, [] => ([], s)
  | s, n :: ns =>
    (((pollRead s (ReadBuf.uninit n)).1, (pollRead s (ReadBuf.uninit n)).2.2.val.filledCells) ::
        (reads (pollRead s (ReadBuf.uninit n)).2.1 ns).1,
      (reads (pollRead s (ReadBuf.uninit n)).2.1 ns).2)

theorem frameBytes_skipped (l : List Ev) : frameBytes (skipped l) = frameBytes l := by
  fun_induction skipped l with
  | case1 t ih => simpa [frameBytes] using ih
  | case2 l _ => rfl

theorem fetch_skipped (s : St) (b : ReadBuf) (l : List Ev) : fetch s b l = fetch s b (skipped l) := by
  fun_induction skipped l with
  | case1 t ih => rw [← ih]; simp [fetch]
  | case2 l _ => rfl

/-- What is left after a frame has been skipped is no such frame. -/
theorem skipped_head (l : List Ev) (t : List Ev) : skipped l ≠ .data [] false :: t := by
  fun_induction skipped l with
  | case1 t' ih => exact ih
  | case2 l h => exact fun e => h t e

/-- `deliver` puts what fits. -/
theorem deliver_ok (s : St) (cap : Nat) (data : Bytes) (b : ReadBuf) (hb : CursorOk cap data b) :
    (deliver s b).2.2.panicked = false ∧ CursorOk cap (data ++ s.buf.take (min s.buf.length b.remaining)) (deliver s b).2.2.val := by
  exact putSlice_ok hb (s.buf.take (min s.buf.length b.remaining)) (by rw [List.length_take]; omega)

end UpRd

open UpRd in
/-- C56: one read puts the next bytes of the stream into the cursor and does not panic; the receive window is given back exactly the
bytes put, and the bytes recorded are those taken from the stream, whether put or still held. -/
theorem C56_read_takes_next (s : UpRd.St) (cap : Nat) (data : Bytes) (b : ReadBuf) (hb : CursorOk cap data b) :
    ∃ got, (pollRead s b).2.2.panicked = false ∧ CursorOk cap (data ++ got) (pollRead s b).2.2.val ∧
      s.buf ++ frameBytes s.stream = got ++ ((pollRead s b).2.1.buf ++ frameBytes (pollRead s b).2.1.stream) ∧
      (pollRead s b).2.1.released = s.released + got.length ∧
      (pollRead s b).2.1.recorded + s.buf.length = s.recorded + got.length + (pollRead s b).2.1.buf.length ∧
      (got ≠ [] → (pollRead s b).1 = .ready) := by
  unfold pollRead
  split
  · rename_i he
    rw [fetch_skipped, ← frameBytes_skipped]
    rcases hl : skipped s.stream with _ | ⟨_ | ⟨bs, eos⟩ | ⟨r, io⟩, t⟩
    · exact ⟨[], rfl, by simpa [fetch] using hb, by simp [fetch, frameBytes, he], rfl, by simp [fetch, he], by simp⟩
    · exact ⟨[], rfl, by simpa [fetch] using hb, by simp [fetch, frameBytes, he], rfl, by simp [fetch, he], by simp⟩
    · have hn : ¬ (bs = [] ∧ eos = false) := fun h => skipped_head s.stream t (by rw [hl, h.1, h.2])
      simp only [fetch, if_neg hn]
      have hd := deliver_ok { s with buf := bs, stream := t, recorded := s.recorded + bs.length } cap data b hb
      refine ⟨_, hd.1, hd.2, ?_, ?_, ?_, fun _ => rfl⟩
      · simp only [deliver, frameBytes, he, List.nil_append]
        rw [← List.append_assoc, List.take_append_drop]
      · simp only [deliver, List.length_take]; omega
      · simp only [deliver, List.length_take, List.length_drop, he, List.length_nil]; omega
    · exact ⟨[], rfl, by simpa [fetch] using hb, by simp [fetch, frameBytes, he], rfl, by simp [fetch, he], by simp⟩
  · have hd := deliver_ok s cap data b hb
    refine ⟨_, hd.1, hd.2, ?_, ?_, ?_, fun _ => rfl⟩
    · simp only [deliver]
      rw [← List.append_assoc, List.take_append_drop]
    · simp only [deliver, List.length_take]; omega
    · simp only [deliver, List.length_take, List.length_drop]; omega

open UpRd in
/-- C56: however the reads are sized and whatever the stream does, the bytes delivered so far followed by those still to come are
the bytes of the data frames in order; and the window has been given back exactly the bytes delivered. -/
theorem C56_each_byte_once (stream : List UpRd.Ev) (sizes : List Nat) :
    let r := reads { stream := stream } sizes
    ∃ got : List Bytes, r.1.map (·.2) = got.map (·.map some) ∧
      got.flatten ++ (r.2.buf ++ frameBytes r.2.stream) = frameBytes stream ∧ r.2.released = got.flatten.length ∧
      r.2.recorded = got.flatten.length + r.2.buf.length := by
  have main : ∀ sizes s, ∃ got : List Bytes, (reads s sizes).1.map (·.2) = got.map (·.map some) ∧
      got.flatten ++ ((reads s sizes).2.buf ++ frameBytes (reads s sizes).2.stream) = s.buf ++ frameBytes s.stream ∧
      (reads s sizes).2.released = s.released + got.flatten.length ∧
      (reads s sizes).2.recorded + s.buf.length = s.recorded + got.flatten.length + (reads s sizes).2.buf.length := by
    intro sizes
    induction sizes with
    | nil => intro s; exact ⟨[], rfl, rfl, rfl, rfl⟩
    | cons n ns ih =>
      intro s
      obtain ⟨got, _, g2, g3, g4, g5, _⟩ := C56_read_takes_next s n [] (ReadBuf.uninit n) (C37_cursor_accounting n [] _ .uninit)
      obtain ⟨gots, e1, e2, e3, e4⟩ := ih (pollRead s (ReadBuf.uninit n)).2.1
      refine ⟨got :: gots, ?_, ?_, ?_, ?_⟩
      · simp only [reads, List.map_cons, e1]
        congr 1
        simpa using g2.data
      · simp only [reads, List.flatten_cons, List.append_assoc]
        rw [e2, ← g3]
      · simp only [reads, List.flatten_cons, List.length_append]; omega
      · simp only [reads, List.flatten_cons, List.length_append]; omega
  intro r
  obtain ⟨got, h1, h2, h3, h4⟩ := main sizes { stream := stream }
  exact ⟨got, h1, h2, by simpa using h3, by simpa using h4⟩

open UpRd in
/-- C56: a read with room that is ready without a byte (which its user takes for the end) happens exactly when nothing is held back and, after
data frames without data, the stream has ended, its last frame was empty, or it was reset with `NO_ERROR` or `CANCEL`. -/
theorem C56_end_iff (s : UpRd.St) (b : ReadBuf) (hr : 0 < b.remaining) :
    ((pollRead s b).1 = .ready ∧ (pollRead s b).2.2.val.filled = b.filled) ↔
      s.buf = [] ∧ (skipped s.stream = [] ∨ (∃ t, skipped s.stream = .data [] true :: t) ∨
        ∃ r io t, skipped s.stream = .error (some r) io :: t ∧ (r = 0 ∨ r = 8)) := by
  have hd : ∀ s : UpRd.St, ((deliver s b).1 = .ready ∧ (deliver s b).2.2.val.filled = b.filled) ↔ s.buf = [] := by
    intro s
    simp only [deliver, true_and]
    have hl : (s.buf.take (min s.buf.length b.remaining)).length = min s.buf.length b.remaining := by rw [List.length_take]; omega
    unfold ReadBuf.putSlice
    rw [if_pos (by rw [hl]; omega), hl]
    simp only
    rw [← List.length_eq_zero_iff]; omega
  unfold pollRead
  split
  · rename_i he
    rw [fetch_skipped]
    rcases hl : skipped s.stream with _ | ⟨_ | ⟨bs, eos⟩ | ⟨r, io⟩, t⟩
    · simp [fetch, he]
    · simp [fetch, he]
    · have hn : ¬ (bs = [] ∧ eos = false) := fun h => skipped_head s.stream t (by rw [hl, h.1, h.2])
      simp only [fetch, if_neg hn]
      rw [hd]
      simp only [he, true_and]
      cases eos <;> simp_all
    · simp only [fetch, onError, he, NO_ERROR, CANCEL, STREAM_CLOSED]
      cases r <;> grind
  · rename_i he
    rw [hd]
    simp [he]

open UpRd in
/-- C56: every other failure of the stream is an error of the read, once what was received before has been delivered; `STREAM_CLOSED`
is a broken pipe, a failure of the transport is passed on as it is. -/
theorem C56_failure_reported (s : UpRd.St) (b : ReadBuf) (reason : Option Nat) (io : Bool) (t : List UpRd.Ev) (hb : s.buf = [])
    (he : skipped s.stream = .error reason io :: t) (hr : reason ≠ some 0 ∧ reason ≠ some 8) :
    (pollRead s b).1 = (if reason = some 5 then .brokenPipe else if io then .transport else .other) ∧
      (pollRead s b).2.2 = ⟨false, b⟩ := by
  unfold pollRead
  rw [if_pos hb, fetch_skipped, he]
  refine ⟨?_, rfl⟩
  have hn : ¬ (reason = some NO_ERROR ∨ reason = some CANCEL) := fun h => h.elim hr.1 hr.2
  show onError reason io = _
  unfold onError
  rw [if_neg hn]
  rfl

example : (UpRd.reads { stream := [.data [] false, .pending, .data (ascii "abc") false, .data (ascii "d") true] } [2, 2, 2, 2, 2]).1 =
    [(.pending, []), (.ready, (ascii "ab").map some), (.ready, (ascii "c").map some), (.ready, (ascii "d").map some), (.ready, [])] := by
  decide +kernel

example : (UpRd.pollRead { stream := [.data [] false, .error (some 2) false] } (ReadBuf.uninit 2)).1 = .other := by decide +kernel

/-! ## C57 -/

/-- The writes that were accepted, according to the answers. -/
def Spec.acceptedWrites (log : List (UpWr.Call × UpWr.Reply)) : List Bytes :=
  log.filterMap fun e => match e with
    | (.write bs, .ok n) => if n = 0 then none else some bs
    | _ => none

/-- The calls that reported the failure of the stream. -/
def Spec.failures (log : List (UpWr.Call × UpWr.Reply)) : Nat := log.countP (·.2 == .failed)

namespace UpWr

structure Inv (s : St) : Prop where
  slot : s.slot = true → s.failed = true ∧ failures s.log = 0
  failed : s.failed = true → s.slot = true ∨ failures s.log = 1
  fine : s.failed = false → failures s.log = 0
  done : s.up.done = true → s.failed = true ∨ s.up.eos = 1
  over : s.up.done = true → s.up.tpc = .idle
  over' : s.failed = true → s.up.done = true
  eos : s.up.eos ≤ 1 ∧ (s.up.eos = 1 → s.up.done = true ∧ s.failed = false)
  gone : s.gone = true → s.abandoned = true ∨ s.up.done = true
  writes : s.up.accepted = acceptedWrites s.log
  sizes : ∀ bs n, (Call.write bs, Reply.ok n) ∈ s.log → n = bs.length
  order : s.up.sent ++ s.up.queue = s.up.accepted
  bound : s.up.queue.length ≤ 2
  room : s.parked = false → s.up.queue.length ≤ 1

theorem acceptedWrites_snoc (log : List (Call × Reply)) (c : Call) (r : Reply) :
    acceptedWrites (log ++ [(c, r)]) = acceptedWrites log ++ acceptedWrites [(c, r)] := by
  simp [acceptedWrites, List.filterMap_append]

theorem failures_snoc (log : List (Call × Reply)) (c : Call) (r : Reply) :
    failures (log ++ [(c, r)]) = failures log + if r = .failed then 1 else 0 := by
  cases r <;> simp [failures, List.countP_append]

/-- An answer that is no success of a write, and no failure. -/
theorem Inv.reply {s : St} (h : Inv s) (c : Call) (r : Reply) (hr : r ≠ .failed) (hn : ∀ bs n, c = .write bs → r = .ok n → n = 0 ∧ bs = []) :
    Inv (s.reply c r) := by
  obtain ⟨h1, h2, h3, h4, h5, h6, h7, h8, h9, h10, h11, h12, h13⟩ := h
  have hf : failures (s.log ++ [(c, r)]) = failures s.log := by rw [failures_snoc, if_neg hr]; rfl
  refine ⟨?_, ?_, ?_, h4, h5, h6, h7, h8, ?_, ?_, h11, h12, h13⟩
  · simp only [St.reply]; rw [hf]; exact h1
  · simp only [St.reply]; rw [hf]; exact h2
  · simp only [St.reply]; rw [hf]; exact h3
  · simp only [St.reply]
    rw [acceptedWrites_snoc, h9]
    cases c <;> cases r <;> simp_all [acceptedWrites]
  · simp only [St.reply]
    intro bs n hm
    rcases List.mem_append.1 hm with hm | hm
    · exact h10 bs n hm
    · simp only [List.mem_singleton, Prod.mk.injEq] at hm
      have := hn bs n hm.1.symm hm.2.symm
      rw [this.1, this.2]; rfl

theorem Inv.pollError {s : St} (h : Inv s) (c : Call) (r : Reply) (hr : r ≠ .failed) (hn : ∀ bs n, c = .write bs → r = .ok n → n = 0 ∧ bs = []) :
    Inv (s.pollError c r) := by
  unfold St.pollError
  split
  · rename_i hs
    obtain ⟨h1, h2, h3, h4, h5, h6, h7, h8, h9, h10, h11, h12, h13⟩ := h
    have hf : failures (s.log ++ [(c, Reply.failed)]) = failures s.log + 1 := by rw [failures_snoc, if_pos rfl]
    have := h1 hs
    refine ⟨by simp [St.reply], ?_, ?_, h4, h5, h6, h7, h8, ?_, ?_, h11, h12, h13⟩
    · simp only [St.reply]; rw [hf]; intro _; right; omega
    · simp only [St.reply]; intro hx; rw [this.1] at hx; cases hx
    · simp only [St.reply]
      rw [acceptedWrites_snoc, h9]
      cases c <;> simp [acceptedWrites]
    · simp only [St.reply]
      intro bs n hm
      rcases List.mem_append.1 hm with hm | hm
      · exact h10 bs n hm
      · simp at hm
  · split
    · exact h.reply c r hr hn
    · exact h.reply c .pending (by simp) (by simp)

theorem Inv.write {s : St} (h : Inv s) (bs : Bytes) : Inv (s.write bs) := by
  unfold St.write
  split
  · rename_i hb
    exact h.reply _ _ (by simp) (by intro bs' n e1 e2; cases e1; cases e2; exact ⟨rfl, hb⟩)
  · rename_i hb
    split
    · exact h.pollError _ _ (by simp) (by simp)
    · split
      · exact h.reply _ _ (by simp) (by simp)
      · rename_i hp
        obtain ⟨h1, h2, h3, h4, h5, h6, h7, h8, h9, h10, h11, h12, h13⟩ := h
        have hl : bs.length ≠ 0 := fun e => hb (List.length_eq_zero_iff.1 e)
        have hf : failures (s.log ++ [(Call.write bs, Reply.ok bs.length)]) = failures s.log := by rw [failures_snoc, if_neg (by simp)]; rfl
        have hq := h13 (by simpa using hp)
        constructor <;> simp only [Up.St.wakeRx, Up.St.wake]
        · rw [hf]; exact h1
        · rw [hf]; exact h2
        · rw [hf]; exact h3
        · exact h4
        · exact h5
        · exact h6
        · exact h7
        · exact h8
        · rw [acceptedWrites_snoc, h9]; simp [acceptedWrites, hb]
        · intro bs' n hm
          rcases List.mem_append.1 hm with hm | hm
          · exact h10 bs' n hm
          · simp only [List.mem_singleton, Prod.mk.injEq, Call.write.injEq, Reply.ok.injEq] at hm
            rw [hm.1, hm.2]
        · rw [← h11, List.append_assoc]
        · simp only [List.length_append, List.length_singleton]; omega
        · simp only [List.length_append, List.length_singleton, decide_eq_false_iff_not]; omega

theorem Inv.flush {s : St} (h : Inv s) : Inv s.flush := by
  unfold St.flush
  (repeat' split)
  · exact h.pollError _ _ (by simp) (by simp)
  · exact h.reply _ _ (by simp) (by simp)
  · exact h.reply _ _ (by simp) (by simp)

/-- What the steps of the user's thread and of the environment leave alone. -/
theorem quiet (u : Up.St) (a : Up.Act) (ha : a = .user ∨ a = .shutdown ∨ a = .drop ∨ (∃ b, a = .capacity b) ∨ a = .poll) :
    let t := u.step a
    t.queue = u.queue ∧ t.sent = u.sent ∧ t.accepted = u.accepted ∧ t.done = u.done ∧ t.eos = u.eos ∧
      (t.done = true → u.tpc = .idle → t.tpc = .idle) := by
  rcases ha with rfl | rfl | rfl | ⟨b, rfl⟩ | rfl <;> simp only [Up.St.step, Up.St.userStep] <;> (repeat' split) <;>
    simp_all [Up.St.wakeRx, Up.St.wake]

theorem Inv.quietly {s : St} (h : Inv s) (a : Up.Act) (ha : a = .user ∨ a = .shutdown ∨ a = .drop ∨ (∃ b, a = .capacity b) ∨ a = .poll) :
    Inv { s with up := s.up.step a } := by
  obtain ⟨q1, q2, q3, q4, q5, q6⟩ := quiet s.up a ha
  obtain ⟨h1, h2, h3, h4, h5, h6, h7, h8, h9, h10, h11, h12, h13⟩ := h
  refine ⟨h1, h2, h3, ?_, ?_, ?_, ?_, ?_, ?_, h10, ?_, ?_, ?_⟩ <;> simp only [q1, q2, q3, q4, q5]
  · exact h4
  · intro hd; exact q6 (by rw [q4]; exact hd) (h5 hd)
  · exact h6
  · exact h7
  · exact h8
  · exact h9
  · exact h11
  · exact h12
  · exact h13

set_option maxHeartbeats 2000000 in
theorem Inv.task {s : St} (h : Inv s) : Inv s.task := by
  obtain ⟨h1, h2, h3, h4, h5, h6, h7, h8, h9, h10, h11, h12, h13⟩ := h
  have ho : (s.up.step .task).sent ++ (s.up.step .task).queue = (s.up.step .task).accepted := Up.order_step h11 .task
  simp only [St.task]
  refine ⟨h1, h2, h3, ?_, ?_, ?_, ?_, ?_, ?_, h10, ho, ?_, ?_⟩ <;> clear ho h1 h2 h3 h10 <;> simp only [Up.St.step, Up.St.taskStep, Up.St.wake] <;>
    cases hp : s.up.tpc <;> grind

theorem Inv.step {s : St} (h : Inv s) (a : Act) : Inv (s.step a) := by
  cases a with
  | write bs => simp only [St.step]; split; exact h.write bs; exact h
  | flush => simp only [St.step]; split; exact h.flush; exact h
  | shut => simp only [St.step]; split; exact h.quietly _ (by simp); exact h
  | shutEnd => simp only [St.step]; split; exact h.pollError _ _ (by simp) (by simp); exact h
  | drop => exact h.quietly _ (by simp)
  | user => exact h.quietly _ (by simp)
  | poll => simp only [St.step]; split; exact h; exact h.quietly _ (by simp)
  | task => simp only [St.step]; split; exact h; exact h.task
  | capacity b => exact h.quietly _ (by simp)
  | release =>
    simp only [St.step]
    split
    · obtain ⟨h1, h2, h3, h4, h5, h6, h7, h8, h9, h10, h11, h12, h13⟩ := h
      refine ⟨h1, h2, h3, h4, h5, h6, h7, ?_, h9, h10, h11, h12, h13⟩
      simp only
      cases s.up.done <;> simp
    · exact h
  | fail =>
    simp only [St.step]
    split
    · rename_i hc
      obtain ⟨h1, h2, h3, h4, h5, h6, h7, h8, h9, h10, h11, h12, h13⟩ := h
      have hd : s.up.done = false := by
        cases hd : s.up.done with
        | false => rfl
        | true => have := h5 hd; rw [this] at hc; simp at hc
      have hf : s.failed = false := by
        cases hf : s.failed with
        | false => rfl
        | true => have := h6 hf; rw [hd] at this; cases this
      simp only [Up.St.step, if_pos hc.2]
      refine ⟨fun _ => ⟨rfl, h3 hf⟩, fun _ => .inl rfl, by simp, fun _ => .inl rfl, fun _ => rfl, fun _ => rfl, ?_, fun _ => .inr rfl, h9, h10, h11, h12, h13⟩
      refine ⟨h7.1, fun e => ?_⟩
      have := (h7.2 e).1
      rw [hd] at this; cases this
    · exact h

theorem Inv.run {s : St} (h : Inv s) (as : List Act) : Inv (s.run as) := by
  induction as generalizing s with
  | nil => exact h
  | cons a as ih => exact ih (h.step a)

theorem Inv.init : Inv {} := by
  constructor <;> simp [failures, acceptedWrites]

end UpWr

open UpWr in
/-- C57: a write is accepted whole or not at all, and what the answers said was accepted is, in order, what has been given to the stream followed by
at most two writes that wait. -/
theorem C57_writes (as : List UpWr.Act) :
    let s := St.run {} as
    (∀ bs n, (Call.write bs, Reply.ok n) ∈ s.log → n = bs.length) ∧
      ∃ waiting : List Bytes, acceptedWrites s.log = s.up.sent ++ waiting ∧ waiting.length ≤ 2 := by
  have h := UpWr.Inv.init.run as
  exact ⟨h.sizes, _, by rw [h.order, ← h.writes], h.bound⟩

open UpWr in
/-- C57: a failure is reported at most once, and not unless the stream failed. -/
theorem C57_failure_once (as : List UpWr.Act) :
    failures (St.run {} as).log ≤ 1 ∧ (failures (St.run {} as).log = 1 → (St.run {} as).failed = true) := by
  have h := UpWr.Inv.init.run as
  cases hf : (St.run {} as).failed with
  | false => have := h.fine hf; omega
  | true =>
    refine ⟨?_, fun _ => rfl⟩
    rcases h.failed hf with hs | hs
    · have := (h.slot hs).2; omega
    · omega

open UpWr in
/-- C57: a failure is not lost: as long as it has not been reported, the next shutdown reports it, and so do a flush and a write of
something once the task is dropped. -/
theorem C57_failure_reported (as : List UpWr.Act) :
    let s := St.run {} as
    s.failed = true → failures s.log = 0 → s.up.upc = .idle →
      (s.up.txOpen = false → (s.step .shutEnd).log = s.log ++ [(.shutdown, .failed)]) ∧
      (s.gone = true → (s.step .flush).log = s.log ++ [(.flush, .failed)] ∧
        ∀ bs, bs ≠ [] → (s.step (.write bs)).log = s.log ++ [(.write bs, .failed)]) := by
  intro s hf h0 hu
  have h := UpWr.Inv.init.run as
  have hs : s.slot = true := by
    rcases h.failed hf with hs | hs
    · exact hs
    · have : failures s.log = 1 := hs
      omega
  refine ⟨fun ht => ?_, fun hg => ⟨?_, fun bs hb => ?_⟩⟩
  · simp [St.step, St.free, hu, ht, St.pollError, hs, St.reply]
  · simp [St.step, St.free, hu, St.flush, St.disconnected, hg, St.pollError, hs, St.reply]
  · simp [St.step, St.free, hu, St.write, hb, St.disconnected, hg, St.pollError, hs, St.reply]

open UpWr in
/-- C57: a shutdown reports success only if the end of stream was given to the stream, or a failure of the stream has already been
reported, or the executor dropped the task before its end. -/
theorem C57_shutdown (as : List UpWr.Act) (a : UpWr.Act) (n : Nat) (ha : ((St.run {} as).step a).log = (St.run {} as).log ++ [(.shutdown, .ok n)]) :
    let s := St.run {} as
    s.up.eos = 1 ∨ failures s.log = 1 ∨ s.abandoned = true := by
  intro s
  have h := UpWr.Inv.init.run as
  have key : ∀ c r, c ≠ Call.shutdown → (s.pollError c r).log ≠ s.log ++ [(.shutdown, .ok n)] := by
    intro c r hc
    unfold St.pollError
    (repeat' split) <;> simp [St.reply, hc]
  cases a with
  | shutEnd =>
    simp only [St.step] at ha
    split at ha
    · simp only [St.pollError] at ha
      split at ha
      · simp [St.reply] at ha
      · rename_i hs
        split at ha
        · rename_i hg
          simp only [Bool.or_eq_true] at hg
          rcases hg with hg | hg
          · rcases h.failed hg with h' | h'
            · exact absurd h' hs
            · exact .inr (.inl h')
          · rcases h.gone hg with h' | h'
            · exact .inr (.inr h')
            · rcases h.done h' with h'' | h''
              · rcases h.failed h'' with h3 | h3
                · exact absurd h3 hs
                · exact .inr (.inl h3)
              · exact .inl h''
        · simp [St.reply] at ha
    · simp at ha
  | write bs =>
    exfalso
    simp only [St.step] at ha
    split at ha
    · simp only [St.write] at ha
      (repeat' split at ha) <;> first | exact key _ _ (by simp) ha | (simp [St.reply] at ha; done)
    · simp at ha
  | flush =>
    exfalso
    simp only [St.step] at ha
    split at ha
    · simp only [St.flush] at ha
      (repeat' split at ha) <;> first | exact key _ _ (by simp) ha | (simp [St.reply] at ha; done)
    · simp at ha
  | _ =>
    exfalso
    simp only [St.step, St.task] at ha
    (repeat' split at ha) <;> simp at ha

open UpWr in
/-- C57, the clause about flushing in part: when a flush succeeds on a channel that is open, at most one accepted write waits.  Missing: none does,
which is false (`C57_flush_early`). -/
theorem C57_flush_partial (as : List UpWr.Act) :
    let s := St.run {} as
    s.gone = false → s.up.txOpen = true → s.flush.log = s.log ++ [(.flush, .ok 0)] →
      ∃ waiting : List Bytes, acceptedWrites s.log = s.up.sent ++ waiting ∧ waiting.length ≤ 1 := by
  intro s hg ht hl
  have h := UpWr.Inv.init.run as
  refine ⟨s.up.queue, by rw [h.order, ← h.writes], h.room ?_⟩
  cases hp : s.parked with
  | false => rfl
  | true => simp [St.flush, St.disconnected, hg, ht, hp, St.reply] at hl

/-- Two writes, the end, and a successful shutdown. -/
def exShut : List UpWr.Act :=
  [.write (ascii "ab"), .write (ascii "c"), .write (ascii "d"), .capacity true, .poll, .task, .task, .task, .task, .task, .task, .shut, .user, .user, .user, .user, .user,
    .shutEnd, .poll, .task, .task, .task, .release, .shutEnd]

example : (UpWr.St.run {} exShut).log =
    [(.write (ascii "ab"), .ok 2), (.write (ascii "c"), .ok 1), (.write (ascii "d"), .pending), (.shutdown, .pending), (.shutdown, .ok 0)] ∧
    (UpWr.St.run {} exShut).up.eos = 1 ∧ (UpWr.St.run {} exShut).up.sent = [ascii "ab", ascii "c"] := by decide +kernel

/-- C57, the clause about flushing, is false: a flush succeeds although an accepted write still waits, and also after a failure has been reported. -/
theorem C57_flush_early :
    (∃ as, (UpWr.St.run {} as).log = [(.write [104, 105], .ok 2), (.flush, .ok 0)] ∧ (UpWr.St.run {} as).up.sent = []) ∧
    ∃ as, (UpWr.St.run {} as).log = [(.write [104, 105], .ok 2), (.flush, .failed), (.flush, .ok 0)] ∧ (UpWr.St.run {} as).up.sent = [] :=
  ⟨⟨[.write [104, 105], .flush], by decide +kernel⟩,
   ⟨[.write [104, 105], .poll, .fail, .release, .flush, .flush], by decide +kernel⟩⟩

example : let s := UpWr.St.run {} [.write [1], .poll, .fail, .shut, .user, .user, .user, .user, .user]
    s.failed = true ∧ Spec.failures s.log = 0 ∧ s.up.upc = .idle ∧ s.up.txOpen = false := by decide +kernel

end Hyper
