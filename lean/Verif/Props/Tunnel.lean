import Verif.Props.H2Upgraded
import Verif.Model.H2Server

/-!
# C100: the end of a tunnel through HTTP/2

One user writes into an upgraded HTTP/2 stream (`H2Upgraded` and its task), another reads from the one at the other end; between them the crate `h2` and the network, of which
`Spec.Crosses` says what is assumed.
-/

namespace Hyper

open Spec

namespace Spec

/-- What a stream may say: data, of which a frame may be known to be the last, and then the end or a failure. -/
inductive Course : List UpRd.Ev → Prop where
  | ended : Course []
  | last (bs : Bytes) : Course [.data bs true]
  | failed (reason : Option Nat) (io : Bool) : Course [.error reason io]
  | data (bs : Bytes) {l : List UpRd.Ev} : Course l → Course (.data bs false :: l)
  | pending {l : List UpRd.Ev} : Course l → Course (.pending :: l)

/-- The writer's stream was given up without its end: its task failed or was dropped, and then the user dropped the rest, so that nobody holds the stream. -/
def GivenUp (w : UpWr.St) : Prop := w.gone = true ∧ w.up.eos = 0 ∧ w.up.upc = .gone

/-- `evs` is what the reader may see of the writer's stream: the data in order, cut into other pieces and perhaps not all of it; the end only if the stream was told, and after
everything; a failure at any point, but with the reason `NO_ERROR` (0) or `CANCEL` (8) only after everything, or if the writer's stream was given up, which the crate `h2` tells
the peer with `CANCEL`, or if `gaveUp`: the reader's side itself called `abrupt_shutdown(NO_ERROR)` on its connection, which tells all streams the reason. -/
structure Crosses (w : UpWr.St) (gaveUp : Prop) (evs : List UpRd.Ev) : Prop where
  course : Course evs
  data : frameBytes evs <+: w.up.sent.flatten
  ended : (∀ r io, UpRd.Ev.error r io ∉ evs) → w.up.eos ≠ 0 ∧ frameBytes evs = w.up.sent.flatten
  quiet : ∀ r io, UpRd.Ev.error (some r) io ∈ evs → (r = 0 ∨ r = 8) → gaveUp ∨ GivenUp w ∨ (w.up.eos ≠ 0 ∧ frameBytes evs = w.up.sent.flatten)

/-- No write is accepted while the writer's task is between its look at the queue and its look at the close (`C55_lost`). -/
def ApartW : UpWr.St → List UpWr.Act → Prop
  | _, [] => True
  | s, a :: as => (∀ bs, a = .write bs → ¬ Up.Looking s.up.tpc) ∧ ApartW (s.step a) as

/-- What a user has read: the bytes that the reads put into their buffers. -/
def readBytes (rs : List (UpRd.Res × List (Option Byte))) : Bytes := (rs.flatMap (·.2)).filterMap id

end Spec

namespace Tunnel

/-! ## The writer -/

/-- Before the user shuts down or drops. -/
structure Open (s : Up.St) : Prop where
  upc : s.upc = .idle
  closed : s.closed = false
  tx : s.txOpen = true
  tpc : s.tpc ≠ .finish
  eos : s.eos = 0

theorem Open.up {s : Up.St} (h : Open s) (a : Up.Act) (h1 : a ≠ .shutdown) (h2 : a ≠ .drop) : Open (s.step a) := by
  obtain ⟨g1, g2, g3, g4, g5⟩ := h
  cases a with
  | shutdown => exact absurd rfl h1
  | drop => exact absurd rfl h2
  | user => simp only [Up.St.step, Up.St.userStep, g1]; exact ⟨g1, g2, g3, g4, g5⟩
  | task =>
    simp only [Up.St.step, Up.St.taskStep]
    constructor <;> cases hp : s.tpc <;> simp only [Up.St.wake] <;> grind
  | _ => constructor <;> simp only [Up.St.step, Up.St.wakeRx, Up.St.wake] <;> grind

theorem pollError_up (s : UpWr.St) (c : UpWr.Call) (r : UpWr.Reply) : (s.pollError c r).up = s.up := by
  unfold UpWr.St.pollError UpWr.St.reply
  (repeat' split) <;> rfl

/-- What a call of the user's does to the stream: nothing, or it puts a write into the queue. -/
theorem write_up (s : UpWr.St) (bs : Bytes) :
    (s.write bs).up = s.up ∨ (s.up.txOpen = true ∧ (s.write bs).up = { s.up.wakeRx with queue := s.up.queue ++ [bs], accepted := s.up.accepted ++ [bs] }) := by
  unfold UpWr.St.write
  split
  · exact .inl rfl
  · split
    · exact .inl (pollError_up _ _ _)
    · rename_i hd
      split
      · exact .inl rfl
      · right
        refine ⟨?_, rfl⟩
        simp only [UpWr.St.disconnected, Bool.or_eq_true, Bool.not_eq_true', not_or, Bool.not_eq_false] at hd
        exact hd.2

theorem flush_up (s : UpWr.St) : s.flush.up = s.up := by
  unfold UpWr.St.flush
  (repeat' split) <;> first | exact pollError_up _ _ _ | rfl

/-- A step of the writer's is none of the stream's, one of it, or a write. -/
theorem step_up (s : UpWr.St) (a : UpWr.Act) :
    (s.step a).up = s.up ∨ (∃ b, (s.step a).up = s.up.step b ∧ (∀ bs, b ≠ .write bs) ∧ (b = .shutdown → a = .shut) ∧ (b = .drop → a = .drop)) ∨
      (∃ bs, a = .write bs ∧ s.up.upc = .idle ∧ s.up.txOpen = true ∧ (s.step a).up = { s.up.wakeRx with queue := s.up.queue ++ [bs], accepted := s.up.accepted ++ [bs] }) := by
  cases a with
  | write bs =>
    simp only [UpWr.St.step]
    split
    · rename_i hf
      rcases write_up s bs with h | ⟨h1, h2⟩
      · exact .inl h
      · exact .inr (.inr ⟨bs, rfl, by simpa [UpWr.St.free] using hf, h1, h2⟩)
    · exact .inl rfl
  | flush =>
    simp only [UpWr.St.step]
    split
    · exact .inl (flush_up s)
    · exact .inl rfl
  | shutEnd =>
    simp only [UpWr.St.step]
    split
    · exact .inl (pollError_up _ _ _)
    · exact .inl rfl
  | release => simp only [UpWr.St.step]; split <;> exact .inl rfl
  | shut =>
    simp only [UpWr.St.step]
    split
    · exact .inr (.inl ⟨.shutdown, rfl, by simp, by simp, by simp⟩)
    · exact .inl rfl
  | drop => exact .inr (.inl ⟨.drop, rfl, by simp, by simp, by simp⟩)
  | user => exact .inr (.inl ⟨.user, rfl, by simp, by simp, by simp⟩)
  | poll =>
    simp only [UpWr.St.step]
    split
    · exact .inl rfl
    · exact .inr (.inl ⟨.poll, rfl, by simp, by simp, by simp⟩)
  | task =>
    simp only [UpWr.St.step]
    split
    · exact .inl rfl
    · exact .inr (.inl ⟨.task, rfl, by simp, by simp, by simp⟩)
  | fail =>
    simp only [UpWr.St.step]
    split
    · exact .inr (.inl ⟨.fail, rfl, by simp, by simp, by simp⟩)
    · exact .inl rfl
  | capacity b => exact .inr (.inl ⟨.capacity b, rfl, by simp, by simp, by simp⟩)

theorem open_run (as : List UpWr.Act) : ∀ s : UpWr.St, Open s.up → .shut ∉ as → .drop ∉ as → Open (s.run as).up := by
  induction as with
  | nil => exact fun s h _ _ => h
  | cons a as ih =>
    intro s h h1 h2
    refine ih (s.step a) ?_ (fun x => h1 (List.mem_cons_of_mem _ x)) (fun x => h2 (List.mem_cons_of_mem _ x))
    rcases step_up s a with e | ⟨b, e, _, e1, e2⟩ | ⟨bs, _, _, _, e⟩
    · rw [e]; exact h
    · rw [e]
      refine h.up b (fun x => h1 ?_) (fun x => h2 ?_)
      · rw [← e1 x]; exact List.mem_cons_self
      · rw [← e2 x]; exact List.mem_cons_self
    · rw [e]; exact ⟨h.upc, h.closed, h.tx, h.tpc, h.eos⟩

/-- The stream is ended, and dropped, only by its user. -/
theorem user_ended (as : List UpWr.Act) (h : (UpWr.St.run {} as).up.eos ≠ 0 ∨ (UpWr.St.run {} as).up.upc = .gone) : .shut ∈ as ∨ .drop ∈ as := by
  by_cases h1 : .shut ∈ as
  · exact .inl h1
  · by_cases h2 : .drop ∈ as
    · exact .inr h2
    · have ho := open_run as {} ⟨rfl, rfl, rfl, by simp, rfl⟩ h1 h2
      rcases h with h | h
      · exact absurd ho.eos h
      · rw [ho.upc] at h; cases h

/-- What holds of the queue when the end is sent. -/
structure Full (s : Up.St) : Prop where
  look : Up.Looking s.tpc → s.queue = []
  fin : s.eos ≠ 0 → s.queue = [] ∧ s.done = true ∧ s.tpc = .idle ∧ (s.closed = true ∨ s.txOpen = false)
  why : s.tpc = .finish → s.closed = true ∨ s.txOpen = false
  shut : s.closed = true → s.upc = .idle → s.txOpen = false
  going : (s.upc ≠ .idle ∧ s.upc ≠ .gone ∧ s.upc ≠ .dropTx) → s.dropping = true ∨ s.txOpen = false

theorem Full.up {s : Up.St} (h : Full s) (a : Up.Act) (ha : ∀ bs, a ≠ .write bs) : Full (s.step a) := by
  obtain ⟨g1, g2, g3, g4, g5⟩ := h
  cases a with
  | write bs => exact absurd rfl (ha bs)
  | user =>
    simp only [Up.St.step, Up.St.userStep]
    constructor <;> cases hp : s.upc <;> simp only [Up.St.wake, Up.St.wakeRx] <;> grind
  | task =>
    simp only [Up.St.step, Up.St.taskStep]
    constructor <;> cases hp : s.tpc <;> simp only [Up.St.wake] <;> grind [Up.Looking]
  | _ => constructor <;> simp only [Up.St.step, Up.St.wakeRx, Up.St.wake] <;> grind [Up.Looking]

theorem full_run (as : List UpWr.Act) : ∀ s : UpWr.St, Full s.up → ApartW s as → Full (s.run as).up := by
  induction as with
  | nil => exact fun s h _ => h
  | cons a as ih =>
    intro s h hap
    refine ih (s.step a) ?_ hap.2
    rcases step_up s a with e | ⟨b, e, hb, _, _⟩ | ⟨bs, ha, hu, ht, e⟩
    · rw [e]; exact h
    · rw [e]; exact h.up b hb
    · rw [e]
      have hl := hap.1 bs ha
      obtain ⟨g1, g2, g3, g4, g5⟩ := h
      refine ⟨fun x => absurd x hl, fun x => ?_, g3, g4, g5⟩
      exfalso
      rcases (g2 x).2.2.2 with c | c
      · have := g4 c hu; rw [ht] at this; cases this
      · rw [ht] at c; cases c

theorem all_sent (as : List UpWr.Act) (hap : ApartW {} as) (h : (UpWr.St.run {} as).up.eos ≠ 0) :
    (UpWr.St.run {} as).up.sent = acceptedWrites (UpWr.St.run {} as).log := by
  have hq := ((full_run as {} ⟨by simp [Up.Looking], by simp, by simp, by simp, by simp⟩ hap).fin h).1
  have hi := UpWr.Inv.init.run as
  have := hi.order
  rw [hq, List.append_nil] at this
  rw [this, hi.writes]

/-! ## The reader -/

open UpRd

theorem Course.suffix {pre l : List UpRd.Ev} (h : Course (pre ++ l)) : Course l := by
  induction pre with
  | nil => exact h
  | cons x pre ih =>
    rw [List.cons_append] at h
    generalize hq : x :: (pre ++ l) = q at h
    cases h with
    | ended => cases hq
    | last bs => simp only [List.cons.injEq, List.append_eq_nil_iff] at hq; rw [hq.2.2]; exact .ended
    | failed r io => simp only [List.cons.injEq, List.append_eq_nil_iff] at hq; rw [hq.2.2]; exact .ended
    | data bs h => simp only [List.cons.injEq] at hq; rw [← hq.2] at h; exact ih h
    | pending h => simp only [List.cons.injEq] at hq; rw [← hq.2] at h; exact ih h

/-- The failures among these answers are those that a read takes for the end. -/
def Mild (l : List UpRd.Ev) : Prop := ∀ r io, UpRd.Ev.error r io ∈ l → r = some 0 ∨ r = some 8

theorem Mild.append {a b : List UpRd.Ev} (ha : Mild a) (hb : Mild b) : Mild (a ++ b) := fun r io h => by
  rcases List.mem_append.1 h with h | h
  · exact ha r io h
  · exact hb r io h

/-- A read that does not fail has gone over answers that are no failures, or mild ones. -/
theorem fetch_over (b : ReadBuf) (l : List UpRd.Ev) (s : UpRd.St) (h : (fetch s b l).1 = .ready ∨ (fetch s b l).1 = .pending) :
    ∃ pre, l = pre ++ (fetch s b l).2.1.stream ∧ Mild pre := by
  induction l with
  | nil => exact ⟨[], rfl, by simp [Mild]⟩
  | cons x l ih =>
    cases x with
    | pending => exact ⟨[.pending], rfl, by simp [Mild]⟩
    | error r io =>
      refine ⟨[.error r io], rfl, ?_⟩
      intro r' io' hm
      simp only [List.mem_singleton, UpRd.Ev.error.injEq] at hm
      rw [hm.1]
      simp only [fetch, onError] at h
      revert h
      (repeat' split) <;> simp_all [NO_ERROR, CANCEL]
    | data bs eos =>
      by_cases hb : bs = [] ∧ eos = false
      · simp only [fetch, if_pos hb] at h ⊢
        obtain ⟨pre, e, hm⟩ := ih h
        refine ⟨.data bs eos :: pre, by rw [List.cons_append, ← e], ?_⟩
        intro r io hx
        simp only [List.mem_cons, reduceCtorEq, false_or] at hx
        exact hm r io hx
      · simp only [fetch, if_neg hb]
        exact ⟨[.data bs eos], rfl, by simp [Mild]⟩

theorem pollRead_over (s : UpRd.St) (b : ReadBuf) (h : (pollRead s b).1 = .ready ∨ (pollRead s b).1 = .pending) :
    ∃ pre, s.stream = pre ++ (pollRead s b).2.1.stream ∧ Mild pre := by
  by_cases hb : s.buf = []
  · have e : pollRead s b = fetch s b s.stream := by unfold pollRead; rw [if_pos hb]
    rw [e] at h ⊢
    exact fetch_over b s.stream s h
  · have e : pollRead s b = deliver s b := by unfold pollRead; rw [if_neg hb]
    rw [e]
    exact ⟨[], rfl, by simp [Mild]⟩

theorem reads_over (sizes : List Nat) : ∀ s : UpRd.St, (∀ x ∈ (reads s sizes).1, x.1 = .ready ∨ x.1 = .pending) →
    ∃ pre, s.stream = pre ++ (reads s sizes).2.stream ∧ Mild pre := by
  induction sizes with
  | nil => exact fun s _ => ⟨[], rfl, by simp [Mild]⟩
  | cons n ns ih =>
    intro s h
    simp only [reads, List.mem_cons] at h ⊢
    obtain ⟨p1, e1, m1⟩ := pollRead_over s (ReadBuf.uninit n) (h _ (.inl rfl))
    obtain ⟨p2, e2, m2⟩ := ih _ (fun x hx => h x (.inr hx))
    exact ⟨p1 ++ p2, by rw [e1, e2, List.append_assoc], m1.append m2⟩

theorem skipped_split (l : List UpRd.Ev) : ∃ pre, l = pre ++ skipped l ∧ Mild pre := by
  fun_induction skipped l with
  | case1 t ih =>
    obtain ⟨pre, e, h⟩ := ih
    refine ⟨.data [] false :: pre, by rw [List.cons_append, ← e], ?_⟩
    intro r io hx
    simp only [List.mem_cons, reduceCtorEq, false_or] at hx
    exact h r io hx
  | case2 l _ => exact ⟨[], rfl, by simp [Mild]⟩

theorem readBytes_eq {rs : List (Res × List (Option Byte))} {got : List Bytes} (h : rs.map (·.2) = got.map (·.map some)) : readBytes rs = got.flatten := by
  induction got generalizing rs with
  | nil =>
    cases rs with
    | nil => rfl
    | cons x rs => simp at h
  | cons g got ih =>
    cases rs with
    | nil => simp at h
    | cons x rs =>
      simp only [List.map_cons, List.cons.injEq] at h
      have := ih h.2
      unfold readBytes at this ⊢
      rw [List.flatMap_cons, List.filterMap_append, this, h.1, List.flatten_cons]
      congr 1
      rw [List.filterMap_map]
      induction g with
      | nil => rfl
      | cons b g _ => simp

/-- When a read finds the end, all that came has been read, and the stream ended or failed mildly. -/
theorem at_end {evs : List UpRd.Ev} (hc : Course evs) (sizes : List Nat) (hok : ∀ x ∈ (reads { stream := evs } sizes).1, x.1 = .ready ∨ x.1 = .pending) (n : Nat) (hn : 0 < n)
    (h1 : (pollRead (reads { stream := evs } sizes).2 (ReadBuf.uninit n)).1 = .ready)
    (h2 : (pollRead (reads { stream := evs } sizes).2 (ReadBuf.uninit n)).2.2.val.filledCells = []) :
    readBytes (reads { stream := evs } sizes).1 = frameBytes evs ∧ Mild evs := by
  obtain ⟨got, e1, e2, _⟩ := C56_each_byte_once evs sizes
  obtain ⟨pre, e3, m⟩ := reads_over sizes { stream := evs } hok
  simp only at e1 e2 e3
  generalize (reads { stream := evs } sizes).1 = rs at *
  generalize (reads { stream := evs } sizes).2 = s at *
  rw [readBytes_eq e1]
  have hz : (ReadBuf.uninit n).filled = 0 := rfl
  have hfill : (pollRead s (ReadBuf.uninit n)).2.2.val.filled = (ReadBuf.uninit n).filled := by
    obtain ⟨g, _, ok, _⟩ := C56_read_takes_next s n [] (ReadBuf.uninit n) (C37_cursor_accounting n [] _ .uninit)
    have hl := congrArg List.length h2
    simp only [ReadBuf.filledCells, List.length_take, List.length_nil] at hl
    have := ok.filled_init
    have := ok.init_cap
    have hcap : (pollRead s (ReadBuf.uninit n)).2.2.val.capacity = (pollRead s (ReadBuf.uninit n)).2.2.val.raw.length := rfl
    omega
  have hrem : 0 < (ReadBuf.uninit n).remaining := by simpa [ReadBuf.remaining, ReadBuf.uninit, ReadBuf.capacity] using hn
  obtain ⟨hb, hend⟩ := (C56_end_iff s (ReadBuf.uninit n) hrem).1 ⟨h1, hfill⟩
  obtain ⟨pre2, e4, m2⟩ := skipped_split s.stream
  have hcs : Course (skipped s.stream) := by
    have : Course ((pre ++ pre2) ++ skipped s.stream) := by rw [List.append_assoc, ← e4, ← e3]; exact hc
    exact Course.suffix this
  have hlast : frameBytes (skipped s.stream) = [] ∧ Mild (skipped s.stream) := by
    rcases hend with h | ⟨t, h⟩ | ⟨r, io, t, h, hr⟩
    · rw [h]; exact ⟨rfl, by simp [Mild]⟩
    · rw [h] at hcs ⊢
      cases hcs
      exact ⟨rfl, by simp [Mild]⟩
    · rw [h] at hcs ⊢
      cases hcs
      refine ⟨rfl, ?_⟩
      intro r' io' hm
      simp only [List.mem_singleton, UpRd.Ev.error.injEq] at hm
      rw [hm.1]
      rcases hr with rfl | rfl
      · exact .inl rfl
      · exact .inr rfl
  refine ⟨?_, ?_⟩
  · rw [hb, ← frameBytes_skipped, hlast.1] at e2
    simpa using e2
  · rw [e3, e4]
    exact m.append (m2.append hlast.2)

end Tunnel

open Tunnel in
/-- C100: at every moment what was read is a beginning of what was written, whatever becomes of the stream. -/
theorem C100_in_order (as : List UpWr.Act) (gaveUp : Prop) (evs : List UpRd.Ev) (hx : Crosses (UpWr.St.run {} as) gaveUp evs) (sizes : List Nat) :
    readBytes (UpRd.reads { stream := evs } sizes).1 <+: (acceptedWrites (UpWr.St.run {} as).log).flatten := by
  obtain ⟨got, e1, e2, _⟩ := C56_each_byte_once evs sizes
  obtain ⟨_, w, e3, _⟩ := C57_writes as
  rw [readBytes_eq e1, e3, List.flatten_append]
  have h1 : got.flatten <+: frameBytes evs := ⟨_, e2⟩
  exact (h1.trans hx.data).trans ⟨_, rfl⟩

open Tunnel in
/-- C100 in part: if a read finds the end, no read before having failed, then the writer has shut its side down or dropped it, and all that was written has been read, or
the writer's stream was given up without its end; or the reader's own side gave its connection up.  Missing: that a stream that was given up, or whose connection was, is not taken for one
that ended; it is (`C100_given_up`, `C100_gave_up`); and writes that race with the end (`C55_lost`). -/
theorem C100_ended_partial (as : List UpWr.Act) (hap : ApartW {} as) (gaveUp : Prop) (evs : List UpRd.Ev) (hx : Crosses (UpWr.St.run {} as) gaveUp evs) (sizes : List Nat)
    (hok : ∀ x ∈ (UpRd.reads { stream := evs } sizes).1, x.1 = .ready ∨ x.1 = .pending) (n : Nat) (hn : 0 < n)
    (h1 : (UpRd.pollRead (UpRd.reads { stream := evs } sizes).2 (ReadBuf.uninit n)).1 = .ready)
    (h2 : (UpRd.pollRead (UpRd.reads { stream := evs } sizes).2 (ReadBuf.uninit n)).2.2.val.filledCells = []) :
    gaveUp ∨ ((.shut ∈ as ∨ .drop ∈ as) ∧
      (GivenUp (UpWr.St.run {} as) ∨ readBytes (UpRd.reads { stream := evs } sizes).1 = (acceptedWrites (UpWr.St.run {} as).log).flatten)) := by
  obtain ⟨g1, g2⟩ := at_end hx.course sizes hok n hn h1 h2
  have fin : (UpWr.St.run {} as).up.eos ≠ 0 ∧ frameBytes evs = (UpWr.St.run {} as).up.sent.flatten → (.shut ∈ as ∨ .drop ∈ as) ∧
      (GivenUp (UpWr.St.run {} as) ∨ readBytes (UpRd.reads { stream := evs } sizes).1 = (acceptedWrites (UpWr.St.run {} as).log).flatten) := by
    rintro ⟨c1, c2⟩
    exact ⟨user_ended as (.inl c1), .inr (by rw [g1, c2, all_sent as hap c1])⟩
  by_cases he : ∃ r io, UpRd.Ev.error r io ∈ evs
  · obtain ⟨r, io, hm⟩ := he
    have : ∃ k, r = some k ∧ (k = 0 ∨ k = 8) := by
      rcases g2 r io hm with rfl | rfl
      · exact ⟨0, rfl, .inl rfl⟩
      · exact ⟨8, rfl, .inr rfl⟩
    obtain ⟨k, rfl, hk⟩ := this
    rcases hx.quiet k io hm hk with c | c | c
    · exact .inl c
    · exact .inr ⟨user_ended as (.inr c.2.2), .inl c⟩
    · exact .inr (fin c)
  · exact .inr (fin (hx.ended (fun r io hm => he ⟨r, io, hm⟩)))

namespace Tunnel

/-- Two bytes are written and sent; the writer has not ended. -/
def exHalf : List UpWr.Act := [.capacity true, .write (ascii "ab"), .poll, .task, .task, .task, .task]

end Tunnel

/-- C100 is false if the reader's own server gives its connection up: the writer, whose connection was only slow, is still at it, and the reader finds the end after two bytes. -/
theorem C100_gave_up :
    .abrupt ∈ (Srv.init.run [.poll .ok [{ ping := .timedOut, accept := .none }]]).log ∧
    Crosses (UpWr.St.run {} Tunnel.exHalf) (.abrupt ∈ (Srv.init.run [.poll .ok [{ ping := .timedOut, accept := .none }]]).log) [.data (ascii "ab") false, .error (some 0) false] ∧
    (UpWr.St.run {} Tunnel.exHalf).up.done = false ∧
    (UpRd.reads { stream := [.data (ascii "ab") false, .error (some 0) false] } [8, 8]).1 = [(.ready, (ascii "ab").map some), (.ready, [])] := by
  have hs : Srv.Ev.abrupt ∈ (Srv.init.run [.poll .ok [{ ping := .timedOut, accept := .none }]]).log := by decide +kernel
  refine ⟨hs, ⟨.data _ (.failed _ _), ⟨[], by decide +kernel⟩, fun h => absurd (h (some 0) false) (by simp), fun _ _ _ _ => .inl hs⟩, by decide +kernel, by decide +kernel⟩

/-- C100 is false if the executor drops the writer's task before it is done, as when the writer's runtime is shut down: the peer is told `CANCEL`, and the reader finds the end after two of
the four bytes that were accepted. -/
theorem C100_given_up :
    let as : List UpWr.Act := Tunnel.exHalf ++ [.write (ascii "cd"), .release, .drop, .user, .user, .user, .user, .user, .user]
    ApartW {} as ∧ Crosses (UpWr.St.run {} as) False [.data (ascii "ab") false, .error (some 8) false] ∧
    (acceptedWrites (UpWr.St.run {} as).log).flatten = ascii "abcd" ∧
    (UpRd.reads { stream := [.data (ascii "ab") false, .error (some 8) false] } [8, 8]).1 = [(.ready, (ascii "ab").map some), (.ready, [])] := by
  have hg : GivenUp (UpWr.St.run {} (Tunnel.exHalf ++ [.write (ascii "cd"), .release, .drop, .user, .user, .user, .user, .user, .user])) :=
    ⟨by decide +kernel, by decide +kernel, by decide +kernel⟩
  refine ⟨?_, ⟨.data _ (.failed _ _), ⟨[], by decide +kernel⟩, fun h => absurd (h (some 8) false) (by simp), fun _ _ _ _ => .inr (.inl hg)⟩, by decide +kernel, by decide +kernel⟩
  simp only [ApartW, Tunnel.exHalf, List.cons_append, List.nil_append]
  refine ⟨?_, ?_, ?_, ?_, ?_, ?_, ?_, ?_, ?_, ?_, ?_, ?_, ?_, ?_, ?_, ?_, trivial⟩ <;> intro bs hbs <;> first | (cases hbs; done) | (cases hbs; decide +kernel)

/-- C100, not vacuous: a tunnel that is shut down and read to its end. -/
example : let as : List UpWr.Act := Tunnel.exHalf ++ [.shut, .user, .user, .user, .user, .user, .poll, .task, .task, .task]
    ApartW {} as ∧ Crosses (UpWr.St.run {} as) False [.data (ascii "a") false, .data (ascii "b") true] ∧
    (UpRd.reads { stream := [.data (ascii "a") false, .data (ascii "b") true] } [8, 8, 8]).1 = [(.ready, (ascii "a").map some), (.ready, (ascii "b").map some), (.ready, [])] := by
  refine ⟨?_, ⟨.data _ (.last _), ⟨[], by decide +kernel⟩, fun _ => ⟨by decide +kernel, by decide +kernel⟩, by simp⟩, by decide +kernel⟩
  simp only [ApartW, Tunnel.exHalf, List.cons_append, List.nil_append]
  refine ⟨?_, ?_, ?_, ?_, ?_, ?_, ?_, ?_, ?_, ?_, ?_, ?_, ?_, ?_, ?_, ?_, ?_, trivial⟩ <;> intro bs hbs <;> first | (cases hbs; done) | (cases hbs; decide +kernel)

end Hyper
