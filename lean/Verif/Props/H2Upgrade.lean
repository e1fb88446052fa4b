import Verif.Model.H2Upgrade

/-!
# C44: the end of the write side of an upgraded HTTP/2 stream is not lost
# C55: nor is what was written before it
-/

namespace Hyper

namespace Up

structure Inv (s : St) : Prop where
  reg : s.registering = true ↔ s.tpc = .storing ∨ s.tpc = .releasing ∨ s.tpc = .retaking ∨ ∃ w, s.tpc = .clearing w
  take : (s.upc = .taking ∨ ∃ w, s.upc = .clearing w) → s.registering = false ∧ s.wakingBit = true
  free : s.wakingBit = true → s.registering = true ∨ s.upc = .taking ∨ ∃ w, s.upc = .clearing w
  retake : (s.tpc = .retaking ∨ ∃ w, s.tpc = .clearing w) → s.wakingBit = true
  slot : (s.tpc = .releasing ∨ s.tpc = .retaking) → s.slot = some s.gen
  mine : ∀ w, (s.tpc = .clearing w ∨ s.tpc = .waking w) → w = some s.gen
  armed : (s.tpc = .closed2 ∨ s.tpc = .idle ∧ s.done = false ∧ s.ended = .waiting) →
    s.slot = some s.gen ∨ s.gen ∈ s.woken ∨ s.upc = .clearing (some s.gen) ∨ s.upc = .waking (some s.gen)
  dirty : s.tpc = .idle → s.done = false → s.ended = .waiting → s.closed = true →
    s.gen ∈ s.woken ∨ s.upc = .wake ∨ (s.upc = .taking ∧ s.slot = some s.gen) ∨ s.upc = .clearing (some s.gen) ∨ s.upc = .waking (some s.gen)
  opened : s.tpc = .idle → s.done = false → s.ended = .open → s.rxReg = some s.gen ∨ s.gen ∈ s.woken
  shut : s.txOpen = false → s.rxReg = none
  queued : s.tpc = .idle → s.done = false → s.ended = .queued → s.queue ≠ [] ∧ (s.capReg = some s.gen ∨ s.gen ∈ s.woken)
  hint : s.tpc = .hint → s.capReg = some s.gen ∨ s.gen ∈ s.woken
  never : s.ended = .never → s.tpc = .idle → s.done = false → s.gen = 0
  quiet : s.upc = .idle → s.closed = true → s.txOpen = false
  wakes : (s.upc = .wake ∨ s.upc = .taking ∨ (∃ w, s.upc = .clearing w) ∨ ∃ w, s.upc = .waking w) → s.closed = true
  stores : s.upc = .store ∨ s.upc = .wake ∨ s.upc = .taking ∨ (∃ w, s.upc = .clearing w) ∨ (∃ w, s.upc = .waking w) →
    s.dropping = true ∨ s.txOpen = false
  drops : s.upc = .dropTx → s.closed = true
  gone : s.upc = .gone → s.closed = true ∧ s.txOpen = false
  dropped : s.upc = .idle → s.dropping = false

theorem Inv.init : Inv Up.init := by
  constructor <;> simp [Up.init]

set_option maxHeartbeats 4000000 in
theorem Inv.user {s : St} (h : Inv s) : Inv s.userStep := by
  obtain ⟨h1, h2, h3, h4, h5, h6, h7, h8, h9, h10, h11, h12, h13, h14, h15, h16, h17, h18, h19⟩ := h
  simp only [St.userStep]
  cases hp : s.upc <;> constructor <;> simp only [St.wakeRx, St.wake] <;> grind

set_option maxHeartbeats 4000000 in
theorem Inv.task {s : St} (h : Inv s) : Inv s.taskStep := by
  obtain ⟨h1, h2, h3, h4, h5, h6, h7, h8, h9, h10, h11, h12, h13, h14, h15, h16, h17, h18, h19⟩ := h
  simp only [St.taskStep]
  cases hp : s.tpc <;> constructor <;> (try simp only [St.wakeRx, St.wake]) <;> grind

set_option maxHeartbeats 4000000 in
theorem Inv.step {s : St} (h : Inv s) (a : Act) : Inv (s.step a) := by
  cases a with
  | user => exact h.user
  | task => exact h.task
  | _ =>
    obtain ⟨h1, h2, h3, h4, h5, h6, h7, h8, h9, h10, h11, h12, h13, h14, h15, h16, h17, h18, h19⟩ := h
    constructor <;> simp only [St.step, St.wakeRx, St.wake] <;> grind [List.append_eq_nil_iff]

theorem Inv.run {s : St} (h : Inv s) (as : List Act) : Inv (s.run as) := by
  induction as generalizing s with
  | nil => exact h
  | cons a as ih => exact ih (h.step a)

/-- What is queued was accepted and not yet given to the stream. -/
theorem order_step {s : St} (h : s.sent ++ s.queue = s.accepted) (a : Act) : (s.step a).sent ++ (s.step a).queue = (s.step a).accepted := by
  cases a with
  | user => simp only [St.step, St.userStep]; (repeat' split) <;> exact h
  | task => simp only [St.step, St.taskStep]; (repeat' split) <;> first | exact h | (simp_all [St.wake]; done)
  | write bs =>
    simp only [St.step]
    split
    · show s.sent ++ (s.queue ++ [bs]) = s.accepted ++ [bs]
      rw [← h, List.append_assoc]
    · exact h
  | _ => simp only [St.step]; (repeat' split) <;> exact h

theorem order_run {s : St} (h : s.sent ++ s.queue = s.accepted) (as : List Act) : (s.run as).sent ++ (s.run as).queue = (s.run as).accepted := by
  induction as generalizing s with
  | nil => exact h
  | cons a as ih => exact ih (order_step h a)

/-- The end of stream is sent by a task that is over after it. -/
theorem eos_step {s : St} (h : s.eos ≤ 1 ∧ (s.eos = 1 → s.done = true) ∧ (s.done = true → s.tpc = .idle)) (a : Act) :
    (s.step a).eos ≤ 1 ∧ ((s.step a).eos = 1 → (s.step a).done = true) ∧ ((s.step a).done = true → (s.step a).tpc = .idle) := by
  cases a with
  | user => simp only [St.step, St.userStep]; (repeat' split) <;> exact h
  | task => simp only [St.step, St.taskStep]; (repeat' split) <;> (try simp only [St.wake]) <;> grind
  | _ => simp only [St.step]; (repeat' split) <;> (try simp only [St.wakeRx, St.wake]) <;> grind

end Up

open Up in
/-- C44: in every interleaving, when the user has closed or dropped the write side and is not in the middle of that, a task that is not over
has been woken since it last looked, or it still has accepted data to send and waits for the stream's capacity to do so. -/
theorem C44_woken (as : List Act) :
    let s := Up.init.run as
    s.closed = true → (s.upc = .idle ∨ s.upc = .gone) → s.tpc = .idle → s.done = false → 0 < s.gen →
    s.gen ∈ s.woken ∨ (s.capReg = some s.gen ∧ s.queue ≠ []) := by
  intro s hc hu ht hd hg
  have h := Inv.init.run as
  cases he : s.ended with
  | never => exact absurd (h.never he ht hd) (by show s.gen ≠ 0; omega)
  | queued =>
    rcases h.queued ht hd he with ⟨hq, h' | h'⟩
    · exact .inr ⟨h', hq⟩
    · exact .inl h'
  | «open» =>
    refine .inl ?_
    have hx : s.txOpen = false := by
      rcases hu with hu | hu
      · exact h.quiet hu hc
      · exact (h.gone hu).2
    rcases h.opened ht hd he with h' | h'
    · have := h.shut hx
      rw [show (Up.init.run as).rxReg = s.rxReg from rfl, h'] at this
      cases this
    · exact h'
  | waiting =>
    refine .inl ?_
    have := h.dirty ht hd he hc
    grind

open Up in
/-- C44: and when it is polled with capacity, it sends what is queued, then the end of stream, and is over. -/
theorem C44_finishes (s : St) (hx : s.txOpen = false) (hd : s.done = false) (ht : s.tpc = .idle) (hc : s.cap = true) :
    ∃ n, let t := s.run (.poll :: List.replicate n .task)
      t.done = true ∧ t.eos = s.eos + 1 ∧ t.sent = s.sent ++ s.queue ∧ t.queue = [] := by
  suffices H : ∀ (q : List Bytes) (s : St), s.queue = q → s.txOpen = false → s.tpc = .head → s.cap = true →
      ∃ n, let t := s.run (List.replicate n .task)
        t.done = true ∧ t.eos = s.eos + 1 ∧ t.sent = s.sent ++ s.queue ∧ t.queue = [] by
    have := H s.queue { s with gen := s.gen + 1, tpc := .head } rfl hx rfl hc
    obtain ⟨n, hn⟩ := this
    refine ⟨n, ?_⟩
    have e : s.step .poll = { s with gen := s.gen + 1, tpc := .head } := by simp [St.step, ht, hd]
    simp only [St.run, List.foldl_cons, e]
    exact hn
  intro q
  induction q with
  | nil =>
    intro s hq hx ht hc
    refine ⟨3, ?_⟩
    simp [St.run, St.step, St.taskStep, List.replicate, ht, hc, hq, hx]
  | cons b q ih =>
    intro s hq hx ht hc
    obtain ⟨n, hn⟩ := ih { s with queue := q, sent := s.sent ++ [b], tpc := .head } rfl hx rfl hc
    refine ⟨n + 2, ?_⟩
    have e : (s.step .task).step .task = { s with queue := q, sent := s.sent ++ [b], tpc := .head } := by
      simp [St.step, St.taskStep, ht, hc, hq]
    simp only [St.run, List.replicate_succ, List.foldl_cons, e]
    simpa [St.run, hq] using hn

open Up in
/-- C44: without capacity, a task with nothing to send ends at its next poll, too. -/
theorem C44_finishes_without_capacity (s : St) (hc : s.closed = true) (hd : s.done = false) (ht : s.tpc = .idle) (hq : s.queue = []) (hn : s.cap = false) :
    let t := s.run [.poll, .task, .task, .task, .task]
    t.done = true ∧ t.eos = s.eos + 1 ∧ t.sent = s.sent := by
  simp [St.run, St.step, St.taskStep, ht, hd, hc, hq, hn]

/-- C44, not vacuous: the close comes in the middle of the registration. -/
example : (Up.init.run [.poll, .task, .task, .task, .task, .drop, .user, .task, .user, .task]).done = false ∧
    (Up.init.run [.poll, .task, .task, .task, .task, .drop, .user, .task, .user, .task, .task, .task, .task, .task, .task]).done = true := by
  decide +kernel

example : let s := Up.init.run [.poll, .task, .task, .task, .task, .task, .task, .task, .drop, .user, .user, .user, .user, .user, .user]
    s.upc = .gone ∧ s.tpc = .idle ∧ s.done = false ∧ s.woken = [1] := by
  decide +kernel

open Up in
/-- C55: the frames given to the stream are a prefix of the accepted writes, in order. -/
theorem C55_order (as : List Act) : (Up.init.run as).sent <+: (Up.init.run as).accepted :=
  ⟨_, order_run (s := Up.init) rfl as⟩

open Up in
/-- C55: the end of stream is sent at most once, and nothing after it. -/
theorem C55_one_end (as : List Act) : (Up.init.run as).eos ≤ 1 := by
  suffices H : ∀ s : St, (s.eos ≤ 1 ∧ (s.eos = 1 → s.done = true) ∧ (s.done = true → s.tpc = .idle)) → (s.run as).eos ≤ 1 from
    H _ (by simp [Up.init])
  induction as with
  | nil => exact fun s h => h.1
  | cons a as ih => exact fun s h => ih _ (eos_step h a)

namespace Up

/-- The task has seen an empty queue and has not yet decided what to do about it. -/
def Looking (t : TPc) : Prop := t ≠ .idle ∧ t ≠ .head ∧ t ≠ .hint ∧ t ≠ .next

instance (t : TPc) : Decidable (Looking t) := inferInstanceAs (Decidable (_ ∧ _ ∧ _ ∧ _))

/-- No write is accepted while the task is between its look at the queue and its look at the close. -/
def Apart : St → List Act → Prop
  | _, [] => True
  | s, a :: as => (∀ bs, a = .write bs → ¬ Looking s.tpc) ∧ Apart (s.step a) as

theorem complete_step {s : St} (h : (Looking s.tpc → s.queue = []) ∧ (s.eos ≠ 0 → s.queue = [] ∧ s.done = true ∧ s.tpc = .idle)) (a : Act)
    (ha : ∀ bs, a = .write bs → ¬ Looking s.tpc) :
    (Looking (s.step a).tpc → (s.step a).queue = []) ∧ ((s.step a).eos ≠ 0 → (s.step a).queue = [] ∧ (s.step a).done = true ∧ (s.step a).tpc = .idle) := by
  cases a with
  | user => simp only [St.step, St.userStep]; (repeat' split) <;> exact h
  | task => simp only [St.step, St.taskStep]; (repeat' split) <;> (try simp only [St.wake]) <;> grind [Looking]
  | write bs =>
    have := ha bs rfl
    simp only [St.step]; (repeat' split) <;> (try simp only [St.wakeRx, St.wake]) <;> grind
  | _ => simp only [St.step]; (repeat' split) <;> (try simp only [St.wakeRx, St.wake]) <;> grind [Looking]

end Up

open Up in
/-- C55, in part: when the end of stream is sent, every accepted write has been sent before it, if no write is accepted between the task's look at
the queue and its look at the close.  Missing: the other interleavings, for which it is false (`C55_lost`). -/
theorem C55_complete_partial (as : List Act) (h : Apart Up.init as) (he : (Up.init.run as).eos ≠ 0) : (Up.init.run as).sent = (Up.init.run as).accepted := by
  suffices H : ∀ s : St, Apart s as → ((Looking s.tpc → s.queue = []) ∧ (s.eos ≠ 0 → s.queue = [] ∧ s.done = true ∧ s.tpc = .idle)) →
      (s.run as).eos ≠ 0 → (s.run as).queue = [] by
    have q := H Up.init h (by simp [Up.init]) he
    have o := order_run (s := Up.init) rfl as
    rw [q, List.append_nil] at o
    exact o
  clear h he
  induction as with
  | nil => exact fun s _ h he => (h.2 he).1
  | cons a as ih => exact fun s hs h he => ih _ hs.2 (complete_step h a hs.1) he

/-- The write and the close both fall between the task's `size_hint` and its `poll_closed` (upgrade.rs 177). -/
def exLost : List Up.Act := [.poll, .task, .task, .write [104, 105], .shutdown, .user, .task, .task]

/-- C55 is false: an accepted write is lost, the stream is ended as if all were well. -/
theorem C55_lost : ∃ as : List Up.Act, (Up.init.run as).eos = 1 ∧ (Up.init.run as).accepted = [[104, 105]] ∧ (Up.init.run as).sent = [] :=
  ⟨exLost, by decide +kernel⟩

/-- C55, not vacuous: two writes, a pause for capacity, and the end. -/
def exUpgraded : List Up.Act :=
  [.poll, .task, .write [1], .task, .write [2], .capacity true, .poll, .task, .task, .task, .task, .drop, .user, .user, .user, .user, .user, .user, .task, .task, .task]

example : Up.Apart Up.init exUpgraded := by
  simp only [exUpgraded, Up.Apart]
  refine ⟨?_, ?_, ?_, ?_, ?_, ?_, ?_, ?_, ?_, ?_, ?_, ?_, ?_, ?_, ?_, ?_, ?_, ?_, ?_, ?_, ?_, trivial⟩ <;>
    first | (intro bs hb; cases hb; done) | (intro bs _; decide +kernel)

example : (Up.init.run exUpgraded).eos = 1 ∧ (Up.init.run exUpgraded).sent = [[1], [2]] := by decide +kernel

end Hyper
