import Verif.Model.Watch

/-!
# C43: no wake-up is lost
-/

namespace Hyper

namespace Watch

/-- The bits of the word belong to somebody. -/
structure Inv (s : St) : Prop where
  reg : s.registering = true ↔ s.rpc = .storing ∨ s.rpc = .releasing ∨ s.rpc = .retaking ∨ ∃ w, s.rpc = .clearing w
  take : (s.spc = .taking ∨ ∃ w, s.spc = .clearing w) → s.registering = false ∧ s.wakingBit = true
  free : s.wakingBit = true → s.registering = true ∨ s.spc = .taking ∨ ∃ w, s.spc = .clearing w
  retake : (s.rpc = .retaking ∨ ∃ w, s.rpc = .clearing w) → s.wakingBit = true
  slot : (s.rpc = .releasing ∨ s.rpc = .retaking) → s.slot = some s.gen
  mine : ∀ w, (s.rpc = .clearing w ∨ s.rpc = .waking w) → w = some s.gen
  armed : (s.rpc = .loading ∨ s.rpc = .idle ∧ 0 < s.gen) →
    s.slot = some s.gen ∨ s.gen ∈ s.woken ∨ s.spc = .clearing (some s.gen) ∨ s.spc = .waking (some s.gen)
  dirty : s.rpc = .idle → 0 < s.gen → s.seen ≠ s.value →
    s.gen ∈ s.woken ∨ s.spc = .changed ∨ (s.spc = .taking ∧ s.slot = some s.gen) ∨ s.spc = .clearing (some s.gen) ∨ s.spc = .waking (some s.gen)

theorem Inv.init (v : Nat) : Inv (Watch.init v) := by
  constructor <;> simp [Watch.init]

set_option maxHeartbeats 2000000 in
theorem Inv.step {s : St} (h : Inv s) (a : Act) : Inv (s.step a) := by
  obtain ⟨h1, h2, h3, h4, h5, h6, h7, h8⟩ := h
  cases a with
  | send v => constructor <;> simp only [St.step] <;> grind
  | sender =>
    simp only [St.step, St.senderStep]
    cases hp : s.spc with
    | idle => constructor <;> grind
    | changed => constructor <;> grind
    | taking => constructor <;> grind
    | clearing w => constructor <;> grind
    | waking w => constructor <;> simp only [St.wake] <;> grind
  | load => constructor <;> simp only [St.step] <;> grind
  | receiver =>
    simp only [St.step, St.receiverStep]
    cases hp : s.rpc with
    | idle => constructor <;> grind
    | start => constructor <;> simp only [St.wake] <;> grind
    | storing => constructor <;> grind
    | releasing => constructor <;> grind
    | retaking => constructor <;> grind
    | clearing w => constructor <;> grind
    | waking w => constructor <;> simp only [St.wake] <;> grind
    | loading => constructor <;> grind

theorem Inv.run {s : St} (h : Inv s) (as : List Act) : Inv (s.run as) := by
  induction as generalizing s with
  | nil => exact h
  | cons a as ih => exact ih (h.step a)

end Watch

open Watch in
/-- C43: in every interleaving, when neither side is in the middle of an operation, the connection's task has seen the current value
or the waker of its last look has been woken since. -/
theorem C43_no_lost_wake (v : Nat) (as : List Act) :
    let s := (Watch.init v).run as
    s.rpc = .idle → s.spc = .idle → 0 < s.gen → s.seen = s.value ∨ s.gen ∈ s.woken := by
  intro s hr hs hg
  have h := ((Inv.init v).run as).dirty hr hg
  by_cases he : s.seen = s.value
  · exact .inl he
  · refine .inr ?_
    have := h he
    grind

open Watch in
/-- C43: a waker is woken only by its own registration: nothing wakes a call that has not started. -/
theorem C43_no_early_wake (v : Nat) (as : List Act) :
    ∀ g ∈ ((Watch.init v).run as).woken, g ≤ ((Watch.init v).run as).gen := by
  suffices ∀ s : St, ((∀ g ∈ s.woken, g ≤ s.gen) ∧ (∀ g, s.slot = some g → g ≤ s.gen) ∧ (∀ g, s.spc = .clearing (some g) ∨ s.spc = .waking (some g) → g ≤ s.gen) ∧
      (∀ g, s.rpc = .clearing (some g) ∨ s.rpc = .waking (some g) → g ≤ s.gen)) → ∀ g ∈ (s.run as).woken, g ≤ (s.run as).gen from
    this _ (by simp [Watch.init])
  induction as with
  | nil => exact fun s h => h.1
  | cons a as ih =>
    refine fun s h => ih _ ?_
    obtain ⟨h1, h2, h3, h4⟩ := h
    cases a with
    | send v => simp only [St.step]; grind
    | load => simp only [St.step]; grind
    | sender =>
      simp only [St.step, St.senderStep]
      split <;> (try simp only [St.wake]) <;> grind
    | receiver =>
      simp only [St.step, St.receiverStep]
      split <;> (try simp only [St.wake]) <;> grind

open Watch in
/-- C43: the connection's task, waiting for the reader of a body, has been woken once the reader has asked for data or gone. -/
theorem C43_waiting_task_woken (as : List Act) :
    let s := (Watch.init WANT_PENDING).run as
    s.rpc = .idle → 0 < s.gen → pollWant s.seen = .pending → s.spc = .idle → (s.value = WANT_READY ∨ s.value = CLOSED) → s.gen ∈ s.woken := by
  intro s hr hg hw hs hv
  rcases C43_no_lost_wake WANT_PENDING as hr hs hg with h | h
  · rw [h] at hw
    rcases hv with hv | hv <;> rw [hv] at hw <;> cases hw
  · exact h

open Watch in
/-- C43: left alone, each side finishes its operation within a few steps of its own, so that the promise above becomes due. -/
theorem C43_finishes (s : St) :
    (s.run [.sender, .sender, .sender, .sender]).spc = .idle ∧
    (s.run [.receiver, .receiver, .receiver, .receiver, .receiver, .receiver, .receiver]).rpc = .idle := by
  obtain ⟨v, r, w, sl, sp, rp, g, se, wk⟩ := s
  constructor
  · cases sp <;> simp only [St.run, List.foldl, St.step, St.senderStep, St.wake] <;> cases r <;> cases w <;> rfl
  · cases rp <;> cases r <;> cases w <;> rfl

open Watch in
/-- C43: and its next look sees the value of that moment. -/
theorem C43_next_look (s : St) (h : s.rpc = .loading) : (s.step .receiver).rpc = .idle ∧ (s.step .receiver).seen = s.value := by
  simp [St.step, St.receiverStep, h]

open Watch in
/-- C43: as long as the reader sends only the two wants and the close, `poll_want` does not reach its `unreachable!`. -/
theorem C43_no_panic (as : List Act) (h : ∀ v, .send v ∈ as → v = WANT_PENDING ∨ v = WANT_READY ∨ v = CLOSED) :
    let s := (Watch.init WANT_PENDING).run as
    s.rpc = .idle → 0 < s.gen → pollWant s.seen ≠ .unreachable := by
  have ok : ∀ v : Nat, v < 3 → pollWant v ≠ .unreachable := by decide +kernel
  suffices ∀ s : St, (s.value < 3 ∧ s.seen < 3) → ((s.run as).seen < 3) from
    fun _ _ => ok _ (this _ (by decide))
  induction as with
  | nil => exact fun s h => h.2
  | cons a as ih =>
    intro s hs
    refine ih (fun v hv => h v (List.mem_cons_of_mem _ hv)) _ ?_
    cases a with
    | send v =>
      have : v < 3 := by rcases h v (by simp) with h | h | h <;> rw [h] <;> decide
      simp only [St.step]
      split <;> exact ⟨by first | exact this | exact hs.1, hs.2⟩
    | load => simp only [St.step]; split <;> exact hs
    | sender => simp only [St.step, St.senderStep]; (repeat' split) <;> exact hs
    | receiver => simp only [St.step, St.receiverStep]; (repeat' split) <;> first | exact hs | exact ⟨hs.1, hs.1⟩

/-- The reader asks in the middle of the registration. -/
def exWatch : List Watch.Act :=
  [.load, .receiver, .send 2, .receiver, .sender, .receiver, .receiver, .receiver, .receiver, .receiver]

example : ((Watch.init WANT_PENDING).run exWatch).rpc = .idle ∧ ((Watch.init WANT_PENDING).run exWatch).spc = .idle ∧
    ((Watch.init WANT_PENDING).run exWatch).woken = [1] := by decide +kernel

/-- The reader asks after the load. -/
example : (Watch.init WANT_PENDING).run [.load, .receiver, .receiver, .receiver, .receiver, .send 2, .sender, .sender, .sender, .sender] =
    { value := 2, gen := 1, seen := 1, woken := [1] } := by decide +kernel

end Hyper
