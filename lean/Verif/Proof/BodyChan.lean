import Verif.Spec.BodyChan

/-!
# Invariants of the channel of a body
-/

namespace Hyper

namespace BodyChan

@[simp, grind =] theorem main_data (bs : Bytes) : (Msg.data bs).main = true := rfl

@[simp, grind =] theorem main_error : Msg.error.main = false := rfl

/-- The reader has not closed the channel. -/
def RPc.live : RPc → Bool
  | .freePark | .freeNotify _ | .drain | .drainUnpark | .drainNotify _ | .drainDec | .drainLoad | .dropTrailers | .gone => false
  | _ => true

/-- The reader has said that it goes. -/
def RPc.leaving : RPc → Bool
  | .dropWake | .closing => true
  | r => !r.live

/-- The `Sender` has closed the channel. -/
def TPc.over : TPc → Bool
  | .closeWake | .complete none | .trLock none | .trWake none _ | .gone => true
  | _ => false

/-- The sender that has parked for a message it has not pushed yet. -/
def TPc.held : TPc → List Bool
  | .parkLoad m | .push m => [m.main]
  | _ => []

/-- A message counted and not yet pushed. -/
def TPc.counted : TPc → Nat
  | .parkSet _ | .parkPush _ | .parkLoad _ | .push _ => 1
  | _ => 0

/-- A message popped whose sender is parked still. -/
def RPc.held : RPc → List Bool
  | .unpark m => [m.main]
  | _ => []

/-- A message popped and still counted. -/
def RPc.counted : RPc → Nat
  | .unpark _ | .notify _ _ | .dec _ | .drainUnpark | .drainNotify _ | .drainDec => 1
  | _ => 0

/-- The message in the reader's hands. -/
def RPc.hand : RPc → List Msg
  | .unpark m | .notify m _ | .dec m => [m]
  | _ => []

/-- About to push itself to the parked senders. -/
def TPc.flying : TPc → Nat
  | .parkPush m => m.main.toNat
  | _ => 0

/-- About to notify the `Sender`. -/
def RPc.flying : RPc → Nat
  | .notify _ p => p.toNat
  | _ => 0

/-- In the middle of parking. -/
def TPc.parking : TPc → Bool
  | .parkPush m | .parkLoad m => m.main
  | _ => false

/-- The word, the flag and the queues. -/
structure Inv1 (s : St) : Prop where
  park : s.rpc.live = true → s.parkedQ = s.rpc.held ++ s.queue.map Msg.main ++ s.tpc.held
  num : s.num = s.queue.length + s.tpc.counted + s.rpc.counted
  flag : s.rpc.live = true → s.parked.toNat = s.parkedQ.count true + s.tpc.flying + s.rpc.flying
  maybe : s.rpc.live = true → s.parked = true → s.maybeParked = true ∨ s.tpc.parking = true
  dead : s.rpc.live = false → s.isOpen = false
  shut : s.isOpen = false → s.rpc.live = false ∨ s.tpc.over = true
  over : s.tpc.over = true → s.isOpen = false
  term : s.terminated = true → s.isOpen = false ∧ s.tpc.over = true ∧ s.queue = []
  fresh : (∃ m, s.tpc = .inc (.data m) ∨ s.tpc = .parkSet (.data m)) → s.rpc.live = true → s.parked = false

theorem Inv1.init (w : Bool) : Inv1 (init w) := by
  constructor <;> simp [BodyChan.init, RPc.live, RPc.held, TPc.held, TPc.counted, RPc.counted, RPc.flying, TPc.flying, TPc.over]

set_option linter.unusedSimpArgs false

set_option maxRecDepth 8000 in
set_option maxHeartbeats 4000000 in
theorem Inv1.tx {s : St} (h : Inv1 s) : Inv1 s.txStep := by
  obtain ⟨h1, h2, h3, h4, h5, h6, h7, h8, h9⟩ := h
  have hb := Bool.toNat_le s.parked
  have hl := List.length_eq_zero_iff (l := s.queue)
  cases hp : s.tpc
  all_goals try (rename_i m; cases m)
  all_goals try simp only [hp, TPc.held, TPc.counted, TPc.flying, TPc.over, TPc.parking, Msg.main, Bool.toNat_true, Bool.toNat_false, reduceCtorEq, or_self, exists_false, exists_const, false_implies, or_false, false_or, List.append_nil, Nat.add_zero, Nat.zero_add, TPc.inc.injEq, TPc.parkSet.injEq, Msg.data.injEq, if_true, Bool.false_eq_true, if_false] at h1 h2 h3 h4 h6 h7 h8 h9
  all_goals simp only [St.txStep, hp, St.tret, St.trEnd, St.rwake]
  all_goals (repeat' split)
  all_goals constructor
  all_goals try simp only [TPc.held, TPc.counted, TPc.flying, TPc.over, TPc.parking, Msg.main, hp, List.append_nil, Nat.add_zero]
  all_goals first | grind | (simp_all <;> grind)

set_option maxRecDepth 8000 in
set_option maxHeartbeats 4000000 in
theorem Inv1.rx {s : St} (h : Inv1 s) : Inv1 s.rxStep := by
  obtain ⟨h1, h2, h3, h4, h5, h6, h7, h8, h9⟩ := h
  have hb := Bool.toNat_le s.parked
  have hl := List.length_eq_zero_iff (l := s.queue)
  cases hp : s.rpc
  all_goals try simp only [hp, RPc.live, RPc.held, RPc.counted, RPc.flying, reduceCtorEq, or_self, exists_false, exists_const, false_implies, or_false, false_or, List.append_nil, Nat.add_zero, Nat.zero_add, List.nil_append, true_implies, Bool.false_eq_true, if_false, if_true] at h1 h2 h3 h4 h5 h6 h8 h9
  all_goals simp only [St.rxStep, hp, St.rret, St.notified, St.twake]
  all_goals (repeat' split)
  all_goals constructor
  all_goals try simp only [RPc.live, RPc.held, RPc.counted, RPc.flying, List.nil_append, Nat.add_zero]
  all_goals first | grind | (simp_all <;> grind)

set_option maxHeartbeats 1000000 in
theorem Inv1.step {s : St} (h : Inv1 s) (a : Act) : Inv1 (s.step a) := by
  obtain ⟨h1, h2, h3, h4, h5, h6, h7, h8, h9⟩ := id h
  by_cases ht : s.tpc = .idle <;> by_cases hr : s.rpc = .idle <;> cases a <;>
    simp only [St.step, St.tbegin, St.tret, ht, hr, if_true, if_false] <;>
    first
    | exact h
    | exact h.tx
    | exact h.rx
    | (simp only [ht, TPc.held, TPc.counted, TPc.flying, TPc.over, TPc.parking] at h1 h2 h3 h4 h6 h7 h8 h9
       try split
       all_goals (constructor <;> simp only [TPc.held, TPc.counted, TPc.flying, TPc.over, TPc.parking] <;> grind))
    | (simp only [hr, RPc.live, RPc.held, RPc.counted, RPc.flying] at h1 h2 h3 h4 h5 h6 h9
       constructor <;> simp only [RPc.live, RPc.held, RPc.counted, RPc.flying] <;> grind)

/-- What is seen of the `watch`, and what wakes the connection's task. -/
structure Inv2 (s : St) : Prop where
  look : s.tpc = .wantLoad → s.wantSlot = some s.tgen ∨ s.tgen ∈ s.twoken
  past : s.tpc = .readyLoad ∨ s.tpc = .readyLock →
    s.tgen ∈ s.twoken ∨ (s.wantSlot = some s.tgen ∧ (s.want = .ready ∨ s.rpc = .dropWake))
  wait : ∀ g, s.tpc = .idle → s.tlog.getLast? = some (.wait g) → g = s.tgen ∧
    (s.tgen ∈ s.twoken ∨ (s.wantSlot = some s.tgen ∧
      (s.want = .pending ∨ s.rpc = .wantWake ∨ s.rpc = .dropWake ∨ (s.want = .ready ∧ s.task = some s.tgen ∧ s.parked = true))))
  closed : s.want = .closed ↔ s.rpc.leaving = true
  ready : s.rpc = .wantWake → s.want = .ready

theorem Inv2.init (w : Bool) : Inv2 (init w) := by
  constructor <;> simp [BodyChan.init, RPc.leaving, RPc.live]
  cases w <;> simp

set_option maxRecDepth 8000 in
set_option maxHeartbeats 4000000 in
theorem Inv2.tx {s : St} (h : Inv2 s) : Inv2 s.txStep := by
  obtain ⟨h1, h2, h3, h4, h5⟩ := h
  cases hp : s.tpc
  all_goals try simp only [hp, reduceCtorEq, or_self, exists_false, exists_const, false_implies, or_false, false_or, true_implies] at h1 h2 h3
  all_goals simp only [St.txStep, hp, St.tret, St.trEnd, St.rwake]
  all_goals (repeat' split)
  all_goals constructor
  all_goals try simp only [hp, List.getLast?_append, List.getLast?_singleton, Option.some_or]
  all_goals grind

set_option maxRecDepth 8000 in
set_option maxHeartbeats 4000000 in
theorem Inv2.rx {s : St} (h : Inv2 s) : Inv2 s.rxStep := by
  obtain ⟨h1, h2, h3, h4, h5⟩ := h
  cases hp : s.rpc
  all_goals try simp only [hp, RPc.leaving, RPc.live, reduceCtorEq, or_self, exists_false, exists_const, false_implies, or_false, false_or, true_implies] at h1 h2 h3 h4 h5
  all_goals simp only [St.rxStep, hp, St.rret, St.notified, St.twake]
  all_goals (repeat' split)
  all_goals constructor
  all_goals try simp only [RPc.leaving, RPc.live]
  all_goals grind

theorem Inv2.step {s : St} (h : Inv2 s) (a : Act) : Inv2 (s.step a) := by
  obtain ⟨h1, h2, h3, h4, h5⟩ := id h
  by_cases ht : s.tpc = .idle <;> by_cases hr : s.rpc = .idle <;> cases a <;>
    simp only [St.step, St.tbegin, St.tret, ht, hr, if_true, if_false] <;>
    first
    | exact h
    | exact h.tx
    | exact h.rx
    | (simp only [hr, RPc.leaving, RPc.live] at h4
       try split
       all_goals (constructor <;> simp only [RPc.leaving, RPc.live, hr] <;> grind))
    | ((try split) <;> constructor <;> grind)

/-- The oneshot's sender has yet to finish. -/
def TPc.before : TPc → Bool
  | .trCheck _ | .trStore _ | .trAgain _ | .complete _ => true
  | _ => false

/-- About to take the reader's waker of the oneshot. -/
def TPc.atLock : TPc → Bool
  | .trLock _ => true
  | _ => false

/-- The waker of the oneshot's reader that it has taken. -/
def TPc.taken : TPc → Option (Option Nat)
  | .trWake _ w => some w
  | _ => none

/-- About to wake the reader of a message. -/
def TPc.atWake : TPc → Bool
  | .wake _ => true
  | _ => false

/-- What wakes the reader. -/
structure Inv3 (s : St) : Prop where
  again : s.rpc = .pop true → s.rgen ∈ s.rwoken ∨ s.recvSlot = some s.rgen
  none : s.rpc = .load true → s.rgen ∈ s.rwoken ∨ (s.recvSlot = some s.rgen ∧ (s.queue = [] ∨ s.tpc.atWake = true))
  wait : ∀ g, s.rpc = .idle → s.rlog.getLast? = some (.wait g) → g = s.rgen ∧
    (s.rgen ∈ s.rwoken ∨
      (s.recvSlot = some s.rgen ∧ (s.tpc.atWake = true ∨ s.tpc = .closeWake ∨ (s.queue = [] ∧ s.isOpen = true))) ∨
      (s.terminated = true ∧ ((s.trSlot = some s.rgen ∧ (s.done = false ∨ s.tpc.atLock = true)) ∨ s.tpc.taken = some (some s.rgen))))
  slot : s.rpc = .trUnlock ∨ s.rpc = .trAgain → s.done = false → s.trSlot = some s.rgen
  rlock : s.rHolds = true ↔ s.rpc = .trUnlock
  tlock : s.tHolds = true ↔ s.tpc.taken.isSome = true
  said : s.tpc.atLock = true ∨ s.tpc.taken.isSome = true ∨ s.tpc = .gone → s.done = true
  trailing : s.rpc = .trLoad ∨ s.rpc = .trLock ∨ s.rpc = .trUnlock ∨ s.rpc = .trAgain ∨ s.rpc = .trTake → s.terminated = true
  take : s.rpc = .trTake → s.done = true
  used : s.hasTx = false → s.done = true ∨ s.tpc.before = true
  one : s.tpc.before = true → s.hasTx = false
  early : s.done = true → s.rpc = .gone ∨ (s.hasTx = false ∧ s.tpc.before = false)

theorem Inv3.init (w : Bool) : Inv3 (init w) := by
  constructor <;> simp [BodyChan.init, TPc.taken, TPc.atLock, TPc.before]

set_option maxRecDepth 8000 in
set_option maxHeartbeats 4000000 in
theorem Inv3.tx {s : St} (i : Inv1 s) (h : Inv3 s) : Inv3 s.txStep := by
  obtain ⟨h1, h2, h3, h4, h5, h6, h7, h8, h9, h10, h12, h11⟩ := h
  have i8 : s.terminated = true → s.tpc.over = true := fun h => (i.term h).2.1
  cases hp : s.tpc
  all_goals try simp only [hp, TPc.before, TPc.atLock, TPc.taken, TPc.atWake, Option.isSome_some, Option.isSome_none, Bool.false_eq_true, reduceCtorEq, or_self, exists_false, exists_const, false_implies, or_false, false_or, true_implies] at h2 h3 h6 h7 h10 h12 h11 i8
  all_goals simp only [St.txStep, hp, St.tret, St.trEnd, St.rwake]
  all_goals (repeat' split)
  all_goals constructor
  all_goals try simp only [hp, TPc.before, TPc.atLock, TPc.taken, TPc.atWake]
  all_goals grind

set_option maxRecDepth 8000 in
set_option maxHeartbeats 4000000 in
theorem Inv3.rx {s : St} (i : Inv1 s) (h : Inv3 s) : Inv3 s.rxStep := by
  obtain ⟨h1, h2, h3, h4, h5, h6, h7, h8, h9, h10, h12, h11⟩ := h
  have i2 := i.num
  have i6 := i.shut
  have hl := List.length_eq_zero_iff (l := s.queue)
  have hc : s.tpc.over = true → s.tpc.counted = 0 := by cases s.tpc <;> simp [TPc.over, TPc.counted]
  have hw : s.tpc.over = true → s.tpc.atWake = false := by cases s.tpc <;> simp [TPc.over, TPc.atWake]
  cases hp : s.rpc
  all_goals try simp only [hp, RPc.live, RPc.counted, reduceCtorEq, or_self, exists_false, exists_const, false_implies, or_false, false_or, true_implies, Nat.add_zero] at h1 h2 h3 h4 h5 h8 h9 h11 i2 i6
  all_goals simp only [St.rxStep, hp, St.rret, St.notified, St.twake]
  all_goals (repeat' split)
  all_goals constructor
  all_goals try simp only [List.getLast?_append, List.getLast?_singleton, Option.some_or]
  all_goals grind

set_option maxHeartbeats 1000000 in
theorem Inv3.step {s : St} (i : Inv1 s) (h : Inv3 s) (a : Act) : Inv3 (s.step a) := by
  obtain ⟨h1, h2, h3, h4, h5, h6, h7, h8, h9, h10, h12, h11⟩ := id h
  have i8 : s.terminated = true → s.tpc.over = true := fun h => (i.term h).2.1
  by_cases ht : s.tpc = .idle <;> by_cases hr : s.rpc = .idle <;> cases a <;>
    simp only [St.step, St.tbegin, St.tret, ht, hr, if_true, if_false] <;>
    first
    | exact h
    | exact h.tx i
    | exact h.rx i
    | (simp only [ht, TPc.before, TPc.over, TPc.atLock, TPc.taken, TPc.atWake] at h2 h3 h6 h7 h10 h12 h11 i8
       try split
       all_goals (constructor <;> simp only [TPc.before, TPc.over, TPc.atLock, TPc.taken, TPc.atWake, ht, hr] <;> grind))
    | ((try split) <;> constructor <;> grind)

@[grind =] theorem accepted_snoc (l : List TEv) (e : TEv) :
    accepted (l ++ [e]) = accepted l ++ (match e with | .sent m => [m] | _ => []) := by
  unfold accepted
  rw [List.filterMap_append]
  cases e <;> rfl

@[grind =] theorem delivered_snoc (l : List REv) (e : REv) :
    delivered (l ++ [e]) = delivered l ++ (match e with | .frame m => [m] | _ => []) := by
  unfold delivered
  rw [List.filterMap_append]
  cases e <;> rfl

@[grind =] theorem trailed_snoc (l : List REv) (e : REv) :
    trailed (l ++ [e]) = trailed l ++ (match e with | .trailers t => [t] | _ => []) := by
  unfold trailed
  rw [List.filterMap_append]
  cases e <;> rfl

/-- No call was told that there is no room right after it was told that there is. -/
def Roomy (l : List TEv) : Prop := ∀ a b, l = a ++ .full :: b → a.getLast? ≠ some .ready

@[grind .] theorem Roomy.snoc {l : List TEv} (h : Roomy l) (e : TEv) (he : e = .full → l.getLast? ≠ some .ready) : Roomy (l ++ [e]) := by
  intro a b hab
  rcases List.eq_nil_or_concat b with rfl | ⟨b', x, rfl⟩
  · have := List.append_inj' hab rfl
    obtain ⟨h1, h2⟩ := this
    subst h1
    exact he (by simpa using h2)
  · refine h a b' ?_
    have : l ++ [e] = (a ++ .full :: b') ++ [x] := by rw [hab]; simp
    exact (List.append_inj' this rfl).1

/-- The message pushed of which the reader has not been told. -/
def TPc.pushed : TPc → List Msg
  | .wake m => [m]
  | _ => []

/-- The result of `try_send_trailers` that is about to be returned. -/
def TPc.result : TPc → Option (Nat × Bool)
  | .complete r | .trLock r | .trWake r _ => r
  | .trAgain t => some (t, true)
  | _ => none

/-- In `try_send_trailers`. -/
def TPc.offering : TPc → Bool
  | .trCheck _ | .trStore _ => true
  | t => t.result.isSome

/-- What was sent and what was received. -/
structure Inv4 (s : St) : Prop where
  order : s.popped ++ s.queue = s.pushed
  hand : s.rpc.live = true ∨ s.terminated = true → s.popped = delivered s.rlog ++ s.rpc.hand
  sents : s.pushed = accepted s.tlog ++ s.tpc.pushed
  room : s.tlog.getLast? = some .ready → s.tpc = .idle ∨ (∃ m, s.tpc = .trying m) → s.maybeParked = false
  full : Roomy s.tlog
  gone : (.closed ∈ s.tlog ∨ (∃ m, .lost m ∈ s.tlog) ∨ (∃ t, .trailers t false ∈ s.tlog) ∨ (∃ t, s.tpc.result = some (t, false))) → s.rpc.leaving = true
  given : s.rpc ≠ .gone ∨ s.terminated = true → trailed s.rlog ++ s.trailers.toList = s.given.toList
  fresh : s.hasTx = true ∨ (∃ t, s.tpc = .trCheck t ∨ s.tpc = .trStore t) → s.given = none
  told : ∀ t, .trailers t true ∈ s.tlog ∨ s.tpc.result = some (t, true) → s.given = some t
  ended : .ended ∈ s.rlog → s.terminated = true ∧ s.trailers = none ∧ s.done = true
  trailers : trailed s.rlog ≠ [] → s.terminated = true
  pre : delivered s.rlog <+: s.popped
  new : s.hasTx = true ∨ s.tpc.offering = true → ∀ t, .trailers t true ∉ s.tlog

theorem Inv4.init (w : Bool) : Inv4 (init w) := by
  constructor <;> simp [BodyChan.init, accepted, delivered, trailed, RPc.hand, TPc.pushed, TPc.result, TPc.offering, Roomy]

set_option maxRecDepth 8000 in
set_option maxHeartbeats 4000000 in
theorem Inv4.tx {s : St} (i : Inv1 s) (j : Inv2 s) (k : Inv3 s) (h : Inv4 s) : Inv4 s.txStep := by
  obtain ⟨h1, h2, h3, h4, h5, h6, h7, h8, h9, h10, h11, h13, h12⟩ := h
  have i8 : s.terminated = true → s.tpc.over = true := fun h => (i.term h).2.1
  have i6 := i.shut
  have j4 := j.closed
  have k11 := k.early
  have k12 := k.one
  have hl : s.rpc.live = false → s.rpc.leaving = true := by cases s.rpc <;> simp [RPc.live, RPc.leaving]
  have hg : s.rpc = .gone → s.rpc.leaving = true := by intro h; rw [h]; rfl
  cases hp : s.tpc
  all_goals try simp only [hp, TPc.before, TPc.over, TPc.pushed, TPc.result, TPc.offering, reduceCtorEq, or_self, exists_false, exists_const, false_implies, or_false, false_or, true_implies, List.append_nil, Bool.false_eq_true] at h3 h4 h6 h8 h9 h12 i6 i8 k11 k12
  all_goals simp only [St.txStep, hp, St.tret, St.trEnd, St.rwake]
  all_goals (repeat' split)
  all_goals constructor
  all_goals try simp only [hp, TPc.pushed, TPc.result, TPc.offering]
  all_goals grind

set_option maxRecDepth 8000 in
set_option maxHeartbeats 4000000 in
theorem Inv4.rx {s : St} (i : Inv1 s) (k : Inv3 s) (h : Inv4 s) : Inv4 s.rxStep := by
  obtain ⟨h1, h2, h3, h4, h5, h6, h7, h8, h9, h10, h11, h13, h12⟩ := h
  have i8 := i.term
  have k8 := k.trailing
  have k9 := k.take
  cases hp : s.rpc
  all_goals try simp only [hp, RPc.live, RPc.leaving, RPc.hand, reduceCtorEq, or_self, exists_false, exists_const, false_implies, or_false, false_or, true_implies, true_or, or_true, List.append_nil, Bool.false_eq_true] at h2 h6 h7 k8 k9
  all_goals simp only [St.rxStep, hp, St.rret, St.notified, St.twake]
  all_goals (repeat' split)
  all_goals constructor
  all_goals try simp only [RPc.live, RPc.leaving, RPc.hand]
  all_goals grind

set_option maxHeartbeats 1000000 in
theorem Inv4.step {s : St} (i : Inv1 s) (j : Inv2 s) (k : Inv3 s) (h : Inv4 s) (a : Act) : Inv4 (s.step a) := by
  obtain ⟨h1, h2, h3, h4, h5, h6, h7, h8, h9, h10, h11, h13, h12⟩ := id h
  have hf := h5.snoc
  by_cases ht : s.tpc = .idle <;> by_cases hr : s.rpc = .idle <;> cases a <;>
    simp only [St.step, St.tbegin, St.tret, ht, hr, if_true, if_false] <;>
    first
    | exact h
    | exact h.tx i j k
    | exact h.rx i k
    | (simp only [ht, TPc.pushed, TPc.result, TPc.offering] at h3 h4 h6 h8 h9 h12
       try split
       all_goals (constructor <;> simp only [TPc.pushed, TPc.result, TPc.offering, ht] <;> grind))
    | (simp only [hr, RPc.live, RPc.leaving, RPc.hand] at h2 h6 h7
       constructor <;> simp only [RPc.live, RPc.leaving, RPc.hand] <;> grind)

end BodyChan

end Hyper
