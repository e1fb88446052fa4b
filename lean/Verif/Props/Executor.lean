import Verif.Model.Executor
import Verif.Model.Bytes

/-!
# C78: the executor of the C API returns every task once, when it is done, and does not rest while one is woken
-/

namespace Hyper

namespace Exec

/-! ## What is to be said -/

/-- The tasks returned, with their outputs. -/
def given (log : List XEv) : List (Nat × Nat) := log.filterMap (fun e => match e with | .returned i o => some (i, o) | _ => none)

/-- The tasks polled, in order. -/
def polledTasks (log : List XEv) : List Nat := log.filterMap (fun e => match e with | .polled i => some i | _ => none)

/-- The tasks whose polls completed, with the outputs, when the `k`-th poll goes as the oracle says. -/
def completedFrom (turns : Nat → XTurn) : Nat → List Nat → List (Nat × Nat)
  | _, [] => []
  | k, i :: is =>
    match (turns k).res with
    | .ready o => (i, o) :: completedFrom turns (k + 1) is
    | _ => completedFrom turns (k + 1) is

/-- The task has been polled since it was last woken. -/
def Settled (log : List XEv) (i : Nat) : Prop := ∃ a b, log = a ++ .polled i :: b ∧ .woken i ∉ b

/-- The tasks that were pushed or spawned. -/
def pushedTasks (log : List XEv) : List Nat := log.filterMap fun | .pushed i => some i | _ => none

/-- No task is polled that was returned. -/
def Late (log : List XEv) : Prop := ∀ a b i, log = a ++ .polled i :: b → i ∉ (given a).map Prod.fst

/-! ## The invariant -/

/-- Where every task is. -/
structure Inv (x : Exec) : Prop where
  perm : (x.queue ++ x.driver ++ (given x.log).map Prod.fst).Perm (List.range x.next)
  sub : ∀ i ∈ x.ready, i ∈ x.driver
  nodup : x.ready.Nodup
  idle : ∀ i ∈ x.driver, i ∉ x.ready → Settled x.log i
  count : (polledTasks x.log).length = x.polls
  born : pushedTasks x.log = List.range x.next
  late : Late x.log

/-- What was returned is what was completed. -/
def Outs (turns : Nat → XTurn) (x : Exec) : Prop := given x.log = completedFrom turns 0 (polledTasks x.log)

theorem Settled.snoc {log : List XEv} {i : Nat} {e : XEv} (h : Settled log i) (he : e ≠ .woken i) : Settled (log ++ [e]) i := by
  obtain ⟨a, b, rfl, hb⟩ := h
  exact ⟨a, b ++ [e], by simp, by simp [hb, Ne.symm he]⟩

theorem completedFrom_snoc (turns : Nat → XTurn) (i : Nat) : ∀ (l : List Nat) (k : Nat),
    completedFrom turns k (l ++ [i]) = completedFrom turns k l ++ (match (turns (k + l.length)).res with | .ready o => [(i, o)] | _ => []) := by
  intro l
  induction l with
  | nil => intro k; simp only [List.nil_append, completedFrom, List.length_nil, Nat.add_zero]
  | cons j l ih =>
    intro k
    simp only [List.cons_append, completedFrom, ih, List.length_cons]
    rw [show k + 1 + l.length = k + (l.length + 1) by omega]
    cases (turns k).res <;> rfl

theorem given_snoc (l : List XEv) (e : XEv) : given (l ++ [e]) = given l ++ (match e with | .returned i o => [(i, o)] | _ => []) := by
  unfold given; rw [List.filterMap_append]; cases e <;> rfl

theorem polled_snoc (l : List XEv) (e : XEv) : polledTasks (l ++ [e]) = polledTasks l ++ (match e with | .polled i => [i] | _ => []) := by
  unfold polledTasks; rw [List.filterMap_append]; cases e <;> rfl

theorem pushed_snoc (l : List XEv) (e : XEv) : pushedTasks (l ++ [e]) = pushedTasks l ++ (match e with | .pushed i => [i] | _ => []) := by
  unfold pushedTasks; rw [List.filterMap_append]; cases e <;> rfl

theorem Late.snoc {log : List XEv} (h : Late log) {e : XEv} (he : ∀ i, e = .polled i → i ∉ (given log).map Prod.fst) : Late (log ++ [e]) := by
  intro a b i hab
  rcases List.eq_nil_or_concat b with rfl | ⟨b', e', rfl⟩
  · obtain ⟨rfl, h2⟩ := List.append_inj' hab rfl
    exact he i (by simpa using h2)
  · rw [List.concat_eq_append, ← List.cons_append, ← List.append_assoc] at hab
    obtain ⟨h1, _⟩ := List.append_inj' hab rfl
    exact h a b' i h1

/-- What the effects of a poll leave alone. -/
structure Keeps (x y : Exec) : Prop where
  driver : y.driver = x.driver
  polls : y.polls = x.polls
  given : given y.log = given x.log
  polled : polledTasks y.log = polledTasks x.log
  dp : y.driverPoisoned = x.driverPoisoned
  qp : y.queuePoisoned = x.queuePoisoned

theorem Keeps.refl (x : Exec) : Keeps x x := ⟨rfl, rfl, rfl, rfl, rfl, rfl⟩

theorem Keeps.trans {x y z : Exec} (h : Keeps x y) (h' : Keeps y z) : Keeps x z :=
  ⟨h'.driver.trans h.driver, h'.polls.trans h.polls, h'.given.trans h.given, h'.polled.trans h.polled, h'.dp.trans h.dp, h'.qp.trans h.qp⟩

theorem keeps_spawn (x : Exec) : Keeps x x.spawn := ⟨rfl, rfl, by simp [spawn, given_snoc], by simp [spawn, polled_snoc], rfl, rfl⟩

theorem keeps_wake (x : Exec) (i : Nat) : Keeps x (x.wake i) := by
  unfold wake
  split
  · split
    · exact ⟨rfl, rfl, by simp [given_snoc], by simp [polled_snoc], rfl, rfl⟩
    · exact ⟨rfl, rfl, by simp [given_snoc], by simp [polled_snoc], rfl, rfl⟩
  · exact .refl x

theorem keeps_effs (es : List Eff) : ∀ x : Exec, Keeps x (x.effs es) := by
  induction es with
  | nil => intro x; exact .refl x
  | cons e es ih =>
    intro x
    refine Keeps.trans ?_ (ih (x.eff e))
    cases e with
    | wake i => exact keeps_wake x i
    | spawn => exact keeps_spawn x

theorem inv_spawn {x : Exec} (h : Inv x) : Inv x.spawn := by
  refine ⟨?_, h.sub, h.nodup, fun i hi hr => (h.idle i hi hr).snoc (by simp), by simp [spawn, polled_snoc, h.count],
    by simp [spawn, pushed_snoc, h.born, List.range_succ], h.late.snoc (by simp)⟩
  simp only [spawn, given_snoc, List.append_nil, List.range_succ]
  have h1 : (x.queue ++ [x.next] ++ x.driver ++ (given x.log).map Prod.fst).Perm ((x.queue ++ x.driver ++ (given x.log).map Prod.fst) ++ [x.next]) := by
    simp only [List.append_assoc]
    refine List.Perm.append_left _ ?_
    rw [← List.append_assoc x.driver]
    exact List.perm_append_comm
  exact h1.trans (h.perm.append_right _)

theorem inv_wake {x : Exec} (h : Inv x) (i : Nat) : Inv (x.wake i) := by
  unfold wake
  split
  · rename_i hd
    split
    · rename_i hr
      refine ⟨by simpa [given_snoc] using h.perm, h.sub, h.nodup, fun j hj hr' => (h.idle j hj hr').snoc ?_, by simp [polled_snoc, h.count], by simp [pushed_snoc, h.born], h.late.snoc (by simp)⟩
      intro e; cases e; exact hr' hr
    · rename_i hr
      refine ⟨by simpa [given_snoc] using h.perm, ?_, ?_, ?_, by simp [polled_snoc, h.count], by simp [pushed_snoc, h.born], h.late.snoc (by simp)⟩
      · intro j hj
        rcases List.mem_append.1 hj with hj | hj
        · exact h.sub j hj
        · simp only [List.mem_singleton] at hj; subst hj; exact hd
      · rw [List.nodup_append]
        exact ⟨h.nodup, by simp, by intro a ha b hb e; simp at hb; subst hb; subst e; exact hr ha⟩
      · intro j hj hr'
        simp only [List.mem_append, List.mem_singleton, not_or] at hr'
        exact (h.idle j hj hr'.1).snoc (by intro e; cases e; exact hr'.2 rfl)
  · exact h

theorem inv_effs (es : List Eff) : ∀ {x : Exec}, Inv x → Inv (x.effs es) := by
  induction es with
  | nil => intro x h; exact h
  | cons e es ih =>
    intro x h
    refine ih (x := x.eff e) ?_
    cases e with
    | wake i => exact inv_wake h i
    | spawn => exact inv_spawn h

theorem inv_take {x : Exec} (h : Inv x) {i : Nat} {r : List Nat} (hr : x.ready = i :: r) : Inv (x.take i r) := by
  have hn := h.nodup
  rw [hr] at hn
  refine ⟨by simpa [take, given_snoc] using h.perm, fun j hj => h.sub j (by rw [hr]; simp [show j ∈ r from hj]), (List.nodup_cons.1 hn).2, ?_, by simp [take, polled_snoc, h.count],
    by simp [take, pushed_snoc, h.born], h.late.snoc ?_⟩
  · intro j hj hjr
    by_cases hij : j = i
    · subst hij; exact ⟨x.log, [], rfl, by simp⟩
    · exact (h.idle j hj (by rw [hr]; simp [hij]; exact hjr)).snoc (by simp)
  · intro j hj hg
    cases hj
    exact (List.nodup_append.1 (h.perm.nodup_iff.2 List.nodup_range)).2.2 i (List.mem_append_right _ (h.sub i (by rw [hr]; simp))) i hg rfl

theorem driver_nodup {x : Exec} (h : Inv x) : x.driver.Nodup := by
  have := h.perm.nodup_iff.2 List.nodup_range
  exact (List.nodup_append.1 (List.nodup_append.1 this).1).2.1

/-- A task that completes. -/
theorem inv_done {x : Exec} (h : Inv x) {i : Nat} (hi : i ∈ x.driver) (o : Nat) :
    Inv { x with driver := x.driver.erase i, ready := x.ready.erase i, log := x.log ++ [.returned i o] } := by
  have hd := driver_nodup h
  refine ⟨?_, ?_, h.nodup.erase i, ?_, by simp [polled_snoc, h.count], by simp [pushed_snoc, h.born], h.late.snoc (by simp)⟩
  · simp only [given_snoc, List.map_append, List.map_cons, List.map_nil]
    refine List.Perm.trans ?_ h.perm
    rw [List.append_assoc, List.append_assoc]
    refine List.Perm.append_left _ ?_
    have h1 : (x.driver.erase i ++ ((given x.log).map Prod.fst ++ [i])).Perm (i :: x.driver.erase i ++ (given x.log).map Prod.fst) := by
      rw [← List.append_assoc]
      exact List.perm_append_comm
    exact h1.trans ((List.perm_cons_erase hi).symm.append_right _)
  · intro j hj
    have hji : j ≠ i := fun e => by subst e; exact absurd hj (h.nodup.not_mem_erase)
    exact (List.mem_erase_of_ne hji).2 (h.sub j (List.mem_of_mem_erase hj))
  · intro j hj hjr
    have hji : j ≠ i := fun e => by subst e; exact absurd hj (hd.not_mem_erase)
    exact (h.idle j (List.mem_of_mem_erase hj) (fun hr => hjr ((List.mem_erase_of_ne hji).2 hr))).snoc (by simp)

theorem outs_take {turns : Nat → XTurn} {x : Exec} (h : Inv x) (ho : Outs turns x) (i : Nat) (r : List Nat) (es : List Eff) :
    completedFrom turns 0 (polledTasks ((x.take i r).effs es).log) =
      given ((x.take i r).effs es).log ++ (match (turns x.polls).res with | .ready o => [(i, o)] | _ => []) := by
  have hk := keeps_effs es (x.take i r)
  rw [hk.polled, hk.given]
  simp only [take, polled_snoc, given_snoc, completedFrom_snoc, List.append_nil, Nat.zero_add, h.count]
  rw [ho]

/-- What holds of the result of one call of `FuturesUnordered::poll_next` that starts at `x`. -/
def DSpec (turns : Nat → XTurn) (x : Exec) (r : DOut × Exec) : Prop :=
  match r with
  | (.done i o, y) => Inv { y with log := y.log ++ [.returned i o] } ∧ Outs turns { y with log := y.log ++ [.returned i o] } ∧
      y.driverPoisoned = x.driverPoisoned ∧ y.queuePoisoned = x.queuePoisoned
  | (.empty, y) => Inv y ∧ Outs turns y ∧ y.driver = [] ∧ y.driver = x.driver ∧ y.driverPoisoned = x.driverPoisoned ∧ y.queuePoisoned = x.queuePoisoned
  | (.panic, y) => Inv y ∧ Outs turns y ∧ y.driverPoisoned = x.driverPoisoned ∧ y.queuePoisoned = x.queuePoisoned
  | (.pending, y) => Inv y ∧ Outs turns y ∧ (y.ready = [] ∨ y.woken = true) ∧ y.driverPoisoned = x.driverPoisoned ∧ y.queuePoisoned = x.queuePoisoned

/-- One call of `FuturesUnordered::poll_next`. -/
theorem driverLoop_spec (turns : Nat → XTurn) (len : Nat) : ∀ (fuel polled yielded : Nat) (x : Exec), Inv x → Outs turns x → len + 1 ≤ polled + fuel →
    (polled < len ∨ x.ready = []) →
    DSpec turns x (driverLoop turns len fuel polled yielded x) := by
  intro fuel
  induction fuel with
  | zero =>
    intro polled yielded x h ho hf hp
    refine ⟨h, ho, ?_, rfl, rfl⟩
    rcases hp with hp | hp
    · omega
    · exact .inl hp
  | succ fuel ih =>
    intro polled yielded x h ho hf hp
    unfold driverLoop
    cases hr : x.ready with
    | nil =>
      simp only
      by_cases hd : x.driver = []
      · rw [if_pos hd]; exact ⟨h, ho, hd, rfl, rfl, rfl⟩
      · rw [if_neg hd]; exact ⟨h, ho, .inl hr, rfl, rfl⟩
    | cons i r =>
      have ht := inv_effs (turns x.polls).effs (inv_take h hr)
      have hk := keeps_effs (turns x.polls).effs (x.take i r)
      have hout := outs_take h ho i r (turns x.polls).effs
      have hi : i ∈ ((x.take i r).effs (turns x.polls).effs).driver := by rw [hk.driver]; exact h.sub i (by rw [hr]; simp)
      simp only
      cases hres : (turns x.polls).res with
      | ready o =>
        simp only
        rw [hres] at hout
        refine ⟨inv_done ht hi o, ?_, hk.dp, hk.qp⟩
        unfold Outs
        simp only [given_snoc, polled_snoc, List.append_nil]
        exact hout.symm
      | panic =>
        rw [hres] at hout
        simp only [List.append_nil] at hout
        exact ⟨ht, hout.symm, hk.dp, hk.qp⟩
      | pending =>
        rw [hres] at hout
        simp only [List.append_nil] at hout
        simp only
        by_cases hc : (2 ≤ yielded + if Eff.wake i ∈ (turns x.polls).effs then 1 else 0) ∨ polled + 1 = len
        · rw [if_pos hc]
          exact ⟨⟨ht.perm, ht.sub, ht.nodup, ht.idle, ht.count, ht.born, ht.late⟩, hout.symm, .inr rfl, hk.dp, hk.qp⟩
        · rw [if_neg hc]
          rw [not_or] at hc
          have hlen : polled < len := by
            rcases hp with hp | hp
            · exact hp
            · rw [hr] at hp; cases hp
          have := ih (polled + 1) (yielded + if Eff.wake i ∈ (turns x.polls).effs then 1 else 0) _ ht hout.symm (by omega) (.inl (by omega))
          revert this
          have hdp : ((x.take i r).effs (turns x.polls).effs).driverPoisoned = x.driverPoisoned := hk.dp
          have hqp : ((x.take i r).effs (turns x.polls).effs).queuePoisoned = x.queuePoisoned := hk.qp
          have hdr : ((x.take i r).effs (turns x.polls).effs).driver = x.driver := hk.driver
          rcases driverLoop turns len fuel (polled + 1) (yielded + if Eff.wake i ∈ (turns x.polls).effs then 1 else 0) ((x.take i r).effs (turns x.polls).effs) with ⟨o, y⟩
          cases o <;> simp only [DSpec, hdp, hqp, hdr] <;> exact id

theorem driverPoll_spec (turns : Nat → XTurn) {x : Exec} (h : Inv x) (ho : Outs turns x) :
    match x.driverPoll turns with
    | (.done i o, y) => Inv { y with log := y.log ++ [.returned i o] } ∧ Outs turns { y with log := y.log ++ [.returned i o] } ∧
        y.driverPoisoned = x.driverPoisoned ∧ y.queuePoisoned = x.queuePoisoned
    | (.empty, y) => Inv y ∧ Outs turns y ∧ y = { x with registered := true } ∧ x.driver = [] ∧ x.ready = []
    | (.panic, y) => Inv y ∧ Outs turns y ∧ y.driverPoisoned = x.driverPoisoned ∧ y.queuePoisoned = x.queuePoisoned
    | (.pending, y) => Inv y ∧ Outs turns y ∧ (y.ready = [] ∨ y.woken = true) ∧ y.driverPoisoned = x.driverPoisoned ∧ y.queuePoisoned = x.queuePoisoned := by
  have h' : Inv { x with registered := true } := ⟨h.perm, h.sub, h.nodup, h.idle, h.count, h.born, h.late⟩
  have hp : 0 < x.driver.length ∨ x.ready = [] := by
    by_cases hd : x.driver = []
    · right
      cases hr : x.ready with
      | nil => rfl
      | cons i r => have := h.sub i (by rw [hr]; simp); rw [hd] at this; cases this
    · left; exact List.length_pos_iff.2 hd
  have hs := driverLoop_spec turns x.driver.length (x.driver.length + 1) 0 0 { x with registered := true } h' ho (by omega) hp
  have hemp : x.driver = [] → x.ready = [] ∧ x.driverPoll turns = (.empty, { x with registered := true }) := by
    intro hd
    have hr : x.ready = [] := by
      rcases hp with hp | hp
      · rw [hd] at hp; simp at hp
      · exact hp
    refine ⟨hr, ?_⟩
    unfold driverPoll driverLoop
    simp [hr, hd]
  revert hs
  change DSpec turns { x with registered := true } (x.driverPoll turns) → _
  rcases hx : x.driverPoll turns with ⟨o, y⟩
  cases o with
  | empty =>
    rintro ⟨h1, h2, h3, h4, _⟩
    have hd : x.driver = [] := by rw [← h4]; exact h3
    obtain ⟨hr, he⟩ := hemp hd
    rw [hx] at he
    exact ⟨h1, h2, (Prod.mk.inj he).2, hd, hr⟩
  | _ => exact id

theorem inv_drain {x : Exec} (h : Inv x) : Inv x.drain := by
  have hnd := h.perm.nodup_iff.2 List.nodup_range
  refine ⟨?_, ?_, ?_, ?_, h.count, h.born, h.late⟩
  · refine List.Perm.trans ?_ h.perm
    simp only [drain, List.nil_append]
    exact List.perm_append_comm.append_right _
  · intro i hi
    simp only [drain] at hi ⊢
    rcases List.mem_append.1 hi with hi | hi
    · exact List.mem_append_left _ (h.sub i hi)
    · exact List.mem_append_right _ hi
  · simp only [drain]
    rw [List.nodup_append]
    have h1 := (List.nodup_append.1 hnd).1
    rw [List.nodup_append] at h1
    refine ⟨h.nodup, h1.1, ?_⟩
    intro a ha b hb e
    exact h1.2.2 b hb a (h.sub a ha) e.symm
  · intro i hi hr
    simp only [drain, List.mem_append, not_or] at hi hr
    rcases hi with hi | hi
    · exact h.idle i hi hr.1
    · exact absurd hi hr.2

/-- One call of `hyper_executor::poll_next`. -/
theorem pollLoop_spec (turns : Nat → XTurn) : ∀ (fuel : Nat) (x : Exec), Inv x → Outs turns x → x.queue = [] → x.driverPoisoned = false →
    Inv (pollLoop turns fuel x).2 ∧ Outs turns (pollLoop turns fuel x).2 ∧ (pollLoop turns fuel x).2.queuePoisoned = x.queuePoisoned ∧
    ((pollLoop turns fuel x).1 = .null → (pollLoop turns fuel x).2.driverPoisoned = false →
      (pollLoop turns fuel x).2.ready = [] ∧ (pollLoop turns fuel x).2.queue = []) := by
  intro fuel
  induction fuel with
  | zero => intro x h ho hq hd; exact ⟨h, ho, rfl, fun hn => by simp [pollLoop] at hn⟩
  | succ fuel ih =>
    intro x h ho hq hd
    unfold pollLoop
    have hs := driverPoll_spec turns h ho
    revert hs
    rcases x.driverPoll turns with ⟨o, y⟩
    cases o with
    | done i o => rintro ⟨h1, h2, _, h4⟩; exact ⟨h1, h2, h4, fun hn => by simp at hn⟩
    | empty =>
      rintro ⟨h1, h2, rfl, h4, h5⟩
      exact ⟨h1, h2, rfl, fun _ _ => ⟨h5, hq⟩⟩
    | panic =>
      rintro ⟨h1, h2, _, h4⟩
      exact ⟨⟨h1.perm, h1.sub, h1.nodup, h1.idle, h1.count, h1.born, h1.late⟩, h2, h4, fun _ hp => by simp at hp⟩
    | pending =>
      rintro ⟨h1, h2, h3, h4, h5⟩
      simp only
      by_cases hy : y.queue ≠ []
      · rw [if_pos hy]
        obtain ⟨g1, g2, g3, g4⟩ := ih y.drain (inv_drain h1) h2 rfl (h4.trans hd)
        exact ⟨g1, g2, g3.trans h5, g4⟩
      · rw [if_neg hy]
        have hyq : y.queue = [] := Classical.byContradiction hy
        cases hw : y.woken with
        | true =>
          simp only [if_true]
          obtain ⟨g1, g2, g3, g4⟩ := ih { y with woken := false } ⟨h1.perm, h1.sub, h1.nodup, h1.idle, h1.count, h1.born, h1.late⟩ h2 hyq (h4.trans hd)
          exact ⟨g1, g2, g3.trans h5, g4⟩
        | false =>
          simp only [Bool.false_eq_true, if_false]
          refine ⟨h1, h2, h5, fun _ _ => ⟨?_, hyq⟩⟩
          rcases h3 with h3 | h3
          · exact h3
          · rw [hw] at h3; cases h3

theorem inv_step (turns : Nat → XTurn) {x : Exec} (h : Inv x) (ho : Outs turns x) (op : XOp) : Inv (x.step turns op) ∧ Outs turns (x.step turns op) := by
  cases op with
  | push =>
    simp only [step, push]
    split
    · exact ⟨h, ho⟩
    · have hk := keeps_spawn x
      exact ⟨inv_spawn h, by unfold Outs; rw [hk.given, hk.polled]; exact ho⟩
  | wake i =>
    have hk := keeps_wake x i
    exact ⟨inv_wake h i, by unfold Outs step; rw [hk.given, hk.polled]; exact ho⟩
  | poll fuel =>
    simp only [step, poll]
    split
    · exact ⟨h, ho⟩
    · split
      · exact ⟨⟨h.perm, h.sub, h.nodup, h.idle, h.count, h.born, h.late⟩, ho⟩
      · rename_i hd
        obtain ⟨g1, g2, _⟩ := pollLoop_spec turns fuel x.drain (inv_drain h) ho rfl (by simpa [drain] using hd)
        exact ⟨g1, g2⟩

theorem inv_run (turns : Nat → XTurn) (ops : List XOp) : ∀ {x : Exec}, Inv x → Outs turns x → Inv (x.run turns ops) ∧ Outs turns (x.run turns ops) := by
  induction ops with
  | nil => intro x h ho; exact ⟨h, ho⟩
  | cons op ops ih =>
    intro x h ho
    obtain ⟨g1, g2⟩ := inv_step turns h ho op
    exact ih g1 g2

theorem inv_new : Inv {} := ⟨.refl _, by simp, by simp, by simp, rfl, rfl, by intro a b i h; cases a <;> cases h⟩

/-! ## Termination -/

/-- Polls go on, and a poll without effects takes one task off those to be polled. -/
theorem driverLoop_progress (turns : Nat → XTurn) (N len : Nat) (hN : ∀ k, N ≤ k → (turns k).effs = []) : ∀ (fuel polled yielded : Nat) (x : Exec),
    x.polls ≤ (driverLoop turns len fuel polled yielded x).2.polls ∧
    ((driverLoop turns len fuel polled yielded x).2.polls = x.polls → (driverLoop turns len fuel polled yielded x).2 = x) ∧
    (N ≤ x.polls → (driverLoop turns len fuel polled yielded x).2.ready.length + (driverLoop turns len fuel polled yielded x).2.queue.length +
        ((driverLoop turns len fuel polled yielded x).2.polls - x.polls) ≤ x.ready.length + x.queue.length) := by
  intro fuel
  induction fuel with
  | zero => intro polled yielded x; exact ⟨Nat.le_refl _, fun _ => rfl, fun _ => by simp [driverLoop]⟩
  | succ fuel ih =>
    intro polled yielded x
    unfold driverLoop
    cases hr : x.ready with
    | nil => exact ⟨Nat.le_refl _, fun _ => rfl, fun _ => by simp [hr]⟩
    | cons i r =>
      have hk : ((x.take i r).effs (turns x.polls).effs).polls = x.polls + 1 := (keeps_effs (turns x.polls).effs (x.take i r)).polls
      have he : N ≤ x.polls → (x.take i r).effs (turns x.polls).effs = x.take i r := fun h => by rw [hN _ h]; rfl
      simp only
      cases hres : (turns x.polls).res with
      | ready o =>
        simp only
        refine ⟨by omega, fun h => by omega, fun h => ?_⟩
        rw [he h]
        have := List.length_erase_le (l := r) (a := i)
        simp only [take, List.length_cons]
        omega
      | panic =>
        simp only
        refine ⟨by omega, fun h => by omega, fun h => ?_⟩
        rw [he h]
        simp only [take, List.length_cons]
        omega
      | pending =>
        simp only
        by_cases hc : (2 ≤ yielded + if Eff.wake i ∈ (turns x.polls).effs then 1 else 0) ∨ polled + 1 = len
        · rw [if_pos hc]
          refine ⟨by simp only; omega, fun h => by simp only at h; omega, fun h => ?_⟩
          simp only
          rw [he h]
          simp only [take, List.length_cons]
          omega
        · rw [if_neg hc]
          obtain ⟨h1, h2, h3⟩ := ih (polled + 1) (yielded + if Eff.wake i ∈ (turns x.polls).effs then 1 else 0) ((x.take i r).effs (turns x.polls).effs)
          refine ⟨by omega, fun h => by omega, fun h => ?_⟩
          have h3 := h3 (by omega)
          have e1 : ((x.take i r).effs (turns x.polls).effs).ready.length = r.length := by rw [he h]; rfl
          have e2 : ((x.take i r).effs (turns x.polls).effs).queue.length = x.queue.length := by rw [he h]; rfl
          rw [e1, e2] at h3
          simp only [List.length_cons]
          omega

/-- How much a call of `hyper_executor_poll` may still do. -/
def work (x : Exec) : Nat := 2 * (x.ready.length + x.queue.length) + if x.woken then 1 else 0

theorem pollLoop_ends (turns : Nat → XTurn) (N : Nat) (hN : ∀ k, N ≤ k → (turns k).effs = []) : ∀ (a b : Nat) (x : Exec), N - x.polls = a → x.work = b →
    x.queue = [] → ∃ fuel, (pollLoop turns fuel x).1 ≠ .busy := by
  intro a
  induction a using Nat.strongRecOn with
  | _ a iha =>
    intro b
    induction b using Nat.strongRecOn with
    | _ b ihb =>
      intro x ha hb hq
      obtain ⟨h1, h2, h3⟩ := driverLoop_progress turns N x.driver.length hN (x.driver.length + 1) 0 0 { x with registered := true }
      simp only at h1 h2 h3
      rcases hx : x.driverPoll turns with ⟨o, y⟩
      unfold driverPoll at hx
      rw [hx] at h1 h2 h3
      simp only at h1 h2 h3
      have go : ∀ z : Exec, z.polls = y.polls → z.queue = [] → z.ready.length = y.ready.length + y.queue.length → (y.polls = x.polls → z.work < x.work) →
          ∃ fuel, (pollLoop turns fuel z).1 ≠ .busy := by
        intro z hz hzq hzr hw
        by_cases hp : y.polls = x.polls
        · exact ihb z.work (hb ▸ hw hp) z (by rw [hz, hp, ha]) rfl hzq
        · by_cases hl : N ≤ x.polls
          · have := h3 hl
            refine ihb z.work ?_ z (by omega) rfl hzq
            rw [← hb]
            unfold work
            rw [hzr, hzq]
            simp only [List.length_nil]
            split <;> split <;> omega
          · exact iha (N - z.polls) (by omega) z.work z rfl rfl hzq
      cases o with
      | done i o => exact ⟨1, by unfold pollLoop driverPoll; rw [hx]; simp⟩
      | empty => exact ⟨1, by unfold pollLoop driverPoll; rw [hx]; simp⟩
      | panic => exact ⟨1, by unfold pollLoop driverPoll; rw [hx]; simp⟩
      | pending =>
        by_cases hy : y.queue ≠ []
        · obtain ⟨f, hf⟩ := go y.drain rfl rfl (by simp [drain]) (fun hp => by rw [h2 hp] at hy; exact absurd hq hy)
          exact ⟨f + 1, by unfold pollLoop driverPoll; rw [hx]; simp only [if_pos hy]; exact hf⟩
        · have hyq : y.queue = [] := Classical.byContradiction hy
          cases hw : y.woken with
          | true =>
            obtain ⟨f, hf⟩ := go { y with woken := false } rfl hyq (by simp [hyq]) (fun hp => by
              have he := h2 hp
              subst he
              simp only at hw
              simp [work, hw])
            exact ⟨f + 1, by unfold pollLoop driverPoll; rw [hx]; simp only [if_neg hy, hw, if_true]; exact hf⟩
          | false => exact ⟨1, by unfold pollLoop driverPoll; rw [hx]; simp [hyq, hw]⟩

/-! ## Spinning -/

/-- One task, to be polled. -/
def Lone (x : Exec) : Prop := x.driver = [0] ∧ x.ready = [0] ∧ x.queue = []

theorem lone_poll {x : Exec} (h : Lone x) : ∃ y, x.driverPoll (fun _ => { effs := [.wake 0], res := .pending }) = (.pending, y) ∧ Lone y ∧ y.woken = true := by
  obtain ⟨h1, h2, h3⟩ := h
  unfold driverPoll driverLoop
  simp only [h2, h1, List.length_singleton]
  simp [effs, eff, wake, take, h1, h3, Lone]

theorem lone_busy : ∀ (fuel : Nat) {x : Exec}, Lone x → (pollLoop (fun _ => { effs := [.wake 0], res := .pending }) fuel x).1 = .busy := by
  intro fuel
  induction fuel with
  | zero => intro x _; rfl
  | succ fuel ih =>
    intro x h
    obtain ⟨y, hy, hl, hw⟩ := lone_poll h
    unfold pollLoop
    rw [hy]
    simp only
    rw [if_neg (fun hc => hc hl.2.2), if_pos hw]
    exact ih (x := { y with woken := false }) hl

/-! ## Panics -/

theorem pollLoop_dp (turns : Nat → XTurn) : ∀ (fuel : Nat) (x : Exec), Inv x → Outs turns x → x.queue = [] → x.driverPoisoned = false →
    (pollLoop turns fuel x).2.queuePoisoned = x.queuePoisoned := fun fuel x h ho hq hd => (pollLoop_spec turns fuel x h ho hq hd).2.2.1

/-- The queue's lock is poisoned only after the other. -/
theorem queue_sound (turns : Nat → XTurn) (ops : List XOp) (hd : (run turns {} ops).driverPoisoned = false) : (run turns {} ops).queuePoisoned = false := by
  suffices h : ∀ (ops : List XOp) (x : Exec), Inv x → Outs turns x → (x.driverPoisoned = false → x.queuePoisoned = false) →
      (run turns x ops).driverPoisoned = false → (run turns x ops).queuePoisoned = false from h ops {} inv_new rfl (fun _ => rfl) hd
  intro ops
  induction ops with
  | nil => intro x _ _ h hd; exact h hd
  | cons op ops ih =>
    intro x h ho hq hd
    obtain ⟨g1, g2⟩ := inv_step turns h ho op
    refine ih _ g1 g2 ?_ hd
    intro hs
    cases op with
    | push =>
      simp only [step, push] at hs ⊢
      split at hs <;> rename_i hc
      · rw [if_pos hc]; exact hq hs
      · rw [if_neg hc]; exact hq hs
    | wake i =>
      have hk := keeps_wake x i
      simp only [step] at hs ⊢
      rw [hk.qp]; exact hq (hk.dp.symm.trans hs)
    | poll fuel =>
      cases hx : x.driverPoisoned with
      | true =>
        simp only [step, poll, hx, if_true] at hs
        split at hs <;> simp [hx] at hs
      | false =>
        simp only [step, poll, hx, hq hx, Bool.false_eq_true, if_false]
        exact (pollLoop_dp turns fuel _ (inv_drain h) ho rfl hx).trans (hq hx)

theorem poisoned_step (turns : Nat → XTurn) {x : Exec} (h : x.driverPoisoned = true) (op : XOp) :
    (x.step turns op).driverPoisoned = true ∧ given (x.step turns op).log = given x.log ∧ polledTasks (x.step turns op).log = polledTasks x.log := by
  cases op with
  | push =>
    simp only [step, push]
    split
    · exact ⟨h, rfl, rfl⟩
    · exact ⟨h, (keeps_spawn x).given, (keeps_spawn x).polled⟩
  | wake i => exact ⟨(keeps_wake x i).dp.trans h, (keeps_wake x i).given, (keeps_wake x i).polled⟩
  | poll fuel =>
    simp only [step, poll, h, if_true]
    split
    · exact ⟨h, rfl, rfl⟩
    · exact ⟨rfl, rfl, rfl⟩

end Exec

open Exec

/-! ## The theorems -/

/-- Whatever the tasks do and whatever the C program calls: every task that was pushed or spawned is in exactly one of three places, waiting to enter the
set, in the set, or given back by `hyper_executor_poll`; and no task is given back twice, nor polled after it was given back. -/
theorem C78_conserved (turns : Nat → XTurn) (ops : List XOp) :
    ((run turns {} ops).queue ++ (run turns {} ops).driver ++ (given (run turns {} ops).log).map Prod.fst).Perm (pushedTasks (run turns {} ops).log) ∧
    (pushedTasks (run turns {} ops).log).Nodup ∧ Late (run turns {} ops).log := by
  obtain ⟨h, _⟩ := inv_run turns ops inv_new rfl
  rw [h.born]
  exact ⟨h.perm, List.nodup_range, h.late⟩

/-- What `hyper_executor_poll` gave back, in order, is exactly the tasks whose futures completed, in order, each with its own output. -/
theorem C78_outputs (turns : Nat → XTurn) (ops : List XOp) :
    given (run turns {} ops).log = completedFrom turns 0 (polledTasks (run turns {} ops).log) := (inv_run turns ops inv_new rfl).2

/-- When `hyper_executor_poll` gives back null, and no task has panicked, there is nothing left to do: every task that was pushed or spawned and not given
back has been polled, and not been woken since. -/
theorem C78_null (turns : Nat → XTurn) (ops : List XOp) (fuel : Nat) (hn : ((run turns {} ops).poll turns fuel).1 = .null)
    (hp : ((run turns {} ops).poll turns fuel).2.driverPoisoned = false) :
    ∀ i, i ∈ pushedTasks ((run turns {} ops).poll turns fuel).2.log → i ∉ (given ((run turns {} ops).poll turns fuel).2.log).map Prod.fst →
      Settled ((run turns {} ops).poll turns fuel).2.log i := by
  obtain ⟨h, ho⟩ := inv_run turns ops inv_new rfl
  have hd : (run turns {} ops).driverPoisoned = false := by
    cases hd : (run turns {} ops).driverPoisoned with
    | false => rfl
    | true => rw [show ((run turns {} ops).poll turns fuel).2.driverPoisoned = true from (poisoned_step turns hd (.poll fuel)).1] at hp; cases hp
  have key : Inv ((run turns {} ops).poll turns fuel).2 ∧
      ((run turns {} ops).queuePoisoned = false → ((run turns {} ops).poll turns fuel).2.ready = [] ∧ ((run turns {} ops).poll turns fuel).2.queue = []) := by
    refine ⟨(inv_step turns h ho (.poll fuel)).1, fun hq => ?_⟩
    unfold Exec.poll at hn hp ⊢
    simp only [hq, hd, Bool.false_eq_true, if_false] at hn hp ⊢
    exact (pollLoop_spec turns fuel _ (inv_drain h) ho rfl (by simpa [drain] using hd)).2.2.2 hn hp
  obtain ⟨hi, hk⟩ := key
  obtain ⟨hr, hq⟩ := hk (queue_sound turns ops hd)
  intro i hpush hg
  rw [hi.born] at hpush
  have := hi.perm.mem_iff.2 hpush
  rw [hq] at this
  simp only [List.nil_append, List.mem_append] at this
  rcases this with hdr | hgv
  · exact hi.idle i hdr (by rw [hr]; simp)
  · exact absurd hgv hg

/-- If from some poll on no task wakes or spawns another, `hyper_executor_poll` returns. -/
theorem C78_terminates (turns : Nat → XTurn) (N : Nat) (hN : ∀ k, N ≤ k → (turns k).effs = []) (ops : List XOp) :
    ∃ fuel, ((run turns {} ops).poll turns fuel).1 ≠ .busy := by
  unfold Exec.poll
  split
  · exact ⟨0, by simp⟩
  · split
    · exact ⟨0, by simp⟩
    · exact pollLoop_ends turns N hN _ _ _ rfl rfl rfl

/-- A task that wakes itself whenever it is polled keeps `hyper_executor_poll` from ever returning, although the set of tasks yields after two such polls:
its yielding is a wake, and the executor polls again at once. -/
theorem C78_spins (fuel : Nat) :
    ((run (fun _ => { effs := [.wake 0], res := .pending }) {} [.push]).poll (fun _ => { effs := [.wake 0], res := .pending }) fuel).1 = .busy :=
  lone_busy fuel ⟨rfl, rfl, rfl⟩

/-- After a task panicked no task is polled any more and none given back, and every call of `hyper_executor_poll` gives null. -/
theorem C78_panic (turns : Nat → XTurn) (x : Exec) (h : x.driverPoisoned = true) (ops : List XOp) (fuel : Nat) :
    polledTasks (x.run turns ops).log = polledTasks x.log ∧ given (x.run turns ops).log = given x.log ∧ ((x.run turns ops).poll turns fuel).1 = .null := by
  induction ops generalizing x with
  | nil =>
    refine ⟨rfl, rfl, ?_⟩
    simp only [run, List.foldl_nil, Exec.poll, h, if_true]
    split <;> rfl
  | cons op ops ih =>
    obtain ⟨h1, h2, h3⟩ := poisoned_step turns h op
    obtain ⟨g1, g2, g3⟩ := ih _ h1
    exact ⟨g1.trans h3, g2.trans h2, g3⟩

/-- And after the first push and poll that follow, the next push aborts the process. -/
theorem C78_abort :
    (run (fun _ => { effs := [], res := .panic }) {} [.push, .poll 1]).driverPoisoned = true ∧
    (run (fun _ => { effs := [], res := .panic }) {} [.push, .poll 1, .push, .poll 1]).push.1 = false := by decide +kernel

/-! ## Examples -/

/-- Task 0 spawns a task and waits; task 1 wakes it and completes; task 0 completes. -/
def exTurns : Nat → XTurn
  | 0 => { effs := [.spawn], res := .pending }
  | 1 => { effs := [.wake 0], res := .ready 7 }
  | _ => { effs := [], res := .ready 8 }

example : given (run exTurns {} [.push, .poll 5, .poll 5]).log = [(1, 7), (0, 8)] := by decide +kernel
example : ((run exTurns {} [.push, .poll 5, .poll 5]).poll exTurns 5).1 = .null := by decide +kernel
example : (run exTurns {} [.push, .poll 5]).log = [.pushed 0, .polled 0, .pushed 1, .polled 1, .woken 0, .returned 1 7] := by decide +kernel

end Hyper
