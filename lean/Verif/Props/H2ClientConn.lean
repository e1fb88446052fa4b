import Verif.Model.H2ClientConn

/-!
# C79: the requests of an HTTP/2 client's connection
-/

namespace Hyper

namespace H2Conn

/-! ## What is to be said -/

def queuedIds (log : List Ev) : List Nat := log.filterMap (fun e => match e with | .queued i => some i | _ => none)
def toldIds (log : List Ev) : List Nat := log.filterMap (fun e => match e with | .told i _ => some i | _ => none)
def passedIds (log : List Ev) : List Nat := log.filterMap (fun e => match e with | .passed i => some i | _ => none)
def openedIds (log : List Ev) : List Nat := log.filterMap (fun e => match e with | .opened i => some i | _ => none)

/-- The request is no longer waiting to be opened: its tasks were started, or its caller was told. -/
def Settled (log : List Ev) (i : Nat) : Prop := .started i ∈ log ∨ ∃ t, .told i t ∈ log

/-- What holds whenever a request is passed over or given to h2, after the events `a`. -/
def Allowed (a : List Ev) : Ev → Prop
  | .passed i => .left i ∈ a
  | .opened i => .left i ∉ a ∧ ∀ x y j, a = x ++ .opened j :: y → Settled y j
  | _ => True

/-- And so throughout. -/
def Lawful (log : List Ev) : Prop := ∀ a e b, log = a ++ e :: b → Allowed a e

/-! ## Logs -/

theorem Lawful.snoc {log : List Ev} (h : Lawful log) {e : Ev} (he : Allowed log e) : Lawful (log ++ [e]) := by
  intro a e' b hab
  rcases List.eq_nil_or_concat b with rfl | ⟨b', e'', rfl⟩
  · obtain ⟨rfl, h2⟩ := List.append_inj' hab rfl
    cases h2; exact he
  · rw [List.concat_eq_append, ← List.cons_append, ← List.append_assoc] at hab
    obtain ⟨h1, _⟩ := List.append_inj' hab rfl
    exact h a e' b' h1

/-- Events that need nothing. -/
def Plain : Ev → Prop
  | .passed _ => False
  | .opened _ => False
  | _ => True

theorem Lawful.append {log : List Ev} (h : Lawful log) : ∀ (es : List Ev), (∀ e ∈ es, Plain e) → Lawful (log ++ es) := by
  intro es
  induction es generalizing log with
  | nil => intro _; simpa using h
  | cons e es ih =>
    intro hp
    have he : Allowed log e := by have := hp e (by simp); cases e <;> simp_all [Allowed, Plain]
    have := ih (h.snoc he) (fun e' h' => hp e' (by simp [h']))
    simpa using this

theorem Settled.more {a b : List Ev} {i : Nat} (h : Settled a i) : Settled (a ++ b) i := by
  rcases h with h | ⟨t, h⟩
  · exact .inl (by simp [h])
  · exact .inr ⟨t, by simp [h]⟩

/-- Every request given to h2 is settled, but for the one that is held. -/
def Waits (log : List Ev) (held : Option Nat) : Prop := ∀ a b i, log = a ++ .opened i :: b → Settled b i ∨ held = some i

theorem split_append {log es a b : List Ev} {e : Ev} (h : log ++ es = a ++ e :: b) :
    (∃ b', log = a ++ e :: b' ∧ b = b' ++ es) ∨ (∃ a', es = a' ++ e :: b ∧ a = log ++ a') := by
  rcases List.append_eq_append_iff.1 h with ⟨a', h1, h2⟩ | ⟨c, h1, h2⟩
  · exact .inr ⟨a', h2, h1⟩
  · cases c with
    | nil => simp at h1 h2; subst h1; exact .inr ⟨[], by simp [h2], by simp⟩
    | cons x c => simp at h2; obtain ⟨rfl, rfl⟩ := h2; exact .inl ⟨c, h1, rfl⟩

theorem Waits.append {log es : List Ev} {held held' : Option Nat} (h : Waits log held) (hp : ∀ e ∈ es, Plain e)
    (hh : ∀ i, held = some i → held' = some i ∨ Settled es i) : Waits (log ++ es) held' := by
  intro a b i hab
  rcases split_append hab with ⟨b', h1, rfl⟩ | ⟨a', h1, rfl⟩
  · rcases h a b' i h1 with h | h
    · exact .inl h.more
    · rcases hh i h with h | h
      · exact .inr h
      · left
        rcases h with h | ⟨t, h⟩
        · exact .inl (by simp [h])
        · exact .inr ⟨t, by simp [h]⟩
  · exact absurd (hp (.opened i) (by rw [h1]; simp)) (by simp [Plain])

theorem Waits.open {log es : List Ev} {held' : Option Nat} {i : Nat} (h : Waits log none) (hp : ∀ e ∈ es, Plain e)
    (hs : Settled es i ∨ held' = some i) : Waits (log ++ .opened i :: es) held' := by
  intro a b j hab
  rcases split_append hab with ⟨b', h1, rfl⟩ | ⟨a', h1, rfl⟩
  · rcases h a b' j h1 with h | h
    · exact .inl h.more
    · cases h
  · cases a' with
    | nil => simp at h1; obtain ⟨rfl, rfl⟩ := h1; exact hs
    | cons x a' =>
      simp at h1
      exact absurd (hp (.opened j) (by rw [h1.2]; simp)) (by simp [Plain])

/-! ## The invariant -/

structure Inv (c : Cl) : Prop where
  perm : (c.queue ++ c.held.toList ++ c.sends ++ toldIds c.log ++ passedIds c.log).Perm (List.range c.sent)
  born : queuedIds c.log = List.range c.sent
  order : (openedIds c.log ++ c.queue).Pairwise (· < ·)
  bound : ∀ i ∈ openedIds c.log ++ c.queue, i < c.sent
  leftOk : ∀ i, i ∈ c.left ↔ .left i ∈ c.log
  lawful : Lawful c.log
  waits : Waits c.log c.held

theorem inv_new : Inv {} := by
  refine ⟨.refl _, rfl, by simp [openedIds], by simp [openedIds], by simp, ?_, ?_⟩
  · intro a e b h; cases a <;> cases h
  · intro a b i h; cases a <;> cases h

/-- Requests are told, passed or moved. -/
theorem perm_tail {q h s t p q' h' s' t' p' : List Nat} {r : List Nat} (hp : (q ++ h ++ s ++ t ++ p).Perm r)
    (hc : ∀ i, List.count i q' + List.count i h' + List.count i s' + List.count i t' + List.count i p' =
      List.count i q + List.count i h + List.count i s + List.count i t + List.count i p) : (q' ++ h' ++ s' ++ t' ++ p').Perm r := by
  refine List.Perm.trans ?_ hp
  rw [List.perm_iff_count]
  intro i
  have := hc i
  simp only [List.count_append]
  omega

@[simp] theorem queuedIds_append (a b : List Ev) : queuedIds (a ++ b) = queuedIds a ++ queuedIds b := List.filterMap_append ..
@[simp] theorem toldIds_append (a b : List Ev) : toldIds (a ++ b) = toldIds a ++ toldIds b := List.filterMap_append ..
@[simp] theorem passedIds_append (a b : List Ev) : passedIds (a ++ b) = passedIds a ++ passedIds b := List.filterMap_append ..
@[simp] theorem openedIds_append (a b : List Ev) : openedIds (a ++ b) = openedIds a ++ openedIds b := List.filterMap_append ..

@[simp] theorem queuedIds_nil : queuedIds [] = [] := rfl
@[simp] theorem queuedIds_cons (e : Ev) (l : List Ev) : queuedIds (e :: l) = (match e with | .queued i => [i] | _ => []) ++ queuedIds l := by cases e <;> rfl
@[simp] theorem toldIds_nil : toldIds [] = [] := rfl
@[simp] theorem toldIds_cons (e : Ev) (l : List Ev) : toldIds (e :: l) = (match e with | .told i _ => [i] | _ => []) ++ toldIds l := by cases e <;> rfl
@[simp] theorem passedIds_nil : passedIds [] = [] := rfl
@[simp] theorem passedIds_cons (e : Ev) (l : List Ev) : passedIds (e :: l) = (match e with | .passed i => [i] | _ => []) ++ passedIds l := by cases e <;> rfl
@[simp] theorem openedIds_nil : openedIds [] = [] := rfl
@[simp] theorem openedIds_cons (e : Ev) (l : List Ev) : openedIds (e :: l) = (match e with | .opened i => [i] | _ => []) ++ openedIds l := by cases e <;> rfl

theorem inv_send {c : Cl} (h : Inv c) : Inv c.send := by
  unfold Cl.send
  split
  · exact h
  · split
    · refine ⟨?_, ?_, ?_, ?_, ?_, h.lawful.append _ (by simp [Plain]), h.waits.append (by simp [Plain]) (fun i hi => .inl hi)⟩
      · have : (c.queue ++ c.held.toList ++ c.sends ++ toldIds c.log ++ passedIds c.log ++ [c.sent]).Perm (List.range (c.sent + 1)) := by
          rw [List.range_succ]; exact h.perm.append_right _
        refine List.Perm.trans ?_ this
        rw [List.perm_iff_count]
        intro i
        simp only [List.count_append, toldIds_append, passedIds_append, toldIds_cons, passedIds_cons, toldIds_nil, passedIds_nil, List.count_nil]
        omega
      · simp [h.born, List.range_succ]
      · have := h.order
        simp only [openedIds_append, show openedIds [Ev.queued c.sent] = [] from rfl, List.append_nil]
        rw [← List.append_assoc, List.pairwise_append]
        refine ⟨this, by simp, fun a ha b hb => ?_⟩
        simp at hb; subst hb; exact h.bound a ha
      · intro i hi
        simp only [openedIds_append, show openedIds [Ev.queued c.sent] = [] from rfl, List.append_nil, ← List.append_assoc] at hi
        rcases List.mem_append.1 hi with hi | hi
        · have := h.bound i hi; simp only; omega
        · simp at hi; simp only; omega
      · intro i; rw [h.leftOk]; simp
    · refine ⟨?_, ?_, ?_, ?_, ?_, h.lawful.append _ (by simp [Plain]), h.waits.append (by simp [Plain]) (fun i hi => .inl hi)⟩
      · have : (c.queue ++ c.held.toList ++ c.sends ++ toldIds c.log ++ passedIds c.log ++ [c.sent]).Perm (List.range (c.sent + 1)) := by
          rw [List.range_succ]; exact h.perm.append_right _
        refine List.Perm.trans ?_ this
        rw [List.perm_iff_count]
        intro i
        simp only [List.count_append, toldIds_append, passedIds_append, show toldIds [Ev.queued c.sent, .told c.sent .returned] = [c.sent] from rfl,
          show passedIds [Ev.queued c.sent, .told c.sent .returned] = [] from rfl, List.count_nil]
        omega
      · simp [h.born, List.range_succ]
      · simpa [openedIds_append, show openedIds [Ev.queued c.sent, .told c.sent .returned] = [] from rfl] using h.order
      · intro i hi
        simp only [openedIds_append, show openedIds [Ev.queued c.sent, .told c.sent .returned] = [] from rfl, List.append_nil] at hi
        have := h.bound i hi; simp only; omega
      · intro i; rw [h.leftOk]; simp

theorem inv_leave {c : Cl} (h : Inv c) (i : Nat) : Inv (c.leave i) := by
  unfold Cl.leave
  split
  · refine ⟨by simpa using h.perm, by simpa using h.born, by simpa using h.order,
      by simpa using h.bound, ?_, h.lawful.append _ (by simp [Plain]), h.waits.append (by simp [Plain]) (fun i hi => .inl hi)⟩
    intro j
    simp only [List.mem_cons, h.leftOk, List.mem_append, List.mem_singleton, Ev.left.injEq, List.not_mem_nil, or_false]
    exact or_comm
  · exact h

theorem plain_returnAll (l : List Nat) : ∀ e ∈ Cl.returnAll l, Plain e := by
  intro e he; simp [Cl.returnAll] at he; obtain ⟨i, _, rfl⟩ := he; trivial

theorem plain_dropHeld (o : Option Nat) : ∀ e ∈ Cl.dropHeld o, Plain e := by
  cases o <;> simp [Cl.dropHeld, Plain]

theorem ids_returnAll (l : List Nat) : toldIds (Cl.returnAll l) = l ∧ passedIds (Cl.returnAll l) = [] ∧ openedIds (Cl.returnAll l) = [] ∧
    queuedIds (Cl.returnAll l) = [] := by
  induction l with
  | nil => exact ⟨rfl, rfl, rfl, rfl⟩
  | cons a l ih =>
    obtain ⟨h1, h2, h3, h4⟩ := ih
    simp only [Cl.returnAll, toldIds, passedIds, openedIds, queuedIds] at h1 h2 h3 h4
    refine ⟨?_, ?_, ?_, ?_⟩ <;> simp [Cl.returnAll, toldIds, passedIds, openedIds, queuedIds, h1, h2, h3, h4]

theorem ids_dropHeld (o : Option Nat) : toldIds (Cl.dropHeld o) = o.toList ∧ passedIds (Cl.dropHeld o) = [] ∧ openedIds (Cl.dropHeld o) = [] ∧
    queuedIds (Cl.dropHeld o) = [] := by
  cases o <;> exact ⟨rfl, rfl, rfl, rfl⟩

theorem left_returnAll (l : List Nat) (i : Nat) : Ev.left i ∉ Cl.returnAll l := by simp [Cl.returnAll]
theorem left_dropHeld (o : Option Nat) (i : Nat) : Ev.left i ∉ Cl.dropHeld o := by cases o <;> simp [Cl.dropHeld]

theorem inv_finish {c : Cl} (h : Inv c) (e : End) : Inv (c.finish e) := by
  obtain ⟨r1, r2, r3, r4⟩ := ids_returnAll c.queue
  obtain ⟨d1, d2, d3, d4⟩ := ids_dropHeld c.held
  have hl : (c.finish e).log = c.log ++ ([.ended e] ++ Cl.returnAll c.queue ++ Cl.dropHeld c.held) := by simp [Cl.finish]
  have hplain : ∀ x ∈ [Ev.ended e] ++ Cl.returnAll c.queue ++ Cl.dropHeld c.held, Plain x := by
    intro x hx
    simp only [List.mem_append] at hx
    rcases hx with (hx | hx) | hx
    · simp at hx; subst hx; trivial
    · exact plain_returnAll _ x hx
    · exact plain_dropHeld _ x hx
  have e1 : toldIds [Ev.ended e] = [] := rfl
  have e2 : passedIds [Ev.ended e] = [] := rfl
  have e3 : openedIds [Ev.ended e] = [] := rfl
  have e4 : queuedIds [Ev.ended e] = [] := rfl
  refine ⟨?_, ?_, ?_, ?_, ?_, ?_, ?_⟩
  · refine perm_tail h.perm fun i => ?_
    rw [hl]
    simp only [Cl.finish, toldIds_append, passedIds_append, r1, r2, d1, d2, e1, e2, List.count_append, List.count_nil, Option.toList_none]
    omega
  · rw [hl]; simp only [queuedIds_append, r4, d4, e4, List.append_nil, h.born, Cl.finish]
  · rw [hl]; simp only [openedIds_append, r3, d3, e3, List.append_nil, Cl.finish]
    exact (List.pairwise_append.1 h.order).1
  · rw [hl]; simp only [openedIds_append, r3, d3, e3, List.append_nil, Cl.finish]
    exact fun i hi => h.bound i (List.mem_append_left _ hi)
  · intro i
    rw [hl]
    simp only [Cl.finish, h.leftOk, List.mem_append, left_returnAll, left_dropHeld, List.mem_singleton, or_false, reduceCtorEq]
  · rw [hl]; exact h.lawful.append _ hplain
  · rw [hl]
    refine h.waits.append hplain (fun i hi => .inr (.inr ⟨.gone, ?_⟩))
    simp [hi, Cl.dropHeld]

/-- A request's tasks are started. -/
theorem inv_start (kind : Nat → Kind) {c : Cl} (h : Inv c) {i : Nat} (hi : c.held = some i) (p : Bool) : Inv (Cl.start kind { c with held := none } i p) := by
  refine ⟨?_, ?_, ?_, ?_, ?_, h.lawful.append _ (by simp [Plain]), h.waits.append (by simp [Plain]) ?_⟩
  · refine perm_tail h.perm fun j => ?_
    simp only [Cl.start, hi, toldIds_append, passedIds_append, toldIds_cons, passedIds_cons, toldIds_nil, passedIds_nil, List.count_append, List.count_nil, Option.toList_none, Option.toList_some]
    omega
  · simpa [Cl.start] using h.born
  · simpa [Cl.start] using h.order
  · simpa [Cl.start] using h.bound
  · intro j; simp only [Cl.start, h.leftOk]; simp
  · intro j hj; rw [hi] at hj; cases hj; exact .inr (.inl (by simp))

theorem inv_take (kind : Nat → Kind) {c : Cl} (h : Inv c) {i : Nat} {q : List Nat} (hq : c.queue = i :: q) (hh : c.held = none) (t : Turn) :
    Inv (Cl.take kind c i q t).2 := by
  have hord := h.order
  rw [hq] at hord
  have hbd := h.bound
  rw [hq] at hbd
  have hperm := h.perm
  rw [hq, hh] at hperm
  have hw := h.waits
  rw [hh] at hw
  -- without opening
  have skip : ∀ e : Ev, (∀ j, e ≠ .left j) → openedIds [e] = [] → queuedIds [e] = [] → (toldIds [e] ++ passedIds [e] = [i]) → Allowed c.log e →
      Inv { c with queue := q, log := c.log ++ [e] } := by
    intro e hl ho hqd htp ha
    refine ⟨?_, ?_, ?_, ?_, ?_, h.lawful.snoc ha, ?_⟩
    · refine perm_tail hperm fun j => ?_
      have := congrArg (List.count j) htp
      simp only [List.count_append, List.count_cons, List.count_nil] at this
      simp only [toldIds_append, passedIds_append, List.count_append, hh, Option.toList_none, List.count_nil, List.count_cons]
      omega
    · simp [queuedIds_append, hqd, h.born]
    · simp only [openedIds_append, ho, List.append_nil]
      exact hord.sublist (List.Sublist.append_left (List.sublist_cons_self _ _) _)
    · simp only [openedIds_append, ho, List.append_nil]
      exact fun j hj => hbd j ((List.Sublist.append_left (List.sublist_cons_self _ _) _).subset hj)
    · intro j; simp only [h.leftOk, List.mem_append, List.mem_singleton]
      exact ⟨.inl, fun x => x.resolve_right (fun y => hl j y.symm)⟩
    · have hno : ∀ j, e ≠ .opened j := by intro j hj; subst hj; simp [openedIds] at ho
      intro a b j hab
      rcases split_append hab with ⟨b', h1, rfl⟩ | ⟨a', h1, rfl⟩
      · rcases hw a b' j h1 with h | h
        · exact .inl h.more
        · cases h
      · cases a' with
        | nil => simp at h1; exact absurd h1.1 (hno j)
        | cons x a' => simp at h1
  -- with opening
  have opn : ∀ (es : List Ev) (s p : List Nat) (hd : Option Nat), i ∉ c.left → (∀ e ∈ es, Plain e ∧ ∀ j, e ≠ .left j ∧ e ≠ .queued j) →
      (∀ j, List.count j hd.toList + List.count j s + List.count j (toldIds es) = List.count j [i] + List.count j c.sends) →
      (Settled es i ∨ hd = some i) →
      Inv { c with queue := q, held := hd, sends := s, pipes := p, log := c.log ++ .opened i :: es } := by
    intro es s p hd hi hp hc hs
    have ho : openedIds es = [] := by
      unfold openedIds; rw [List.filterMap_eq_nil_iff]; intro e he
      have := (hp e he).1; cases e <;> simp_all [Plain]
    have hqd : queuedIds es = [] := by
      unfold queuedIds; rw [List.filterMap_eq_nil_iff]; intro e he
      have := (hp e he).2; cases e with
      | queued j => exact absurd rfl (this j).2
      | _ => rfl
    have hps : passedIds es = [] := by
      unfold passedIds; rw [List.filterMap_eq_nil_iff]; intro e he
      have := (hp e he).1; cases e <;> simp_all [Plain]
    have e1 : toldIds (.opened i :: es) = toldIds es := rfl
    have e2 : passedIds (.opened i :: es) = passedIds es := rfl
    have e3 : openedIds (.opened i :: es) = i :: openedIds es := rfl
    have e4 : queuedIds (.opened i :: es) = queuedIds es := rfl
    refine ⟨?_, ?_, ?_, ?_, ?_, ?_, ?_⟩
    · refine perm_tail hperm fun j => ?_
      have := hc j
      simp only [List.count_cons, List.count_nil] at this
      simp only [toldIds_append, passedIds_append, List.count_append, e1, e2, hps, Option.toList_none, List.count_nil, List.count_cons]
      omega
    · simp only [queuedIds_append, e4, hqd, List.append_nil, h.born]
    · simp only [openedIds_append, e3, ho, List.append_assoc, List.singleton_append]; exact hord
    · simp only [openedIds_append, e3, ho, List.append_assoc, List.singleton_append]; exact hbd
    · intro j
      simp only [h.leftOk, List.mem_append, List.mem_cons, reduceCtorEq, false_or]
      exact ⟨.inl, fun x => x.resolve_right (fun y => ((hp _ y).2 j).1 rfl)⟩
    · have ha : Allowed c.log (.opened i) := by
        refine ⟨fun hl => hi ((h.leftOk i).2 hl), fun x y j hxy => ?_⟩
        rcases hw x y j hxy with h | h
        · exact h
        · cases h
      have := (h.lawful.snoc ha).append es (fun e he => (hp e he).1)
      simpa using this
    · exact hw.open (fun e he => (hp e he).1) hs
  unfold Cl.take
  by_cases hl : i ∈ c.left
  · rw [if_pos hl]
    exact skip (.passed i) (by simp) rfl rfl rfl ((h.leftOk i).1 hl)
  · rw [if_neg hl]
    by_cases hinv : (kind i).invalid = true
    · rw [if_pos hinv]
      exact skip (.told i .refused) (by simp) rfl rfl rfl trivial
    · rw [if_neg hinv]
      have hns : Inv { c with queue := q, log := c.log ++ [.opened i, .told i .notSent] } := by
        have := opn [.told i .notSent] c.sends c.pipes none hl (by simp [Plain])
          (by intro j; simp; omega) (.inl (.inr ⟨_, by simp; rfl⟩))
        rw [← hh] at this; exact this
      by_cases hs : t.sendOk = false
      · rw [if_pos hs]; exact hns
      · rw [if_neg hs]
        cases t.again with
        | pending =>
          exact opn [] c.sends c.pipes (some i) hl (by simp) (by intro j; simp) (.inr rfl)
        | ok =>
          have := opn [.started i] (c.sends ++ [i]) (if (kind i).connect || (kind i).eos || t.piped then c.pipes else c.pipes ++ [i]) none hl (by simp [Plain])
            (by intro j; simp only [toldIds_cons, toldIds_nil, List.append_nil, Option.toList_none, List.count_nil, List.count_append]; omega)
            (.inl (.inl (by simp)))
          rw [← hh] at this
          simpa [Cl.start] using this
        | err g o => exact hns

theorem inv_turn (kind : Nat → Kind) {c : Cl} (h : Inv c) (t : Turn) : Inv (Cl.turn kind c t).2 := by
  unfold Cl.turn
  cases t.ready with
  | pending => exact h
  | err g o => exact inv_finish h _
  | ok =>
    cases hh : c.held with
    | some i => exact inv_start kind h hh _
    | none =>
      cases hq : c.queue with
      | cons i q => exact inv_take kind h hq hh t
      | nil =>
        simp only
        split
        · exact inv_finish h _
        · split
          · exact h
          · exact inv_finish h _

theorem inv_pollTask (kind : Nat → Kind) : ∀ (ts : List Turn) {c : Cl}, Inv c → Inv (Cl.pollTask kind c ts) := by
  intro ts
  induction ts with
  | nil => intro c h; exact h
  | cons t ts ih =>
    intro c h
    have := inv_turn kind h t
    unfold Cl.pollTask
    revert this
    rcases Cl.turn kind c t with ⟨b, c'⟩
    cases b with
    | true => exact fun h => ih h
    | false => exact fun h => h

theorem inv_endSend {c : Cl} (h : Inv c) (i : Nat) (t : Told) : Inv (c.endSend i t) := by
  unfold Cl.endSend
  split
  · rename_i hi
    refine ⟨?_, by simpa using h.born, by simpa using h.order, by simpa using h.bound, ?_,
      h.lawful.append _ (by simp [Plain]), h.waits.append (by simp [Plain]) (fun i hi => .inl hi)⟩
    · refine perm_tail h.perm fun j => ?_
      have := (List.perm_cons_erase hi).count_eq j
      simp only [List.count_cons] at this
      simp only [toldIds_append, passedIds_append, show toldIds [Ev.told i t] = [i] from rfl, show passedIds [Ev.told i t] = [] from rfl, List.count_append,
        List.count_nil, List.count_cons]
      omega
    · intro j; rw [h.leftOk]; simp
  · exact h

theorem inv_step (kind : Nat → Kind) {c : Cl} (h : Inv c) (op : Op) : Inv (c.step kind op) := by
  cases op with
  | send => exact inv_send h
  | leave i => exact inv_leave h i
  | dropSenders => exact ⟨h.perm, h.born, h.order, h.bound, h.leftOk, h.lawful, h.waits⟩
  | pollTask ts =>
    simp only [Cl.step]
    split
    · exact inv_pollTask kind ts h
    · exact h
  | dropTask =>
    simp only [Cl.step]
    split
    · exact inv_finish h _
    · exact h
  | endSend i t => exact inv_endSend h i t
  | endPipe i =>
    simp only [Cl.step, Cl.endPipe]
    split
    · exact ⟨h.perm, h.born, h.order, h.bound, h.leftOk, h.lawful, h.waits⟩
    · exact h
  | pollConn over =>
    simp only [Cl.step, Cl.pollConn]
    split
    · exact h
    · split
      · exact ⟨by simpa using h.perm, by simpa using h.born, by simpa using h.order,
          by simpa using h.bound, by intro j; rw [h.leftOk]; simp, h.lawful.append _ (by simp [Plain]),
          h.waits.append (by simp [Plain]) (fun i hi => .inl hi)⟩
      · split
        · exact h
        · exact ⟨by simpa using h.perm, by simpa using h.born, by simpa using h.order,
            by simpa using h.bound, by intro j; rw [h.leftOk]; simp, h.lawful.append _ (by simp [Plain]),
            h.waits.append (by simp [Plain]) (fun i hi => .inl hi)⟩

theorem inv_run (kind : Nat → Kind) (ops : List Op) : ∀ {c : Cl}, Inv c → Inv (c.run kind ops) := by
  induction ops with
  | nil => intro c h; exact h
  | cons op ops ih => intro c h; exact ih (inv_step kind h op)

/-! ## The connection's task -/

structure ConnInv (c : Cl) : Prop where
  eof : c.eofTx = (c.conn && !c.dropped)
  used : c.dropped = true → c.task ≠ none ∧ c.pipes = []
  sound : c.panicked = false
  over : c.task ≠ none ↔ ∃ e, .ended e ∈ c.log
  seen : .unused ∈ c.log ↔ c.dropped = true
  shut : .closed ∈ c.log ↔ c.conn = false

theorem conn_turn (kind : Nat → Kind) {c : Cl} (h : ConnInv c) (hn : c.task = none) (t : Turn) :
    ConnInv (Cl.turn kind c t).2 ∧ ((Cl.turn kind c t).1 = true → (Cl.turn kind c t).2.task = none) := by
  have hd : c.dropped = false := by
    cases hd : c.dropped with
    | false => rfl
    | true => exact absurd hn (h.used hd).1
  have hend : ¬ ∃ e, Ev.ended e ∈ c.log := fun he => h.over.2 he hn
  have hnu : Ev.unused ∉ c.log := fun hu => by rw [h.seen.1 hu] at hd; cases hd
  have hsh := h.shut
  have heof := h.eof
  have hsd := h.sound
  have hu1 : ∀ l : List Nat, Ev.unused ∉ Cl.returnAll l := by simp [Cl.returnAll]
  have hc1 : ∀ l : List Nat, Ev.closed ∉ Cl.returnAll l := by simp [Cl.returnAll]
  have hu2 : ∀ o, Ev.unused ∉ Cl.dropHeld o := by intro o; cases o <;> simp [Cl.dropHeld]
  have hc2 : ∀ o, Ev.closed ∉ Cl.dropHeld o := by intro o; cases o <;> simp [Cl.dropHeld]
  have hfin : ∀ e, ConnInv (c.finish e) := by
    intro e
    refine ⟨heof, fun hx => ?_, hsd, ?_, ?_, ?_⟩
    · simp [Cl.finish, hd] at hx
    · simp only [Cl.finish, ne_eq, reduceCtorEq, not_false_eq_true, true_iff]; exact ⟨e, by simp⟩
    · simp [Cl.finish, hnu, hd, hu1, hu2]
    · simp [Cl.finish, hsh, hc1, hc2]
  unfold Cl.turn
  cases t.ready with
  | pending => exact ⟨h, by simp⟩
  | err g o => exact ⟨hfin _, by simp⟩
  | ok =>
    cases hh : c.held with
    | some i =>
      refine ⟨⟨heof, ?_, hsd, ?_, ?_, ?_⟩, fun _ => hn⟩
      · simp [Cl.start, hd]
      · simp [Cl.start, hn]; exact fun e he => hend ⟨e, he⟩
      · simp [Cl.start, hnu, hd]
      · simp [Cl.start, hsh]
    | none =>
      cases hq : c.queue with
      | cons i q =>
        simp only [Cl.take]
        have hend' : ∀ e, Ev.ended e ∉ c.log := fun e he => hend ⟨e, he⟩
        repeat' split
        all_goals
          refine ⟨⟨heof, ?_, hsd, ?_, ?_, ?_⟩, ?_⟩ <;> simp [Cl.start, hd, hn, hnu, hsh, hend']
      | nil =>
        simp only
        split
        · exact ⟨hfin _, by simp⟩
        · split
          · exact ⟨h, by simp⟩
          · exact ⟨hfin _, by simp⟩

theorem conn_pollTask (kind : Nat → Kind) : ∀ (ts : List Turn) {c : Cl}, ConnInv c → c.task = none → ConnInv (Cl.pollTask kind c ts) := by
  intro ts
  induction ts with
  | nil => intro c h _; exact h
  | cons t ts ih =>
    intro c h hn
    have := conn_turn kind h hn t
    unfold Cl.pollTask
    revert this
    rcases Cl.turn kind c t with ⟨b, c'⟩
    cases b with
    | true => exact fun h => ih h.1 (h.2 rfl)
    | false => exact fun h => h.1

theorem conn_step (kind : Nat → Kind) {c : Cl} (h : ConnInv c) (op : Op) : ConnInv (c.step kind op) := by
  obtain ⟨heof, hused, hsd, hover, hseen, hsh⟩ := h
  cases op with
  | send =>
    simp only [Cl.step, Cl.send]
    repeat' split
    · exact ⟨heof, hused, hsd, hover, hseen, hsh⟩
    · exact ⟨heof, hused, hsd, by simp [hover], by simp [hseen], by simp [hsh]⟩
    · exact ⟨heof, hused, hsd, by simp [hover], by simp [hseen], by simp [hsh]⟩
  | leave i =>
    simp only [Cl.step, Cl.leave]
    split
    · exact ⟨heof, hused, hsd, by simp [hover], by simp [hseen], by simp [hsh]⟩
    · exact ⟨heof, hused, hsd, hover, hseen, hsh⟩
  | dropSenders => exact ⟨heof, hused, hsd, hover, hseen, hsh⟩
  | pollTask ts =>
    simp only [Cl.step]
    split
    · rename_i hn; exact conn_pollTask kind ts ⟨heof, hused, hsd, hover, hseen, hsh⟩ hn
    · exact ⟨heof, hused, hsd, hover, hseen, hsh⟩
  | dropTask =>
    simp only [Cl.step]
    split
    · rename_i hn
      have hd : c.dropped = false := by
        cases hd : c.dropped with
        | false => rfl
        | true => exact absurd hn (hused hd).1
      have hnu : Ev.unused ∉ c.log := fun hu => by rw [hseen.1 hu] at hd; cases hd
      have hu1 : ∀ l : List Nat, Ev.unused ∉ Cl.returnAll l := by simp [Cl.returnAll]
      have hc1 : ∀ l : List Nat, Ev.closed ∉ Cl.returnAll l := by simp [Cl.returnAll]
      have hu2 : ∀ o, Ev.unused ∉ Cl.dropHeld o := by intro o; cases o <;> simp [Cl.dropHeld]
      have hc2 : ∀ o, Ev.closed ∉ Cl.dropHeld o := by intro o; cases o <;> simp [Cl.dropHeld]
      refine ⟨heof, fun hx => ?_, hsd, ?_, ?_, ?_⟩
      · simp [Cl.finish, hd] at hx
      · simp only [Cl.finish, ne_eq, reduceCtorEq, not_false_eq_true, true_iff]; exact ⟨.dropped, by simp⟩
      · simp [Cl.finish, hnu, hd, hu1, hu2]
      · simp [Cl.finish, hsh, hc1, hc2]
    · exact ⟨heof, hused, hsd, hover, hseen, hsh⟩
  | endSend i t =>
    simp only [Cl.step, Cl.endSend]
    split
    · exact ⟨heof, hused, hsd, by simp [hover], by simp [hseen], by simp [hsh]⟩
    · exact ⟨heof, hused, hsd, hover, hseen, hsh⟩
  | endPipe i =>
    simp only [Cl.step, Cl.endPipe]
    split
    · exact ⟨heof, fun hx => by obtain ⟨h1, h2⟩ := hused hx; exact ⟨h1, by simp [h2]⟩, hsd, hover, hseen, hsh⟩
    · exact ⟨heof, hused, hsd, hover, hseen, hsh⟩
  | pollConn over =>
    simp only [Cl.step, Cl.pollConn]
    split
    · exact ⟨heof, hused, hsd, hover, hseen, hsh⟩
    · rename_i hc
      simp only [Bool.not_eq_false] at hc
      split
      · exact ⟨by simp, hused, hsd, by simp [hover], by simp [hseen], by simp⟩
      · split
        · exact ⟨heof, hused, hsd, hover, hseen, hsh⟩
        · rename_i hu
          simp only [Cl.inUse, Bool.or_eq_true, not_or, Bool.not_eq_true, Option.isNone_eq_false_iff, Bool.not_eq_false', List.isEmpty_iff] at hu
          obtain ⟨hd, ht, hp⟩ := hu
          refine ⟨by simp, fun _ => ⟨by rw [← Option.isSome_iff_ne_none]; exact ht, hp⟩, ?_, by simp [hover], by simp, by simp [hsh]⟩
          simp [hsd, heof, hc, hd]

theorem conn_new : ConnInv {} := ⟨rfl, by simp, rfl, by simp, by simp, by simp⟩

theorem conn_run (kind : Nat → Kind) (ops : List Op) : ∀ {c : Cl}, ConnInv c → ConnInv (c.run kind ops) := by
  induction ops with
  | nil => intro c h; exact h
  | cons op ops ih => intro c h; exact ih (conn_step kind h op)

/-- A `ClientTask` that has ended holds nothing. -/
theorem ended_empty (kind : Nat → Kind) (ops : List Op) (ht : (({} : Cl).run kind ops).task ≠ none) :
    (({} : Cl).run kind ops).queue = [] ∧ (({} : Cl).run kind ops).held = none := by
  suffices h : ∀ (ops : List Op) (c : Cl), (c.task ≠ none → c.queue = [] ∧ c.held = none) → (c.run kind ops).task ≠ none →
      (c.run kind ops).queue = [] ∧ (c.run kind ops).held = none from h ops {} (by simp) ht
  intro ops
  induction ops with
  | nil => intro c h ht; exact h ht
  | cons op ops ih =>
    intro c h ht
    refine ih (c.step kind op) ?_ ht
    have hpt : ∀ (ts : List Turn) (c : Cl), c.task = none → (Cl.pollTask kind c ts).task ≠ none → (Cl.pollTask kind c ts).queue = [] ∧ (Cl.pollTask kind c ts).held = none := by
      intro ts
      induction ts with
      | nil => intro c hn hx; exact absurd hn hx
      | cons t ts ih =>
        intro c hn
        have key : ((Cl.turn kind c t).2.task ≠ none → (Cl.turn kind c t).2.queue = [] ∧ (Cl.turn kind c t).2.held = none) ∧
            ((Cl.turn kind c t).1 = true → (Cl.turn kind c t).2.task = none) := by
          unfold Cl.turn Cl.take
          repeat' split
          all_goals simp [Cl.finish, Cl.start, hn]
        unfold Cl.pollTask
        revert key
        rcases Cl.turn kind c t with ⟨b, c'⟩
        cases b with
        | true => exact fun h => ih c' (h.2 rfl)
        | false => exact fun h => h.1
    cases op with
    | send =>
      simp only [Cl.step, Cl.send]
      repeat' split
      · exact h
      · rename_i hn; intro hx; exact absurd hn hx
      · exact h
    | leave i => simp only [Cl.step, Cl.leave]; split <;> exact h
    | dropSenders => exact h
    | pollTask ts =>
      simp only [Cl.step]
      split
      · rename_i hn; exact hpt ts c hn
      · exact h
    | dropTask =>
      simp only [Cl.step]
      split
      · intro _; exact ⟨rfl, rfl⟩
      · exact h
    | endSend i t => simp only [Cl.step, Cl.endSend]; split <;> exact h
    | endPipe i => simp only [Cl.step, Cl.endPipe]; split <;> exact h
    | pollConn over => simp only [Cl.step, Cl.pollConn]; (repeat' split) <;> exact h

/-! ## A connection without errors -/

/-- The request was given to h2, or passed over, or refused. -/
def Dealt (log : List Ev) (i : Nat) : Prop := .opened i ∈ log ∨ .passed i ∈ log ∨ .told i .refused ∈ log

/-- When the `ClientTask` ends it ends well, and all requests were dealt with. -/
def EndsWell (log : List Ev) : Prop := ∀ a e b, log = a ++ .ended e :: b → e = .shutdown ∧ ∀ i, .queued i ∈ a → Dealt a i

/-- h2 reports no error, and the task is not dropped. -/
def Op.calm : Op → Prop
  | .pollTask ts => ∀ t ∈ ts, t.ready = .pending ∨ t.ready = .ok
  | .dropTask => False
  | _ => True

structure CalmInv (c : Cl) : Prop where
  kept : c.task = none → ∀ i, .queued i ∈ c.log → i ∈ c.queue ∨ Dealt c.log i
  ends : EndsWell c.log

theorem Dealt.more {a b : List Ev} {i : Nat} (h : Dealt a i) : Dealt (a ++ b) i := by
  rcases h with h | h | h
  · exact .inl (by simp [h])
  · exact .inr (.inl (by simp [h]))
  · exact .inr (.inr (by simp [h]))

theorem EndsWell.append {log es : List Ev} (h : EndsWell log) (he : ∀ e, .ended e ∉ es) : EndsWell (log ++ es) := by
  intro a e b hab
  rcases split_append hab with ⟨b', h1, rfl⟩ | ⟨a', h1, rfl⟩
  · exact h a e b' h1
  · exact absurd (show Ev.ended e ∈ es by rw [h1]; simp) (he e)

theorem CalmInv.note {c c' : Cl} (h : CalmInv c) {es : List Ev} (hl : c'.log = c.log ++ es) (ht : c'.task = c.task) (he : ∀ e, .ended e ∉ es)
    (hq : ∀ i, i ∈ c.queue → i ∈ c'.queue ∨ Dealt es i) (hn : ∀ i, .queued i ∈ es → i ∈ c'.queue ∨ c.task ≠ none) : CalmInv c' := by
  refine ⟨fun hn' i hi => ?_, by rw [hl]; exact h.ends.append he⟩
  rw [ht] at hn'
  rw [hl] at hi ⊢
  rcases List.mem_append.1 hi with hi | hi
  · rcases h.kept hn' i hi with hi | hi
    · rcases hq i hi with hi | hi
      · exact .inl hi
      · right
        rcases hi with hi | hi | hi
        · exact .inl (by simp [hi])
        · exact .inr (.inl (by simp [hi]))
        · exact .inr (.inr (by simp [hi]))
    · exact .inr hi.more
  · rcases hn i hi with hi | hi
    · exact .inl hi
    · exact absurd hn' hi

theorem calm_finish {c : Cl} (h : CalmInv c) (hn : c.task = none) (hq : c.queue = []) : CalmInv (c.finish .shutdown) := by
  refine ⟨fun hx => by simp [Cl.finish] at hx, ?_⟩
  have h1 : EndsWell (c.log ++ [.ended .shutdown]) := by
    intro a e b hab
    rcases split_append hab with ⟨b', h1, rfl⟩ | ⟨a', h1, rfl⟩
    · exact h.ends a e b' h1
    · cases a' with
      | cons x a' => simp at h1
      | nil =>
        simp at h1
        obtain ⟨rfl, rfl⟩ := h1
        refine ⟨rfl, fun i hi => ?_⟩
        rw [List.append_nil] at hi ⊢
        rcases h.kept hn i hi with hi | hi
        · rw [hq] at hi; cases hi
        · exact hi
  have := (h1.append (es := Cl.returnAll c.queue) (by simp [Cl.returnAll])).append (es := Cl.dropHeld c.held) (by cases c.held <;> simp [Cl.dropHeld])
  simpa [Cl.finish] using this

theorem calm_turn (kind : Nat → Kind) {c : Cl} (h : CalmInv c) (hn : c.task = none) {t : Turn} (ht : t.ready = .pending ∨ t.ready = .ok) :
    CalmInv (Cl.turn kind c t).2 ∧ ((Cl.turn kind c t).1 = true → (Cl.turn kind c t).2.task = none) := by
  unfold Cl.turn
  rcases ht with ht | ht
  · rw [ht]; exact ⟨h, by simp⟩
  · rw [ht]
    cases hh : c.held with
    | some i =>
      exact ⟨h.note (es := [.started i]) rfl rfl (by simp) (fun j hj => .inl hj) (by simp), fun _ => hn⟩
    | none =>
      cases hq : c.queue with
      | cons i q =>
        simp only [Cl.take]
        repeat' split
        · exact ⟨h.note (es := [.passed i]) rfl rfl (by simp) (fun j hj => by rw [hq] at hj; simp at hj; rcases hj with rfl | hj; · exact .inr (.inr (.inl (by simp)))
                                                                              · exact .inl hj) (by simp), fun _ => hn⟩
        · exact ⟨h.note (es := [.told i .refused]) rfl rfl (by simp) (fun j hj => by rw [hq] at hj; simp at hj; rcases hj with rfl | hj; · exact .inr (.inr (.inr (by simp)))
                                                                                     · exact .inl hj) (by simp), fun _ => hn⟩
        · exact ⟨h.note (es := [.opened i, .told i .notSent]) rfl rfl (by simp) (fun j hj => by rw [hq] at hj; simp at hj; rcases hj with rfl | hj; · exact .inr (.inl (by simp))
                                                                                                · exact .inl hj) (by simp), fun _ => hn⟩
        · exact ⟨h.note (es := [.opened i]) rfl rfl (by simp) (fun j hj => by rw [hq] at hj; simp at hj; rcases hj with rfl | hj; · exact .inr (.inl (by simp))
                                                                              · exact .inl hj) (by simp), by simp⟩
        · exact ⟨h.note (es := [.opened i, .started i]) (by simp [Cl.start]) rfl (by simp) (fun j hj => by rw [hq] at hj; simp at hj; rcases hj with rfl | hj; · exact .inr (.inl (by simp))
                                                                                                           · exact .inl hj) (by simp), fun _ => hn⟩
        · exact ⟨h.note (es := [.opened i, .told i .notSent]) rfl rfl (by simp) (fun j hj => by rw [hq] at hj; simp at hj; rcases hj with rfl | hj; · exact .inr (.inl (by simp))
                                                                                                · exact .inl hj) (by simp), fun _ => hn⟩
      | nil =>
        simp only
        split
        · exact ⟨calm_finish h hn hq, by simp⟩
        · split
          · exact ⟨h, by simp⟩
          · exact ⟨calm_finish h hn hq, by simp⟩

theorem calm_pollTask (kind : Nat → Kind) : ∀ (ts : List Turn) {c : Cl}, CalmInv c → c.task = none → (∀ t ∈ ts, t.ready = .pending ∨ t.ready = .ok) →
    CalmInv (Cl.pollTask kind c ts) := by
  intro ts
  induction ts with
  | nil => intro c h _ _; exact h
  | cons t ts ih =>
    intro c h hn hts
    have := calm_turn kind h hn (hts t (by simp))
    unfold Cl.pollTask
    revert this
    rcases Cl.turn kind c t with ⟨b, c'⟩
    cases b with
    | true => exact fun h => ih h.1 (h.2 rfl) (fun t ht => hts t (by simp [ht]))
    | false => exact fun h => h.1

theorem calm_step (kind : Nat → Kind) {c : Cl} (h : CalmInv c) {op : Op} (hc : op.calm) : CalmInv (c.step kind op) := by
  cases op with
  | send =>
    simp only [Cl.step, Cl.send]
    repeat' split
    · exact h
    · exact h.note (es := [.queued c.sent]) rfl rfl (by simp) (fun j hj => .inl (by simp [hj])) (by simp)
    · rename_i hn
      exact h.note (es := [.queued c.sent, .told c.sent .returned]) rfl rfl (by simp) (fun j hj => .inl hj) (fun _ _ => .inr hn)
  | leave i =>
    simp only [Cl.step, Cl.leave]
    split
    · exact h.note (es := [.left i]) rfl rfl (by simp) (fun j hj => .inl hj) (by simp)
    · exact h
  | dropSenders => exact ⟨h.kept, h.ends⟩
  | pollTask ts =>
    simp only [Cl.step]
    split
    · rename_i hn; exact calm_pollTask kind ts h hn hc
    · exact h
  | dropTask => exact hc.elim
  | endSend i t =>
    simp only [Cl.step, Cl.endSend]
    split
    · exact h.note (es := [.told i t]) rfl rfl (by simp) (fun j hj => .inl hj) (by simp)
    · exact h
  | endPipe i =>
    simp only [Cl.step, Cl.endPipe]
    split
    · exact ⟨h.kept, h.ends⟩
    · exact h
  | pollConn over =>
    simp only [Cl.step, Cl.pollConn]
    repeat' split
    · exact h
    · exact h.note (es := [.closed]) rfl rfl (by simp) (fun j hj => .inl hj) (by simp)
    · exact h
    · exact h.note (es := [.unused]) rfl rfl (by simp) (fun j hj => .inl hj) (by simp)

theorem calm_run (kind : Nat → Kind) (ops : List Op) : ∀ {c : Cl}, CalmInv c → (∀ op ∈ ops, op.calm) → CalmInv (c.run kind ops) := by
  induction ops with
  | nil => intro c h _; exact h
  | cons op ops ih => intro c h ho; exact ih (calm_step kind h (ho op (by simp))) (fun op h => ho op (by simp [h]))

/-! ## The end of the task -/

/-- How many turns it may take. -/
def backlog (c : Cl) : Nat := 2 * c.queue.length + c.held.toList.length

theorem turn_ends (kind : Nat → Kind) {c : Cl} (hn : c.task = none) (he : c.eofTx = false) {t : Turn} (ht : t.ready = .ok) (ha : t.again ≠ .pending) :
    ((Cl.turn kind c t).1 = false → (Cl.turn kind c t).2.task ≠ none) ∧
    ((Cl.turn kind c t).1 = true → (Cl.turn kind c t).2.task = none ∧ (Cl.turn kind c t).2.eofTx = false ∧ backlog (Cl.turn kind c t).2 < backlog c) := by
  unfold Cl.turn
  rw [ht]
  cases hh : c.held with
  | some i => simp [Cl.start, hn, he, backlog, hh]
  | none =>
    cases hq : c.queue with
    | cons i q =>
      simp only [Cl.take]
      repeat' split
      all_goals simp_all [Cl.start, backlog]
    | nil =>
      simp only [he]
      split <;> simp [Cl.finish]

theorem pollTask_ends (kind : Nat → Kind) : ∀ (ts : List Turn) (c : Cl), c.task = none → c.eofTx = false → (∀ t ∈ ts, t.ready = .ok ∧ t.again ≠ .pending) →
    backlog c < ts.length → (Cl.pollTask kind c ts).task ≠ none := by
  intro ts
  induction ts with
  | nil => intro c _ _ _ hb; simp at hb
  | cons t ts ih =>
    intro c hn he ht hb
    have := turn_ends kind hn he (ht t (by simp)).1 (ht t (by simp)).2
    unfold Cl.pollTask
    revert this
    rcases Cl.turn kind c t with ⟨b, c'⟩
    cases b with
    | false => exact fun h => h.1 rfl
    | true =>
      intro h
      obtain ⟨h1, h2, h3⟩ := h.2 rfl
      simp only [List.length_cons] at hb
      exact ih c' h1 h2 (fun t' ht' => ht t' (by simp [ht'])) (by simp only at h3; omega)

end H2Conn

open H2Conn

/-! ## The theorems -/

/-- Whatever h2, the callers, the bodies and the runtime do: every request made is in exactly one place: in the channel, waiting to be opened, waiting for its
response, answered (told once), or passed over. -/
theorem C79_once (kind : Nat → Kind) (ops : List Op) :
    (((({} : Cl).run kind ops).queue ++ (({} : Cl).run kind ops).held.toList ++ (({} : Cl).run kind ops).sends ++
        toldIds (({} : Cl).run kind ops).log ++ passedIds (({} : Cl).run kind ops).log).Perm (queuedIds (({} : Cl).run kind ops).log)) ∧
    (queuedIds (({} : Cl).run kind ops).log).Nodup := by
  have h := inv_run kind ops inv_new
  rw [h.born]
  exact ⟨h.perm, List.nodup_range⟩

/-- So when the `ClientTask` has ended and no response is waited for, every caller that is still waiting was told, once. -/
theorem C79_all_told (kind : Nat → Kind) (ops : List Op) (ht : (({} : Cl).run kind ops).task ≠ none) (hs : (({} : Cl).run kind ops).sends = []) (i : Nat)
    (hi : .queued i ∈ (({} : Cl).run kind ops).log) (hl : .left i ∉ (({} : Cl).run kind ops).log) :
    List.count i (toldIds (({} : Cl).run kind ops).log) = 1 := by
  have h := inv_run kind ops inv_new
  obtain ⟨h1, h2⟩ := C79_once kind ops
  have hqh : (({} : Cl).run kind ops).queue = [] ∧ (({} : Cl).run kind ops).held = none := ended_empty kind ops ht
  rw [hqh.1, hqh.2, hs] at h1
  simp only [List.nil_append, Option.toList_none] at h1
  have hc := h1.count_eq i
  have hm : i ∈ queuedIds (({} : Cl).run kind ops).log := List.mem_filterMap.2 ⟨_, hi, rfl⟩
  rw [h2.count, if_pos hm, List.count_append] at hc
  have hp : List.count i (passedIds (({} : Cl).run kind ops).log) = 0 := by
    rw [List.count_eq_zero]
    intro hp
    obtain ⟨e, he, hei⟩ := List.mem_filterMap.1 hp
    cases e <;> simp at hei
    subst hei
    obtain ⟨a, b, hab⟩ := List.append_of_mem he
    have := h.lawful a _ b hab
    exact hl (by rw [hab]; simp only [Allowed] at this; simp [this])
  omega

/-- Requests are given to h2 in the order they were made, each at most once; none whose caller had left before; and none while an earlier one still waits to
be opened.  A request is passed over only if its caller has left. -/
theorem C79_order (kind : Nat → Kind) (ops : List Op) :
    (openedIds (({} : Cl).run kind ops).log).Pairwise (· < ·) ∧ Lawful (({} : Cl).run kind ops).log := by
  have h := inv_run kind ops inv_new
  exact ⟨(List.pairwise_append.1 h.order).1, h.lawful⟩

/-- As long as h2 reports no error and the task is not dropped, the `ClientTask` ends only in good order, and not before all requests made so far were given to h2, refused, or
passed over: dropping the last sender loses none. -/
theorem C79_served (kind : Nat → Kind) (ops : List Op) (hc : ∀ op ∈ ops, op.calm) : EndsWell (({} : Cl).run kind ops).log :=
  (calm_run kind ops ⟨by simp, by intro a e b h; cases a <;> cases h⟩ hc).ends

/-- The `ConnTask` learns that the connection is not used any more only when the `ClientTask` has ended and no body is being sent, and from then on none
is; its `expect` does not fail. -/
theorem C79_unused (kind : Nat → Kind) (ops : List Op) :
    (({} : Cl).run kind ops).panicked = false ∧
    (.unused ∈ (({} : Cl).run kind ops).log → (∃ e, .ended e ∈ (({} : Cl).run kind ops).log) ∧ (({} : Cl).run kind ops).pipes = []) := by
  have h := conn_run kind ops conn_new
  refine ⟨h.sound, fun hu => ?_⟩
  obtain ⟨h1, h2⟩ := h.used (h.seen.1 hu)
  exact ⟨h.over.1 h1, h2⟩

/-- And it learns it with the next poll. -/
theorem C79_notified (kind : Nat → Kind) (ops : List Op) (he : ∃ e, .ended e ∈ (({} : Cl).run kind ops).log) (hp : (({} : Cl).run kind ops).pipes = [])
    (hc : .closed ∉ (({} : Cl).run kind ops).log) : .unused ∈ ((({} : Cl).run kind ops).step kind (.pollConn false)).log := by
  have h := conn_run kind ops conn_new
  have hcn : (({} : Cl).run kind ops).conn = true := by
    cases hx : (({} : Cl).run kind ops).conn with
    | true => rfl
    | false => exact absurd (h.shut.2 hx) hc
  have ht := Option.isSome_iff_ne_none.2 (h.over.2 he)
  by_cases hd : (({} : Cl).run kind ops).dropped = true
  · simp only [Cl.step, Cl.pollConn, hcn, hd]; simpa using h.seen.2 hd
  · simp only [Bool.not_eq_true] at hd
    have hnone : (({} : Cl).run kind ops).task.isNone = false := by simpa using ht
    simp [Cl.step, Cl.pollConn, hcn, hd, Cl.inUse, hnone, hp]

/-- Once the connection is over the `ClientTask` ends with its next poll, as soon as h2 lets it go through what is left in the channel. -/
theorem C79_eof (kind : Nat → Kind) (ops : List Op) (hc : .closed ∈ (({} : Cl).run kind ops).log) (ts : List Turn)
    (ht : ∀ t ∈ ts, t.ready = .ok ∧ t.again ≠ .pending) (hl : backlog (({} : Cl).run kind ops) < ts.length) :
    ∃ e, .ended e ∈ ((({} : Cl).run kind ops).step kind (.pollTask ts)).log := by
  have h := conn_run kind ops conn_new
  have h' := conn_step kind h (.pollTask ts)
  refine h'.over.1 ?_
  simp only [Cl.step]
  split
  · rename_i hn
    exact pollTask_ends kind ts _ hn (by rw [h.eof, h.shut.1 hc]; rfl) ht hl
  · assumption

/-! ## Examples -/

/-- Three requests: the second is left before it is taken; the first has a body that takes time. -/
def exCalls : List Op := [.send, .send, .leave 1, .send, .pollTask [{ ready := .ok }, { ready := .ok }, { ready := .ok, again := .pending }], .dropSenders,
  .pollTask [{ ready := .ok, piped := true }, { ready := .ok }], .endSend 0 .response, .pollConn false, .endPipe 0, .pollConn false, .endSend 2 .failed]

example : (({} : Cl).run (fun _ => {}) exCalls).log =
    [.queued 0, .queued 1, .left 1, .queued 2, .opened 0, .started 0, .passed 1, .opened 2, .started 2, .ended .shutdown, .told 0 .response, .unused,
     .told 2 .failed] := by decide +kernel

example : ∀ op ∈ exCalls, op.calm := by simp [exCalls, Op.calm]

end Hyper
