import Verif.Spec.OnUpgrade
import Verif.Props.H1Upgrade

/-!
# C80: whoever waits for an upgrade of an HTTP/1 connection learns what became of it
-/

namespace Hyper

open Spec

namespace Waiting

open HandOver

/-! ## The connection's flag -/

theorem up_ready (env : EncodeEnv) (d : Disp) (i : ReadIn) :
    (d.readHeadReady env i).conn.upgrade = (d.conn.upgrade ||
      (d.conn.pollReadHead env i.t0 i.t1 i.parse i.notify d.headId).1.wants) := by
  by_cases h : ∀ m, i.parse = .msg m → m.wantsUpgrade = false
  · rw [up_readHead env d i h]
    have : (d.conn.pollReadHead env i.t0 i.t1 i.parse i.notify d.headId).1.wants = false := by
      unfold Conn.pollReadHead
      cases hp : i.parse with
      | pending => simp only; split <;> rfl
      | error e r h2 =>
        simp only [Conn.onReadHeadError, Conn.onParseError]
        (repeat' split) <;> rfl
      | msg m => exact h m hp
    rw [this, Bool.or_false]
  · obtain ⟨m, hm⟩ := Classical.not_forall.1 h
    obtain ⟨hp, hw⟩ := Classical.not_imp.1 hm
    have hw : m.wantsUpgrade = true := by simpa using hw
    have en : ∀ x : Disp, (x.newBody m).conn = x.conn := by intro x; unfold Disp.newBody; split <;> rfl
    unfold Disp.readHeadReady Conn.pollReadHead
    simp only [hp, Disp.afterHead, Disp.recvHead, hw, Bool.or_true, HeadOut.wants]
    repeat' split
    all_goals first
      | rfl
      | (rw [up_fail])

theorem up_asks (env : EncodeEnv) (P : TrailerParser) (d : Disp) (i : ReadIn) :
    (d.step env P (.read i)).conn.upgrade = (d.conn.upgrade || d.asks env i) := by
  simp only [Disp.step]
  unfold Disp.asks Disp.parses
  split
  · rename_i h; simp [h]
  · rename_i h
    unfold Disp.readTurn
    split
    · rename_i h2; simp [h2]
    · rename_i h2
      split
      · rename_i h3
        have e := up_ready env d i
        unfold Disp.readHead
        split
        · rename_i n hn
          split
          · rename_i hc
            split
            · rename_i hr; rw [e]; simp [h, h2, h3, hc, hn, hr]
            · rename_i hr; simp only [hr]; simp [h, h2, h3, hc, hn]; rfl
          · rename_i hc; simp [hc, hn]
        · rename_i hn
          split
          · rename_i hc; simp [hc, hn]; rfl
          · rename_i hc; rw [e]; simp [h, h2, h3, hc, hn]
      · rename_i h3
        have : (d.conn.canReadHead) = false := by simpa using h3
        simp only [this, Bool.and_false, Bool.false_and, Bool.or_false]
        split
        · exact up_readBody ..
        · unfold Disp.readIdle Conn.pollReadKeepAlive Conn.requireEmpty Conn.midMessageEof
          simp only
          repeat' split
          all_goals first | rfl | exact up_fail _

/-! ## The specification, event by event -/

theorem sinceAsk_snoc (e : UpEv) : ∀ (k : Nat) (l : List UpEv), sinceAsk k (l ++ [e]) =
    match sinceAsk k l with
    | some t => some (t ++ [e])
    | none => if e = .asked ∧ l.count .asked = k then some [] else none := by
  intro k l
  induction l generalizing k with
  | nil =>
    cases e <;> cases k <;> simp [sinceAsk]
  | cons x t ih =>
    cases x with
    | asked =>
      cases k with
      | zero => simp [sinceAsk]
      | succ k => simp only [List.cons_append, sinceAsk, ih, List.count_cons_self, Nat.add_right_cancel_iff]
    | over r => simp only [List.cons_append, sinceAsk, ih]; simp
    | gone => simp only [List.cons_append, sinceAsk, ih]; simp
    | polled j r => simp only [List.cons_append, sinceAsk, ih]; simp

theorem fate_snoc (u : Bool) (e : UpEv) (l : List UpEv) : fate u (l ++ [e]) = match fate u l with | some a => some a | none => fate u [e] := by
  induction l with
  | nil => simp [fate]
  | cons x t ih =>
    cases x with
    | asked => simp [fate]
    | over r => cases r <;> simp only [List.cons_append, fate, ih]
    | gone => simp [fate]
    | polled j r => simp only [List.cons_append, fate, ih]

theorem sinceAsk_some {k : Nat} {l : List UpEv} : (sinceAsk k l).isSome = decide (k < l.count .asked) := by
  induction l generalizing k with
  | nil => simp [sinceAsk]
  | cons x t ih =>
    cases x with
    | asked =>
      cases k with
      | zero => simp [sinceAsk]
      | succ k => simp only [sinceAsk, ih, List.count_cons_self, Nat.add_lt_add_iff_right]
    | over r => simp only [sinceAsk, ih]; simp
    | gone => simp only [sinceAsk, ih]; simp
    | polled j r => simp only [sinceAsk, ih]; simp

/-- An event other than a head that asks. -/
theorem outcome_other (u : Bool) (e : UpEv) (he : e ≠ .asked) (l : List UpEv) (k : Nat) (hk : k < l.count .asked) :
    outcome u (l ++ [e]) k = match outcome u l k with | some a => some a | none => fate u [e] := by
  unfold outcome
  rw [sinceAsk_snoc]
  have := sinceAsk_some (k := k) (l := l)
  rw [decide_eq_true hk] at this
  obtain ⟨t, ht⟩ := Option.isSome_iff_exists.1 this
  rw [ht]
  simp only [Option.bind_some]
  exact fate_snoc u e t

theorem outcome_asked (u : Bool) (l : List UpEv) (k : Nat) (hk : k < l.count .asked) :
    outcome u (l ++ [.asked]) k = some ((outcome u l k).getD .canceled) := by
  unfold outcome
  rw [sinceAsk_snoc]
  have := sinceAsk_some (k := k) (l := l)
  rw [decide_eq_true hk] at this
  obtain ⟨t, ht⟩ := Option.isSome_iff_exists.1 this
  rw [ht]
  simp only [Option.bind_some, fate_snoc]
  cases fate u t <;> rfl

theorem outcome_new (u : Bool) (l : List UpEv) : outcome u (l ++ [.asked]) (l.count .asked) = none := by
  unfold outcome
  rw [sinceAsk_snoc]
  have := sinceAsk_some (k := l.count .asked) (l := l)
  rw [decide_eq_false (by omega)] at this
  rw [Option.isSome_eq_false_iff, Option.isNone_iff_eq_none] at this
  rw [this]
  simp [fate]

theorem gave_snoc (l : List UpEv) (e : UpEv) (k : Nat) :
    gave (l ++ [e]) k = (gave l k || match e with | .polled j (.ready _) => j == k | _ => false) := by
  simp only [gave, List.any_append, List.any_cons, List.any_nil, Bool.or_false]
  rfl

/-! ## The invariant -/

structure Inv (c : UpConn) : Prop where
  /-- There is a channel for each head that asked. -/
  count : c.cells.length = c.log.count .asked
  /-- It holds what the specification says. -/
  sent : ∀ k x, c.cells[k]? = some x → x.sent = outcome c.upgradeable c.log k
  taken : ∀ k x, c.cells[k]? = some x → x.taken = gave c.log k
  /-- The only open one is that of the connection. -/
  open_ : ∀ k x, c.cells[k]? = some x → (x.sent = none ↔ c.pend = some k)
  last : ∀ k, c.pend = some k → k + 1 = c.cells.length
  flag : c.here = true → c.disp.done = false → c.pend.isSome = c.disp.conn.upgrade
  away : c.here = false → c.pend = none
  polls : ∀ k r, .polled k r ∈ c.log → k < c.cells.length
  truth : ∀ a k r b, c.log = a ++ .polled k r :: b → r = pollOf c.upgradeable a k
  handed : ∀ k x, c.cells[k]? = some x → x.sent = some .handed → c.here = false ∧ c.upgradeable = true ∧ k + 1 = c.cells.length

theorem Inv.len {c : UpConn} (h : Inv c) {k : Nat} {x : UpCell} (hk : c.cells[k]? = some x) : k < c.log.count .asked := by
  rw [← h.count]; exact (List.getElem?_eq_some_iff.1 hk).1

/-- What sending does to the channels. -/
theorem send_get {c : UpConn} (h : ∀ k x, c.cells[k]? = some x → (x.sent = none ↔ c.pend = some k)) (a : UpAns) {k : Nat} {y : UpCell}
    (hk : (c.send a).cells[k]? = some y) :
    ∃ x, c.cells[k]? = some x ∧ y.taken = x.taken ∧ y.sent = some (x.sent.getD a) ∧ (x.sent = none → c.pend = some k) := by
  unfold UpConn.send at hk
  split at hk
  · rename_i j hj
    rw [List.getElem?_modify] at hk
    cases hx : c.cells[k]? with
    | none => rw [hx] at hk; cases hk
    | some x =>
      rw [hx] at hk
      have ho := h k x hx
      by_cases e : j = k
      · subst e
        simp only [if_true, Option.map_eq_map, Option.map_some, Option.some.injEq] at hk
        refine ⟨x, rfl, by rw [← hk], ?_, ho.1⟩
        rw [ho.2 hj, ← hk]; rfl
      · simp only [e, if_false, Option.map_eq_map, Option.map_some, Option.some.injEq] at hk
        subst hk
        refine ⟨_, rfl, rfl, ?_, ho.1⟩
        cases hs : x.sent with
        | none => exact absurd (Option.some.inj (hj.symm.trans (ho.1 hs))) e
        | some b => rfl
  · rename_i hj
    have ho := h k y hk
    refine ⟨y, hk, rfl, ?_, ho.1⟩
    cases hs : y.sent with
    | none => rw [hj] at ho; exact absurd (ho.1 hs) (by simp)
    | some b => rfl

theorem send_len (c : UpConn) (a : UpAns) : (c.send a).cells.length = c.cells.length := by
  unfold UpConn.send; split
  · exact List.length_modify ..
  · rfl

theorem send_pend (c : UpConn) (a : UpAns) : (c.send a).pend = none := by
  unfold UpConn.send; split
  · rfl
  · assumption

theorem send_rest (c : UpConn) (a : UpAns) :
    (c.send a).upgradeable = c.upgradeable ∧ (c.send a).log = c.log ∧ (c.send a).here = c.here ∧ (c.send a).disp = c.disp := by
  unfold UpConn.send; split <;> exact ⟨rfl, rfl, rfl, rfl⟩

/-- The connection alone moves, and its flag stays. -/
theorem inv_disp {c : UpConn} (h : Inv c) (d : Disp) (hf : d.done = false → c.disp.done = false ∧ d.conn.upgrade = c.disp.conn.upgrade) :
    Inv { c with disp := d } :=
  ⟨h.count, h.sent, h.taken, h.open_, h.last,
    fun h1 h2 => by
      obtain ⟨g1, g2⟩ := hf h2
      rw [show Disp.conn _ = d.conn from rfl, g2]
      exact h.flag h1 g1, h.away, h.polls, h.truth, h.handed⟩

theorem gave_new (l : List UpEv) (k : Nat) (h : ∀ j r, .polled j r ∈ l → j ≠ k) : gave l k = false := by
  unfold gave
  rw [List.any_eq_false]
  intro e he
  cases e with
  | polled j r =>
    cases r with
    | ready a => simp only [beq_iff_eq]; exact h j _ he
    | _ => simp
  | _ => simp

theorem truth_snoc {u : Bool} {l : List UpEv} {e : UpEv} (h : ∀ a k r b, l = a ++ .polled k r :: b → r = pollOf u a k)
    (he : ∀ k r, e = .polled k r → r = pollOf u l k) : ∀ a k r b, l ++ [e] = a ++ .polled k r :: b → r = pollOf u a k := by
  intro a k r b hl
  rcases List.eq_nil_or_concat b with hb | ⟨b', x, hb⟩
  · subst hb
    obtain ⟨h1, h2⟩ := List.append_inj' hl rfl
    subst h1
    exact he k r (List.cons.inj h2).1
  · subst hb
    rw [List.concat_eq_append, ← List.cons_append, ← List.append_assoc] at hl
    exact h a k r b' (List.append_inj' hl rfl).1

theorem polls_snoc {n m : Nat} {l : List UpEv} {e : UpEv} (h : ∀ k r, .polled k r ∈ l → k < n) (hn : n ≤ m)
    (he : ∀ k r, e = .polled k r → k < m) : ∀ k r, .polled k r ∈ l ++ [e] → k < m := by
  intro k r hk
  rcases List.mem_append.1 hk with hk | hk
  · exact Nat.lt_of_lt_of_le (h k r hk) hn
  · exact he k r (List.mem_singleton.1 hk).symm

/-- A head asks. -/
theorem inv_ask {c : UpConn} (h : Inv c) (hh : c.here = true) (d : Disp) (hd : d.done = false → d.conn.upgrade = true) : Inv { c.ask with disp := d } := by
  obtain ⟨r1, r2, r3, r4⟩ := send_rest c .canceled
  have hl : c.ask.cells.length = c.cells.length + 1 := by simp [UpConn.ask, send_len]
  have hg : ∀ k x, c.ask.cells[k]? = some x → (k = c.cells.length ∧ x = {}) ∨
      (k < c.cells.length ∧ (c.send .canceled).cells[k]? = some x) := by
    intro k x hx
    simp only [UpConn.ask] at hx
    rw [List.getElem?_append, send_len] at hx
    split at hx
    · rename_i hk; exact .inr ⟨hk, hx⟩
    · rename_i hk
      left
      obtain ⟨h1, h2⟩ := List.getElem?_eq_some_iff.1 hx
      simp only [List.length_singleton] at h1
      have : k = c.cells.length := by omega
      subst this
      simp at h2
      exact ⟨rfl, h2.symm⟩
  refine ⟨?_, ?_, ?_, ?_, ?_, ?_, ?_, ?_, ?_, ?_⟩
  · show c.ask.cells.length = (c.log ++ [UpEv.asked]).count UpEv.asked
    rw [hl, List.count_append, h.count]; simp
  · intro k x hx
    show x.sent = outcome c.upgradeable (c.log ++ [.asked]) k
    rcases hg k x hx with ⟨e, e2⟩ | ⟨e, e2⟩
    · rw [e, h.count, outcome_new, e2]
    · obtain ⟨y, hy, _, g2, _⟩ := send_get h.open_ .canceled e2
      rw [outcome_asked _ _ _ (h.len hy), g2, h.sent k y hy]
  · intro k x hx
    show x.taken = gave (c.log ++ [.asked]) k
    rw [gave_snoc]
    simp only [Bool.or_false]
    rcases hg k x hx with ⟨e, e2⟩ | ⟨e, e2⟩
    · rw [gave_new, e2]
      intro j r hj
      have := h.polls j r hj
      omega
    · obtain ⟨y, hy, g1, _, _⟩ := send_get h.open_ .canceled e2
      rw [g1]; exact h.taken k y hy
  · intro k x hx
    show x.sent = none ↔ some c.cells.length = some k
    rcases hg k x hx with ⟨e, e2⟩ | ⟨e, e2⟩
    · subst e; simp [e2]
    · obtain ⟨y, hy, _, g2, _⟩ := send_get h.open_ .canceled e2
      rw [g2]
      simp only [reduceCtorEq, Option.some.injEq, false_iff]
      omega
  · intro k hk
    show k + 1 = c.ask.cells.length
    rw [hl, Option.some.inj (show some c.cells.length = some k from hk)]
  · intro _ h2
    exact (hd h2).symm
  · intro h1
    have h1 : c.here = false := h1
    rw [hh] at h1
    cases h1
  · show ∀ k r, .polled k r ∈ c.log ++ [.asked] → k < c.ask.cells.length
    exact polls_snoc h.polls (by omega) (by simp)
  · exact truth_snoc h.truth (by simp)
  · intro k x hx hs
    rcases hg k x hx with ⟨e, e2⟩ | ⟨e, e2⟩
    · rw [e2] at hs; cases hs
    · obtain ⟨y, hy, _, g2, _⟩ := send_get h.open_ .canceled e2
      rw [g2] at hs
      cases hys : y.sent with
      | none => rw [hys] at hs; cases hs
      | some b =>
        rw [hys] at hs
        have := h.handed k y hy (hys.trans hs)
        rw [hh] at this
        cases this.1

/-- The sender is used or dropped: `e` is what happened. -/
theorem inv_send {c : UpConn} (h : Inv c) (hh : c.here = true) (a : UpAns) (e : UpEv) (he : e ≠ .asked) (hp : ∀ k r, e ≠ .polled k r)
    (hf : c.pend.isSome = true → fate c.upgradeable [e] = some a) (d : Disp) (b : Bool) (hb : b = true → d.done = true ∧ a ≠ .handed)
    (hu : a = .handed → c.upgradeable = true) :
    Inv { c.send a with disp := d, here := b, log := c.log ++ [e] } := by
  obtain ⟨r1, r2, r3, r4⟩ := send_rest c a
  refine ⟨?_, ?_, ?_, ?_, ?_, ?_, ?_, ?_, ?_, ?_⟩
  · show (c.send a).cells.length = (c.log ++ [e]).count .asked
    rw [send_len, h.count, List.count_append]
    cases e with
    | asked => exact absurd rfl he
    | _ => simp
  · intro k x hx
    show x.sent = outcome (c.send a).upgradeable (c.log ++ [e]) k
    obtain ⟨y, hy, _, g2, g3⟩ := send_get h.open_ a hx
    rw [r1, outcome_other _ _ he _ _ (h.len hy), g2, ← h.sent k y hy]
    cases hs : y.sent with
    | none => simp only [Option.getD_none]; rw [hf (by rw [g3 hs]; rfl)]
    | some b => rfl
  · intro k x hx
    show x.taken = gave (c.log ++ [e]) k
    obtain ⟨y, hy, g1, _, _⟩ := send_get h.open_ a hx
    rw [gave_snoc, g1, h.taken k y hy]
    cases e with
    | polled j r => exact absurd rfl (hp j r)
    | _ => simp
  · intro k x hx
    show x.sent = none ↔ (c.send a).pend = some k
    obtain ⟨y, _, _, g2, _⟩ := send_get h.open_ a hx
    rw [send_pend, g2]
    simp
  · intro k hk
    have hk : (c.send a).pend = some k := hk
    rw [send_pend] at hk
    cases hk
  · intro h1 h2
    have h2 : d.done = false := h2
    rw [(hb h1).1] at h2
    cases h2
  · intro _; exact send_pend c a
  · show ∀ k r, .polled k r ∈ c.log ++ [e] → k < (c.send a).cells.length
    rw [send_len]
    exact polls_snoc h.polls (Nat.le_refl _) (fun k r g => absurd g (hp k r))
  · show ∀ a' k r b, c.log ++ [e] = a' ++ .polled k r :: b → r = pollOf (c.send a).upgradeable a' k
    rw [r1]
    exact truth_snoc h.truth (fun k r g => absurd g (hp k r))
  · intro k x hx hs
    obtain ⟨y, hy, _, g2, g3⟩ := send_get h.open_ a hx
    show b = false ∧ (c.send a).upgradeable = true ∧ k + 1 = (c.send a).cells.length
    rw [send_len, r1]
    rw [g2] at hs
    cases hys : y.sent with
    | none =>
      rw [hys] at hs
      have hs : a = .handed := Option.some.inj hs
      refine ⟨?_, hu hs, h.last k (g3 hys)⟩
      cases hbb : b with
      | false => rfl
      | true => exact absurd hs (hb hbb).2
    | some b' =>
      rw [hys] at hs
      have := h.handed k y hy (hys.trans hs)
      rw [hh] at this
      cases this.1

/-- Something that concerns no open future. -/
theorem inv_over {c : UpConn} (h : Inv c) (r : Dispatched) (hn : c.pend = none) (d : Disp) (hd : d.done = true) :
    Inv { c with disp := d, log := c.log ++ [.over r] } := by
  refine ⟨?_, ?_, ?_, h.open_, h.last, ?_, h.away, ?_, ?_, h.handed⟩
  · show c.cells.length = (c.log ++ [UpEv.over r]).count UpEv.asked
    rw [h.count, List.count_append]; simp
  · intro k x hx
    show x.sent = outcome c.upgradeable (c.log ++ [.over r]) k
    rw [outcome_other _ _ (by simp) _ _ (h.len hx), ← h.sent k x hx]
    cases hs : x.sent with
    | none => have := (h.open_ k x hx).1 hs; rw [hn] at this; cases this
    | some b => rfl
  · intro k x hx
    show x.taken = gave (c.log ++ [.over r]) k
    rw [gave_snoc, h.taken k x hx]; simp
  · intro _ h2
    have h2 : d.done = false := h2
    rw [hd] at h2; cases h2
  · exact polls_snoc h.polls (Nat.le_refl _) (by simp)
  · exact truth_snoc h.truth (by simp)

/-- A future is polled. -/
theorem inv_poll {c : UpConn} (h : Inv c) (k : Nat) : Inv (c.poll k) := by
  unfold UpConn.poll
  split
  · exact h
  · rename_i x hx
    have ho : ∀ r j y, c.cells[j]? = some y → y.sent = outcome c.upgradeable (c.log ++ [.polled k r]) j := by
      intro r j y hy
      rw [outcome_other _ _ (by simp) _ _ (h.len hy), ← h.sent j y hy]
      cases y.sent <;> rfl
    have hc : ∀ r, (c.log ++ [UpEv.polled k r]).count .asked = c.log.count .asked := by
      intro r; rw [List.count_append]; simp
    have hlt : k < c.cells.length := (List.getElem?_eq_some_iff.1 hx).1
    have hP : ∀ r, ∀ j r', .polled j r' ∈ c.log ++ [UpEv.polled k r] → j < c.cells.length := fun r =>
      polls_snoc h.polls (Nat.le_refl _) (by intro j r' e; cases e; exact hlt)
    have hT : ∀ r, r = pollOf c.upgradeable c.log k → ∀ a j r' b, c.log ++ [UpEv.polled k r] = a ++ .polled j r' :: b → r' = pollOf c.upgradeable a j :=
      fun r hr => truth_snoc h.truth (by intro j r' e; cases e; exact hr)
    by_cases ht : x.taken = true
    · rw [if_pos ht]
      refine ⟨h.count.trans (hc _).symm, ho _, ?_, h.open_, h.last, h.flag, h.away, hP _, hT _ ?_, h.handed⟩
      · intro j y hy
        show y.taken = gave (c.log ++ [.polled k .panics]) j
        rw [gave_snoc, h.taken j y hy]; simp
      · unfold pollOf; rw [← h.taken k x hx, if_pos ht]
    · rw [if_neg ht]
      have hpo : pollOf c.upgradeable c.log k = match x.sent with | some a => .ready a | none => .pending := by
        unfold pollOf; rw [← h.taken k x hx, if_neg ht, ← h.sent k x hx]; rfl
      cases hs : x.sent with
      | none =>
        simp only
        refine ⟨h.count.trans (hc _).symm, ho _, ?_, h.open_, h.last, h.flag, h.away, hP _, hT _ ?_, h.handed⟩
        · intro j y hy
          show y.taken = gave (c.log ++ [.polled k .pending]) j
          rw [gave_snoc, h.taken j y hy]; simp
        · rw [hpo, hs]
      | some a =>
        simp only
        have hm : ∀ j y, (c.cells.modify k (fun x => { x with taken := true }))[j]? = some y →
            ∃ z, c.cells[j]? = some z ∧ y.sent = z.sent ∧ y.taken = (z.taken || k == j) := by
          intro j y hy
          rw [List.getElem?_modify] at hy
          cases hz : c.cells[j]? with
          | none => rw [hz] at hy; cases hy
          | some z =>
            rw [hz] at hy
            by_cases e : k = j
            · simp only [e, if_true, Option.map_eq_map, Option.map_some, Option.some.injEq] at hy
              exact ⟨z, rfl, by rw [← hy], by rw [← hy]; simp [e]⟩
            · simp only [e, if_false, Option.map_eq_map, Option.map_some, Option.some.injEq] at hy
              exact ⟨z, rfl, by rw [← hy], by rw [← hy]; simp [e]⟩
        refine ⟨?_, ?_, ?_, ?_, ?_, h.flag, h.away, ?_, hT _ ?_, ?_⟩
        · show (c.cells.modify k _).length = _
          rw [List.length_modify]; exact h.count.trans (hc _).symm
        · intro j y hy
          obtain ⟨z, g1, g2, _⟩ := hm j y hy
          rw [g2]; exact ho _ j z g1
        · intro j y hy
          obtain ⟨z, g1, _, g3⟩ := hm j y hy
          show y.taken = gave (c.log ++ [.polled k (.ready a)]) j
          rw [gave_snoc, g3, h.taken j z g1]
        · intro j y hy
          obtain ⟨z, g1, g2, _⟩ := hm j y hy
          rw [g2]; exact h.open_ j z g1
        · intro j hj
          show j + 1 = (c.cells.modify k _).length
          rw [List.length_modify]; exact h.last j hj
        · intro j r hj
          show j < (c.cells.modify k _).length
          rw [List.length_modify]; exact hP _ j r hj
        · rw [hpo, hs]
        · intro j y hy hy2
          obtain ⟨z, g1, g2, _⟩ := hm j y hy
          show c.here = false ∧ c.upgradeable = true ∧ j + 1 = (c.cells.modify k _).length
          rw [List.length_modify]
          exact h.handed j z g1 (g2 ▸ hy2)

theorem done_of_result {d : Disp} (s : Bool) (f : FlushIn) (h : d.done = false) : (d.finishTurn s f).done = true ↔ d.result s f ≠ .pending :=
  C63_result d s f h

/-- The end of a poll. -/
theorem inv_finish (env : EncodeEnv) (P : TrailerParser) {c : UpConn} (h : Inv c) (hh : c.here = true) (s : Bool) (f : FlushIn) :
    Inv (c.finish env P s f) := by
  unfold UpConn.finish
  split
  · exact h
  · rename_i hd
    have hd : c.disp.done = false := by simpa using hd
    have hs : c.disp.step env P (.finish s f) = c.disp.finishTurn s f := by simp [Disp.step, hd]
    rw [hs]
    by_cases hp : c.disp.result s f = .pending
    · rw [if_pos hp]
      have hset : c.settle = c := by
        unfold UpConn.settle
        split
        · rename_i hu
          simp only [Bool.and_eq_true] at hu
          unfold Disp.result Disp.orError at hp
          simp only [hu.1, hu.2, Bool.not_true, Bool.false_eq_true, if_false, if_true] at hp
          split at hp <;> cases hp
        · rfl
      rw [hset]
      have hnd : (c.disp.finishTurn s f).done = false := by
        cases e : (c.disp.finishTurn s f).done with
        | false => rfl
        | true => exact absurd hp ((done_of_result s f hd).1 e)
      refine inv_disp h _ (fun _ => ⟨hd, ?_⟩)
      rcases up_finish c.disp s f with e | e
      · rw [hnd] at e; cases e
      · exact e
    · rw [if_neg hp]
      have hdn : (c.disp.finishTurn s f).done = true := (done_of_result s f hd).2 hp
      unfold UpConn.settle
      by_cases hu : (c.disp.isDone && c.disp.conn.upgrade) = true
      · rw [if_pos hu]
        simp only [Bool.and_eq_true] at hu
        have hr : c.disp.result s f = if c.disp.conn.error then .error else .upgrade := by
          unfold Disp.result Disp.orError
          simp [hu.1, hu.2]
        rw [hr]
        by_cases he : c.disp.conn.error = true
        · rw [if_pos he, if_pos he]
          have hc := (send_rest c .canceled).2.2.1
          show Inv { c.send .canceled with disp := c.disp.finishTurn s f, here := (c.send .canceled).here, log := c.log ++ [.over .error] }
          rw [hc]
          exact inv_send h hh .canceled (.over .error) (by simp) (by simp) (fun _ => rfl) _ c.here
            (fun _ => ⟨hdn, by simp⟩) (by simp)
        · rw [if_neg he, if_neg he]
          by_cases hup : c.upgradeable = true
          · rw [if_pos hup]
            exact inv_send h hh .handed (.over .upgrade) (by simp) (by simp) (fun _ => by simp [fate, hup]) _ false (by simp) (fun _ => hup)
          · rw [if_neg hup]
            have hc := (send_rest c .manual).2.2.1
            show Inv { c.send .manual with disp := c.disp.finishTurn s f, here := (c.send .manual).here, log := c.log ++ [.over .upgrade] }
            rw [hc]
            exact inv_send h hh .manual (.over .upgrade) (by simp) (by simp) (fun _ => by simp [fate, hup]) _ c.here
              (fun _ => ⟨hdn, by simp⟩) (by simp)
      · rw [if_neg hu]
        have hid : c.disp.isDone = true := by
          cases e : c.disp.isDone with
          | true => rfl
          | false => exact absurd (by simp [Disp.result, e]) hp
        have hup : c.disp.conn.upgrade = false := by
          rw [hid] at hu; simpa using hu
        have hn : c.pend = none := by
          have := h.flag hh hd
          rw [hup] at this
          simpa using this
        exact inv_over h _ hn _ hdn

theorem inv_step (env : EncodeEnv) (P : TrailerParser) {c : UpConn} (h : Inv c) (a : UpAct) : Inv (c.step env P a) := by
  cases a with
  | poll k => exact inv_poll h k
  | act a =>
    simp only [UpConn.step]
    split
    · exact h
    · rename_i hh
      have hh : c.here = true := by simpa using hh
      have other : ∀ a : Act, Asks a = false → Inv { c with disp := c.disp.step env P a } := by
        intro a ha
        refine inv_disp h _ (fun hd => ⟨?_, up_step env P a ha hd⟩)
        cases e : c.disp.done with
        | false => rfl
        | true => rw [done_step env P a e] at hd; cases hd
      cases a with
      | read i =>
        simp only
        have hu := up_asks env P c.disp i
        split
        · rename_i ha
          exact inv_ask h hh _ (fun _ => by rw [hu, ha]; simp)
        · rename_i ha
          refine inv_disp h _ (fun hd => ⟨?_, by rw [hu]; simp [ha]⟩)
          cases e : c.disp.done with
          | false => rfl
          | true => rw [done_step env P _ e] at hd; cases hd
      | finish s f => exact inv_finish env P h hh s f
      | drop =>
        exact inv_send h hh .canceled .gone (by simp) (by simp) (fun _ => rfl) _ false (by simp) (by simp)
      | write i => exact other _ rfl
      | flush f i => exact other _ rfl
      | readAgain => exact other _ rfl
      | disable b => exact other _ rfl
      | want k => exact other _ rfl
      | dropReader k => exact other _ rfl

theorem inv_run (env : EncodeEnv) (P : TrailerParser) (as : List UpAct) {c : UpConn} (h : Inv c) : Inv (c.run env P as) := by
  induction as generalizing c with
  | nil => exact h
  | cons a as ih => exact ih (inv_step env P h a)

theorem step_upgradeable (env : EncodeEnv) (P : TrailerParser) (c : UpConn) (a : UpAct) : (c.step env P a).upgradeable = c.upgradeable := by
  have hs := fun a => (send_rest c a).1
  cases a with
  | poll k => simp only [UpConn.step, UpConn.poll]; (repeat' split) <;> rfl
  | act a =>
    simp only [UpConn.step, UpConn.finish, UpConn.settle, UpConn.ask]
    (repeat' split) <;> first | rfl | exact hs _

theorem run_upgradeable (env : EncodeEnv) (P : TrailerParser) (as : List UpAct) (c : UpConn) : (c.run env P as).upgradeable = c.upgradeable := by
  induction as generalizing c with
  | nil => rfl
  | cons a as ih => exact (ih _).trans (step_upgradeable env P c a)

/-- A new connection. -/
structure New (c : UpConn) : Prop where
  disp : c.disp.conn.upgrade = false
  cells : c.cells = []
  pend : c.pend = none
  log : c.log = []

theorem inv_new {c : UpConn} (h : New c) : Inv c := by
  refine ⟨by simp [h.cells, h.log], ?_, ?_, ?_, ?_, ?_, fun _ => h.pend, ?_, ?_, ?_⟩
  all_goals simp [h.cells, h.log, h.pend, h.disp]

end Waiting

open Waiting

/-- C80: after any run, each of the futures given out, one for each head that asked, holds what the specification says, whatever the order of heads,
ends, errors, polls and drops. -/
theorem C80_outcome (env : EncodeEnv) (P : TrailerParser) (c : UpConn) (h : New c) (as : List UpAct) :
    (c.run env P as).cells.length = (c.run env P as).log.count .asked ∧
    ∀ k x, (c.run env P as).cells[k]? = some x → x.sent = outcome c.upgradeable (c.run env P as).log k := by
  have hi := inv_run env P as (inv_new h)
  refine ⟨hi.count, fun k x hx => ?_⟩
  rw [← run_upgradeable env P as c]
  exact hi.sent k x hx

/-- C80: what a poll of such a future gives is what the specification says: nothing as long as the matter is open, then the answer once; polled
again, it panics. -/
theorem C80_polls (env : EncodeEnv) (P : TrailerParser) (c : UpConn) (h : New c) (as : List UpAct) (a b : List UpEv) (k : Nat) (r : UpPoll)
    (hl : (c.run env P as).log = a ++ .polled k r :: b) : r = pollOf c.upgradeable a k := by
  have hi := inv_run env P as (inv_new h)
  rw [← run_upgradeable env P as c]
  exact hi.truth a k r b hl

/-- C80: the connection is handed over at most once, to the future of the head that asked last, by a connection that can, and then it is gone. -/
theorem C80_handed_once (env : EncodeEnv) (P : TrailerParser) (c : UpConn) (h : New c) (as : List UpAct) (k : Nat)
    (hk : outcome c.upgradeable (c.run env P as).log k = some .handed) :
    c.upgradeable = true ∧ (c.run env P as).here = false ∧ k + 1 = (c.run env P as).log.count .asked := by
  have hi := inv_run env P as (inv_new h)
  have hlt : k < (c.run env P as).cells.length := by
    rw [hi.count]
    have := sinceAsk_some (k := k) (l := (c.run env P as).log)
    cases e : sinceAsk k (c.run env P as).log with
    | none => simp [outcome, e] at hk
    | some t => rw [e] at this; simpa using this.symm
  have hx := List.getElem?_eq_getElem hlt
  have hs := hi.sent k _ hx
  rw [run_upgradeable, hk] at hs
  obtain ⟨g1, g2, g3⟩ := hi.handed k _ hx hs
  rw [run_upgradeable] at g2
  exact ⟨g2, g1, by rw [← hi.count]; exact g3⟩

/-- C80: no one waits for ever: when the connection has been dropped or handed over, each future has its answer; and before, all but that of the head
that asked last have theirs, which is that they are canceled, or that the connection is not upgraded here. -/
theorem C80_no_hang (env : EncodeEnv) (P : TrailerParser) (c : UpConn) (h : New c) (as : List UpAct) (k : Nat)
    (hk : k < (c.run env P as).log.count .asked)
    (hw : (c.run env P as).here = false ∨ k + 1 < (c.run env P as).log.count .asked) :
    outcome c.upgradeable (c.run env P as).log k ≠ none := by
  have hi := inv_run env P as (inv_new h)
  have hlt : k < (c.run env P as).cells.length := by rw [hi.count]; exact hk
  have hx := List.getElem?_eq_getElem hlt
  have hs := hi.sent k _ hx
  rw [run_upgradeable] at hs
  rw [← hs]
  intro hn
  have hp := (hi.open_ k _ hx).1 hn
  rcases hw with hw | hw
  · rw [hi.away hw] at hp; cases hp
  · have := hi.last k hp
    rw [hi.count] at this
    omega

/-- C80: as long as the connection runs, the future of the head that asked last is open exactly if the connection still means to upgrade: no answer
comes early. -/
theorem C80_open (env : EncodeEnv) (P : TrailerParser) (c : UpConn) (h : New c) (as : List UpAct) (hh : (c.run env P as).here = true)
    (hd : (c.run env P as).disp.done = false) :
    (c.run env P as).disp.conn.upgrade = true ↔
      ∃ k, k + 1 = (c.run env P as).log.count .asked ∧ outcome c.upgradeable (c.run env P as).log k = none := by
  have hi := inv_run env P as (inv_new h)
  rw [← hi.flag hh hd]
  constructor
  · intro hp
    obtain ⟨k, hk⟩ := Option.isSome_iff_exists.1 hp
    have hl := hi.last k hk
    have hx := List.getElem?_eq_getElem (show k < (c.run env P as).cells.length by omega)
    refine ⟨k, by rw [← hi.count]; exact hl, ?_⟩
    have hs := hi.sent k _ hx
    rw [run_upgradeable] at hs
    rw [← hs]
    exact (hi.open_ k _ hx).2 hk
  · rintro ⟨k, h1, h2⟩
    rw [← hi.count] at h1
    have hx := List.getElem?_eq_getElem (show k < (c.run env P as).cells.length by omega)
    have hs := hi.sent k _ hx
    rw [run_upgradeable, h2] at hs
    rw [(hi.open_ k _ hx).1 hs]
    rfl

/-! ## Executions -/

namespace Waiting

open HandOver

/-- A new server connection. -/
def exConn (up : Bool) : UpConn := { disp := exDisp false, upgradeable := up }

/-- An upgrade that is answered by `101`. -/
def exSwitched : List UpAct :=
  [.act (exRead (.msg (exAsk 0)) exNo), .poll 0, .act (exWrite exSwitch .pending), .act (.flush exFlushIn .pending),
   .act (exRead .pending exNo), .act (.finish true exFlushIn), .poll 0, .poll 0]

example : New (exConn true) := ⟨rfl, rfl, rfl, rfl⟩
example : ((exConn true).run exEnv exP exSwitched).log =
    [.asked, .polled 0 .pending, .over .upgrade, .polled 0 (.ready .handed), .polled 0 .panics] := by decide +kernel
example : ((exConn false).run exEnv exP exSwitched).log =
    [.asked, .polled 0 .pending, .over .upgrade, .polled 0 (.ready .manual), .polled 0 .panics] := by decide +kernel
example : ((exConn true).run exEnv exP [.act (exRead (.msg (exAsk 0)) exNo), .poll 0, .act .drop, .poll 0]).log =
    [.asked, .polled 0 .pending, .gone, .polled 0 (.ready .canceled)] := by decide +kernel

/-- A request that asks and leaves the connection persistent. -/
def exWish : MsgIn := { exIn 0 false true with wantsUpgrade := true }

/-- It is refused with a plain answer; then comes another request that does not ask, and its answer ends the connection. -/
def exRefused : List UpAct :=
  [.act (exRead (.msg exWish) exNo), .act (exWrite (exResp [] none) .pending), .act (.flush exFlushIn .pending), .poll 0,
   .act (exRead (.msg (exIn 0 false true)) exNo), .act (exWrite (exResp [(hCONN, [ascii "close"])] none) .pending),
   .act (.flush exFlushIn .pending), .act (exRead .pending exNo), .act (.finish true exFlushIn), .poll 0]

end Waiting

/-- A request whose upgrade was refused gets the connection all the same, when it ends after a later request that asked for nothing; it is
told nothing before. -/
theorem C80_refused_handed_later : ((exConn true).run exEnv exP exRefused).log =
    [.asked, .polled 0 .pending, .over .upgrade, .polled 0 (.ready .handed)] := by decide +kernel

/-- A second head that asks cancels the future of the first. -/
theorem C80_replaced : ((exConn true).run exEnv exP
      [.act (exRead (.msg exWish) exNo), .act (exWrite (exResp [] none) .pending), .act (.flush exFlushIn .pending),
       .act (exRead (.msg exWish) exNo), .poll 0, .poll 1]).log =
    [.asked, .asked, .polled 0 (.ready .canceled), .polled 1 .pending] := by decide +kernel

end Hyper
