import Verif.Props.Errors
import Verif.Proof.ClosedLoop

/-!
# Errors over runs: C85

What the future of a connection returns, what its requests are told and what the readers of bodies are told is what happened.
-/

namespace Hyper

open Errors Spec

namespace Spec

/-- Something happened at some point; `Q` is asked of what came before and of the point. -/
def Once {α : Type} (Q : List α → α → Prop) (as : List α) : Prop := ∃ pre x suf, as = pre ++ x :: suf ∧ Q pre x

/-- The last thing that happened. -/
def Latest {α β : Type} (Q : List α → α → β → Prop) (as : List α) (e : β) : Prop :=
  ∃ pre x suf, as = pre ++ x :: suf ∧ Q pre x e ∧ ∀ mid y rest, suf = mid ++ y :: rest → ∀ e', ¬ Q (pre ++ x :: mid) y e'

/-- The connection after some acts. -/
def after (env : EncodeEnv) (P : TrailerParser) (d : Disp) (as : List (Act × Why)) : Disp := d.run env P (as.map Prod.fst)

/-- The poll ends the connection in good order: everything is done, and the transport was closed, is handed over, or is to be kept. -/
def InOrder (d : Disp) (a : Act) : Prop :=
  ∃ s f, a = .finish s f ∧ d.done = false ∧ d.isDone = true ∧ (d.conn.upgrade = true ∨ s = false ∨ (d.conn.pollShutdown f).1 = .ok)

/-- The error to be told when the connection is over: the last one remembered. -/
def Pending (env : EncodeEnv) (P : TrailerParser) (d : Disp) (as : List (Act × Why)) (e : Err) : Prop :=
  Latest (fun pre x => Remembers env P (after env P d pre) x.1 x.2) as e

/-- An error is told: the connection ended with it, or is over and told the one it remembered. -/
def Tells (env : EncodeEnv) (P : TrailerParser) (d : Disp) (pre : List (Act × Why)) (x : Act × Why) (e : Err) : Prop :=
  Ends (after env P d pre) x.1 x.2 e ∨ (InOrder (after env P d pre) x.1 ∧ Pending env P d pre e)

/-- A client asks for a head: an error of it is of that request. -/
def OfCall (d : Disp) (a : Act) : Prop := ∃ i, a = .read i ∧ AsksHead d i ∧ d.conn.client = true

/-- A client has a request that waits for its response, or one in the queue. -/
def Hears (d : Disp) (w : Why) : Prop := d.conn.client = true ∧ (d.inFlight.isSome = true ∨ w.queued = true)

/-- A body that is being read breaks. -/
def Breaks (P : TrailerParser) (d : Disp) (a : Act) : Prop :=
  ∃ i dec k x, a = .read i ∧ ReadsBody d i dec ∧ d.bodyTx = some k ∧ (d.chans[k]?).map Chan.want = some .ready ∧ (dec.decode P i.rd).1 = .ready (.error x)

end Spec

open Spec

/-! ## Points of a run -/

theorem snoc_point {α : Type} {as pre suf : List α} {x y : α} :
    as ++ [x] = pre ++ y :: suf ↔ (suf = [] ∧ pre = as ∧ y = x) ∨ ∃ t, suf = t ++ [x] ∧ as = pre ++ y :: t := by
  constructor
  · intro h
    rcases List.eq_nil_or_concat suf with hs | ⟨t, z, hs⟩
    · subst hs
      obtain ⟨h1, h2⟩ := List.append_inj' h rfl
      cases h2
      exact .inl ⟨rfl, h1.symm, rfl⟩
    · rw [List.concat_eq_append] at hs
      rw [hs, ← List.cons_append, ← List.append_assoc] at h
      obtain ⟨h1, h2⟩ := List.append_inj' h rfl
      cases h2
      exact .inr ⟨t, hs, h1⟩
  · rintro (⟨rfl, rfl, rfl⟩ | ⟨t, rfl, rfl⟩)
    · rfl
    · simp

theorem once_nil {α : Type} (Q : List α → α → Prop) : ¬ Once Q [] := by
  rintro ⟨pre, x, suf, h, _⟩
  simp at h

theorem once_snoc {α : Type} (Q : List α → α → Prop) (as : List α) (x : α) : Once Q (as ++ [x]) ↔ Once Q as ∨ Q as x := by
  unfold Once
  constructor
  · rintro ⟨pre, y, suf, h, hq⟩
    rcases snoc_point.mp h with ⟨_, rfl, rfl⟩ | ⟨t, _, h'⟩
    · exact .inr hq
    · exact .inl ⟨pre, y, t, h', hq⟩
  · rintro (⟨pre, y, suf, rfl, hq⟩ | hq)
    · exact ⟨pre, y, suf ++ [x], by simp, hq⟩
    · exact ⟨as, x, [], rfl, hq⟩

theorem latest_nil {α β : Type} (Q : List α → α → β → Prop) (e : β) : ¬ Latest Q [] e := by
  rintro ⟨pre, x, suf, h, _⟩
  simp at h

theorem latest_snoc {α β : Type} (Q : List α → α → β → Prop) (as : List α) (x : α) (e : β) :
    Latest Q (as ++ [x]) e ↔ Q as x e ∨ ((∀ e', ¬ Q as x e') ∧ Latest Q as e) := by
  unfold Latest
  constructor
  · rintro ⟨pre, y, suf, h, hq, hn⟩
    rcases snoc_point.mp h with ⟨_, rfl, rfl⟩ | ⟨t, ht, h'⟩
    · exact .inl hq
    · refine .inr ⟨?_, pre, y, t, h', hq, ?_⟩
      · intro e'
        have := hn t x [] ht e'
        rwa [← h'] at this
      · intro mid z rest hm e'
        exact hn mid z (rest ++ [x]) (by rw [ht, hm]; simp) e'
  · rintro (hq | ⟨hn, pre, y, suf, rfl, hq, hr⟩)
    · exact ⟨as, x, [], rfl, hq, fun mid z rest hm => by simp at hm⟩
    · refine ⟨pre, y, suf ++ [x], by simp, hq, ?_⟩
      intro mid z rest hm e'
      rcases snoc_point.mp hm with ⟨_, rfl, rfl⟩ | ⟨t, _, ht⟩
      · exact hn e'
      · exact hr mid z t ht e'

/-! ## The end of a poll -/

theorem inOrder_fault {d : Disp} {a : Act} (h : InOrder d a) (w : Why) (kept : Option Err) : d.fault a w kept = kept := by
  obtain ⟨s, f, rfl, hd, hi, h⟩ := h
  unfold Disp.fault Disp.finishFault
  simp only [hd, Bool.false_eq_true, if_false, hi, Bool.not_true]
  cases hu : d.conn.upgrade
  · simp only [Bool.false_eq_true, if_false]
    cases s
    · rfl
    · rcases h with h | h | h
      · rw [hu] at h; cases h
      · cases h
      · simp [h]
  · rfl

theorem inOrder_done (env : EncodeEnv) (P : TrailerParser) {d : Disp} {a : Act} (h : InOrder d a) : (d.step env P a).done = true := by
  obtain ⟨s, f, rfl, hd, hi, h⟩ := h
  unfold Disp.step Disp.finishTurn
  simp only [hd, Bool.false_eq_true, if_false, hi, Bool.not_true]
  cases hu : d.conn.upgrade
  · simp only [Bool.false_eq_true, if_false]
    cases s
    · exact done_complete _
    · rcases h with h | h | h
      · rw [hu] at h; cases h
      · cases h
      · simp only [h, reduceCtorEq, if_true, if_false]
        exact done_complete _
  · exact done_complete _

theorem not_inOrder_fault {d : Disp} {a : Act} (h : ¬ InOrder d a) (w : Why) (kept : Option Err) : d.fault a w kept = d.fault a w none := by
  unfold Disp.fault
  cases hd : d.done
  · cases a with
    | finish s f =>
      simp only [Bool.false_eq_true, if_false]
      unfold Disp.finishFault
      cases hi : d.isDone
      · rfl
      · cases hu : d.conn.upgrade
        · cases s
          · exact absurd ⟨false, f, rfl, hd, hi, .inr (.inl rfl)⟩ h
          · have : (d.conn.pollShutdown f).1 ≠ .ok := fun hk => h ⟨true, f, rfl, hd, hi, .inr (.inr hk)⟩
            simp [this]
        · exact absurd ⟨s, f, rfl, hd, hi, .inl hu⟩ h
    | _ => rfl
  · rfl

/-- A poll ends without being over only with an error. -/
theorem not_inOrder_live (env : EncodeEnv) (P : TrailerParser) {d : Disp} {s : Bool} {f : FlushIn} (h : ¬ InOrder d (.finish s f)) (hd : d.done = false) (w : Why)
    (hf : d.fault (.finish s f) w none = none) : (d.step env P (.finish s f)).done = false := by
  unfold Disp.fault Disp.finishFault at hf
  unfold Disp.step Disp.finishTurn
  simp only [hd, Bool.false_eq_true, if_false] at hf ⊢
  cases hi : d.isDone
  · simp [hd]
  · cases hu : d.conn.upgrade
    · cases s
      · exact absurd ⟨false, f, rfl, hd, hi, .inr (.inl rfl)⟩ h
      · have hk : (d.conn.pollShutdown f).1 ≠ .ok := fun hk => h ⟨true, f, rfl, hd, hi, .inr (.inr hk)⟩
        simp only [hi, hu, Bool.not_true, Bool.false_eq_true, if_false, if_true] at hf ⊢
        cases hr : (d.conn.pollShutdown f).1 <;> simp_all [FlushRes.fault]
    · exact absurd ⟨s, f, rfl, hd, hi, .inl hu⟩ h

theorem not_inOrder_kept (env : EncodeEnv) (P : TrailerParser) {d : Disp} {s : Bool} {f : FlushIn} (h : ¬ InOrder d (.finish s f)) (w : Why) (old : Option Err) :
    d.kept env P (.finish s f) w old = old := by
  unfold Disp.kept Disp.finishKept
  cases hd : d.done
  · simp only [Bool.false_eq_true, if_false]
    cases hi : d.isDone
    · rfl
    · cases hu : d.conn.upgrade
      · cases s
        · exact absurd ⟨false, f, rfl, hd, hi, .inr (.inl rfl)⟩ h
        · have hk : (d.conn.pollShutdown f).1 ≠ .ok := fun hk => h ⟨true, f, rfl, hd, hi, .inr (.inr hk)⟩
          simp [hk]
      · exact absurd ⟨s, f, rfl, hd, hi, .inl hu⟩ h
  · rfl

/-- An error given to a request is not an error of the connection. -/
theorem handed_iff (d : Disp) (a : Act) (w : Why) (e : Err) : d.handed a w = some e ↔ OfCall d a ∧ Ends d a w e := by
  unfold Disp.handed
  constructor
  · intro h
    cases hd : d.done
    · rw [hd] at h
      simp only [Bool.false_eq_true, if_false] at h
      cases a with
      | read i =>
        simp only at h
        split at h
        · rename_i hc
          simp only [Bool.and_eq_true, Disp.readsHead, Bool.not_eq_true'] at hc
          have ha := (asks_iff d i).mpr ⟨hd, hc.1.1.1, hc.1.1.2, hc.1.2⟩
          exact ⟨⟨i, rfl, ha, hc.2⟩, (headFault_ends ha w e).mp h⟩
        · cases h
      | _ => cases h
    · simp [hd] at h
  · rintro ⟨⟨i, rfl, ha, hc⟩, he⟩
    have h' := (asks_iff d i).mp ha
    have := (headFault_ends ha w e).mpr he
    simp [h'.1, Disp.readsHead, h'.2.1, h'.2.2.1, h'.2.2.2, hc, this]

theorem call_fault {d : Disp} {a : Act} (h : OfCall d a) (w : Why) (kept : Option Err) : d.fault a w kept = none := by
  obtain ⟨i, rfl, ha, hc⟩ := h
  have h' := (asks_iff d i).mp ha
  unfold Disp.fault Disp.readFault
  simp [h'.1, h'.2.1, h'.2.2.1, hc]

theorem call_body {d : Disp} {a : Act} (h : OfCall d a) (P : TrailerParser) (w : Why) : d.bodyFault P a w = none := by
  obtain ⟨i, rfl, ha, hc⟩ := h
  have h' := (asks_iff d i).mp ha
  unfold Disp.bodyFault
  simp [h'.1, h'.2.1, h'.2.2.1]

theorem body_iff (P : TrailerParser) (d : Disp) (a : Act) (w : Why) (e : Err) : d.bodyFault P a w = some e ↔ Breaks P d a ∧ e = ⟨.body, w.cause⟩ := by
  have hdb : ∀ (c : Conn) (dec : Decoder) (r : Rd) (i : NotifyIn), (c.decodeBody P dec r i).1 = .err ↔ ∃ x, (dec.decode P r).1 = .ready (.error x) := by
    intro c dec r i
    unfold Conn.decodeBody
    cases (dec.decode P r).1 with
    | pending => simp
    | ready r' =>
      cases r' with
      | error x => simp
      | ok fr =>
        cases fr with
        | trailers fs => simp
        | data bs =>
          simp only
          split
          · split <;> simp
          · split <;> simp
  unfold Disp.bodyFault Breaks
  constructor
  · intro h
    cases hd : d.done
    · rw [hd] at h
      simp only [Bool.false_eq_true, if_false] at h
      cases a with
      | read i =>
        simp only at h
        split at h
        · cases h
        · rename_i hc
          simp only [Bool.or_eq_true, not_or, Bool.not_eq_true] at hc
          cases hb : d.bodyTx with
          | none => simp [hb] at h
          | some k =>
            simp only [hb] at h
            split at h
            · rename_i hx
              simp only [Bool.and_eq_true, decide_eq_true_eq, Bool.not_eq_true'] at hx
              cases h
              refine ⟨?_, rfl⟩
              obtain ⟨⟨⟨h1, h2⟩, h3⟩, h4⟩ := hx
              unfold Conn.canReadBody at h1
              unfold Conn.pollReadBody at h4
              cases hr : d.conn.reading with
              | body dec =>
                rw [hr] at h4
                obtain ⟨x, hx⟩ := (hdb _ _ _ _).mp h4
                exact ⟨i, dec, k, x, rfl, ⟨hd, hc.1, .inl hr, k, hb, .inl ⟨h2, h3⟩⟩, rfl, h2, hx⟩
              | cont dec =>
                rw [hr] at h4
                obtain ⟨x, hx⟩ := (hdb _ _ _ _).mp h4
                exact ⟨i, dec, k, x, rfl, ⟨hd, hc.1, .inr hr, k, hb, .inl ⟨h2, h3⟩⟩, rfl, h2, hx⟩
              | _ => rw [hr] at h1; cases h1
            · cases h
      | _ => cases h
    · simp [hd] at h
  · rintro ⟨⟨i, dec, k, x, rfl, hrb, hb, hw, hx⟩, rfl⟩
    have hfull : i.full = false := by
      obtain ⟨k', hk', h | h⟩ := hrb.2.2.2
      · exact h.2
      · rw [hb] at hk'; cases hk'; exact absurd hw h.1
    have hcr : d.conn.canReadHead = false := by
      unfold Conn.canReadHead
      rcases hrb.2.2.1 with h | h <;> rw [h] <;> rfl
    have hcb : d.conn.canReadBody = true := by
      unfold Conn.canReadBody
      rcases hrb.2.2.1 with h | h <;> rw [h]
    have hp : (d.conn.pollReadBody P i.rd i.notify).1 = .err := by
      unfold Conn.pollReadBody
      rcases hrb.2.2.1 with h | h <;> rw [h] <;> exact (hdb _ _ _ _).mpr ⟨x, hx⟩
    simp [hrb.1, hrb.2.1, hcr, hb, hcb, hw, hfull, hp]

/-! ## Runs -/

/-- A connection of which nothing has been reported yet. -/
def Report.start (d : Disp) : Report := { disp := d }

section run

open scoped Classical

variable (env : EncodeEnv) (P : TrailerParser) (d : Disp)

theorem report_snoc (as : List (Act × Why)) (x : Act × Why) :
    (Report.start d).run env P (as ++ [x]) = ((Report.start d).run env P as).step env P x.1 x.2 := by
  simp [Report.run]

theorem after_snoc (as : List (Act × Why)) (x : Act × Why) : after env P d (as ++ [x]) = (after env P d as).step env P x.1 := by
  simp [after, Disp.run]

theorem step_disp (r : Report) (a : Act) (w : Why) : (r.step env P a w).disp = r.disp.step env P a := rfl

theorem step_kept (r : Report) (a : Act) (w : Why) : (r.step env P a w).kept = r.disp.kept env P a w r.kept := rfl

theorem report_disp (as : List (Act × Why)) : ((Report.start d).run env P as).disp = after env P d as := by
  induction as using Wire.snoc_induction with
  | h0 => rfl
  | h1 as x ih => rw [report_snoc, after_snoc, step_disp, ih]

theorem after_client (as : List (Act × Why)) : (after env P d as).conn.client = d.conn.client := by
  induction as using Wire.snoc_induction with
  | h0 => rfl
  | h1 as x ih => rw [after_snoc, client_step, ih]

/-- The error kept by a connection that has not ended is the last one to be remembered. -/
theorem report_kept (as : List (Act × Why)) (e : Err) (hd : (after env P d as).done = false) :
    ((Report.start d).run env P as).kept = some e ↔ Pending env P d as e := by
  induction as using Wire.snoc_induction generalizing e with
  | h0 =>
    refine ⟨fun h => ?_, fun h => absurd h (latest_nil _ _)⟩
    cases h
  | h1 as x ih =>
    rw [after_snoc] at hd
    have hd' : (after env P d as).done = false := by
      cases h : (after env P d as).done
      · rfl
      · rw [done_step _ env P x.1 h] at hd; cases hd
    rw [report_snoc, step_kept, report_disp, Pending, latest_snoc, ← Pending, ← ih e hd']
    obtain ⟨a, w⟩ := x
    cases hfin : a with
    | finish s f =>
      subst hfin
      have hn : ¬ InOrder (after env P d as) (.finish s f) := fun h => by rw [inOrder_done env P h] at hd; cases hd
      rw [not_inOrder_kept env P hn]
      have nr : ∀ e', ¬ Remembers env P (after env P d as) (.finish s f) w e' := fun e' => other_remembers (by simp) (by simp) (by simp)
      exact ⟨fun h => .inr ⟨nr, h⟩, fun h => h.elim (fun h => absurd h (nr e)) (fun h => h.2)⟩
    | _ =>
      rw [← hfin]
      have hk := kept_set env P (after env P d as) a w ((Report.start d).run env P as).kept (by rw [hfin]; simp)
      constructor
      · intro h
        by_cases hr : ∃ e', Remembers env P (after env P d as) a w e'
        · obtain ⟨e', he'⟩ := hr
          have := hk.1 e' he'
          rw [this] at h
          cases h
          exact .inl he'
        · have hr' : ∀ e', ¬ Remembers env P (after env P d as) a w e' := fun e' he' => hr ⟨e', he'⟩
          rw [hk.2 hr'] at h
          exact .inr ⟨hr', h⟩
      · rintro (h | ⟨h1, h2⟩)
        · exact hk.1 e h
        · rw [hk.2 h1]; exact h2

theorem report_kept_none (as : List (Act × Why)) (hd : (after env P d as).done = false) :
    ((Report.start d).run env P as).kept = none ↔ ∀ e, ¬ Pending env P d as e := by
  constructor
  · intro h e he
    rw [(report_kept env P d as e hd).mpr he] at h
    cases h
  · intro h
    cases hk : ((Report.start d).run env P as).kept with
    | none => rfl
    | some e => exact absurd ((report_kept env P d as e hd).mp hk) (h e)

/-- What is told by an act is what `poll_inner` fails with and what is given to a request. -/
theorem tells_iff (as : List (Act × Why)) (a : Act) (w : Why) (e : Err) :
    Tells env P d as (a, w) e ↔
      (after env P d as).fault a w ((Report.start d).run env P as).kept = some e ∨ (after env P d as).handed a w = some e := by
  unfold Tells
  by_cases ho : InOrder (after env P d as) a
  · have hd : (after env P d as).done = false := by obtain ⟨_, _, _, h, _⟩ := ho; exact h
    rw [inOrder_fault ho, report_kept env P d as e hd]
    have hno : ¬ Ends (after env P d as) a w e := by
      intro h
      rcases (ends_iff _ _ _ _).mp h with h | h
      · rw [inOrder_fault ho] at h; cases h
      · obtain ⟨⟨i, hi, _, _⟩, _⟩ := (handed_iff _ a w e).mp h
        obtain ⟨s, f, hf, _⟩ := ho
        rw [hi] at hf; cases hf
    have hnh : (after env P d as).handed a w ≠ some e := fun h => hno ((handed_iff _ a w e).mp h).2
    simp [hno, hnh, ho]
  · rw [not_inOrder_fault ho, ← ends_iff]
    simp [ho]

/-- The future has given nothing before it ends. -/
theorem fault_live {d : Disp} {a : Act} {w : Why} {kept : Option Err} {e : Err} (h : d.fault a w kept = some e) : d.done = false := by
  unfold Disp.fault at h
  cases hd : d.done
  · rfl
  · simp [hd] at h

/-- The future completes without an error exactly when it is over and none is remembered. -/
theorem done_inOrder (as : List (Act × Why)) (a : Act) (w : Why) (hf : (after env P d as).fault a w ((Report.start d).run env P as).kept = none) :
    (a ≠ .drop ∧ (after env P d as).done = false ∧ ((after env P d as).step env P a).done = true) ↔
      (InOrder (after env P d as) a ∧ ∀ e, ¬ Pending env P d as e) := by
  constructor
  · rintro ⟨h1, h2, h3⟩
    rcases done_fault _ env P a w ((Report.start d).run env P as).kept h2 h3 with h | h | ⟨s, f, h⟩
    · rw [hf] at h; cases h
    · exact absurd h h1
    · subst h
      by_cases ho : InOrder (after env P d as) (.finish s f)
      · rw [inOrder_fault ho] at hf
        exact ⟨ho, (report_kept_none env P d as h2).mp hf⟩
      · rw [not_inOrder_fault ho] at hf
        rw [not_inOrder_live env P ho h2 w hf] at h3
        cases h3
  · rintro ⟨ho, _⟩
    have h := inOrder_done env P ho
    obtain ⟨s, f, rfl, hd, _⟩ := ho
    exact ⟨by simp, hd, h⟩

theorem tellBody_result (r : Report) (e : Err) : (r.tellBody e).result = r.result ∧ (r.tellBody e).calls = r.calls ∧ (r.tellBody e).canceled = r.canceled ∧
    (r.tellBody e).disp = r.disp := by
  unfold Report.tellBody
  split <;> simp

theorem tellCall_result (r : Report) (e : Option Err) : (r.tellCall e).result = r.result ∧ (r.tellCall e).canceled = r.canceled ∧ (r.tellCall e).bodies = r.bodies ∧
    (r.tellCall e).disp = r.disp := by
  unfold Report.tellCall
  split <;> simp

theorem tellUser_bodies (r : Report) (e : Err) (w : Why) : (r.tellUser e w).bodies = r.bodies := by
  unfold Report.tellUser
  split
  · split
    · rfl
    · split <;> rfl
  · rfl

theorem uncaught_calls (r : Report) (a : Act) (o : Bool) : (r.uncaught a o).calls = r.calls ∧ (r.uncaught a o).canceled = r.canceled := by
  unfold Report.uncaught
  split
  · exact ⟨(tellBody_result r _).2.1, (tellBody_result r _).2.2.1⟩
  · split <;> exact ⟨rfl, rfl⟩

/-- The errors of the connection, and the rest. -/
theorem step_fault (r : Report) (a : Act) (w : Why) (e : Err) (h : r.disp.fault a w r.kept = some e) :
    (r.step env P a w).result = some (if Hears r.disp w then .ok () else .error e) ∧
    (r.step env P a w).calls = r.calls ++ (if r.disp.conn.client = true then (r.disp.inFlight.toList.map (fun n => (n, e))) else []) ∧
    (r.step env P a w).canceled = r.canceled ++ (if r.disp.conn.client = true ∧ r.disp.inFlight = none ∧ w.queued = true then [⟨.canceled, e.chain⟩] else []) ∧
    (r.step env P a w).bodies = r.bodies ++ r.disp.bodyTx.toList.map (fun k => (k, ⟨.body, [.other]⟩)) := by
  have h0 := tellBody_result r ⟨.body, [.other]⟩
  have hb : (r.tellBody ⟨.body, [.other]⟩).bodies = r.bodies ++ r.disp.bodyTx.toList.map (fun k => (k, ⟨.body, [.other]⟩)) := by
    unfold Report.tellBody
    cases r.disp.bodyTx <;> simp
  unfold Report.step
  simp only [h]
  unfold Report.caught
  refine ⟨?_, ?_, ?_, (tellUser_bodies _ _ _).trans hb⟩ <;> unfold Report.tellUser <;> simp only [h0.2.2.2]
  · unfold Hears
    cases r.disp.conn.client
    · simp
    · cases r.disp.inFlight
      · cases w.queued <;> simp
      · simp
  · cases r.disp.conn.client
    · simp [h0.2.1]
    · cases r.disp.inFlight
      · cases w.queued <;> simp [h0.2.1]
      · simp [h0.2.1]
  · cases r.disp.conn.client
    · simp [h0.2.2.1]
    · cases r.disp.inFlight
      · cases w.queued <;> simp [h0.2.2.1]
      · simp [h0.2.2.1]

theorem step_none (r : Report) (a : Act) (w : Why) (h : r.disp.fault a w r.kept = none) :
    (r.step env P a w).result = (if a ≠ .drop ∧ r.disp.done = false ∧ (r.disp.step env P a).done = true then some (.ok ()) else r.result) ∧
    (r.step env P a w).calls = r.calls ++ ((r.disp.handed a w).toList.map (fun e => (r.disp.inFlight.getD 0, e))) ∧
    (r.step env P a w).canceled = r.canceled ∧
    (r.step env P a w).bodies = r.bodies ++ (r.disp.bodyTx.toList.flatMap (fun k => (r.disp.bodyFault P a w).toList.map (fun e => (k, e)))) ++
      (if a = .drop then r.disp.bodyTx.toList.map (fun k => (k, ⟨.incompleteMessage, []⟩)) else []) := by
  have hbc : ∀ e, r.disp.bodyFault P a w = some e → r.disp.handed a w = none := by
    intro e he
    cases hh : r.disp.handed a w with
    | none => rfl
    | some e' =>
      have := call_body ((handed_iff _ _ _ _).mp hh).1 P w
      rw [this] at he; cases he
  have hdb : a = .drop → r.disp.bodyFault P a w = none := by
    rintro rfl
    simp [Disp.bodyFault]
  unfold Report.step
  simp only [h]
  have hbod : ∀ (r : Report) e, (r.tellBody e).bodies = r.bodies ++ r.disp.bodyTx.toList.map (fun k => (k, e)) := by
    intro r e
    unfold Report.tellBody
    cases r.disp.bodyTx <;> simp
  have main : ∀ r' : Report, r'.disp = r.disp → r'.result = r.result →
      (r'.uncaught a (r.disp.step env P a).done).result =
        (if a ≠ .drop ∧ r.disp.done = false ∧ (r.disp.step env P a).done = true then some (.ok ()) else r.result) ∧
      (r'.uncaught a (r.disp.step env P a).done).bodies = r'.bodies ++ (if a = .drop then r.disp.bodyTx.toList.map (fun k => (k, ⟨.incompleteMessage, []⟩)) else []) := by
    intro r' h1 h2
    unfold Report.uncaught
    cases a with
    | drop => simp [hbod, h1, h2, (tellBody_result r' _).1]
    | _ =>
      simp only [h1, ne_eq, reduceCtorEq, not_false_eq_true, true_and, if_false, List.append_nil]
      generalize (Disp.step env P r.disp _).done = o
      cases r.disp.done <;> cases o <;> simp [h2]
  cases hb : r.disp.bodyFault P a w with
  | some e =>
    have hh := hbc e hb
    have m := main (r.tellBody e) (tellBody_result r e).2.2.2 (tellBody_result r e).1
    refine ⟨m.1, ?_, ?_, ?_⟩
    · rw [(uncaught_calls _ _ _).1, (tellBody_result r e).2.1, hh]; simp
    · rw [(uncaught_calls _ _ _).2, (tellBody_result r e).2.2.1]
    · rw [m.2, hbod]
      cases r.disp.bodyTx <;> simp
  | none =>
    have m := main (r.tellCall (r.disp.handed a w)) (tellCall_result r _).2.2.2 (tellCall_result r _).1
    refine ⟨m.1, ?_, ?_, ?_⟩
    · rw [(uncaught_calls _ _ _).1]
      unfold Report.tellCall
      cases r.disp.handed a w <;> simp
    · rw [(uncaught_calls _ _ _).2, (tellCall_result r _).2.1]
    · rw [m.2, (tellCall_result r _).2.2.1]
      cases r.disp.bodyTx <;> simp

theorem hears_call {d : Disp} {a : Act} (h : OfCall d a) (w : Why) : Hears d w := by
  obtain ⟨i, _, ha, hc⟩ := h
  refine ⟨hc, .inl ?_⟩
  rcases ha.2.2.2 with h | h
  · rw [hc] at h; cases h.1
  · exact h.2.1

theorem tells_fault (as : List (Act × Why)) (a : Act) (w : Why) (e : Err) :
    (Tells env P d as (a, w) e ∧ ¬ OfCall (after env P d as) a) ↔ (after env P d as).fault a w ((Report.start d).run env P as).kept = some e := by
  rw [tells_iff]
  constructor
  · rintro ⟨h | h, hn⟩
    · exact h
    · exact absurd ((handed_iff _ _ _ _).mp h).1 hn
  · intro h
    refine ⟨.inl h, fun hc => ?_⟩
    rw [call_fault hc] at h
    cases h

theorem tells_live (as : List (Act × Why)) (x : Act × Why) (e : Err) (h : Tells env P d as x e) : (after env P d as).done = false := by
  rcases (tells_iff env P d as x.1 x.2 e).mp h with h | h
  · exact fault_live h
  · obtain ⟨⟨i, _, ha, _⟩, _⟩ := (handed_iff _ _ _ _).mp h
    exact ha.1

/-- A connection that has not ended has returned nothing. -/
theorem result_live (as : List (Act × Why)) (hd : (after env P d as).done = false) : ((Report.start d).run env P as).result = none := by
  induction as using Wire.snoc_induction with
  | h0 => rfl
  | h1 as x ih =>
    rw [after_snoc] at hd
    have hd' : (after env P d as).done = false := by
      cases h : (after env P d as).done
      · rfl
      · rw [done_step _ env P x.1 h] at hd; cases hd
    rw [report_snoc]
    cases hf : ((Report.start d).run env P as).disp.fault x.1 x.2 ((Report.start d).run env P as).kept with
    | some e =>
      rw [report_disp] at hf
      rw [(fault_done _ env P _ _ _ (by rw [hf]; rfl)).2] at hd
      cases hd
    | none =>
      rw [(step_none env P _ _ _ hf).1, report_disp, hd, ih hd']
      simp

/-- What the future returns. -/
theorem report_result (as : List (Act × Why)) :
    (∀ e, ((Report.start d).run env P as).result = some (.error e) ↔
      Once (fun pre x => Tells env P d pre x e ∧ ¬ Hears (after env P d pre) x.2) as) ∧
    (((Report.start d).run env P as).result = some (.ok ()) ↔
      Once (fun pre x => (InOrder (after env P d pre) x.1 ∧ ∀ e, ¬ Pending env P d pre e) ∨
        (Hears (after env P d pre) x.2 ∧ ¬ OfCall (after env P d pre) x.1 ∧ ∃ e, Tells env P d pre x e)) as) := by
  induction as using Wire.snoc_induction with
  | h0 => exact ⟨fun e => ⟨(fun h => by cases h), fun h => absurd h (once_nil _)⟩, ⟨(fun h => by cases h), fun h => absurd h (once_nil _)⟩⟩
  | h1 as x ih =>
    obtain ⟨a, w⟩ := x
    simp only [once_snoc, report_snoc]
    simp only [← ih.1, ← ih.2]
    have hdisp := report_disp env P d as
    generalize hr : (Report.start d).run env P as = r at *
    cases hf : r.disp.fault a w r.kept with
    | some e0 =>
      have hf' := hf
      rw [hdisp, ← hr] at hf'
      have hl := fault_live hf'
      have hres := result_live env P d as hl
      rw [hr] at hres
      obtain ⟨ht, hnc⟩ := (tells_fault env P d as a w e0).mpr hf'
      have huniq : ∀ e, Tells env P d as (a, w) e → e = e0 := by
        intro e he
        have := (tells_fault env P d as a w e).mp ⟨he, hnc⟩
        rw [hf'] at this
        cases this; rfl
      rw [(step_fault env P r a w e0 hf).1, hres, hdisp]
      by_cases hh : Hears (after env P d as) w
      · rw [if_pos hh]
        refine ⟨fun e => ?_, ?_⟩
        · simp [hh]
        · simp only [reduceCtorEq, false_or, true_iff]
          exact .inr ⟨hh, hnc, e0, ht⟩
      · rw [if_neg hh]
        refine ⟨fun e => ?_, ?_⟩
        · simp only [hh, not_false_eq_true, and_true, reduceCtorEq, false_or, Option.some.injEq, Except.error.injEq]
          exact ⟨fun h => h ▸ ht, fun h => (huniq e h).symm⟩
        · simp only [reduceCtorEq, Option.some.injEq, false_or, false_iff, hh, false_and, or_false]
          rintro ⟨ho, hp⟩
          rcases ht with ht | ht
          · rw [hdisp, inOrder_fault ho] at hf
            exact hp e0 ((report_kept env P d as e0 hl).mp (by rw [hr]; exact hf))
          · exact hp e0 ht.2
    | none =>
      have hf' := hf
      rw [hdisp, ← hr] at hf'
      have hnt : ∀ e, Tells env P d as (a, w) e → OfCall (after env P d as) a := by
        intro e he
        apply Classical.byContradiction
        intro hn
        rw [(tells_fault env P d as a w e).mp ⟨he, hn⟩] at hf'
        cases hf'
      have hd := done_inOrder env P d as a w hf'
      rw [(step_none env P r a w hf).1, hdisp]
      have he1 : ∀ e, ¬ (Tells env P d as (a, w) e ∧ ¬ Hears (after env P d as) w) := by
        rintro e ⟨h1, h2⟩
        exact h2 (hears_call (hnt e h1) w)
      have he2 : ¬ (Hears (after env P d as) w ∧ ¬ OfCall (after env P d as) a ∧ ∃ e, Tells env P d as (a, w) e) := by
        rintro ⟨_, h2, e, he⟩
        exact h2 (hnt e he)
      simp only [he1, he2, or_false]
      by_cases ho : a ≠ .drop ∧ (after env P d as).done = false ∧ ((after env P d as).step env P a).done = true
      · rw [if_pos ho]
        have hres := result_live env P d as ho.2.1
        rw [hr] at hres
        refine ⟨fun e => by simp [hres], ?_⟩
        simp only [true_iff]
        exact .inr (hd.mp ho)
      · rw [if_neg ho]
        refine ⟨fun e => Iff.rfl, ?_⟩
        have hno : ¬ (InOrder (after env P d as) a ∧ ∀ e, ¬ Pending env P d as e) := fun h => ho (hd.mpr h)
        simp only [hno, or_false]

/-- What the requests are told. -/
theorem report_calls (as : List (Act × Why)) :
    (∀ n e, (n, e) ∈ ((Report.start d).run env P as).calls ↔
      Once (fun pre x => Tells env P d pre x e ∧ (after env P d pre).conn.client = true ∧ (after env P d pre).inFlight = some n) as) ∧
    (∀ c, c ∈ ((Report.start d).run env P as).canceled ↔
      Once (fun pre x => (after env P d pre).conn.client = true ∧ (after env P d pre).inFlight = none ∧ x.2.queued = true ∧
        ∃ e, Tells env P d pre x e ∧ c = ⟨.canceled, e.chain⟩) as) := by
  induction as using Wire.snoc_induction with
  | h0 => exact ⟨fun n e => ⟨(fun h => by cases h), fun h => absurd h (once_nil _)⟩, fun c => ⟨(fun h => by cases h), fun h => absurd h (once_nil _)⟩⟩
  | h1 as x ih =>
    obtain ⟨a, w⟩ := x
    simp only [once_snoc, report_snoc]
    simp only [← ih.1, ← ih.2]
    have hdisp := report_disp env P d as
    have htf := tells_fault env P d as a w
    have hti := tells_iff env P d as a w
    generalize hr : (Report.start d).run env P as = r at *
    rw [← hdisp] at htf hti ⊢
    cases hf : r.disp.fault a w r.kept with
    | some e0 =>
      obtain ⟨ht, hnc⟩ := (htf e0).mpr hf
      have huniq : ∀ e, Tells env P d as (a, w) e ↔ e = e0 := by
        intro e
        refine ⟨fun he => ?_, fun he => he ▸ ht⟩
        have := (htf e).mp ⟨he, hnc⟩
        rw [hf] at this
        cases this; rfl
      obtain ⟨_, hs2, hs3, _⟩ := step_fault env P r a w e0 hf
      rw [hs2, hs3]
      simp only [huniq]
      refine ⟨fun n e => ?_, fun c => ?_⟩
      · rw [List.mem_append]
        refine or_congr Iff.rfl ?_
        cases r.disp.conn.client
        · simp
        · cases r.disp.inFlight with
          | none => simp
          | some m => simp; constructor <;> (rintro ⟨rfl, rfl⟩; exact ⟨rfl, rfl⟩)
      · rw [List.mem_append]
        refine or_congr Iff.rfl ?_
        cases r.disp.conn.client
        · simp
        · cases r.disp.inFlight with
          | none => cases w.queued <;> simp
          | some m => simp
    | none =>
      obtain ⟨_, hs2, hs3, _⟩ := step_none env P r a w hf
      rw [hs2, hs3]
      have hti' : ∀ e, Tells env P d as (a, w) e ↔ r.disp.handed a w = some e := by
        intro e
        rw [hti, hf]
        simp
      have hsome : ∀ e, r.disp.handed a w = some e → r.disp.conn.client = true ∧ r.disp.inFlight.isSome = true := by
        intro e he
        obtain ⟨⟨i, _, ha, hc⟩, _⟩ := (handed_iff _ _ _ _).mp he
        refine ⟨hc, ?_⟩
        rcases ha.2.2.2 with h | h
        · rw [hc] at h; cases h.1
        · exact h.2.1
      simp only [hti']
      refine ⟨fun n e => ?_, fun c => ?_⟩
      · rw [List.mem_append]
        refine or_congr Iff.rfl ?_
        cases hh : r.disp.handed a w with
        | none => simp
        | some e1 =>
          obtain ⟨h1, h2⟩ := hsome e1 hh
          obtain ⟨m, hm⟩ := Option.isSome_iff_exists.mp h2
          simp [h1, hm]
          constructor <;> (rintro ⟨rfl, rfl⟩; exact ⟨rfl, rfl⟩)
      · constructor
        · exact .inl
        · rintro (h | ⟨_, h, _, e, he, _⟩)
          · exact h
          · rw [h] at hsome
            exact absurd (hsome e he).2 (by simp)

theorem breaks_fault {d : Disp} {a : Act} (h : Breaks P d a) (w : Why) (kept : Option Err) : d.fault a w kept = none := by
  obtain ⟨i, dec, k, x, rfl, hrb, hb, _, _⟩ := h
  have hcr : d.conn.canReadHead = false := by
    unfold Conn.canReadHead
    rcases hrb.2.2.1 with h | h <;> rw [h] <;> rfl
  unfold Disp.fault Disp.readFault
  simp [hrb.1, hrb.2.1, hcr, hb]

/-- What the readers of bodies are told. -/
theorem report_bodies (as : List (Act × Why)) (k : Nat) (e : Err) :
    (k, e) ∈ ((Report.start d).run env P as).bodies ↔
      Once (fun pre x => (after env P d pre).bodyTx = some k ∧
        ((e = ⟨.body, [.other]⟩ ∧ ¬ OfCall (after env P d pre) x.1 ∧ ∃ e', Tells env P d pre x e') ∨
          (e = ⟨.body, x.2.cause⟩ ∧ Breaks P (after env P d pre) x.1) ∨
          (e = ⟨.incompleteMessage, []⟩ ∧ x.1 = .drop))) as := by
  induction as using Wire.snoc_induction with
  | h0 => exact ⟨(fun h => by cases h), fun h => absurd h (once_nil _)⟩
  | h1 as x ih =>
    obtain ⟨a, w⟩ := x
    simp only [once_snoc, report_snoc]
    simp only [← ih]
    have hdisp := report_disp env P d as
    have htf := tells_fault env P d as a w
    generalize hr : (Report.start d).run env P as = r at *
    rw [← hdisp] at htf ⊢
    cases hf : r.disp.fault a w r.kept with
    | some e0 =>
      obtain ⟨ht, hnc⟩ := (htf e0).mpr hf
      have hnb : ¬ Breaks P r.disp a := fun h => by rw [breaks_fault P h] at hf; cases hf
      have hnd : a ≠ .drop := by rintro rfl; simp [Disp.fault] at hf
      obtain ⟨_, _, _, hs⟩ := step_fault env P r a w e0 hf
      rw [hs, List.mem_append]
      refine or_congr Iff.rfl ?_
      simp only [hnb, hnd, and_false, or_false, hnc, not_false_eq_true, true_and]
      cases r.disp.bodyTx with
      | none => simp
      | some m =>
        simp only [Option.toList_some, List.map_cons, List.map_nil, List.mem_singleton, Prod.mk.injEq, Option.some.injEq]
        exact ⟨fun h => ⟨h.1.symm, h.2, e0, ht⟩, fun h => ⟨h.1.symm, h.2.1⟩⟩
    | none =>
      have hnt : ¬ (¬ OfCall r.disp a ∧ ∃ e', Tells env P d as (a, w) e') := by
        rintro ⟨h1, e', h2⟩
        rw [(htf e').mp ⟨h2, h1⟩] at hf
        cases hf
      obtain ⟨_, _, _, hs⟩ := step_none env P r a w hf
      rw [hs, List.mem_append, List.mem_append, or_assoc]
      refine or_congr Iff.rfl ?_
      simp only [hnt, and_false, false_or]
      cases r.disp.bodyTx with
      | none => simp
      | some m =>
        have hbi : (m = k ∧ r.disp.bodyFault P a w = some e) ↔ (m = k ∧ (e = ⟨.body, w.cause⟩ ∧ Breaks P r.disp a)) := by
          rw [body_iff]
          exact and_congr Iff.rfl and_comm
        by_cases hd : a = .drop
        · have : ¬ Breaks P r.disp .drop := by rintro ⟨i, _, _, _, h, _⟩; cases h
          subst hd
          have hbn : Disp.bodyFault P r.disp .drop w = none := by simp [Disp.bodyFault]
          simp only [hbn, this, and_false, false_or, and_true, Option.some.injEq, Option.toList_some, Option.toList_none, if_true]
          simp [eq_comm]
        · simp only [hd, and_false, or_false, if_false, Option.some.injEq, List.not_mem_nil]
          rw [← hbi]
          cases r.disp.bodyFault P a w with
          | none => simp
          | some e1 =>
            simp
            constructor <;> (rintro ⟨rfl, rfl⟩; exact ⟨rfl, rfl⟩)

end run

/-! ## C85 -/

section claims

variable (env : EncodeEnv) (P : TrailerParser) (d : Disp)

/-- **C85, servers**: the future of a server's connection returns an error exactly when something went wrong that is called so, namely what ended the
connection or, if it was over in order, the last thing that was remembered; it returns `Ok` exactly when it was over with nothing remembered. -/
theorem C85_server (hc : d.conn.client = false) (as : List (Act × Why)) :
    (∀ e, ((Report.start d).run env P as).result = some (.error e) ↔ Once (fun pre x => Tells env P d pre x e) as) ∧
    (((Report.start d).run env P as).result = some (.ok ()) ↔ Once (fun pre x => InOrder (after env P d pre) x.1 ∧ ∀ e, ¬ Pending env P d pre e) as) ∧
    ((Report.start d).run env P as).calls = [] ∧ ((Report.start d).run env P as).canceled = [] := by
  have hn : ∀ pre w, ¬ Hears (after env P d pre) w := by
    intro pre w h
    have := h.1
    rw [after_client, hc] at this
    cases this
  obtain ⟨h1, h2⟩ := report_result env P d as
  obtain ⟨h3, h4⟩ := report_calls env P d as
  simp only [hn, not_false_eq_true, and_true, false_and, or_false] at h1 h2
  simp only [after_client, hc, Bool.false_eq_true, false_and, and_false] at h3 h4
  have hno : ∀ as : List (Act × Why), ¬ Once (fun _ _ => False) as := by rintro as ⟨_, _, _, _, h⟩; exact h
  refine ⟨h1, h2, ?_, ?_⟩
  · exact List.eq_nil_iff_forall_not_mem.mpr (fun x hx => hno _ ((h3 x.1 x.2).mp hx))
  · exact List.eq_nil_iff_forall_not_mem.mpr (fun x hx => hno _ ((h4 x).mp hx))

/-- **C85, clients**: the same for a client's connection, which gives the error to the request that waits for its response, else to the first one
queued, and returns it only if there is neither; an error of the head of a response is the request's only. -/
theorem C85_client (hc : d.conn.client = true) (as : List (Act × Why)) :
    (∀ n e, (n, e) ∈ ((Report.start d).run env P as).calls ↔ Once (fun pre x => Tells env P d pre x e ∧ (after env P d pre).inFlight = some n) as) ∧
    (∀ c, c ∈ ((Report.start d).run env P as).canceled ↔
      Once (fun pre x => (after env P d pre).inFlight = none ∧ x.2.queued = true ∧ ∃ e, Tells env P d pre x e ∧ c = ⟨.canceled, e.chain⟩) as) ∧
    (∀ e, ((Report.start d).run env P as).result = some (.error e) ↔
      Once (fun pre x => Tells env P d pre x e ∧ (after env P d pre).inFlight = none ∧ x.2.queued = false) as) ∧
    (((Report.start d).run env P as).result = some (.ok ()) ↔
      Once (fun pre x => (InOrder (after env P d pre) x.1 ∧ ∀ e, ¬ Pending env P d pre e) ∨
        (((after env P d pre).inFlight ≠ none ∨ x.2.queued = true) ∧ ¬ OfCall (after env P d pre) x.1 ∧ ∃ e, Tells env P d pre x e)) as) := by
  have hn : ∀ pre w, Hears (after env P d pre) w ↔ ((after env P d pre).inFlight ≠ none ∨ w.queued = true) := by
    intro pre w
    unfold Hears
    rw [after_client, hc, Option.isSome_iff_ne_none]
    simp
  obtain ⟨h1, h2⟩ := report_result env P d as
  obtain ⟨h3, h4⟩ := report_calls env P d as
  simp only [after_client, hc, true_and] at h3 h4
  simp only [hn] at h1 h2
  refine ⟨h3, h4, fun e => ?_, h2⟩
  rw [h1 e]
  simp [not_or]

/-- **C85, bodies**: a reader is told that its body is not whole exactly when the connection failed, the body broke, or the connection was dropped. -/
theorem C85_bodies (as : List (Act × Why)) (k : Nat) (e : Err) :
    (k, e) ∈ ((Report.start d).run env P as).bodies ↔
      Once (fun pre x => (after env P d pre).bodyTx = some k ∧
        ((e = ⟨.body, [.other]⟩ ∧ ¬ OfCall (after env P d pre) x.1 ∧ ∃ e', Tells env P d pre x e') ∨
          (e = ⟨.body, x.2.cause⟩ ∧ Breaks P (after env P d pre) x.1) ∨
          (e = ⟨.incompleteMessage, []⟩ ∧ x.1 = .drop))) as :=
  report_bodies env P d as k e

/-- What happens at the same point or before. -/
theorem once_of {α : Type} {Q R : List α → α → Prop} {as : List α} (h : Once Q as) (hi : ∀ pre x, Q pre x → R pre x ∨ Once R pre) : Once R as := by
  obtain ⟨pre, x, suf, rfl, hq⟩ := h
  rcases hi pre x hq with h | ⟨pre', y, suf', rfl, hr⟩
  · exact ⟨pre, x, suf, rfl, h⟩
  · exact ⟨pre', y, suf' ++ x :: suf, by simp, hr⟩

theorem blame_of {as : List (Act × Why)} {e : Err} (h : Once (fun pre x => Tells env P d pre x e) as) {R : Disp → Act → Why → Prop}
    (h1 : ∀ D a w, Ends D a w e → R D a w) (h2 : ∀ D a w, Remembers env P D a w e → R D a w) :
    Once (fun pre x => R (after env P d pre) x.1 x.2) as := by
  refine once_of h (fun pre x ht => ?_)
  rcases ht with ht | ⟨_, p, y, s, hs, hr, _⟩
  · exact .inl (h1 _ _ _ ht)
  · exact .inr ⟨p, y, s, hs, h2 _ _ _ hr⟩

/-- **C85, whom to blame**: an error told is of the kind for which there is a question only if it was that: the user's is a failing service, a failing
or a short body, or a response that cannot be sent; an incomplete message is a transport that ended; a parse error is a head that is none; a timeout is
the header timeout or a cause that is one; the failing shutdown is the transport's.  The connection never says by itself that it was canceled or closed. -/
theorem C85_blame (as : List (Act × Why)) (e : Err) (h : Once (fun pre x => Tells env P d pre x e) as) :
    (e.isUser = true → Once (fun pre x => ∃ i, x.1 = .write i ∧ (i.msg = .err ∨ i.frame = .frame .error ∨ Short (after env P d pre).conn ∨
      ∃ m, i.msg = .resp m ∧ ((after env P d pre).conn.respEnc env m).2.isOk = false)) as) ∧
    (e.isIncompleteMessage = true → Once (fun _ x => ∃ i, x.1 = .read i ∧ ((x.2.ended = true ∧ ∃ rest h2, i.parse = .error none rest h2) ∨ i.io = .eof)) as) ∧
    (e.isParse = true → Once (fun _ x => ∃ i pe rest h2, x.1 = .read i ∧ i.parse = .error pe rest h2) as) ∧
    (e.isTimeout = true → Once (fun pre x => (∃ i, x.1 = .read i ∧ i.parse = .pending ∧ Late (after env P d pre).conn i) ∨ .timedOut ∈ x.2.cause) as) ∧
    (e.isBodyWriteAborted = true → Once (fun pre x => (∃ i, x.1 = .write i) ∧ Short (after env P d pre).conn) as) ∧
    (e.isShutdown = true → Once (fun pre x => ∃ f, x.1 = .finish true f ∧ ((after env P d pre).conn.pollShutdown f).1 ≠ .ok) as) ∧
    e.isCanceled = false ∧ e.isClosed = false := by
  have ht : ∀ l : List Src, Err.findTimedOut l = true → .timedOut ∈ l := by
    intro l
    induction l with
    | nil => intro h; cases h
    | cons x l ih =>
      intro h
      cases x with
      | timedOut => exact List.mem_cons_self
      | _ => exact List.mem_cons_of_mem _ (ih h)
  refine ⟨fun he => ?_, fun he => ?_, fun he => ?_, fun he => ?_, fun he => ?_, fun he => ?_, ?_, ?_⟩
  · refine blame_of env P d h (R := fun D a w => ∃ i, a = .write i ∧ (i.msg = .err ∨ i.frame = .frame .error ∨ Short D.conn ∨
      ∃ m, i.msg = .resp m ∧ (D.conn.respEnc env m).2.isOk = false)) (fun D a w hx => ?_) (fun D a w hx => ?_)
    · cases hx with
      | service _ _ hm => exact ⟨_, rfl, .inl hm⟩
      | body _ _ hm => exact ⟨_, rfl, .inr (.inl hm)⟩
      | short _ _ hs => exact ⟨_, rfl, .inr (.inr (.inl hs))⟩
      | _ => cases he
    · cases hx with
      | header _ _ hm hr => exact ⟨_, rfl, .inr (.inr (.inr ⟨_, hm, by rw [hr]; rfl⟩))⟩
      | status _ _ hm hr => exact ⟨_, rfl, .inr (.inr (.inr ⟨_, hm, by rw [hr]; rfl⟩))⟩
      | _ => cases he
  · refine blame_of env P d h (R := fun D a w => ∃ i, a = .read i ∧ ((w.ended = true ∧ ∃ rest h2, i.parse = .error none rest h2) ∨ i.io = .eof))
      (fun D a w hx => ?_) (fun D a w hx => ?_)
    · cases hx with
      | cut _ hp hw _ _ => exact ⟨_, rfl, .inl ⟨hw, _, _, hp⟩⟩
      | left _ _ hi _ => exact ⟨_, rfl, .inr hi⟩
      | _ => cases he
    · cases hx <;> cases he
  · refine blame_of env P d h (R := fun D a w => ∃ i pe rest h2, a = .read i ∧ i.parse = .error pe rest h2) (fun D a w hx => ?_) (fun D a w hx => ?_)
    · cases hx with
      | head _ hp _ _ => exact ⟨_, _, _, _, rfl, hp⟩
      | preface _ hp _ _ => exact ⟨_, _, _, _, rfl, hp⟩
      | _ => cases he
    · cases hx with
      | head _ hp _ => exact ⟨_, _, _, _, rfl, hp⟩
      | _ => cases he
  · refine blame_of env P d h (R := fun D a w => (∃ i, a = .read i ∧ i.parse = .pending ∧ Late D.conn i) ∨ .timedOut ∈ w.cause)
      (fun D a w hx => ?_) (fun D a w hx => ?_)
    · cases hx with
      | late _ hp hl => exact .inl ⟨_, rfl, hp, hl⟩
      | broken => exact .inr (ht _ he)
      | watched => exact .inr (ht _ he)
      | service => exact .inr (ht _ he)
      | body => exact .inr (ht _ he)
      | flush => exact .inr (ht _ he)
      | shut => exact .inr (ht _ he)
      | _ => cases he
    · cases hx with
      | flushed => exact .inr (ht _ he)
      | noBody => exact .inr (ht _ he)
      | ended => exact .inr (ht _ he)
      | _ => cases he
  · refine blame_of env P d h (R := fun D a w => (∃ i, a = .write i) ∧ Short D.conn) (fun D a w hx => ?_) (fun D a w hx => ?_)
    · cases hx with
      | short _ _ hs => exact ⟨⟨_, rfl⟩, hs⟩
      | _ => cases he
    · cases hx <;> cases he
  · refine blame_of env P d h (R := fun D a w => ∃ f, a = .finish true f ∧ (D.conn.pollShutdown f).1 ≠ .ok) (fun D a w hx => ?_) (fun D a w hx => ?_)
    · cases hx with
      | shut _ _ _ hr => exact ⟨_, rfl, by rw [hr]; simp⟩
      | shutZero _ _ _ hr => exact ⟨_, rfl, by rw [hr]; simp⟩
      | _ => cases he
    · cases hx <;> cases he
  · have : Once (fun _ _ => e.isCanceled = false) as :=
      blame_of env P d h (R := fun _ _ _ => e.isCanceled = false) (fun D a w hx => by cases hx <;> rfl) (fun D a w hx => by cases hx <;> rfl)
    obtain ⟨_, _, _, _, h⟩ := this
    exact h
  · have : Once (fun _ _ => e.isClosed = false) as :=
      blame_of env P d h (R := fun _ _ _ => e.isClosed = false) (fun D a w hx => by cases hx <;> rfl) (fun D a w hx => by cases hx <;> rfl)
    obtain ⟨_, _, _, _, h⟩ := this
    exact h

/-- **C85, the questions**: what the methods of an error answer, in terms of its kind and its sources. -/
theorem C85_questions (e : Err) :
    (e.isTimeout = true ↔ e.kind = .headerTimeout ∨ .timedOut ∈ e.sources) ∧
    (e.isParse = true ↔ ∃ p, e.kind = .parse p) ∧
    (e.isParseTooLarge = true ↔ e.kind = .parse .tooLarge ∨ e.kind = .parse .uriTooLong) ∧
    (e.isUser = true ↔ ∃ u, e.kind = .user u) ∧
    (∀ r pre suf, e.sources = pre ++ .h2 r :: suf → (∀ q, .h2 q ∉ pre) → e.h2Reason = r.getD 2) ∧
    ((∀ q, .h2 q ∉ e.sources) → e.h2Reason = 2) ∧
    (e.code = .unexpectedEof ↔ e.isIncompleteMessage = true) ∧ (e.code = .invalidPeerMessage ↔ e.isParse = true) ∧
    (e.code = .abortedByCallback ↔ e.kind = .user .abortedByCallback) ∧ e.code ≠ .ok := by
  obtain ⟨k, l⟩ := e
  have ht : Err.findTimedOut l = true ↔ .timedOut ∈ l := by
    induction l with
    | nil => simp [Err.findTimedOut]
    | cons x l ih => cases x <;> simp [Err.findTimedOut, ih]
  refine ⟨?_, ?_, ?_, ?_, ?_, ?_, ?_, ?_, ?_, ?_⟩
  · unfold Err.isTimeout
    simp only
    cases k <;> simp [ht]
  · unfold Err.isParse
    cases k <;> simp
  · unfold Err.isParseTooLarge
    cases k with
    | parse p => cases p <;> simp
    | _ => simp
  · unfold Err.isUser
    cases k <;> simp
  · intro r pre suf hs hn
    simp only at hs
    clear ht
    subst hs
    have hf : Err.findH2 (pre ++ .h2 r :: suf) = some r := by
      induction pre with
      | nil => rfl
      | cons x pre ih =>
        have := ih (fun q hq => hn q (List.mem_cons_of_mem _ hq))
        cases x with
        | h2 q => exact absurd List.mem_cons_self (hn q)
        | _ => exact this
    simp [Err.h2Reason, hf]
  · intro hn
    simp only at hn
    have hf : Err.findH2 l = none := by
      clear ht
      induction l with
      | nil => rfl
      | cons x l ih =>
        have := ih (fun q hq => hn q (List.mem_cons_of_mem _ hq))
        cases x with
        | h2 q => exact absurd List.mem_cons_self (hn q)
        | _ => exact this
    simp [Err.h2Reason, hf]
  · unfold Err.code Err.isIncompleteMessage
    cases k with
    | user u => cases u <;> simp
    | _ => simp
  · unfold Err.code Err.isParse
    cases k with
    | user u => cases u <;> simp
    | _ => simp
  · unfold Err.code
    cases k with
    | user u => cases u <;> simp
    | _ => simp
  · unfold Err.code
    cases k with
    | user u => cases u <;> simp
    | _ => simp

/-- **C85, a body cut off**: the documentation of `is_incomplete_message` lists a body of which only a part is received before the transport ends.  Its
reader is told an error of which `is_incomplete_message` is false; it is true only of a connection that is dropped. -/
theorem C85_incomplete_body_partial (as : List (Act × Why)) (k : Nat) (e : Err) (h : (k, e) ∈ ((Report.start d).run env P as).bodies)
    (he : e.isIncompleteMessage = true) : Once (fun pre x => (after env P d pre).bodyTx = some k ∧ x.1 = .drop) as := by
  obtain ⟨pre, x, suf, hs, hb, h | h | h⟩ := (report_bodies env P d as k e).mp h
  · rw [h.1] at he; cases he
  · rw [h.1] at he; cases he
  · exact ⟨pre, x, suf, hs, hb, h.2⟩

end claims

/-! ## Examples -/

/-- A request with ten bytes of body, of which three come before the transport ends. -/
def exCutBody : List (Act × Why) :=
  [(exRead (.msg (exIn 10 false true)) ⟨[], [], .silent⟩, {}), (.want 0, {}), (exRead .pending ⟨[], [.data 97 [98, 99]], .silent⟩, {}),
   (exRead .pending ⟨[], [], .eof⟩, {})]

/-- The reader of a body cut off is told an error that is not "incomplete", and the connection has not failed. -/
theorem C85_cut_body_not_incomplete :
    ((Report.start (exDisp false)).run exEnv (fun _ _ => none) exCutBody).bodies = [(0, ⟨.body, [.other]⟩)] ∧
    (⟨.body, [.other]⟩ : Err).isIncompleteMessage = false ∧
    ((Report.start (exDisp false)).run exEnv (fun _ _ => none) exCutBody).result = none := by
  decide +kernel

/-- A transport that takes everything. -/
def exSink : FlushIn := ⟨[.wrote 1000], [.ok, .ok], []⟩

/-- The server of the examples, having done these acts. -/
def exReport (client : Bool) (as : List (Act × Why)) : Report := (Report.start (exDisp client (some 5))).run exEnv (fun _ _ => none) as

/-- What is not HTTP is answered, then told; if the answer cannot be sent, this is told instead. -/
example : (exReport false [(exRead (.error (some .method) true false) ⟨[], [], .silent⟩, {}), (.flush exSink .pending, {}), (.finish true exSink, {})]).result =
      some (.error ⟨.parse .method, []⟩) ∧
    (exReport false [(exRead (.error (some .method) true false) ⟨[], [], .silent⟩, {}), (.flush ⟨[.error], [], []⟩ .pending, {})]).result =
      some (.error ⟨.bodyWrite, [.other]⟩) := by
  decide +kernel

/-- An idle server whose transport ends or fails ends in order; within a head that is an error. -/
example : (exReport false [(exRead (.error none false false) ⟨[], [], .silent⟩, ⟨false, [.other], false⟩), (.finish true exSink, {})]).result = some (.ok ()) ∧
    (exReport false [(exRead (.error none true false) ⟨[], [], .silent⟩, {})]).result = some (.error ⟨.incompleteMessage, []⟩) := by
  decide +kernel

/-- A request without a body, to be sent. -/
def exAskOnce : Act := .write { msg := .req ⟨mGET, ascii "/", .h11, [], none⟩ none, frame := .eof, flush := exSink, notify := .pending }

/-- A client: its request is told that the response did not come; without a request the future returns the error; one in the queue is given back. -/
example : (exReport true [(exAskOnce, {}), (.flush exSink .pending, {}), (exRead (.error none false false) ⟨[], [], .silent⟩, {}), (.finish true exSink, {})]).calls =
      [(0, ⟨.incompleteMessage, []⟩)] ∧
    (exReport true [(exAskOnce, {}), (.flush exSink .pending, {}), (exRead (.error none false false) ⟨[], [], .silent⟩, {}), (.finish true exSink, {})]).result =
      some (.ok ()) := by
  decide +kernel

def exIdleEof : Act :=
  .read { ready := true, t0 := 0, t1 := 0, parse := .pending, notify := .pending, full := false, gone := false, rd := ⟨[], [], .silent⟩, bufEmpty := true, io := .bytes }

example : (exReport true [(exIdleEof, {})]).result = some (.error ⟨.unexpectedMessage, []⟩) ∧
    (exReport true [(exIdleEof, { queued := true })]).result = some (.ok ()) ∧
    (exReport true [(exIdleEof, { queued := true })]).canceled = [⟨.canceled, [.hyper .unexpectedMessage]⟩] := by
  decide +kernel

/-- The premises are met: something is told. -/
example : Once (fun pre x => Tells exEnv (fun _ _ => none) (exDisp false (some 5)) pre x ⟨.headerTimeout, []⟩)
    [(.read { ready := true, t0 := 0, t1 := 9, parse := .pending, notify := .pending, full := false, gone := false, rd := ⟨[], [], .silent⟩, bufEmpty := true,
              io := .pending }, {})] := by
  refine ((C85_server exEnv (fun _ _ => none) (exDisp false (some 5)) rfl _).1 _).mp ?_
  decide +kernel

/-- Questions: a ping that was not answered is a timeout. -/
example : keepAliveTimedOut.isTimeout = true ∧ (newH2 false (some 8) []).h2Reason = 8 ∧ (newH2 true none []).h2Reason = 2 ∧
    (newH2 false (some 8) []).code = .error := by
  decide +kernel

end Hyper
