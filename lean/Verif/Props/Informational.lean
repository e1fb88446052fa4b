import Verif.Proof.Informational

/-!
# C87: the informational callback hears exactly the interim heads of its own exchange

A client connection (`Hinted`) runs for any sequence of acts, with the bytes of the server arriving in any pieces.  `has n` says whether
request `n` came with a callback.  `Led` and `toldTo` (`Spec/Informational.lean`) say what interim heads stand before a response and what
a callback was called with.
-/

namespace Hyper

open Spec Input Hints

/-- C87, the response.  Whenever the head of response `k` has been read: what the server sent after the responses before it are interim heads
and then this response's head, and the callback of request `k`, if there is one, was called with exactly these interim heads, once each, in
order. -/
theorem C87_response (env : EncodeEnv) (P : TrailerParser) (cfg : ClientCfg) (h09 : cfg.h09 = false) (Q : Bytes → RespParse) (hQ : PrefixStable Q)
    (has : Nat → Bool) (s : Hinted) (hd : s.fed.disp.Start) (hcl : s.fed.disp.conn.client = true) (hg : s.fed.got = []) (hc : s.calls = [])
    (as : List FAct) (k : Nat) (r : Received ResponseMsg) (hr : (s.run env P cfg Q has as).fed.got[k]? = some r) :
    r.id = k ∧ ∃ t l rest len raw,
      Reads (clientHeads cfg Q) P s.fed.disp.conn.maxHeaders s.fed.inlet.rd.fin s.fed.inlet.rd.stream
        ((s.run env P cfg Q has as).fed.got.take k) t ∧
      Led cfg Q t l rest ∧ Q rest = .complete len raw ∧ headOf cfg raw = some r.head.head ∧
      toldTo k (s.run env P cfg Q has as).calls = if has k then l else [] :=
  (ni_run h09 hQ env as (ni_start (P := P) hd hcl hg hc)).past k r hr

/-- C87, while a response is awaited: nothing of what is unread has been told, and everything that was passed over has. -/
theorem C87_waiting (env : EncodeEnv) (P : TrailerParser) (cfg : ClientCfg) (h09 : cfg.h09 = false) (Q : Bytes → RespParse) (hQ : PrefixStable Q)
    (has : Nat → Bool) (s : Hinted) (hd : s.fed.disp.Start) (hcl : s.fed.disp.conn.client = true) (hg : s.fed.got = []) (hc : s.calls = [])
    (as : List FAct)
    (hi : (s.run env P cfg Q has as).fed.disp.conn.reading = .init ∨ (s.run env P cfg Q has as).fed.disp.conn.reading = .keepAlive) :
    ∃ t l, Reads (clientHeads cfg Q) P s.fed.disp.conn.maxHeaders s.fed.inlet.rd.fin s.fed.inlet.rd.stream (s.run env P cfg Q has as).fed.got t ∧
      Led cfg Q t l (s.run env P cfg Q has as).fed.inlet.rd.stream ∧
      toldTo (s.run env P cfg Q has as).fed.got.length (s.run env P cfg Q has as).calls =
        if has (s.run env P cfg Q has as).fed.got.length then l else [] := by
  have h := ni_run h09 hQ env as (ni_start (P := P) (Q := Q) (cfg := cfg) (has := has) hd hcl hg hc)
  cases h.now with
  | between t l rest hr hl ht hp =>
    rcases hp with e | ⟨e, _⟩
    · rcases hi with hi | hi <;> rw [hi] at e <;> cases e
    · exact ⟨t, l, hr, e ▸ hl, ht⟩
  | within ht hp => rcases hp with e | ⟨dec, e⟩ <;> rcases hi with hi | hi <;> rw [hi] at e <;> cases e

namespace Hints

/-- The calls made by one act are for the request whose response is awaited, which has been written. -/
theorem step_calls {cfg : ClientCfg} {Q : Bytes → RespParse} {P : TrailerParser} {mh : Option Nat} {fin : NetEnd} {S : Bytes} {has : Nat → Bool}
    (env : EncodeEnv) {s : Hinted} (h : NI cfg Q P mh fin S has s) (a : FAct) :
    ∃ l, (s.step env P cfg Q has a).calls = s.calls ++ l.map (fun x => (s.fed.got.length, x)) ∧
      (l ≠ [] → s.fed.got.length < writeHeads s.fed.disp.conn.log) := by
  have none' : (s.step env P cfg Q has a).calls = s.calls →
      ∃ l, (s.step env P cfg Q has a).calls = s.calls ++ l.map (fun x => (s.fed.got.length, x)) ∧
        (l ≠ [] → s.fed.got.length < writeHeads s.fed.disp.conn.log) := fun e => ⟨[], by simpa using e, by simp⟩
  cases a with
  | pull => exact none' rfl
  | act a =>
    cases a with
    | read i =>
      by_cases hp : s.fed.disp.parses i = true
      · refine ⟨_, by simp only [Hinted.step, Hinted.read, hp, if_true]; rw [tell_eq h hp], fun _ => ?_⟩
        have hr := (step_parses exEnv P s.fed.disp i i rfl hp).2
        have hw := waited h hp
        simp only [Disp.parses, Bool.and_eq_true, Bool.not_eq_true', h.client, if_true] at hp
        have hv : s.fed.disp.view = s.fed.disp.conn.view s.fed.disp.inFlight s.fed.disp.next := by
          unfold Disp.view
          rw [if_neg (by simp [hp.1.1.1])]
        have hc := h.cinv
        rw [hv] at hc
        obtain ⟨_, c1, c2⟩ := hc.init (by simp [Conn.view, hr, Reading.tag])
        have hne : (s.fed.disp.conn.view s.fed.disp.inFlight s.fed.disp.next).wr ≠ .init := by
          intro e
          have := (c1 e).2
          simp only [Conn.view] at this
          rw [this] at hw
          cases hw
        have h1 := (c2 hne).1
        have h2 := hc.heads
        have h3 := readHeads_got h.fi
        simp only [Conn.view] at h1 h2
        omega
      · exact none' (by simp [Hinted.step, Hinted.read, hp])
    | _ => exact none' rfl

theorem writeHeads_mono (env : EncodeEnv) (P : TrailerParser) (d : Disp) (a : Act) :
    writeHeads d.conn.log ≤ writeHeads (d.step env P a).conn.log := by
  have := (step_steps env P d a).keep (I := fun w => writeHeads d.view.log ≤ writeHeads w.log)
    (fun v w hv p => by cases p <;> simp [writeHeads] at hv ⊢ <;> omega) (Nat.le_refl _)
  rwa [view_log, view_log] at this

theorem writeHeads_step {cfg : ClientCfg} {Q : Bytes → RespParse} {P : TrailerParser} {has : Nat → Bool} (env : EncodeEnv) (s : Hinted) (a : FAct) :
    writeHeads s.fed.disp.conn.log ≤ writeHeads (s.step env P cfg Q has a).fed.disp.conn.log := by
  rw [step_fed]
  have hd := fed_disp (P := P) (clientHeads cfg Q) env s.fed a
  cases a with
  | pull => dsimp only at hd; rw [hd]; exact Nat.le_refl _
  | act a => cases a <;> dsimp only at hd <;> rw [hd] <;> exact writeHeads_mono env P _ _

theorem got_step {cfg : ClientCfg} {Q : Bytes → RespParse} {P : TrailerParser} {has : Nat → Bool} (env : EncodeEnv) (s : Hinted) (a : FAct) :
    s.fed.got.length ≤ (s.step env P cfg Q has a).fed.got.length := by
  have hl : ∀ (g : Received ResponseMsg → Received ResponseMsg) l, (onLast g l).length = l.length := by
    intro g l
    induction l with
    | nil => rfl
    | cons b l ih =>
      cases l with
      | nil => rfl
      | cons c l => simp only [onLast, List.length_cons] at ih ⊢; omega
  rw [step_fed]
  cases a with
  | pull => exact Nat.le_refl _
  | act a =>
    cases a with
    | read i =>
      simp only [Fed.step]
      unfold Fed.read
      split
      · dsimp only
        unfold Fed.begin
        split
        · simp
        · exact Nat.le_refl _
      · split
        · dsimp only; rw [hl]; exact Nat.le_refl _
        · exact Nat.le_refl _
    | _ => exact Nat.le_refl _

theorem hrun_append (env : EncodeEnv) (P : TrailerParser) (cfg : ClientCfg) (Q : Bytes → RespParse) (has : Nat → Bool) (s : Hinted) (as bs : List FAct) :
    s.run env P cfg Q has (as ++ bs) = (s.run env P cfg Q has as).run env P cfg Q has bs := by
  simp [Hinted.run]

theorem calls_run {cfg : ClientCfg} {Q : Bytes → RespParse} {P : TrailerParser} {mh : Option Nat} {fin : NetEnd} {S : Bytes} {has : Nat → Bool}
    (h09 : cfg.h09 = false) (hQ : PrefixStable Q) (env : EncodeEnv) (as : List FAct) : ∀ {s : Hinted}, NI cfg Q P mh fin S has s →
    ∃ l, (s.run env P cfg Q has as).calls = s.calls ++ l ∧ (∀ p ∈ l, s.fed.got.length ≤ p.1 ∧
      p.1 < writeHeads (s.run env P cfg Q has as).fed.disp.conn.log) ∧ l.Pairwise (fun p q => p.1 ≤ q.1) ∧
      writeHeads s.fed.disp.conn.log ≤ writeHeads (s.run env P cfg Q has as).fed.disp.conn.log := by
  induction as with
  | nil => intro s h; exact ⟨[], by simp [Hinted.run], by simp, .nil, Nat.le_refl _⟩
  | cons a as ih =>
    intro s h
    obtain ⟨l, h1, h2, h3, h4⟩ := ih (ni_step h09 hQ env h a)
    obtain ⟨l', g1, g2⟩ := step_calls env h a
    have hw := writeHeads_step (cfg := cfg) (Q := Q) (P := P) (has := has) env s a
    have hg := got_step (cfg := cfg) (Q := Q) (P := P) (has := has) env s a
    refine ⟨l'.map (fun x => (s.fed.got.length, x)) ++ l, ?_, ?_, ?_, Nat.le_trans hw h4⟩
    · change ((s.step env P cfg Q has a).run env P cfg Q has as).calls = _
      rw [h1, g1, List.append_assoc]
    · intro p hp
      change _ ∧ _ < writeHeads ((s.step env P cfg Q has a).run env P cfg Q has as).fed.disp.conn.log
      rcases List.mem_append.1 hp with hp | hp
      · obtain ⟨x, hx, rfl⟩ := List.mem_map.1 hp
        have := g2 (List.ne_nil_of_mem hx)
        exact ⟨Nat.le_refl _, by dsimp only; omega⟩
      · have := h2 p hp
        exact ⟨by omega, this.2⟩
    · refine List.pairwise_append.2 ⟨?_, h3, ?_⟩
      · exact List.pairwise_map.2 (List.pairwise_iff_forall_sublist.2 (fun _ => Nat.le_refl _))
      · intro p hp q hq
        obtain ⟨x, hx, rfl⟩ := List.mem_map.1 hp
        have := h2 q hq
        dsimp only
        omega

theorem led_interim {cfg : ClientCfg} {Q : Bytes → RespParse} {s rest : Bytes} {l : List RespHead} (h : Led cfg Q s l rest) :
    ∀ x ∈ l, Spec.Interim x.status := by
  obtain ⟨rs, h1, h2⟩ := h
  have key : ∀ r ∈ rs, Spec.Interim r.status := by
    clear h2
    induction h1 with
    | nil => simp
    | cons _ g _ ih => simp [g]; exact ih
  intro x hx
  have : some x ∈ rs.map (headOf cfg) := by rw [h2]; exact List.mem_map.2 ⟨x, hx, rfl⟩
  obtain ⟨r, hr, e⟩ := List.mem_map.1 this
  have hi := key r hr
  unfold headOf at e
  cases hh : clientHead cfg r with
  | error _ => rw [hh] at e; cases e
  | ok p =>
    rw [hh] at e
    obtain ⟨hd, ka⟩ := p
    simp only [Option.some.injEq] at e
    rw [← e, (clientHead_ok hh).2.1]
    exact hi

end Hints

/-- C87, no callback hears of another exchange: every call is of a callback that was given, for a request that has been written, no later
than its response; with an interim head; and in the order of the requests. -/
theorem C87_own (env : EncodeEnv) (P : TrailerParser) (cfg : ClientCfg) (h09 : cfg.h09 = false) (Q : Bytes → RespParse) (hQ : PrefixStable Q)
    (has : Nat → Bool) (s : Hinted) (hd : s.fed.disp.Start) (hcl : s.fed.disp.conn.client = true) (hg : s.fed.got = []) (hc : s.calls = [])
    (as : List FAct) :
    (∀ p ∈ (s.run env P cfg Q has as).calls, has p.1 = true ∧ p.1 ≤ (s.run env P cfg Q has as).fed.got.length ∧
      p.1 < writeHeads (s.run env P cfg Q has as).fed.disp.conn.log ∧ Spec.Interim p.2.status) ∧
    (s.run env P cfg Q has as).calls.Pairwise (fun p q => p.1 ≤ q.1) := by
  have h0 := ni_start (P := P) (Q := Q) (cfg := cfg) (has := has) hd hcl hg hc
  have h := ni_run h09 hQ env as h0
  obtain ⟨l, l1, l2, l3, _⟩ := calls_run h09 hQ env as h0
  rw [hc, List.nil_append] at l1
  refine ⟨fun p hp => ?_, by rw [l1]; exact l3⟩
  obtain ⟨t1, t2⟩ := h.tags p hp
  refine ⟨t1, t2, (l2 p (l1 ▸ hp)).2, ?_⟩
  have hm : p.2 ∈ toldTo p.1 (s.run env P cfg Q has as).calls := by
    unfold toldTo
    exact List.mem_map.2 ⟨p, List.mem_filter.2 ⟨hp, by simp⟩, rfl⟩
  have use : ∀ {b : Bool} {t rest : Bytes} {l : List RespHead}, Led cfg Q t l rest →
      toldTo p.1 (s.run env P cfg Q has as).calls = heardBy b l → Spec.Interim p.2.status := by
    intro b t rest l g1 g2
    rw [g2] at hm
    unfold heardBy at hm
    cases b with
    | true => exact led_interim g1 _ hm
    | false => simp at hm
  rcases Nat.lt_or_ge p.1 (s.run env P cfg Q has as).fed.got.length with g | g
  · obtain ⟨_, t, l, rest, len, raw, _, g2, _, _, g5⟩ := h.past p.1 _ (List.getElem?_eq_getElem g)
    exact use g2 g5
  · have e : p.1 = (s.run env P cfg Q has as).fed.got.length := by omega
    cases h.now with
    | between t l rest hr hl ht hp => rw [← e] at ht; exact use hl ht
    | within ht hp => rw [← e] at ht; rw [ht] at hm; simp at hm

/-- C87, once the response's head has been read its callback hears nothing more. -/
theorem C87_over (env : EncodeEnv) (P : TrailerParser) (cfg : ClientCfg) (h09 : cfg.h09 = false) (Q : Bytes → RespParse) (hQ : PrefixStable Q)
    (has : Nat → Bool) (s : Hinted) (hd : s.fed.disp.Start) (hcl : s.fed.disp.conn.client = true) (hg : s.fed.got = []) (hc : s.calls = [])
    (as bs : List FAct) (k : Nat) (hk : k < (s.run env P cfg Q has as).fed.got.length) :
    toldTo k (s.run env P cfg Q has (as ++ bs)).calls = toldTo k (s.run env P cfg Q has as).calls := by
  have h := ni_run h09 hQ env as (ni_start (P := P) (Q := Q) (cfg := cfg) (has := has) hd hcl hg hc)
  obtain ⟨l, l1, l2, _⟩ := calls_run h09 hQ env bs h
  rw [hrun_append, l1, toldTo_append, toldTo_none (l := l), List.append_nil]
  intro p hp e
  have := (l2 p hp).1
  omega

/-! ## Examples -/

namespace Hints

theorem exH_stable : PrefixStable exH := by
  intro buf len r h
  unfold exH at h
  split at h <;> simp at h <;> obtain ⟨rfl, rfl⟩ := h <;> exact ⟨by decide, by simp, fun more => rfl⟩

/-- A server that sends 100, 103, then later 103 and a response with the body `9 9 9 9 9`; and to the next request 100 and a response. -/
def exTalk : Hinted :=
  { fed := ⟨exDisp true, { rd := ⟨[], [.data 1 [2], .pending, .data 2 [3, 9, 9, 9, 9, 9], .pending, .data 1 [3, 9, 9]], .silent⟩, max := 8192 }, []⟩ }

/-- Two exchanges. -/
def exAsk : List FAct :=
  [.act (exWrite (exSend [] none) .pending), .act (.flush exFlushIn .pending),
   .act (exRead .pending exNo), .act (exRead .pending exNo), .act (.want 0), .act (exRead .pending exNo), .act (exRead .pending exNo),
   .act (exWrite (exSend [] none) .pending), .act (.flush exFlushIn .pending), .act (exRead .pending exNo), .act (exRead .pending exNo)]

/-- Both requests come with a callback. -/
example : exTalk.fed.disp.Start ∧
    (exTalk.run exEnv exP exCfg exH (fun _ => true) exAsk).calls.map (fun p => (p.1, p.2.status)) = [(0, 100), (0, 103), (0, 103), (1, 100)] ∧
    (exTalk.run exEnv exP exCfg exH (fun _ => true) exAsk).fed.got.map (fun r => (r.id, r.head.head.status, r.data)) =
      [(0, 200, [9, 9, 9, 9, 9]), (1, 200, [])] :=
  ⟨exDisp_start _ _, by decide +kernel, by decide +kernel⟩

/-- Only the second one does. -/
example : (exTalk.run exEnv exP exCfg exH (fun n => n == 1) exAsk).calls.map (fun p => (p.1, p.2.status)) = [(1, 100)] := by decide +kernel

/-- While the first response is awaited. -/
example : (exTalk.run exEnv exP exCfg exH (fun _ => true) (exAsk.take 3)).calls.map (fun p => (p.1, p.2.status)) = [(0, 100), (0, 103)] ∧
    (exTalk.run exEnv exP exCfg exH (fun _ => true) (exAsk.take 3)).fed.got = [] ∧
    (exTalk.run exEnv exP exCfg exH (fun _ => true) (exAsk.take 3)).fed.disp.conn.reading = .init := by
  refine ⟨by decide +kernel, by decide +kernel, by decide +kernel⟩

end Hints

end Hyper
