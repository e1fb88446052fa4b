import Verif.Props.Prompt

/-!
# C77: the end of the input is an error exactly if it cuts something off

`Conn::on_read_head_error` (`src/proto/h1/conn.rs` 333-357): a server whose peer closes between two requests closes too, and empty lines after the last
request are no request; anything else that was sent is a cut-off head.  A client that finds the end always waits for a response.
-/

namespace Hyper

open Spec Input

namespace Ended

variable {α : Type} {H : HeadFn α}

/-- The end of the input: the transport has given everything, and it says that it has ended or failed. -/
def AtEnd (r : Rd) : Prop := r.net = [] ∧ r.fin ≠ .silent

theorem pull_end (x : Inlet) (h : (∃ e, x.rd.readIo.1 = .ready (.error e)) ∨ x.rd.readIo.1 = .ready (.ok [])) :
    x.pull.rd.buf = x.rd.buf ∧ AtEnd x.pull.rd := by
  obtain ⟨⟨buf, net, fin⟩, pl, mx⟩ := x
  unfold Inlet.pull Rd.readIo AtEnd at *
  rcases net with _ | ⟨s, net⟩
  · cases fin
    · simp at h
    · exact ⟨by simp, rfl, by simp⟩
    · exact ⟨by simp, rfl, by simp⟩
  · cases s with
    | pending => simp at h
    | data b bs => simp at h

theorem attempt_suffix (hS : Stable H) (m : Option Bytes) (x : Inlet) {b : Bytes} (h : x.attempt (H.parse m) = (.ok none, b)) : b <:+ x.rd.buf := by
  unfold Inlet.attempt at h
  split at h
  · cases h; exact List.nil_suffix
  · rename_i hb
    split at h
    · exact (hS.skip hb h).1
    · split at h
      · exact (hS.skip hb h).1
      · cases h; exact List.suffix_refl _

/-- `Buffered::parse` finding the end: what is left holds no head. -/
theorem parse_ended (hS : Stable H) (hE : Ending H) (m : Option Bytes) : ∀ (fuel : Nat) (x : Inlet), Seen H x →
    (x.parseLoop (H.parse m) fuel).1 = .error none →
    NoHead H (x.parseLoop (H.parse m) fuel).2.rd.buf ∧ AtEnd (x.parseLoop (H.parse m) fuel).2.rd ∧
      (x.parseLoop (H.parse m) fuel).2.rd.buf <:+ x.rd.stream := by
  intro fuel
  induction fuel with
  | zero => intro x _ h; simp [Inlet.parseLoop] at h
  | succ fuel ih =>
    intro x hx
    unfold Inlet.parseLoop
    rcases ha : x.attempt (H.parse m) with ⟨o, b⟩
    cases o with
    | error e => intro h; simp at h
    | ok o =>
      cases o with
      | some a => intro h; simp at h
      | none =>
        have hn := attempt_none hS hE m x hx ha
        have hsuf := attempt_suffix hS m x ha
        dsimp only
        by_cases hmx : x.max ≤ b.length
        · rw [if_pos hmx]; intro h; simp at h
        · rw [if_neg hmx]
          have hs : Seen H (x.leave b).setPartial := seen_setPartial hn
          have hst : (x.leave b).rd.stream <:+ x.rd.stream := by
            obtain ⟨t, ht⟩ := hsuf
            exact ⟨t, by simp [Rd.stream, Inlet.leave, ← ht]⟩
          have hend : ∀ {y : Inlet}, y.pull.rd.buf = y.rd.buf → AtEnd y.pull.rd → y.rd.stream <:+ x.rd.stream → y.rd.buf <:+ x.rd.stream := by
            intro y p1 p2 p3
            refine List.IsSuffix.trans ?_ p3
            have := (pull_facts y).1
            have he : y.pull.rd.stream = y.pull.rd.buf := by simp [Rd.stream, p2.1, segBytes]
            rw [← this, he, p1]
            exact List.suffix_refl _
          rcases hr : (x.leave b).rd.readIo.1 with _ | ⟨_ | ⟨_ | ⟨c, cs⟩⟩⟩
          · intro h; simp at h
          · intro _
            obtain ⟨p1, p2⟩ := pull_end (x.leave b).setPartial (.inl ⟨_, hr⟩)
            exact ⟨by rw [p1]; exact hn, p2, by rw [p1]; exact hend p1 p2 hst⟩
          · intro _
            obtain ⟨p1, p2⟩ := pull_end (x.leave b).setPartial (.inr hr)
            exact ⟨by rw [p1]; exact hn, p2, by rw [p1]; exact hend p1 p2 hst⟩
          · dsimp only
            intro h
            obtain ⟨g1, g2, g3⟩ := ih _ (seen_pull hs) h
            refine ⟨g1, g2, g3.trans ?_⟩
            have he : (x.leave b).setPartial.pull.rd.stream = (x.leave b).rd.stream := (pull_facts (x.leave b).setPartial).1
            rw [he]
            exact hst

/-- A client that waits for a response is not idle. -/
def Waits (v : View) : Prop := v.flight ≠ none → v.ka ≠ .idle

theorem Waits.prim {v w : View} (h : CInv v ∧ Waits v) (p : Prim v w) : CInv w ∧ Waits w := by
  refine ⟨h.1.prim p, ?_⟩
  obtain ⟨hi, hw⟩ := h
  have hc := hi.client
  cases p with
  | idle hr hw' hk => intro hf; exact absurd (hi.rest hr).2.2.2 hf
  | headOut hs => rw [hc] at hs; cases hs
  | headIn hs => rw [hc] at hs; cases hs
  | reqOut hs hw' hr hf l w k hk =>
    intro _
    rcases hk with rfl | ⟨_, rfl⟩ <;> simp
  | respIn hs hr hw' n hf => intro h'; simp at h'
  | abandon => intro h'; simp at h'
  | closeRead => intro _; simp
  | closeWrite => intro _; simp
  | errorOut => intro _; simp
  | shutdown => intro _; simp
  | shutdownIdle => intro _; simp
  | _ => exact hw

theorem client_waits (env : EncodeEnv) (P : TrailerParser) (as : List Act) (d : Disp) (h : d.Start) (hs : d.conn.client = true) :
    Waits (d.run env P as).view :=
  ((run_steps env P as d).keep (I := fun v => CInv v ∧ Waits v) (fun _ _ => Waits.prim) ⟨start_cinv d h hs, by
    intro hf; exact absurd (by rw [start_view d h]) hf⟩).2

theorem skipLines_nil (b : Bytes) : (Inlet.skipLines b).isEmpty = true ↔ ∀ x ∈ b, x = CR ∨ x = LF := by
  unfold Inlet.skipLines
  induction b with
  | nil => simp
  | cons c b ih =>
    rw [List.dropWhile_cons]
    by_cases hc : (c == CR || c == LF) = true
    · rw [if_pos hc, ih]
      simp only [Bool.or_eq_true, beq_iff_eq] at hc
      simp [hc]
    · rw [if_neg hc]
      simp only [Bool.or_eq_true, beq_iff_eq] at hc
      simp [hc]

end Ended

open Ended

/-- What is meant by the connection of a server closing without an error: no more is read or written, but the connection has not failed, nothing is
written, and no body is harmed. -/
structure Spec.ClosesQuietly (d d' : Disp) : Prop where
  running : d'.done = false
  closing : d'.closing = true
  reading : d'.conn.reading = .closed
  writing : d'.conn.writing = .closed
  log : d'.conn.log = d.conn.log
  out : d'.conn.out = d.conn.out
  chans : d'.chans = d.chans

/-- C77, server.  When a server looking for the next request finds the end of its input, the messages it has read are those of the bytes, and what is left
after them does not begin with a complete head.  If nothing but empty lines is left, it closes without an error; otherwise it fails.  In neither
case is anything written. -/
theorem C77_server {α : Type} (env : EncodeEnv) (P : TrailerParser) (H : HeadFn α) (hS : Stable H) (hE : Ending H) (f : Fed α) (hd : f.disp.Start)
    (hs : f.disp.conn.client = false) (hg : f.got = []) (hp : f.inlet.partialLen = none) (as : List FAct) (i : ReadIn) (hi : (f.run env P H as).disp.parses i = true)
    (ho : ((f.run env P H as).inlet.parse (H.parse (f.run env P H as).disp.conn.method)).1 = .error none) :
    ∃ rest, Reads H P f.disp.conn.maxHeaders f.inlet.rd.fin f.inlet.rd.stream (f.run env P H as).got rest ∧
      ((f.run env P H as).read env P H i).inlet.rd.buf <:+ rest ∧ ((f.run env P H as).read env P H i).got = (f.run env P H as).got ∧
      NoHead H ((f.run env P H as).read env P H i).inlet.rd.buf ∧ AtEnd ((f.run env P H as).read env P H i).inlet.rd ∧
      ((∀ x ∈ ((f.run env P H as).read env P H i).inlet.rd.buf, x = CR ∨ x = LF) →
        ((f.run env P H as).disp.conn.pollReadHead env i.t0 i.t1 ((f.run env P H as).readIn H i).parse i.notify (f.run env P H as).disp.headId).1 = .eof ∧
        ClosesQuietly (f.run env P H as).disp ((f.run env P H as).read env P H i).disp) ∧
      ((∃ x ∈ ((f.run env P H as).read env P H i).inlet.rd.buf, x ≠ CR ∧ x ≠ LF) →
        ((f.run env P H as).disp.conn.pollReadHead env i.t0 i.t1 ((f.run env P H as).readIn H i).parse i.notify (f.run env P H as).disp.headId).1 = .err ∧
        ((f.run env P H as).read env P H i).disp.done = true ∧
        ((f.run env P H as).read env P H i).disp.conn.log = (f.run env P H as).disp.conn.log ∧
        ((f.run env P H as).read env P H i).disp.conn.out = (f.run env P H as).disp.conn.out) := by
  have hw := watch_run hS hE env P as (f := f) (fun h => absurd hp h)
  have hnext := C66_next_head env P H hS f hd hg as
  have hc : (f.run env P H as).disp.conn.client = false := by
    have := (server_hist env P (Wire.acts env P H f as) f.disp hd hs).inv.server
    rw [← Wire.run_acts] at this
    unfold Disp.view at this
    split at this <;> exact this
  generalize f.run env P H as = g at *
  obtain ⟨hstep, hinit⟩ := step_parses env P g.disp i (g.readIn H i) rfl hi
  obtain ⟨rest, r1, r2, _⟩ := hnext (.inl hinit)
  have hx : Seen H g.inlet := by
    intro n hn
    rcases hw (by rw [hn]; simp) with h | h
    · rw [hinit] at h; cases h
    · exact h.2 n hn
  obtain ⟨e1, e2, e3⟩ := parse_ended hS hE g.disp.conn.method _ g.inlet hx ho
  have hread : g.read env P H i = { disp := g.disp.readHeadReady env (g.readIn H i), inlet := (g.inlet.parse (H.parse g.disp.conn.method)).2, got := g.got } := by
    unfold Fed.read
    rw [if_pos hi, hstep, ho]
    rfl
  have hin : (g.readIn H i).parse = .error none (!(Inlet.skipLines (g.inlet.parse (H.parse g.disp.conn.method)).2.rd.buf).isEmpty)
      (Inlet.isH2 (Inlet.skipLines (g.inlet.parse (H.parse g.disp.conn.method)).2.rd.buf)) := by
    unfold Fed.readIn
    rw [ho]
    rfl
  have ht := startTimer_fields g.disp.conn (g.readIn H i).t0
  have htc : (g.disp.conn.startTimer (g.readIn H i).t0).client = false := ht.1.trans hc
  have htout : (g.disp.conn.startTimer (g.readIn H i).t0).out = g.disp.conn.out := by
    unfold Conn.startTimer; (repeat' split) <;> rfl
  have hdone : g.disp.done = false := by
    simp only [Disp.parses, Bool.and_eq_true, Bool.not_eq_true'] at hi
    exact hi.1.1.1
  rw [hread]
  refine ⟨rest, r1, e3.trans r2, rfl, e1, e2, ?_, ?_⟩
  · intro hb
    have hemp := (skipLines_nil _).2 hb
    have : g.disp.readHeadReady env (g.readIn H i) =
        Disp.close { g.disp with conn := (g.disp.conn.startTimer (g.readIn H i).t0).closeRead.closeWrite } := by
      unfold Disp.readHeadReady
      simp only [hin, Conn.pollReadHead, Conn.onReadHeadError]
      rw [hemp]
      simp [htc, Disp.afterHead, Conn.closeWrite]
    dsimp only
    rw [this]
    refine ⟨?_, hdone, rfl, rfl, rfl, ht.2.2.2.2, htout, rfl⟩
    have hti : g.disp.conn.startTimer i.t0 = g.disp.conn.startTimer (g.readIn H i).t0 := rfl
    simp only [hin, Conn.pollReadHead, Conn.onReadHeadError, hti]
    rw [hemp]
    simp [htc, Conn.closeWrite]
  · rintro ⟨x, hx1, hx2⟩
    have hemp : (Inlet.skipLines (g.inlet.parse (H.parse g.disp.conn.method)).2.rd.buf).isEmpty = false := by
      rw [Bool.eq_false_iff]
      intro h
      rcases (skipLines_nil _).1 h x hx1 with h | h
      · exact hx2.1 h
      · exact hx2.2 h
    have hpe : ∀ h2, (g.disp.conn.startTimer (g.readIn H i).t0).closeRead.onParseError env none h2 =
        (.err, (g.disp.conn.startTimer (g.readIn H i).t0).closeRead) := by
      intro h2
      unfold Conn.onParseError Conn.onError
      simp
    have : g.disp.readHeadReady env (g.readIn H i) = Disp.fail { g.disp with conn := (g.disp.conn.startTimer (g.readIn H i).t0).closeRead } := by
      unfold Disp.readHeadReady
      simp only [hin, Conn.pollReadHead, Conn.onReadHeadError]
      rw [hemp]
      simp only [Option.isSome_none, Bool.not_false, Bool.or_true, Bool.true_or, if_true, hpe, Disp.afterHead, Disp.recvErr]
      rw [if_neg]
      simp [Conn.closeRead, htc]
    dsimp only
    rw [this]
    have hconn : (Disp.fail { g.disp with conn := (g.disp.conn.startTimer (g.readIn H i).t0).closeRead }).conn =
        (g.disp.conn.startTimer (g.readIn H i).t0).closeRead := by
      unfold Disp.fail Disp.failBody
      split <;> rfl
    refine ⟨?_, rfl, by rw [hconn]; exact ht.2.2.2.2, by rw [hconn]; exact htout⟩
    have hti : g.disp.conn.startTimer i.t0 = g.disp.conn.startTimer (g.readIn H i).t0 := rfl
    simp only [hin, Conn.pollReadHead, Conn.onReadHeadError, hti]
    rw [hemp]
    simp only [Option.isSome_none, Bool.not_false, Bool.or_true, Bool.true_or, if_true, hpe]

/-- C77, client.  A client that finds the end of its input while it waits for a response always gives its caller an error, whatever it has received, and closes. -/
theorem C77_client {α : Type} (env : EncodeEnv) (P : TrailerParser) (H : HeadFn α) (f : Fed α) (hd : f.disp.Start)
    (hs : f.disp.conn.client = true) (as : List FAct) (i : ReadIn) (hi : (f.run env P H as).disp.parses i = true)
    (ho : ((f.run env P H as).inlet.parse (H.parse (f.run env P H as).disp.conn.method)).1 = .error none) :
    ((f.run env P H as).disp.conn.pollReadHead env i.t0 i.t1 ((f.run env P H as).readIn H i).parse i.notify (f.run env P H as).disp.headId).1 = .err ∧
    (∃ n, (f.run env P H as).disp.inFlight = some n) ∧ ((f.run env P H as).read env P H i).disp.inFlight = none ∧
    ((f.run env P H as).read env P H i).disp.closing = true ∧ ((f.run env P H as).read env P H i).disp.conn.log = (f.run env P H as).disp.conn.log := by
  have hc : (f.run env P H as).disp.conn.client = true := by
    have := (client_hist env P (Wire.acts env P H f as) f.disp hd hs).inv.client
    rw [← Wire.run_acts] at this
    unfold Disp.view at this
    split at this <;> exact this
  have hwait := client_waits env P (Wire.acts env P H f as) f.disp hd hs
  rw [← Wire.run_acts] at hwait
  generalize f.run env P H as = g at *
  obtain ⟨hstep, hinit⟩ := step_parses env P g.disp i (g.readIn H i) rfl hi
  have hpar := hi
  simp only [Disp.parses, hc, if_true, Bool.and_eq_true, Bool.not_eq_true'] at hpar
  obtain ⟨⟨⟨hdone, _⟩, _⟩, hfl, _⟩ := hpar
  obtain ⟨n, hn⟩ := Option.isSome_iff_exists.1 hfl
  have hka : g.disp.conn.ka ≠ .idle := by
    have hv : g.disp.view.flight = g.disp.inFlight ∧ g.disp.view.ka = g.disp.conn.ka := by
      unfold Disp.view
      rw [if_neg (by simp [hdone])]
      exact ⟨rfl, rfl⟩
    have := hwait (by rw [hv.1, hn]; simp)
    rwa [hv.2] at this
  have ht := startTimer_fields g.disp.conn i.t0
  have hin : (g.readIn H i).parse = .error none (!(Inlet.skipLines (g.inlet.parse (H.parse g.disp.conn.method)).2.rd.buf).isEmpty)
      (Inlet.isH2 (Inlet.skipLines (g.inlet.parse (H.parse g.disp.conn.method)).2.rd.buf)) := by
    unfold Fed.readIn
    rw [ho]
    rfl
  have hpoll : g.disp.conn.pollReadHead env i.t0 i.t1 (g.readIn H i).parse i.notify g.disp.headId = (.err, (g.disp.conn.startTimer i.t0).closeRead) := by
    simp only [hin, Conn.pollReadHead, Conn.onReadHeadError]
    rw [if_pos (by simp [ht.1, hc, ht.2.2.2.1, hka])]
    unfold Conn.onParseError Conn.onError
    simp
  have hread : (g.read env P H i).disp = Disp.close { g.disp with conn := (g.disp.conn.startTimer i.t0).closeRead, inFlight := none } := by
    unfold Fed.read
    rw [if_pos hi, hstep]
    show Disp.afterHead { g.disp with conn := (g.disp.conn.pollReadHead env i.t0 i.t1 (g.readIn H i).parse i.notify g.disp.headId).2 }
      (g.disp.conn.pollReadHead env i.t0 i.t1 (g.readIn H i).parse i.notify g.disp.headId).1 = _
    rw [hpoll]
    simp only [Disp.afterHead, Disp.recvErr, hn]
    rw [if_pos (by simp [Conn.closeRead, ht.1, hc])]
  rw [hpoll, hread]
  exact ⟨rfl, ⟨n, hn⟩, rfl, rfl, ht.2.2.2.2⟩

/-- C77, between messages.  A read turn in which there is no head to look for and no body to hand on only looks whether the input has ended.  If it has, with
nothing unread: during an exchange the connection fails, unless it tolerates half-closed input, and then nothing happens; between exchanges, a client's
connection stops without an error if it is idle after a completed exchange and fails otherwise.  Whoever waits for a response gets an error.  If bytes
arrive instead, that is an error exactly between exchanges.  Nothing is written in any case. -/
theorem C77_between (env : EncodeEnv) (P : TrailerParser) (d : Disp) (hd : d.Start) (as : List Act) (i : ReadIn) (e : Disp)
    (he : e = d.run env P as) (hdone : e.done = false) (hc : e.closing = false) (hh : e.conn.canReadHead = false) (hb : e.bodyTx = none)
    (hr : e.conn.reading ≠ .closed) :
    (i.bufEmpty = true → i.io = .eof → (e.conn.reading ≠ .init ∨ e.conn.writing ≠ .init) →
      (e.conn.halfClose = false → (e.readTurn env P i).done = true ∧ (e.readTurn env P i).conn = e.conn.closeRead ∧
        (e.conn.client = true → (e.readTurn env P i).inFlight = none)) ∧
      (e.conn.halfClose = true → e.readTurn env P i = e)) ∧
    (i.bufEmpty = true → i.io = .eof → e.conn.reading = .init → e.conn.writing = .init →
      e.conn.client = true ∧ (e.readTurn env P i).conn = e.conn.closeRead ∧
      (e.conn.ka = .idle → e.inFlight = none ∧ (e.readTurn env P i).done = e.done) ∧
      (e.conn.ka ≠ .idle → (e.readTurn env P i).done = true ∧ (e.readTurn env P i).inFlight = none)) ∧
    (i.bufEmpty = true → i.io = .bytes →
      (e.conn.reading = .init → e.conn.writing = .init → (e.readTurn env P i).done = true ∧ (e.readTurn env P i).inFlight = none) ∧
      ((e.conn.reading ≠ .init ∨ e.conn.writing ≠ .init) → e.readTurn env P i = e)) ∧
    (i.bufEmpty = false →
      (e.conn.reading = .init → e.conn.writing = .init → (e.readTurn env P i).done = true ∧ (e.readTurn env P i).inFlight = none) ∧
      ((e.conn.reading ≠ .init ∨ e.conn.writing ≠ .init) → e.readTurn env P i = e)) ∧
    (e.readTurn env P i).conn.log = e.conn.log ∧ (e.readTurn env P i).chans = e.chans := by
  have hwait : e.conn.client = true → e.inFlight ≠ none → e.conn.ka ≠ .idle := by
    intro hcl
    have hs : d.conn.client = true := by
      cases hs : d.conn.client with
      | true => rfl
      | false =>
        have := (server_hist env P as d hd hs).inv.server
        rw [← he] at this
        unfold Disp.view at this
        split at this <;> exact absurd (this.symm.trans hcl) (by simp)
    have hw := client_waits env P as d hd hs
    rw [← he] at hw
    have hv : e.view.flight = e.inFlight ∧ e.view.ka = e.conn.ka := by
      unfold Disp.view
      rw [if_neg (by simp [hdone])]
      exact ⟨rfl, rfl⟩
    intro hf
    have := hw (by rw [hv.1]; exact hf)
    rwa [hv.2] at this
  have hrt : e.readTurn env P i = e.readIdle i := by
    simp only [Disp.readTurn, hc, hh, hb, Bool.false_eq_true, if_false]
  have hcl : e.conn.reading = .init → e.conn.writing = .init → e.conn.client = true := by
    intro h1 h2
    simp only [Conn.canReadHead, h1, h2] at hh
    revert hh
    cases e.conn.client <;> simp
  have hne : (e.conn.reading ≠ .init ∨ e.conn.writing ≠ .init) → ¬ (e.conn.reading = .init ∧ e.conn.writing = .init) := by
    rintro (h | h) ⟨h1, h2⟩
    · exact h h1
    · exact h h2
  rw [hrt]
  refine ⟨fun hbe hio hx => ⟨fun hhc => ?_, fun hhc => ?_⟩, fun hbe hio h1 h2 => ⟨hcl h1 h2, ?_, fun hka => ⟨?_, ?_⟩, fun hka => ?_⟩,
    fun hbe hio => ⟨fun h1 h2 => ?_, fun hx => ?_⟩, fun hbe => ⟨fun h1 h2 => ?_, fun hx => ?_⟩, ?_, ?_⟩
  · simp [Disp.readIdle, Conn.pollReadKeepAlive, hr, hne hx, Conn.midMessageEof, hhc, hbe, hio, Disp.fail, Disp.failBody, hb, Conn.closeRead]
    intro h h'
    rw [h] at h'
    cases h'
  · simp [Disp.readIdle, Conn.pollReadKeepAlive, hr, hne hx, Conn.midMessageEof, hhc]
  · cases hk : e.conn.ka <;>
      simp [Disp.readIdle, Conn.pollReadKeepAlive, h1, h2, Conn.requireEmpty, hbe, hio, hcl h1 h2, hk, Disp.fail, Disp.failBody, hb, Conn.closeRead]
  · cases hf : e.inFlight with
    | none => rfl
    | some n => exact absurd hka (hwait (hcl h1 h2) (by rw [hf]; simp))
  · simp [Disp.readIdle, Conn.pollReadKeepAlive, h1, h2, Conn.requireEmpty, hbe, hio, hka]
  · simp [Disp.readIdle, Conn.pollReadKeepAlive, h1, h2, Conn.requireEmpty, hbe, hio, hka, hcl h1 h2, Disp.fail, Disp.failBody, hb, Conn.closeRead]
  · simp [Disp.readIdle, Conn.pollReadKeepAlive, h1, h2, Conn.requireEmpty, hbe, hio, hcl h1 h2, Disp.fail, Disp.failBody, hb]
  · cases hk : e.conn.halfClose <;> simp [Disp.readIdle, Conn.pollReadKeepAlive, hr, hne hx, Conn.midMessageEof, hbe, hio, hk]
  · simp [Disp.readIdle, Conn.pollReadKeepAlive, h1, h2, Conn.requireEmpty, hbe, hcl h1 h2, Disp.fail, Disp.failBody, hb]
  · simp [Disp.readIdle, Conn.pollReadKeepAlive, hr, hne hx, Conn.midMessageEof, hbe]
  · simp only [Disp.readIdle, Conn.pollReadKeepAlive, Conn.midMessageEof, Conn.requireEmpty]
    repeat' split
    all_goals simp_all [Disp.fail, Disp.failBody, Conn.closeRead, Conn.closeAll]
  · simp only [Disp.readIdle, Conn.pollReadKeepAlive, Conn.midMessageEof, Conn.requireEmpty]
    repeat' split
    all_goals simp_all [Disp.fail, Disp.failBody, Conn.closeRead, Conn.closeAll]

namespace Ended

/-- A server that is sent a request and these bytes, and then nothing more. -/
def exFed (b : Bytes) : Fed RequestMsg := ⟨exDisp false, { rd := ⟨[], [.data 1 b], .eof⟩, max := 8192 }, []⟩

/-- A tokeniser for heads of one byte that skips empty lines. -/
def exQ : Bytes → Except ParseErr (Option (RawRequest × Nat))
  | 1 :: _ => .ok (some (⟨mGET, ascii "/", true, []⟩, 1))
  | _ => .ok none

def exHeads : HeadFn RequestMsg := serverHeads exQ (fun _ => true) (fun _ => true) false

def exActs : List FAct :=
  [.act (exRead .pending exNo), .act (exWrite (exResp [] none) .pending), .act (.flush exFlushIn .pending), .act (exRead .pending exNo)]

/-- Empty lines after a request, and the beginning of another one. -/
example : ((exFed (ascii "\r\n\n")).run exEnv exP exHeads exActs).disp.done = false ∧
    ((exFed (ascii "\r\n\n")).run exEnv exP exHeads exActs).disp.closing = true ∧
    ((exFed (ascii "\r\nG")).run exEnv exP exHeads exActs).disp.done = true := by
  decide +kernel

/-- A read turn that finds the end of the input. -/
def exEnd : ReadIn :=
  { ready := true, t0 := 0, t1 := 0, parse := .pending, notify := .pending, full := false, gone := false, rd := exNo, bufEmpty := true, io := .eof }

/-- The end finds a server that owes a response, a client before its first request, and one after a complete exchange. -/
example : (((exDisp false).run exEnv exP [exRead (.msg (exIn 0 false true)) exNo]).readTurn exEnv exP exEnd).done = true ∧
    ((exDisp true).readTurn exEnv exP exEnd).done = true ∧
    (let d := (exDisp true).run exEnv exP [exWrite (exSend [] none) .pending, .flush exFlushIn .pending, exRead (.msg (exIn 0 false true)) exNo]
     d.conn.canReadHead = false ∧ d.conn.ka = .idle ∧ d.done = false ∧ (d.readTurn exEnv exP exEnd).done = false) := by
  decide +kernel

end Ended

end Hyper
