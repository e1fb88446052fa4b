import Verif.Model.H1Upgrade
import Verif.Props.Conn

/-!
# C63: handing over an HTTP/1 connection
-/

namespace Hyper

open Spec

namespace HandOver

/-! ## The write side -/

/-- Nothing is queued when everything is flattened. -/
def Flat (o : WriteSide Bytes) : Prop := o.wbuf.strategy = .flatten → o.wbuf.queue = []

/-- All has been accepted by the transport. -/
def Sent (o : WriteSide Bytes) : Prop := WriteBuf.remaining bytesBuf o.wbuf = 0

theorem flushQueue_done : ∀ (ws : List IoWrite) (w : WriteBuf Bytes) (sent : Bytes), (flushQueue bytesBuf ws w sent).res = .ok →
    WriteBuf.remaining bytesBuf (flushQueue bytesBuf ws w sent).wbuf = 0 := by
  intro ws
  induction ws with
  | nil => intro w sent h; cases h
  | cons a t ih =>
    intro w sent h
    cases a with
    | pending => cases h
    | error => cases h
    | wrote n =>
      simp only [flushQueue] at h ⊢
      cases ha : WriteBuf.advance bytesBuf w (min n (WriteBuf.vectored bytesBuf w maxWritevBufs).flatten.length) with
      | none => simp only [ha] at h; cases h
      | some w' =>
        simp only [ha] at h ⊢
        split at h
        · rename_i h0; rw [if_pos h0]; exact h0
        · rename_i h0
          split at h
          · cases h
          · rename_i h1; rw [if_neg h0, if_neg h1]; exact ih _ _ h

theorem advance_strategy {w w' : WriteBuf Bytes} {n : Nat} (h : WriteBuf.advance bytesBuf w n = some w') : w'.strategy = w.strategy := by
  unfold WriteBuf.advance at h
  split at h
  · cases h; rfl
  · split at h
    · cases h; rfl
    · cases hb : BufList.advance bytesBuf w.queue (n - w.headers.remaining) with
      | none => rw [hb] at h; cases h
      | some q => rw [hb] at h; cases h; rfl

theorem flushQueue_strategy : ∀ (ws : List IoWrite) (w : WriteBuf Bytes) (sent : Bytes), (flushQueue bytesBuf ws w sent).wbuf.strategy = w.strategy := by
  intro ws
  induction ws with
  | nil => intro w sent; rfl
  | cons a t ih =>
    intro w sent
    cases a with
    | pending => rfl
    | error => rfl
    | wrote n =>
      simp only [flushQueue]
      cases ha : WriteBuf.advance bytesBuf w (min n (WriteBuf.vectored bytesBuf w maxWritevBufs).flatten.length) with
      | none => rfl
      | some w' =>
        have := advance_strategy ha
        simp only []
        split
        · exact this
        · split
          · exact this
          · rw [ih, this]

theorem flushFlat_done : ∀ (ws : List IoWrite) (w : WriteBuf Bytes) (sent : Bytes), (flushFlat ws w sent).res = .ok → (flushFlat ws w sent).wbuf.headers.remaining = 0 := by
  intro ws
  induction ws with
  | nil => intro w sent h; cases h
  | cons a t ih =>
    intro w sent h
    cases a with
    | pending => cases h
    | error => cases h
    | wrote n =>
      simp only [flushFlat] at h ⊢
      split at h
      · rename_i h0; rw [if_pos h0]; rfl
      · rename_i h0
        split at h
        · cases h
        · rename_i h1; rw [if_neg h0, if_neg h1]; exact ih _ _ h

theorem flushFlat_queue : ∀ (ws : List IoWrite) (w : WriteBuf Bytes) (sent : Bytes),
    (flushFlat ws w sent).wbuf.queue = w.queue ∧ (flushFlat ws w sent).wbuf.strategy = w.strategy := by
  intro ws
  induction ws with
  | nil => intro w sent; exact ⟨rfl, rfl⟩
  | cons a t ih =>
    intro w sent
    cases a with
    | pending => exact ⟨rfl, rfl⟩
    | error => exact ⟨rfl, rfl⟩
    | wrote n =>
      simp only [flushFlat]
      split
      · exact ⟨rfl, rfl⟩
      · split
        · exact ⟨rfl, rfl⟩
        · exact ih _ _

theorem finish_wbuf (s : WriteSide Bytes) (l : LoopRes Bytes) : (s.finish l).2.wbuf = l.wbuf ∧ (s.finish l).2.flushPipeline = s.flushPipeline ∧
    ((s.finish l).1 = .ok → l.res = .ok) := by
  unfold WriteSide.finish
  simp only
  split
  · rename_i h; exact ⟨rfl, rfl, fun _ => h⟩
  · exact ⟨rfl, rfl, id⟩

/-- A flush: what it keeps, and that success means that all was accepted. -/
theorem pollFlush_facts (s : WriteSide Bytes) (rb : Bytes) (hf : Flat s) (hp : s.flushPipeline = false) :
    Flat (s.pollFlush bytesBuf rb).2 ∧ (s.pollFlush bytesBuf rb).2.flushPipeline = false ∧
    ((s.pollFlush bytesBuf rb).1 = .ok → Sent (s.pollFlush bytesBuf rb).2) ∧ (Sent s → Sent (s.pollFlush bytesBuf rb).2) := by
  unfold WriteSide.pollFlush
  rw [if_neg (by simp [hp])]
  split
  · rename_i h
    exact ⟨hf, hp, fun _ => h, fun _ => h⟩
  · rename_i h
    cases hs : s.wbuf.strategy with
    | flatten =>
      simp only []
      obtain ⟨f1, f2, f3⟩ := finish_wbuf s (flushFlat s.sink.writes s.wbuf s.sink.sent)
      obtain ⟨q1, q2⟩ := flushFlat_queue s.sink.writes s.wbuf s.sink.sent
      refine ⟨?_, by rw [f2, hp], ?_, fun hh => absurd hh h⟩
      · intro _; rw [f1, q1]; exact hf hs
      · intro hr
        have := flushFlat_done _ _ _ (f3 hr)
        unfold Sent WriteBuf.remaining
        rw [f1, this, q1, hf hs]; rfl
    | queue =>
      simp only []
      obtain ⟨f1, f2, f3⟩ := finish_wbuf s (flushQueue bytesBuf s.sink.writes s.wbuf s.sink.sent)
      refine ⟨?_, by rw [f2, hp], ?_, fun hh => absurd hh h⟩
      · intro hh; rw [f1, flushQueue_strategy, hs] at hh; cases hh
      · intro hr
        have := flushQueue_done _ _ _ (f3 hr)
        unfold Sent
        rw [f1]; exact this

theorem pollShutdown_facts (s : WriteSide Bytes) (rb : Bytes) (hf : Flat s) (hp : s.flushPipeline = false) :
    Flat (s.pollShutdown bytesBuf rb).2 ∧ (s.pollShutdown bytesBuf rb).2.flushPipeline = false ∧ (Sent s → Sent (s.pollShutdown bytesBuf rb).2) := by
  obtain ⟨a, b, _, c⟩ := pollFlush_facts s rb hf hp
  unfold WriteSide.pollShutdown
  split
  · exact ⟨a, b, c⟩
  · exact ⟨a, b, c⟩

theorem flat_put (c : Conn) (bs : Bytes) (h : Flat c.out) : Flat (c.put bs).out ∧ (c.put bs).out.flushPipeline = c.out.flushPipeline := by
  unfold Conn.put
  split
  · exact ⟨h, rfl⟩
  split
  · rename_i w hw
    refine ⟨?_, rfl⟩
    unfold WriteBuf.buffer at hw
    cases hs : c.out.wbuf.strategy with
    | flatten =>
      simp only [hs] at hw
      obtain ⟨x, _, rfl⟩ := Option.map_eq_some_iff.1 hw
      exact fun _ => h hs
    | queue =>
      simp only [hs] at hw
      cases hw
      intro hh
      cases hh
  · exact ⟨h, rfl⟩

/-! ## The server -/

/-- What holds of a server whose requests have no bodies, while it runs. -/
structure Ok (d : Disp) : Prop where
  server : d.conn.client = false
  pipeline : d.conn.out.flushPipeline = false
  flat : Flat d.conn.out
  bodyTx : d.bodyTx = none
  noBody : d.conn.reading = .init ∨ d.conn.reading = .keepAlive ∨ d.conn.reading = .closed
  init : d.conn.reading = .init → d.conn.writing = .init ∧ Sent d.conn.out ∧ d.inFlight = none
  closed : d.conn.reading = .closed → d.conn.error = true ∨ (Sent d.conn.out ∧ d.inFlight = none ∧ (d.conn.writing = .init ∨ d.conn.writing = .closed))
  flight : d.inFlight ≠ none → d.conn.writing = .init
  shut : d.closing = true → d.conn.reading = .closed

def Inv (d : Disp) : Prop := d.done = true ∨ Ok d

theorem inv_fail (d : Disp) : Inv d.fail := .inl rfl

theorem tryKeepAlive_keep (c : Conn) (i : NotifyIn) :
    (c.tryKeepAlive i).client = c.client ∧ (c.tryKeepAlive i).out = c.out ∧ (c.error = true → (c.tryKeepAlive i).error = true) := by
  unfold Conn.tryKeepAlive Conn.maybeNotify Conn.notifyFrom Conn.stateKeepAlive
  refine ⟨?_, ?_, ?_⟩ <;> (repeat' split) <;> simp_all [Conn.closeAll, Conn.closeRead, Conn.goIdle]

theorem ok_tryKeepAlive {d : Disp} (h : Ok d) (hs : Sent d.conn.out) (i : NotifyIn) : Ok { d with conn := d.conn.tryKeepAlive i } := by
  obtain ⟨k1, k2, k3⟩ := tryKeepAlive_keep d.conn i
  have hfl := h.flight
  have hcl := h.closed
  have hin := h.init
  have hnb := h.noBody
  have hsh := h.shut
  have hw : d.conn.writing ≠ .init → d.inFlight = none := by
    intro hw
    cases e : d.inFlight with
    | none => rfl
    | some n => exact absurd (hfl (by simp [e])) hw
  refine ⟨by rw [k1]; exact h.server, by rw [k2]; exact h.pipeline, by rw [k2]; exact h.flat, h.bodyTx, ?_, ?_, ?_, ?_, ?_⟩
  all_goals
    simp only [k2]
    unfold Conn.tryKeepAlive Conn.maybeNotify Conn.notifyFrom Conn.stateKeepAlive
    (repeat' split) <;> simp_all [Conn.closeAll, Conn.closeRead, Conn.goIdle]

theorem inv_flushTurn {d : Disp} (h : Ok d) (f : FlushIn) (i : NotifyIn) : Inv (d.flushTurn f i) := by
  obtain ⟨a, b, e, s⟩ := pollFlush_facts (d.conn.scripted f) f.readBuf h.flat h.pipeline
  unfold Disp.flushTurn Conn.pollFlush
  simp only
  by_cases hr : ((d.conn.scripted f).pollFlush bytesBuf f.readBuf).1 = .ok
  · rw [if_pos hr, if_pos (.inl hr)]
    refine .inr ?_
    have hsent := e hr
    have h' : Ok { d with conn := { d.conn with out := ((d.conn.scripted f).pollFlush bytesBuf f.readBuf).2 } } :=
      ⟨h.server, b, a, h.bodyTx, h.noBody, fun hh => ⟨(h.init hh).1, hsent, (h.init hh).2.2⟩,
       fun hh => (h.closed hh).imp id (fun hc => ⟨hsent, hc.2⟩), h.flight, h.shut⟩
    exact ok_tryKeepAlive h' hsent i
  · rw [if_neg hr]
    split
    · refine .inr ⟨h.server, b, a, h.bodyTx, h.noBody, fun hh => ⟨(h.init hh).1, s (h.init hh).2.1, (h.init hh).2.2⟩,
        fun hh => (h.closed hh).imp id (fun hc => ⟨s hc.1, hc.2⟩), h.flight, h.shut⟩
    · exact inv_fail _

/-- Writing in the middle of an exchange. -/
theorem inv_put {d : Disp} (h : Ok d) (hr : d.conn.reading = .keepAlive ∨ d.conn.error = true) (hi : d.conn.reading ≠ .init) (bs : Bytes) (w : Writing) (hf : d.inFlight = none) (b : Bool) :
    Ok { d with bodyRx := b, conn := (d.conn.put bs).setWriting w } := by
  obtain ⟨p1, p2⟩ := flat_put d.conn bs h.flat
  have hc : (d.conn.put bs).client = d.conn.client ∧ (d.conn.put bs).reading = d.conn.reading ∧ (d.conn.put bs).error = d.conn.error := by
    unfold Conn.put; repeat' split
    all_goals simp
  refine ⟨by simp only [Conn.setWriting, hc.1]; exact h.server, by simp only [Conn.setWriting, p2]; exact h.pipeline, p1, h.bodyTx,
    by simp only [Conn.setWriting, hc.2.1]; exact h.noBody, ?_, ?_, fun hh => absurd hf hh, by simp only [Conn.setWriting, hc.2.1]; exact h.shut⟩
  · intro hh
    simp only [Conn.setWriting, hc.2.1] at hh
    exact absurd hh hi
  · intro hh
    simp only [Conn.setWriting, hc.2.1, hc.2.2] at hh ⊢
    rcases hr with hr | hr
    · rw [hr] at hh; cases hh
    · exact .inl hr

theorem Ok.noFlight {d : Disp} (h : Ok d) (hw : d.conn.canWriteBody = true) :
    d.inFlight = none ∧ d.conn.reading ≠ .init ∧ (d.conn.reading = .keepAlive ∨ d.conn.error = true) := by
  have hw' : d.conn.writing ≠ .init ∧ d.conn.writing ≠ .closed := by
    unfold Conn.canWriteBody at hw
    constructor <;> (intro e; rw [e] at hw; cases hw)
  refine ⟨?_, fun e => hw'.1 (h.init e).1, ?_⟩
  · cases e : d.inFlight with
    | none => rfl
    | some n => exact absurd (h.flight (by simp [e])) hw'.1
  · rcases h.noBody with e | e | e
    · exact absurd (h.init e).1 hw'.1
    · exact .inl e
    · rcases h.closed e with e | ⟨_, _, e | e⟩
      · exact .inr e
      · exact absurd e hw'.1
      · exact absurd e hw'.2

theorem inv_endBody {d : Disp} (h : Ok d) (hw : d.conn.canWriteBody = true) (b : Bool) : Inv ({ d with bodyRx := b } : Disp).endBody := by
  obtain ⟨h1, h2, h3⟩ := h.noFlight hw
  unfold Disp.endBody
  simp only
  split
  · exact inv_fail _
  · exact .inr (inv_put h h3 h2 _ _ h1 b)

theorem inv_writeFrame {d : Disp} (h : Ok d) (hw : d.conn.canWriteBody = true) (f : FrameIn) : Inv (d.writeFrame f) := by
  obtain ⟨h1, h2, h3⟩ := h.noFlight hw
  unfold Disp.writeFrame
  repeat' split
  all_goals first
    | exact .inr h
    | exact inv_fail _
    | exact inv_endBody h hw false
    | exact .inr (inv_put h h3 h2 _ _ h1 _)

theorem inv_writeHead (env : EncodeEnv) {d : Disp} (h : Ok d) (hr : d.conn.reading = .keepAlive) (m : MsgOut) : Inv (d.writeHead env m) := by
  unfold Disp.writeHead
  have hs := h.server
  cases m with
  | pending => exact .inr h
  | none => simp only [hs]; exact .inr h
  | err => simp only [hs]; exact inv_fail _
  | req x b => simp only [hs]; exact .inr h
  | resp m =>
    simp only [hs]
    refine .inr ⟨?_, ?_, ?_, h.bodyTx, ?_, ?_, ?_, fun hh => absurd rfl hh, h.shut⟩
    · exact hs
    · exact h.pipeline
    · exact h.flat
    · exact .inr (.inl hr)
    · intro hh
      simp only [Conn.writeResp, Conn.setWriting, Conn.putHeaders, hr] at hh
      cases hh
    · intro hh
      simp only [Conn.writeResp, Conn.setWriting, Conn.putHeaders, hr] at hh
      cases hh

theorem inv_writeTurn (env : EncodeEnv) {d : Disp} (h : Ok d) (i : WriteIn) : Inv (d.writeTurn env i) := by
  unfold Disp.writeTurn
  split
  · exact .inr h
  · split
    · rename_i hc
      simp only [Bool.and_eq_true, Disp.shouldPoll, h.server] at hc
      have hfl : d.inFlight ≠ none := by
        have := hc.2
        simp only [Bool.false_eq_true, if_false] at this
        intro e; rw [e] at this; cases this
      by_cases hr : d.conn.reading = .keepAlive
      · exact inv_writeHead env h hr _
      · rcases h.noBody with e | e | e
        · exact absurd (h.init e).2.2 hfl
        · exact absurd e hr
        · rcases h.closed e with e' | ⟨_, e', _⟩
          · -- an error has been kept
            unfold Disp.writeHead
            have hs := h.server
            cases i.msg with
            | pending => exact .inr h
            | none => simp only [hs]; exact .inr h
            | err => simp only [hs]; exact inv_fail _
            | req x b => simp only [hs]; exact .inr h
            | resp m =>
              simp only [hs]
              refine .inr ⟨hs, h.pipeline, h.flat, h.bodyTx, .inr (.inr e), ?_, fun _ => ?_, fun hh => absurd rfl hh, h.shut⟩
              · intro hh
                simp only [Conn.writeResp, Conn.setWriting, Conn.putHeaders, e] at hh
                cases hh
              · left
                show (Conn.writeResp env d.conn m _).error = true
                simp only [Conn.writeResp, Conn.setWriting, Conn.putHeaders, e', Bool.true_or]
          · exact absurd e' hfl
    · split
      · exact inv_flushTurn h _ _
      · split
        · split
          · exact inv_writeFrame h (by assumption) _
          · exact .inr ⟨h.server, h.pipeline, h.flat, h.bodyTx, h.noBody, h.init, h.closed, h.flight, h.shut⟩
        · split
          · exact inv_endBody h (by assumption) d.bodyRx
          · exact .inr h

theorem startTimer_keep (c : Conn) (t : Nat) : (c.startTimer t).client = c.client ∧ (c.startTimer t).out = c.out ∧ (c.startTimer t).reading = c.reading ∧
    (c.startTimer t).writing = c.writing ∧ (c.startTimer t).error = c.error ∧ (c.startTimer t).ka = c.ka := by
  unfold Conn.startTimer
  repeat' split
  all_goals exact ⟨rfl, rfl, rfl, rfl, rfl, rfl⟩

theorem inv_readHead (env : EncodeEnv) {d : Disp} (h : Ok d) (hr : d.conn.reading = .init) (hcl : d.closing = false) (i : ReadIn)
    (hm : ∀ m, i.parse = .msg m → m.decode = DecodedLength.ZERO) : Inv (d.readHeadReady env i) := by
  obtain ⟨hw, hsent, hfl⟩ := h.init hr
  obtain ⟨k1, k2, k3, k4, k5, k6⟩ := startTimer_keep d.conn i.t0
  have hs := h.server
  unfold Disp.readHeadReady Conn.pollReadHead
  cases hp : i.parse with
  | pending =>
    simp only
    split
    · simp only [Disp.afterHead, Disp.recvErr, k1, hs]
      exact inv_fail _
    · simp only [Disp.afterHead]
      exact .inr ⟨by rw [← hs]; exact k1, by simp only [k2]; exact h.pipeline, by simp only [k2]; exact h.flat, h.bodyTx, by simp only [k3]; exact h.noBody,
        by simp only [k3, k4, k2]; exact h.init, by simp only [k3, k4, k2, k5]; exact h.closed, by simp only [k4]; exact h.flight, by simp only [k3]; exact h.shut⟩
  | error e rest h2 =>
    simp only [Conn.onReadHeadError]
    split
    · simp only [Conn.onParseError, Conn.closeRead, k4, hw, if_true, Conn.onError, k1, hs]
      split
      · simp only [Disp.afterHead, Disp.recvErr, k1, hs]; exact inv_fail _
      · split
        · rename_i st _
          simp only [Disp.afterHead]
          refine .inr ⟨rfl, ?_, ?_, h.bodyTx, .inr (.inr rfl), ?_, fun _ => .inl rfl, fun hh => absurd hfl hh, fun _ => rfl⟩
          · have := h.pipeline; rw [← k2] at this; exact this
          · have := h.flat; rw [← k2] at this; exact this
          · intro hh; cases hh
        · simp only [Disp.afterHead, Disp.recvErr, k1, hs]; exact inv_fail _
    · simp only [Disp.afterHead, Conn.closeRead, Conn.closeWrite, if_true, Disp.close]
      refine .inr ⟨k1.trans hs, ?_, ?_, h.bodyTx, .inr (.inr rfl), ?_, fun _ => .inr ⟨?_, hfl, .inr rfl⟩, fun hh => absurd hfl hh, fun _ => rfl⟩
      · have := h.pipeline; rw [← k2] at this; exact this
      · have := h.flat; rw [← k2] at this; exact this
      · intro hh; cases hh
      · have := hsent; rw [← k2] at this; exact this
  | msg m =>
    have hz := hm m hp
    simp only [Disp.afterHead, Disp.recvHead, Disp.newBody, hz, if_true, Conn.acceptHead, k1, hs, Bool.false_eq_true, if_false, Conn.readDone, Conn.headState]
    refine .inr ⟨rfl, ?_, ?_, h.bodyTx, .inr (.inl rfl), ?_, ?_, fun _ => k4.trans hw, fun hh => by simp only [hcl] at hh; cases hh⟩
    · have := h.pipeline; rw [← k2] at this; exact this
    · have := h.flat; rw [← k2] at this; exact this
    · intro hh; cases hh
    · intro hh; cases hh

theorem inv_readTurn (env : EncodeEnv) (P : TrailerParser) {d : Disp} (h : Ok d) (i : ReadIn)
    (hm : ∀ m, i.parse = .msg m → m.decode = DecodedLength.ZERO) : Inv (d.readTurn env P i) := by
  unfold Disp.readTurn
  have hs := h.server
  split
  · exact .inr h
  · rename_i hcl
    have hcl : d.closing = false := by simpa using hcl
    split
    · rename_i hc
      have hr : d.conn.reading = .init := by
        simp only [Conn.canReadHead, Bool.and_eq_true, beq_iff_eq] at hc; exact hc.1
      simp only [Disp.readHead, (h.init hr).2.2, hs]
      exact inv_readHead env h hr hcl i hm
    · rename_i hc
      have hr : d.conn.reading ≠ .init := by
        intro e; simp [Conn.canReadHead, e, hs] at hc
      simp only [h.bodyTx]
      unfold Disp.readIdle Conn.pollReadKeepAlive Conn.midMessageEof
      simp only
      repeat' split
      all_goals first
        | exact .inr h
        | exact inv_fail _
        | simp_all

theorem inv_finish {d : Disp} (h : Ok d) (s : Bool) (f : FlushIn) : Inv (d.finishTurn s f) := by
  unfold Disp.finishTurn
  split
  · exact .inr h
  · split
    · unfold Disp.complete; split <;> exact .inl rfl
    · split
      · obtain ⟨a, b, e⟩ := pollShutdown_facts (d.conn.scripted f) f.readBuf h.flat h.pipeline
        by_cases hpp : (d.conn.pollShutdown f).1 = .pending
        · simp only [hpp, if_true]
          exact .inr ⟨h.server, b, a, h.bodyTx, h.noBody, fun hh => ⟨(h.init hh).1, e (h.init hh).2.1, (h.init hh).2.2⟩,
            fun hh => (h.closed hh).imp id (fun hc => ⟨e hc.1, hc.2⟩), h.flight, h.shut⟩
        · simp only [hpp, if_false]
          by_cases hpo : (d.conn.pollShutdown f).1 = .ok
          · simp only [hpo, if_true]; unfold Disp.complete; split <;> exact .inl rfl
          · simp only [hpo, if_false]; exact inv_fail _
      · unfold Disp.complete; split <;> exact .inl rfl

/-- A request without a body, and no graceful shutdown. -/
def NoBody : Act → Prop
  | .read i => ∀ m, i.parse = .msg m → m.decode = DecodedLength.ZERO
  | .disable _ => False
  | _ => True

theorem inv_step (env : EncodeEnv) (P : TrailerParser) {d : Disp} (h : Inv d) (a : Act) (ha : NoBody a) : Inv (d.step env P a) := by
  rcases h with h | h
  · left
    cases a with
    | want k => simp only [Disp.step, Disp.want]; repeat' split
                all_goals exact h
    | dropReader k => exact h
    | drop => rfl
    | _ => simp only [Disp.step, h, if_true]
  · cases a with
    | read i => simp only [Disp.step]; split; exact .inr h; exact inv_readTurn env P h i ha
    | write i => simp only [Disp.step]; split; exact .inr h; exact inv_writeTurn env h i
    | flush f i => simp only [Disp.step]; split; exact .inr h; exact inv_flushTurn h f i
    | readAgain => simp only [Disp.step]; split; exact .inr h; exact .inr ⟨h.server, h.pipeline, h.flat, h.bodyTx, h.noBody, h.init, h.closed, h.flight, h.shut⟩
    | finish s f => simp only [Disp.step]; split; exact .inr h; exact inv_finish h s f
    | disable b => exact ha.elim
    | want k =>
      simp only [Disp.step, Disp.want]
      repeat' split
      all_goals exact .inr ⟨h.server, h.pipeline, h.flat, h.bodyTx, h.noBody, h.init, h.closed, h.flight, h.shut⟩
    | dropReader k => exact .inr ⟨h.server, h.pipeline, h.flat, h.bodyTx, h.noBody, h.init, h.closed, h.flight, h.shut⟩
    | drop => exact .inl rfl

theorem inv_run (env : EncodeEnv) (P : TrailerParser) (as : List Act) {d : Disp} (h : Inv d) (ha : ∀ a ∈ as, NoBody a) : Inv (d.run env P as) := by
  induction as generalizing d with
  | nil => exact h
  | cons a as ih => exact ih (inv_step env P h a (ha a List.mem_cons_self)) (fun b hb => ha b (List.mem_cons_of_mem _ hb))

end HandOver

/-- The result of a poll is that of the model of its end. -/
theorem C63_result (d : Disp) (s : Bool) (f : FlushIn) (h : d.done = false) : (d.finishTurn s f).done = true ↔ d.result s f ≠ .pending := by
  have hc : ∀ x : Disp, x.complete.done = true := by intro x; unfold Disp.complete; split <;> rfl
  have hf : ∀ x : Disp, x.fail.done = true := fun _ => rfl
  have ho : ∀ x : Dispatched, x ≠ .pending → d.orError x ≠ .pending := by
    intro x hx; unfold Disp.orError; split
    · simp
    · exact hx
  unfold Disp.finishTurn Disp.result
  by_cases h1 : (!d.isDone) = true
  · rw [if_pos h1, if_pos h1]; simp [h]
  · rw [if_neg h1, if_neg h1]
    by_cases h2 : d.conn.upgrade = true
    · rw [if_pos h2, if_pos h2]; exact ⟨fun _ => ho _ (by simp), fun _ => hc _⟩
    · rw [if_neg h2, if_neg h2]
      by_cases h3 : s = true
      · rw [if_pos h3, if_pos h3]
        simp only []
        by_cases h4 : (d.conn.pollShutdown f).1 = .pending
        · rw [if_pos h4, if_pos h4]; simp [h]
        · rw [if_neg h4, if_neg h4]
          by_cases h5 : (d.conn.pollShutdown f).1 = .ok
          · rw [if_pos h5, if_pos h5]; exact ⟨fun _ => ho _ (by simp), fun _ => hc _⟩
          · rw [if_neg h5, if_neg h5]; exact ⟨fun _ => by simp, fun _ => hf _⟩
      · rw [if_neg h3, if_neg h3]; exact ⟨fun _ => ho _ (by simp), fun _ => hc _⟩

open HandOver in
/-- C63 in part: a server hands the connection over only after all it wrote was accepted by the transport.  Missing: requests with a body, graceful
shutdown, and gathering pipelined answers; with the first two it is false (`C63_lost_by_shutdown`, `C63_lost_with_body`). -/
theorem C63_server_flushed_partial (env : EncodeEnv) (P : TrailerParser) (d : Disp) (h : d.Start) (hs : d.conn.client = false)
    (hp : d.conn.out.flushPipeline = false) (hw : WriteBuf.remaining bytesBuf d.conn.out.wbuf = 0) (hq : d.conn.out.wbuf.queue = [])
    (as : List Act) (ha : ∀ a ∈ as, NoBody a) (s : Bool) (f : FlushIn) (hd : (d.run env P as).done = false)
    (hu : (d.run env P as).result s f = .upgrade) : (d.run env P as).dropped = 0 := by
  have h0 : Inv d := .inr ⟨hs, hp, fun _ => hq, h.bodyTx, .inl h.reading, fun _ => ⟨h.writing, hw, h.inFlight⟩,
    fun e => (by rw [h.reading] at e; cases e), fun _ => h.writing, fun e => (by rw [h.closing] at e; cases e)⟩
  rcases inv_run env P as h0 ha with e | ok
  · rw [hd] at e; cases e
  · generalize d.run env P as = x at *
    have hx : x.isDone = true ∧ x.conn.error = false := by
      unfold Disp.result Disp.orError at hu
      split at hu
      · cases hu
      · rename_i h1
        refine ⟨by simpa using h1, ?_⟩
        cases e : x.conn.error with
        | false => rfl
        | true => simp only [e, if_true] at hu; (repeat' split at hu) <;> cases hu
    have hr : x.conn.reading = .closed := by
      have := hx.1
      unfold Disp.isDone at this
      split at this
      · exact ok.shut (by assumption)
      · split at this
        · rename_i hh; simp only [Bool.and_eq_true, beq_iff_eq] at hh; exact hh.2
        · simp only [Bool.and_eq_true, beq_iff_eq] at this; exact this.1
    rcases ok.closed hr with e | e
    · rw [hx.2] at e; cases e
    · exact e.1

namespace HandOver

/-! ## The client -/

theorem pollFlush_sent (s : WriteSide Bytes) (rb : Bytes) (h : Sent s) : Sent (s.pollFlush bytesBuf rb).2 := by
  unfold WriteSide.pollFlush
  split
  · exact h
  · rw [if_pos (show WriteBuf.remaining bytesBuf s.wbuf = 0 from h)]; exact h

theorem pollShutdown_sent (s : WriteSide Bytes) (rb : Bytes) (h : Sent s) : Sent (s.pollShutdown bytesBuf rb).2 := by
  have := pollFlush_sent s rb h
  unfold WriteSide.pollShutdown
  split <;> exact this

/-- Both messages are over and all has been sent. -/
def Over (d : Disp) : Prop := d.conn.reading = .closed ∧ d.conn.writing = .closed ∧ Sent d.conn.out

def CInv (d : Disp) : Prop := d.done = true ∨ d.conn.upgrade = false ∨ Over d

theorem tryKeepAlive_over {c : Conn} (hr : c.reading = .closed) (hw : c.writing = .closed) (i : NotifyIn) : c.tryKeepAlive i = c := by
  unfold Conn.tryKeepAlive Conn.stateKeepAlive
  simp only [hr, hw]
  unfold Conn.maybeNotify
  simp only [hr]

theorem over_flush {d : Disp} (h : Over d) (f : FlushIn) (i : NotifyIn) : CInv (d.flushTurn f i) := by
  have hs := pollFlush_sent (d.conn.scripted f) f.readBuf h.2.2
  have e : (d.conn.pollFlush f i).2 = { d.conn with out := ((d.conn.scripted f).pollFlush bytesBuf f.readBuf).2 } := by
    unfold Conn.pollFlush
    simp only
    split
    · exact tryKeepAlive_over (c := { d.conn with out := ((d.conn.scripted f).pollFlush bytesBuf f.readBuf).2 }) h.1 h.2.1 i
    · rfl
  unfold Disp.flushTurn
  simp only [e]
  split
  · exact .inr (.inr ⟨h.1, h.2.1, hs⟩)
  · exact .inl rfl

theorem over_step (env : EncodeEnv) (P : TrailerParser) {d : Disp} (h : Over d) (a : Act) : CInv (d.step env P a) := by
  obtain ⟨hr, hw, hs⟩ := h
  have h : Over d := ⟨hr, hw, hs⟩
  cases a with
  | read i =>
    simp only [Disp.step]
    split
    · exact .inr (.inr h)
    · unfold Disp.readTurn
      split
      · exact .inr (.inr h)
      · have : d.conn.canReadHead = false := by simp [Conn.canReadHead, hr]
        rw [this]
        simp only [Bool.false_eq_true, if_false]
        split
        · have : d.conn.canReadBody = false := by simp [Conn.canReadBody, hr]
          simp only [Disp.readBody, this, Bool.false_eq_true, if_false, Disp.dropBody]
          exact .inr (.inr ⟨hr, hw, hs⟩)
        · simp only [Disp.readIdle, Conn.pollReadKeepAlive, hr, if_true]
          exact .inr (.inr ⟨hr, hw, hs⟩)
  | write i =>
    simp only [Disp.step]
    split
    · exact .inr (.inr h)
    · unfold Disp.writeTurn
      have h1 : d.conn.canWriteHead = false := by simp [Conn.canWriteHead, hw]
      have h2 : d.conn.canWriteBody = false := by simp [Conn.canWriteBody, hw]
      simp only [h1, h2, Bool.and_false, Bool.false_and, Bool.false_eq_true, if_false]
      split
      · exact .inr (.inr h)
      · split
        · exact over_flush h _ _
        · split <;> exact .inr (.inr ⟨hr, hw, hs⟩)
  | flush f i =>
    simp only [Disp.step]
    split
    · exact .inr (.inr h)
    · exact over_flush h f i
  | readAgain => simp only [Disp.step]; split <;> exact .inr (.inr ⟨hr, hw, hs⟩)
  | finish s f =>
    simp only [Disp.step]
    split
    · exact .inr (.inr h)
    · unfold Disp.finishTurn
      have hc : ∀ x : Disp, CInv x.complete := by intro x; left; unfold Disp.complete; split <;> rfl
      split
      · exact .inr (.inr h)
      · split
        · exact hc _
        · split
          · by_cases hpp : (d.conn.pollShutdown f).1 = .pending
            · simp only [hpp, if_true]
              exact .inr (.inr ⟨hr, hw, pollShutdown_sent (d.conn.scripted f) f.readBuf hs⟩)
            · simp only [hpp, if_false]
              by_cases hpo : (d.conn.pollShutdown f).1 = .ok
              · simp only [hpo, if_true]; exact hc _
              · simp only [hpo, if_false]; exact .inl rfl
          · exact hc _
  | disable b =>
    simp only [Disp.step]
    split
    · exact .inr (.inr h)
    · unfold Disp.disableKeepAlive Conn.disableKeepAlive Disp.close
      simp only
      repeat' split
      all_goals exact .inr (.inr ⟨by first | rfl | exact hr, by first | rfl | exact hw, hs⟩)
  | want k =>
    simp only [Disp.step, Disp.want]
    repeat' split
    all_goals exact .inr (.inr ⟨hr, hw, hs⟩)
  | dropReader k => exact .inr (.inr ⟨hr, hw, hs⟩)
  | drop => exact .inl rfl

theorem up_tryKeepAlive (c : Conn) (i : NotifyIn) : (c.tryKeepAlive i).upgrade = c.upgrade := by
  unfold Conn.tryKeepAlive Conn.maybeNotify Conn.notifyFrom Conn.stateKeepAlive
  (repeat' split) <;> rfl

theorem up_put (c : Conn) (bs : Bytes) (w : Writing) : ((c.put bs).setWriting w).upgrade = c.upgrade := by
  unfold Conn.put Conn.setWriting; repeat' split
  all_goals rfl

theorem up_fail (d : Disp) : d.fail.conn.upgrade = d.conn.upgrade := by
  unfold Disp.fail Disp.failBody; split <;> rfl

theorem up_flush (d : Disp) (f : FlushIn) (i : NotifyIn) : (d.flushTurn f i).conn.upgrade = d.conn.upgrade := by
  have e : (d.conn.pollFlush f i).2.upgrade = d.conn.upgrade := by
    unfold Conn.pollFlush
    simp only
    split
    · exact up_tryKeepAlive _ i
    · rfl
  unfold Disp.flushTurn
  simp only
  split
  · exact e
  · rw [up_fail]; exact e

theorem up_endBody (d : Disp) : d.endBody.conn.upgrade = d.conn.upgrade := by
  unfold Disp.endBody
  simp only
  split
  · rw [up_fail]; exact up_put _ _ _
  · exact up_put _ _ _

theorem up_write (env : EncodeEnv) (d : Disp) (i : WriteIn) : (d.writeTurn env i).conn.upgrade = d.conn.upgrade := by
  unfold Disp.writeTurn
  split
  · rfl
  · split
    · unfold Disp.writeHead
      repeat' split
      all_goals first | rfl | exact up_fail _
    · split
      · exact up_flush _ _ _
      · split
        · split
          · unfold Disp.writeFrame
            repeat' split
            all_goals first | rfl | exact up_fail _ | exact up_endBody _ | exact up_put _ _ _
          · rfl
        · split
          · exact up_endBody _
          · rfl

theorem up_finish (d : Disp) (s : Bool) (f : FlushIn) : (d.finishTurn s f).done = true ∨ (d.finishTurn s f).conn.upgrade = d.conn.upgrade := by
  unfold Disp.finishTurn
  have hc : ∀ x : Disp, x.complete.done = true := by intro x; unfold Disp.complete; split <;> rfl
  split
  · exact .inr rfl
  · split
    · exact .inl (hc _)
    · split
      · by_cases hpp : (d.conn.pollShutdown f).1 = .pending
        · simp only [hpp, if_true]; exact .inr rfl
        · simp only [hpp, if_false]
          by_cases hpo : (d.conn.pollShutdown f).1 = .ok
          · simp only [hpo, if_true]; exact .inl (hc _)
          · simp only [hpo, if_false]; exact .inl rfl
      · exact .inl (hc _)

theorem up_disable (d : Disp) (b : Bool) : (d.disableKeepAlive b).conn.upgrade = d.conn.upgrade := by
  unfold Disp.disableKeepAlive Conn.disableKeepAlive Disp.close
  simp only
  (repeat' split) <;> rfl

theorem up_decodeBody (P : TrailerParser) (c : Conn) (dd : Decoder) (r : Rd) (i : NotifyIn) : (c.decodeBody P dd r i).2.upgrade = c.upgrade := by
  unfold Conn.decodeBody
  repeat' split
  all_goals first | rfl | exact up_tryKeepAlive _ _

theorem up_pollReadBody (P : TrailerParser) (c : Conn) (r : Rd) (i : NotifyIn) : (c.pollReadBody P r i).2.upgrade = c.upgrade := by
  unfold Conn.pollReadBody
  split
  · exact up_decodeBody ..
  · rw [up_decodeBody]; unfold Conn.sendContinue; split <;> rfl
  · rfl

theorem up_drain (P : TrailerParser) (c : Conn) (r : Rd) (i : NotifyIn) : (c.drainOrClose P r i).upgrade = c.upgrade := by
  unfold Conn.drainOrClose
  have h1 : ∀ x : Conn, x.drainEnd.upgrade = x.upgrade := by intro x; unfold Conn.drainEnd; split <;> rfl
  rw [h1, up_pollReadBody]
  unfold Conn.drainStart; split <;> rfl

theorem up_readBody (P : TrailerParser) (d : Disp) (i : ReadIn) (k : Nat) : (d.readBody P i k).conn.upgrade = d.conn.upgrade := by
  unfold Disp.readBody
  split
  · split
    · split
      · rfl
      · have e := up_pollReadBody P d.conn i.rd i.notify
        unfold Disp.readPiece
        have h1 : ∀ (x : Disp) (g : Bool) (f : Chan → Chan), (x.deliver k g f).conn.upgrade = x.conn.upgrade := by
          intro x g f; unfold Disp.deliver Disp.dropBody Disp.sendItem; simp only; (repeat' split) <;> rfl
        have h2 : ∀ (x : Disp) (g : Bool), (x.markComplete k g).conn.upgrade = x.conn.upgrade := by
          intro x g; unfold Disp.markComplete; split <;> rfl
        have h3 : ∀ (x : Disp) (g : Bool), (x.maybeLose k g).conn.upgrade = x.conn.upgrade := by
          intro x g; unfold Disp.maybeLose; split <;> rfl
        have h4 : ∀ (x : Disp) (g : Bool) (o : BodyRes), (x.afterPiece k g o).conn.upgrade = x.conn.upgrade := by
          intro x g o
          unfold Disp.afterPiece
          split
          · rfl
          · rw [h1, h2]
          · rw [h1, h2]
          · exact h2 _ _
          · rfl
        rw [h4, h3]; exact e
    · rfl
    · exact up_drain ..
  · rfl

theorem up_readHeadError (env : EncodeEnv) (c : Conn) (e : Option ParseErr) (r h2 : Bool) : (c.onReadHeadError env e r h2).2.upgrade = c.upgrade := by
  unfold Conn.onReadHeadError
  split
  · unfold Conn.onParseError
    repeat' split
    all_goals rfl
  · rfl

theorem up_startTimer (c : Conn) (t : Nat) : (c.startTimer t).upgrade = c.upgrade := by
  unfold Conn.startTimer; (repeat' split) <;> rfl

theorem up_afterHead (d : Disp) (o : HeadOut) (h : ∀ m, o ≠ .msg m) : (d.afterHead o).conn.upgrade = d.conn.upgrade := by
  have hr : d.recvErr.conn.upgrade = d.conn.upgrade := by
    unfold Disp.recvErr
    repeat' split
    all_goals first | rfl | exact up_fail _
  unfold Disp.afterHead
  cases o with
  | msg m => exact absurd rfl (h m)
  | pending => rfl
  | err => exact hr
  | timeout => exact hr
  | eof => simp only; split <;> rfl

/-- Reading a head of a message that does not upgrade. -/
theorem up_readHead (env : EncodeEnv) (d : Disp) (i : ReadIn) (h : ∀ m, i.parse = .msg m → m.wantsUpgrade = false) :
    (d.readHeadReady env i).conn.upgrade = d.conn.upgrade := by
  unfold Disp.readHeadReady Conn.pollReadHead
  cases hp : i.parse with
  | pending =>
    simp only
    split
    · rw [up_afterHead _ _ (by simp)]; exact up_startTimer _ _
    · rw [up_afterHead _ _ (by simp)]; exact up_startTimer _ _
  | error e r h2 =>
    simp only
    rw [up_afterHead]
    · rw [up_readHeadError]; exact up_startTimer _ _
    · intro m
      unfold Conn.onReadHeadError Conn.onParseError
      (repeat' split) <;> simp
  | msg m =>
    have hu := h m hp
    have ea : ((d.conn.startTimer i.t0).acceptHead m d.headId i.notify).upgrade = d.conn.upgrade := by
      rw [← up_startTimer d.conn i.t0]
      unfold Conn.acceptHead
      repeat' split
      all_goals first | rfl | exact up_tryKeepAlive _ _
    have en : ∀ x : Disp, (x.newBody m).conn = x.conn := by intro x; unfold Disp.newBody; split <;> rfl
    simp only [Disp.afterHead, Disp.recvHead, hu, Bool.or_false]
    repeat' split
    all_goals first
      | (show (Disp.conn _).upgrade = _; simp only [en]; exact ea)
      | (rw [up_fail]; simp only [en]; exact ea)

/-- The upgrading response comes when the request has been sent, as `Client::parse` gives it (src/proto/h1/role.rs 1172-1181, 1266-1273). -/
def Polite (d : Disp) : Act → Prop
  | .read i => ∀ m, i.parse = .msg m → m.wantsUpgrade = true →
      m.decode = DecodedLength.ZERO ∧ m.keepAlive = false ∧ (d.conn.writing = .keepAlive ∨ d.conn.writing = .closed) ∧ Sent d.conn.out
  | _ => True

theorem cinv_read (env : EncodeEnv) (P : TrailerParser) {d : Disp} (hc : d.conn.client = true) (hu : d.conn.upgrade = false) (i : ReadIn)
    (hp : Polite d (.read i)) : CInv (d.readTurn env P i) := by
  unfold Disp.readTurn
  split
  · exact .inr (.inl hu)
  · split
    · unfold Disp.readHead
      simp only [hc, if_true]
      split
      · split
        · by_cases hm : ∀ m, i.parse = .msg m → m.wantsUpgrade = false
          · exact .inr (.inl ((up_readHead env d i hm).trans hu))
          · rename_i n hfl _
            obtain ⟨m, hm⟩ := Classical.not_forall.1 hm
            obtain ⟨hpm, hwu⟩ := Classical.not_imp.1 hm
            have hwu : m.wantsUpgrade = true := by simpa using hwu
            obtain ⟨hz, hk, hw, hs⟩ := hp m hpm hwu
            obtain ⟨k1, k2, k3, k4, _, _⟩ := startTimer_keep d.conn i.t0
            unfold Disp.readHeadReady Conn.pollReadHead
            simp only [hpm, Disp.afterHead, Disp.recvHead, Disp.newBody, hz, if_true, Conn.acceptHead, k1, hc, hfl]
            have e : ∃ c : Conn, (((d.conn.startTimer i.t0).headState m d.headId).readDone.tryKeepAlive i.notify) = c ∧
                c.reading = .closed ∧ c.writing = .closed ∧ c.out = d.conn.out ∧ c.client = true := by
              refine ⟨_, rfl, ?_⟩
              rw [← k2, ← hc, ← k1]
              unfold Conn.tryKeepAlive Conn.stateKeepAlive
              simp only [Conn.readDone, Conn.headState, k4, hk]
              rcases hw with hw | hw
              · simp only [hw, Conn.closeAll, Conn.maybeNotify]
                simp
              · simp only [hw, Conn.closeAll, Conn.maybeNotify]
                simp
            obtain ⟨c, e1, e2, e3, e4, e5⟩ := e
            simp only [e1, e5, if_true]
            exact .inr (.inr ⟨e2, e3, by rw [e4]; exact hs⟩)
        · exact .inr (.inl hu)
      · exact .inr (.inl hu)
    · split
      · exact .inr (.inl ((up_readBody P d i _).trans hu))
      · right; left
        unfold Disp.readIdle Conn.pollReadKeepAlive Conn.requireEmpty Conn.midMessageEof
        simp only
        repeat' split
        all_goals first | exact hu | (rw [up_fail]; exact hu)

theorem cinv_step (env : EncodeEnv) (P : TrailerParser) {d : Disp} (hc : d.conn.client = true) (h : CInv d) (a : Act) (hp : Polite d a) :
    CInv (d.step env P a) := by
  rcases h with h | h | h
  · left
    cases a with
    | want k => simp only [Disp.step, Disp.want]; repeat' split
                all_goals exact h
    | dropReader k => exact h
    | drop => rfl
    | _ => simp only [Disp.step, h, if_true]
  · cases a with
    | read i => simp only [Disp.step]; split; exact .inr (.inl h); exact cinv_read env P hc h i hp
    | write i => simp only [Disp.step]; split; exact .inr (.inl h); exact .inr (.inl ((up_write env d i).trans h))
    | flush f i => simp only [Disp.step]; split; exact .inr (.inl h); exact .inr (.inl ((up_flush d f i).trans h))
    | readAgain => simp only [Disp.step]; split <;> exact .inr (.inl h)
    | finish s f => simp only [Disp.step]; split; exact .inr (.inl h); exact (up_finish d s f).imp id (fun e => .inl (e.trans h))
    | disable b => simp only [Disp.step]; split; exact .inr (.inl h); exact .inr (.inl ((up_disable d b).trans h))
    | want k =>
      simp only [Disp.step, Disp.want]
      repeat' split
      all_goals exact .inr (.inl h)
    | dropReader k => exact .inr (.inl h)
    | drop => exact .inl rfl
  · exact over_step env P h a

/-- Every act of the run finds the connection polite. -/
def AllPolite (env : EncodeEnv) (P : TrailerParser) (d : Disp) (as : List Act) : Prop :=
  ∀ pre a post, as = pre ++ a :: post → Polite (d.run env P pre) a

theorem cinv_run (env : EncodeEnv) (P : TrailerParser) : ∀ (as : List Act) {d : Disp}, d.conn.client = true → CInv d → AllPolite env P d as →
    CInv (d.run env P as) := by
  intro as
  induction as with
  | nil => intro d _ h _; exact h
  | cons a t ih =>
    intro d hc h hp
    exact ih ((step_client env P d a).trans hc) (cinv_step env P hc h a (hp [] a t rfl))
      (fun pre b post e => hp (a :: pre) b post (by rw [e]; rfl))

theorem upgrade_of_result {x : Disp} {s : Bool} {f : FlushIn} (hu : x.result s f = .upgrade) : x.conn.upgrade = true := by
  unfold Disp.result Disp.orError at hu
  split at hu
  · cases hu
  · split at hu
    · assumption
    · (repeat' split at hu) <;> cases hu

/-- Some head that was read asked for an upgrade. -/
def Asks : Act → Bool
  | .read i => match i.parse with | .msg m => m.wantsUpgrade | _ => false
  | _ => false

theorem up_step (env : EncodeEnv) (P : TrailerParser) {d : Disp} (a : Act) (ha : Asks a = false) (hd : (d.step env P a).done = false) :
    (d.step env P a).conn.upgrade = d.conn.upgrade := by
  cases a with
  | read i =>
    simp only [Disp.step]
    split
    · rfl
    · unfold Disp.readTurn
      split
      · rfl
      · split
        · have : (d.readHeadReady env i).conn.upgrade = d.conn.upgrade := by
            apply up_readHead
            intro m hm
            simpa only [Asks, hm] using ha
          unfold Disp.readHead
          repeat' split
          all_goals first | rfl | exact this
        · split
          · exact up_readBody ..
          · unfold Disp.readIdle Conn.pollReadKeepAlive Conn.requireEmpty Conn.midMessageEof
            simp only
            repeat' split
            all_goals first | rfl | exact up_fail _
  | write i => simp only [Disp.step]; split; rfl; exact up_write ..
  | flush f i => simp only [Disp.step]; split; rfl; exact up_flush ..
  | readAgain => simp only [Disp.step]; split <;> rfl
  | finish s f =>
    simp only [Disp.step] at hd ⊢
    split
    · rfl
    · rename_i h0
      rw [if_neg h0] at hd
      rcases up_finish d s f with e | e
      · rw [e] at hd; cases hd
      · exact e
  | disable b => simp only [Disp.step]; split; rfl; exact up_disable ..
  | want k => simp only [Disp.step, Disp.want]; (repeat' split) <;> rfl
  | dropReader k => rfl
  | drop => exact absurd hd (by simp [Disp.step])

theorem done_step (env : EncodeEnv) (P : TrailerParser) {d : Disp} (a : Act) (h : d.done = true) : (d.step env P a).done = true := by
  cases a with
  | want k => simp only [Disp.step, Disp.want]; repeat' split
              all_goals exact h
  | dropReader k => exact h
  | drop => rfl
  | _ => simp only [Disp.step, h, if_true]

theorem done_run (env : EncodeEnv) (P : TrailerParser) : ∀ (as : List Act) {d : Disp}, d.done = true → (d.run env P as).done = true := by
  intro as
  induction as with
  | nil => intro d h; exact h
  | cons a t ih => intro d h; exact ih (done_step env P a h)

theorem up_run (env : EncodeEnv) (P : TrailerParser) : ∀ (as : List Act) {d : Disp}, d.conn.upgrade = false → (∀ a ∈ as, Asks a = false) →
    (d.run env P as).done = false → (d.run env P as).conn.upgrade = false := by
  intro as
  induction as with
  | nil => intro d h _ _; exact h
  | cons a t ih =>
    intro d h ha hd
    refine ih ((up_step env P a (ha a (by simp)) ?_).trans h) (fun b hb => ha b (by simp [hb])) hd
    cases e : (d.step env P a).done with
    | false => rfl
    | true => have := done_run env P t e; unfold Disp.run at this hd; rw [List.foldl_cons] at hd; rw [this] at hd; cases hd

end HandOver

open HandOver in
/-- C63: a connection is handed over only if a head that was read asked for it. -/
theorem C63_asked (env : EncodeEnv) (P : TrailerParser) (d : Disp) (h0 : d.conn.upgrade = false) (as : List Act) (s : Bool) (f : FlushIn)
    (hd : (d.run env P as).done = false) (hu : (d.run env P as).result s f = .upgrade) :
    ∃ i m, .read i ∈ as ∧ i.parse = .msg m ∧ m.wantsUpgrade = true := by
  apply Classical.byContradiction
  intro hn
  have := up_run env P as h0 (by
    intro a ha
    cases a with
    | read i =>
      cases hm : i.parse with
      | msg m =>
        simp only [Asks, hm]
        cases e : m.wantsUpgrade with
        | false => rfl
        | true => exact absurd ⟨i, m, ha, hm, e⟩ hn
      | _ => simp only [Asks, hm]
    | _ => rfl) hd
  rw [upgrade_of_result hu] at this
  cases this

open HandOver in
/-- C63 in part: a client hands the connection over only after all it wrote was accepted by the transport, when the response that upgrades was read
after all of the request had been sent.  Missing: a response that comes before; with it, it is false (`C63_lost_by_client`). -/
theorem C63_client_flushed_partial (env : EncodeEnv) (P : TrailerParser) (d : Disp) (hc : d.conn.client = true) (h0 : d.conn.upgrade = false)
    (as : List Act) (ha : AllPolite env P d as) (s : Bool) (f : FlushIn) (hd : (d.run env P as).done = false)
    (hu : (d.run env P as).result s f = .upgrade) : (d.run env P as).dropped = 0 := by
  rcases cinv_run env P as hc (.inr (.inl h0)) ha with e | e | e
  · rw [hd] at e; cases e
  · rw [upgrade_of_result hu] at e; cases e
  · exact e.2.2

/-! ## Executions -/

namespace HandOver

def exAsk (len : Nat) : MsgIn := { exIn len false false with wantsUpgrade := true }

def exSwitch : MsgOut := .resp ⟨⟨.h11, 101, [], none, none⟩, none⟩

def exStuck : FlushIn := { writes := [.pending], flushes := [], readBuf := [] }

end HandOver

open HandOver in
/-- The usual execution: after the answer was sent the connection is handed over, and not before. -/
example :
    ((exDisp false).run exEnv exP [exRead (.msg (exAsk 0)) exNo, exWrite exSwitch .pending, .flush exStuck .pending]).result true exFlushIn = .pending ∧
    ((exDisp false).run exEnv exP [exRead (.msg (exAsk 0)) exNo, exWrite exSwitch .pending, .flush exFlushIn .pending, exRead .pending exNo]).result true exFlushIn = .upgrade := by
  decide +kernel

open HandOver in
example :
    let d := (exDisp true).run exEnv exP [exWrite (exSend [] none) .pending, .flush exFlushIn .pending, exRead (.msg (exAsk 0)) exNo]
    d.result true exFlushIn = .upgrade ∧ d.dropped = 0 := by
  decide +kernel

open HandOver in
/-- A graceful shutdown while the answer is being sent: the connection is handed over with the answer lost. -/
theorem C63_lost_by_shutdown :
    let d := (exDisp false).run exEnv exP
      [exRead (.msg (exAsk 0)) exNo, exWrite exSwitch .pending, .flush exStuck .pending, .disable true, exRead .pending exNo, .flush exStuck .pending]
    d.result true exFlushIn = .upgrade ∧ d.dropped ≠ 0 ∧ d.conn.out.sink.sent = [] := by
  decide +kernel

open HandOver in
/-- A request with a body which is read to its end while the answer is being sent: the answer is lost. -/
theorem C63_lost_with_body :
    let d := (exDisp false).run exEnv exP
      [exRead (.msg (exAsk 3)) exNo, exWrite exSwitch .pending, .flush exStuck .pending, .want 0,
       exRead .pending ⟨ascii "abc", [], .silent⟩, .flush exStuck .pending]
    d.result true exFlushIn = .upgrade ∧ d.dropped ≠ 0 ∧ d.conn.out.sink.sent = [] := by
  decide +kernel

open HandOver in
/-- The service refuses, and closes: the connection is handed over all the same. -/
theorem C63_refused_handed_over :
    let d := (exDisp false).run exEnv exP
      [exRead (.msg (exAsk 0)) exNo, exWrite (exResp [(hCONN, [ascii "close"])] none) .pending, .flush exFlushIn .pending, exRead .pending exNo]
    d.result true exFlushIn = .upgrade ∧ d.dropped = 0 := by
  decide +kernel

open HandOver in
/-- The response comes while the request is being sent: the rest of the request is lost. -/
theorem C63_lost_by_client :
    let d := (exDisp true).run exEnv exP
      [exWrite (exSend [] none) .pending, .flush exStuck .pending, exRead (.msg (exAsk 0)) exNo, .flush exStuck .pending]
    d.result true exFlushIn = .upgrade ∧ d.dropped ≠ 0 ∧ d.conn.out.sink.sent = [] := by
  decide +kernel

end Hyper
