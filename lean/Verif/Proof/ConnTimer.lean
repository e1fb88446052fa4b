import Verif.Proof.DispBody

/-!
# The header read timeout during a connection's life
-/

namespace Hyper

open Spec

/-- The timeout is as before. -/
structure SameClock (c c' : Conn) : Prop where
  timing : c'.timing = c.timing
  deadline : c'.deadline = c.deadline
  timeout : c'.timeout = c.timeout

theorem SameClock.refl (c : Conn) : SameClock c c := ⟨rfl, rfl, rfl⟩

theorem SameClock.trans {c d e : Conn} (h : SameClock c d) (h' : SameClock d e) : SameClock c e :=
  ⟨h'.timing.trans h.timing, h'.deadline.trans h.deadline, h'.timeout.trans h.timeout⟩

section conn

variable (c : Conn)

theorem clock_stateKeepAlive : SameClock c c.stateKeepAlive := by
  unfold Conn.stateKeepAlive
  (repeat' split) <;> exact ⟨rfl, rfl, rfl⟩

theorem clock_maybeNotify (i : NotifyIn) : SameClock c (c.maybeNotify i) := by
  unfold Conn.maybeNotify Conn.notifyFrom
  (repeat' split) <;> exact ⟨rfl, rfl, rfl⟩

theorem clock_tryKeepAlive (i : NotifyIn) : SameClock c (c.tryKeepAlive i) := (clock_stateKeepAlive c).trans (clock_maybeNotify _ i)

theorem clock_setWriting (w : Writing) : SameClock c (c.setWriting w) := ⟨rfl, rfl, rfl⟩

theorem clock_put (bs : Bytes) : SameClock c (c.put bs) := by
  unfold Conn.put
  repeat' split
  all_goals exact ⟨rfl, rfl, rfl⟩

theorem clock_writeBody (bs : Bytes) : SameClock c (c.writeBody bs) := (clock_put c _).trans (clock_setWriting _ _)

theorem clock_writeBodyAndEnd (bs : Bytes) : SameClock c (c.writeBodyAndEnd bs) := (clock_put c _).trans (clock_setWriting _ _)

theorem clock_writeTrailers (m : HeaderMap) : SameClock c (c.writeTrailers m) := (clock_put c _).trans (clock_setWriting _ _)

theorem clock_endBody : SameClock c c.endBody.2 := (clock_put c _).trans (clock_setWriting _ _)

theorem clock_writeResp (env : EncodeEnv) (m : RespOut) (ev : Bool → Ev) : SameClock c (c.writeResp env m ev) := ⟨rfl, rfl, rfl⟩

theorem clock_writeReq (h : ReqHead) (body : Option BodyLength) (n : Nat) : SameClock c (c.writeReq h body n) := ⟨rfl, rfl, rfl⟩

theorem clock_pollFlush (f : FlushIn) (i : NotifyIn) : SameClock c (c.pollFlush f i).2 := by
  unfold Conn.pollFlush
  simp only
  split
  · have h : SameClock c { c with out := ((c.scripted f).pollFlush bytesBuf f.readBuf).2 } := ⟨rfl, rfl, rfl⟩
    exact h.trans (clock_tryKeepAlive _ i)
  · exact ⟨rfl, rfl, rfl⟩

theorem clock_pollShutdown (f : FlushIn) : SameClock c (c.pollShutdown f).2 := ⟨rfl, rfl, rfl⟩

theorem clock_disableKeepAlive : SameClock c c.disableKeepAlive := by
  unfold Conn.disableKeepAlive
  simp only
  split <;> exact ⟨rfl, rfl, rfl⟩

theorem clock_onReadHeadError (env : EncodeEnv) (e : Option ParseErr) (rest h2 : Bool) : SameClock c (c.onReadHeadError env e rest h2).2 := by
  unfold Conn.onReadHeadError Conn.onParseError
  (repeat' split) <;> exact ⟨rfl, rfl, rfl⟩

theorem clock_decodeBody (P : TrailerParser) (d : Decoder) (r : Rd) (i : NotifyIn) : SameClock c (c.decodeBody P d r i).2 := by
  have h1 : SameClock c { c with reading := .closed } := ⟨rfl, rfl, rfl⟩
  have h2 : SameClock c c.readDone := ⟨rfl, rfl, rfl⟩
  have h3 := h1.trans (clock_tryKeepAlive _ i)
  have h4 := h2.trans (clock_tryKeepAlive _ i)
  unfold Conn.decodeBody
  (repeat' split) <;> first | exact h3 | exact h4 | exact ⟨rfl, rfl, rfl⟩

theorem clock_pollReadBody (P : TrailerParser) (r : Rd) (i : NotifyIn) : SameClock c (c.pollReadBody P r i).2 := by
  have hs : SameClock c c.sendContinue := by
    unfold Conn.sendContinue; split <;> exact ⟨rfl, rfl, rfl⟩
  unfold Conn.pollReadBody
  split
  · exact clock_decodeBody c P _ r i
  · exact hs.trans (clock_decodeBody _ P _ r i)
  · exact .refl _

theorem clock_drainOrClose (P : TrailerParser) (r : Rd) (i : NotifyIn) : SameClock c (c.drainOrClose P r i) := by
  have h1 : SameClock c c.drainStart := by
    unfold Conn.drainStart; split <;> exact ⟨rfl, rfl, rfl⟩
  have h2 := h1.trans (clock_pollReadBody _ P r i)
  refine h2.trans ?_
  show SameClock _ (Conn.drainEnd _)
  unfold Conn.drainEnd
  split <;> exact ⟨rfl, rfl, rfl⟩

theorem clock_pollReadKeepAlive (b : Bool) (i : IoIn) : SameClock c (c.pollReadKeepAlive b i).2 := by
  unfold Conn.pollReadKeepAlive Conn.requireEmpty Conn.midMessageEof
  (repeat' split) <;> exact ⟨rfl, rfl, rfl⟩

end conn

theorem clock_fail (d : Disp) : SameClock d.conn d.fail.conn := by
  show SameClock d.conn d.failBody.conn
  rw [(failBody_fields d).1]; exact .refl _

theorem clock_close (d : Disp) : SameClock d.conn d.close.conn := ⟨rfl, rfl, rfl⟩

theorem SameClock.fail {d : Disp} {c : Conn} (h : SameClock d.conn c) : SameClock d.conn { d with conn := c }.fail.conn :=
  SameClock.trans (d := c) h (clock_fail { d with conn := c })

theorem SameClock.close {d : Disp} {c : Conn} (h : SameClock d.conn c) : SameClock d.conn { d with conn := c }.close.conn :=
  SameClock.trans (d := c) h (clock_close { d with conn := c })

theorem recvErr_server (d : Disp) (h : d.conn.client = false) : d.recvErr = d.fail := by
  unfold Disp.recvErr; rw [h]; rfl

theorem clock_endTurn (d : Disp) : SameClock d.conn d.endBody.conn := by
  unfold Disp.endBody
  simp only
  have h := clock_endBody d.conn
  split
  · exact h.fail
  · exact h

theorem clock_flushTurn (d : Disp) (f : FlushIn) (i : NotifyIn) : SameClock d.conn (d.flushTurn f i).conn := by
  have h := clock_pollFlush d.conn f i
  unfold Disp.flushTurn
  simp only
  split
  · exact h
  · exact h.fail

theorem clock_writeFrame (d : Disp) (f : FrameIn) : SameClock d.conn (d.writeFrame f).conn := by
  unfold Disp.writeFrame
  (repeat' split) <;> first
    | exact .refl _
    | exact clock_endTurn { d with bodyRx := false }
    | exact clock_writeBodyAndEnd _ _
    | exact clock_writeBody _ _
    | exact clock_writeTrailers _ _
    | exact clock_fail { d with bodyRx := false }

theorem clock_writeTurn (env : EncodeEnv) (d : Disp) (i : WriteIn) : SameClock d.conn (d.writeTurn env i).conn := by
  unfold Disp.writeTurn Disp.writeHead
  (repeat' split) <;> first
    | exact .refl _
    | exact clock_close d
    | exact clock_fail d
    | exact clock_writeResp _ _ _ _
    | exact clock_writeReq _ _ _ _
    | exact clock_flushTurn d _ _
    | exact clock_writeFrame d _
    | exact clock_endTurn d

theorem clock_complete (d : Disp) : SameClock d.conn d.complete.conn := by
  unfold Disp.complete
  split
  · have h : SameClock d.conn { d.conn with error := false } := ⟨rfl, rfl, rfl⟩
    exact h.trans (clock_fail { d with conn := { d.conn with error := false } })
  · exact .refl _

theorem clock_finishTurn (d : Disp) (s : Bool) (f : FlushIn) : SameClock d.conn (d.finishTurn s f).conn := by
  unfold Disp.finishTurn
  have h1 : SameClock d.conn { d.conn with upgrade := false } := ⟨rfl, rfl, rfl⟩
  have h2 := clock_pollShutdown d.conn f
  simp only
  (repeat' split) <;> first
    | exact .refl _
    | exact h1.trans (clock_complete { d with conn := { d.conn with upgrade := false } })
    | exact h2
    | exact h2.trans (clock_complete { d with conn := (d.conn.pollShutdown f).2 })
    | exact h2.trans (clock_fail { d with conn := (d.conn.pollShutdown f).2 })
    | exact clock_complete d

theorem clock_disableTurn (d : Disp) (b : Bool) : SameClock d.conn (d.disableKeepAlive b).conn := by
  unfold Disp.disableKeepAlive
  simp only
  have h := clock_disableKeepAlive d.conn
  split
  · exact h.close
  · exact h

theorem clock_want (d : Disp) (k : Nat) : SameClock d.conn (d.want k).conn := by
  unfold Disp.want
  (repeat' split) <;> exact ⟨rfl, rfl, rfl⟩

theorem clock_readBody (P : TrailerParser) (d : Disp) (i : ReadIn) (k : Nat) : SameClock d.conn (d.readBody P i k).conn := by
  have hp := clock_pollReadBody d.conn P i.rd i.notify
  have hd : ∀ (x : Disp) (b : Bool) (f : Chan → Chan), SameClock x.conn (x.deliver k b f).conn := by
    intro x b f
    unfold Disp.deliver
    simp only
    (repeat' split) <;> exact ⟨rfl, rfl, rfl⟩
  have ha : ∀ (x : Disp) (b : Bool) (o : BodyRes), SameClock x.conn (x.afterPiece k b o).conn := by
    intro x b o
    unfold Disp.afterPiece
    cases o with
    | pending => exact .refl _
    | data bs fin => simp only; have := hd (x.markComplete k fin) b (fun ch => { ch with items := ch.items ++ [.data bs] }); rwa [(markComplete_fields x k fin).1] at this
    | trailers fs => simp only; have := hd (x.markComplete k true) b (fun ch => { ch with trailers := some fs }); rwa [(markComplete_fields x k true).1] at this
    | ended fin => simp only [Disp.dropBody, (markComplete_fields x k fin).1]; exact .refl _
    | err => exact .refl _
  unfold Disp.readBody
  (repeat' split) <;> first | exact .refl _ | skip
  · unfold Disp.readPiece
    refine SameClock.trans ?_ (ha _ _ _)
    rw [(maybeLose_fields _ k i.gone).1]; exact hp
  · exact clock_drainOrClose _ P _ _

theorem clock_readIdle (d : Disp) (i : ReadIn) : SameClock d.conn (d.readIdle i).conn := by
  have h := clock_pollReadKeepAlive d.conn i.bufEmpty i.io
  unfold Disp.readIdle
  simp only
  split
  · exact h.fail
  · exact h

/-- Reading a head: nothing happens to a running timeout, or the connection ends, or a head is read. -/
theorem clock_readHead (env : EncodeEnv) (d : Disp) (i : ReadIn) (hs : d.conn.client = false) (ht : d.conn.timing = true) :
    (d.readHead env i).conn.deadline = d.conn.deadline ∧ ((d.readHead env i).conn.timing = true ∨ (d.readHead env i).done = true) ∨
      ∃ e p, Ev.readHead d.next e p ∈ (d.readHead env i).conn.log.drop d.conn.log.length := by
  have hst : ∀ t, d.conn.startTimer t = d.conn := by intro t; unfold Conn.startTimer; rw [if_pos ht]
  unfold Disp.readHead
  rw [hs]
  cases d.inFlight with
  | some n => left; rw [if_neg (by simp)]; exact ⟨rfl, .inl ht⟩
  | none =>
    simp only [Bool.false_eq_true, if_false]
    unfold Disp.readHeadReady
    cases hp : i.parse with
    | pending =>
      left
      simp only [Conn.pollReadHead, hst]
      split
      · have := clock_fail { d with conn := { d.conn with timing := false } }
        simp only [Disp.afterHead]
        rw [recvErr_server { d with conn := { d.conn with timing := false } } hs]
        exact ⟨this.deadline, .inr rfl⟩
      · exact ⟨rfl, .inl ht⟩
    | error e rest h2 =>
      left
      simp only [Conn.pollReadHead, hst]
      have hc := clock_onReadHeadError d.conn env e rest h2
      have ho := onReadHeadError_out env d.conn e rest h2
      have hcl : (d.conn.onReadHeadError env e rest h2).2.client = false := by
        unfold Conn.onReadHeadError Conn.onParseError
        (repeat' split) <;> first | exact hs | (simp [Conn.writeResp, Conn.setWriting, Conn.putHeaders, Conn.closeRead, hs])
      generalize (d.conn.onReadHeadError env e rest h2).1 = o at ho
      unfold Disp.afterHead
      cases o with
      | pending => exact ⟨hc.deadline, .inl (hc.timing.trans ht)⟩
      | eof => simp only; split <;> exact ⟨hc.deadline, .inl (hc.timing.trans ht)⟩
      | err => simp only; rw [recvErr_server _ hcl]; exact ⟨hc.fail.deadline, .inr rfl⟩
      | timeout => simp only; rw [recvErr_server _ hcl]; exact ⟨hc.fail.deadline, .inr rfl⟩
      | msg m => exact absurd rfl (ho m)
    | msg m =>
      right
      simp only [Conn.pollReadHead, hst, Disp.afterHead]
      refine ⟨m.continues, m.keepAlive, ?_⟩
      have hid : d.headId = d.next := by unfold Disp.headId; rw [hs]; rfl
      have hcl : (d.conn.acceptHead m d.headId i.notify).client = false := by
        unfold Conn.acceptHead; rw [hs]; (repeat' split) <;> simp_all [Conn.readDone, Conn.headState]
      have hlog : ∃ l, (d.conn.acceptHead m d.headId i.notify).log = d.conn.log ++ .readHead d.next m.continues m.keepAlive :: l := by
        unfold Conn.acceptHead
        rw [hid, hs]
        (repeat' split)
        · simp_all
        · exact ⟨[.readEnd], by simp [Conn.readDone, Conn.headState]⟩
        · exact ⟨[], by simp [Conn.headState]⟩
        · exact ⟨[], by simp [Conn.headState]⟩
      obtain ⟨l, hl⟩ := hlog
      unfold Disp.recvHead
      have hn := newBody_fields { d with conn := d.conn.acceptHead m d.headId i.notify } m
      simp only [hn.1, hcl, Bool.false_eq_true, if_false, hl]
      simp

/-- The timeout that is running when `n` heads have been read. -/
def Ticking (n D : Nat) (d : Disp) : Prop :=
  n < readHeads d.conn.log ∨ (d.conn.deadline = some D ∧ (d.conn.timing = true ∨ d.done = true))

theorem log_grows (env : EncodeEnv) (P : TrailerParser) (d : Disp) (a : Act) : ∃ l, (d.step env P a).conn.log = d.conn.log ++ l := by
  have h := step_steps env P d a
  rw [← view_log, ← view_log]
  generalize d.view = v at h
  generalize (d.step env P a).view = w at h
  induction h with
  | refl => exact ⟨[], by simp⟩
  | tail _ p ih =>
    obtain ⟨l, hl⟩ := ih
    rcases prim_log p with hp | ⟨e, hp⟩
    · exact ⟨l, by rw [hp, hl]⟩
    · exact ⟨l ++ [e], by rw [hp, hl]; simp⟩

theorem clock_done (env : EncodeEnv) (P : TrailerParser) (d : Disp) (a : Act) (h : d.done = true) :
    SameClock d.conn (d.step env P a).conn ∧ (d.step env P a).done = true := by
  unfold Disp.step
  cases a <;> simp only [h, if_true]
  · exact ⟨.refl _, trivial⟩
  · exact ⟨.refl _, trivial⟩
  · exact ⟨.refl _, trivial⟩
  · exact ⟨.refl _, trivial⟩
  · exact ⟨.refl _, trivial⟩
  · exact ⟨.refl _, trivial⟩
  · refine ⟨clock_want d _, ?_⟩
    unfold Disp.want; (repeat' split) <;> exact h
  · exact ⟨.refl _, h⟩
  · rw [(failBody_fields d).1]; exact ⟨.refl _, trivial⟩

theorem Ticking.step {n D : Nat} {d : Disp} (h : Ticking n D d) (hn : n ≤ readHeads d.conn.log) (hs : d.conn.client = false) (env : EncodeEnv) (P : TrailerParser) (a : Act) :
    Ticking n D (d.step env P a) := by
  obtain ⟨l, hl⟩ := log_grows env P d a
  have hmono : readHeads (d.step env P a).conn.log = readHeads d.conn.log + readHeads l := by
    rw [hl]; simp [readHeads]
  rcases h with h | ⟨h, h'⟩
  · left; omega
  · cases hd : d.done with
    | true =>
      obtain ⟨hc, hdn⟩ := clock_done env P d a hd
      exact .inr ⟨hc.deadline.trans h, .inr hdn⟩
    | false =>
      have ht : d.conn.timing = true := by simpa [hd] using h'
      have hsame : SameClock d.conn (d.step env P a).conn → Ticking n D (d.step env P a) :=
        fun hc => .inr ⟨hc.deadline.trans h, .inl (hc.timing.trans ht)⟩
      cases a with
      | read i =>
        by_cases hcl : d.closing = true
        · refine hsame ?_
          simp [Disp.step, hd, Disp.readTurn, hcl]; exact .refl _
        · cases hh : d.conn.canReadHead with
          | false =>
            refine hsame ?_
            simp only [Disp.step, hd, Disp.readTurn, hcl, hh, Bool.false_eq_true, if_false]
            split
            · exact clock_readBody P d i _
            · exact clock_readIdle d i
          | true =>
            have hstep : d.step env P (.read i) = d.readHead env i := by
              simp [Disp.step, hd, Disp.readTurn, hcl, hh]
            rcases clock_readHead env d i hs ht with hx | ⟨e, p, hx⟩
            · rw [hstep]; exact .inr ⟨hx.1.trans h, hx.2⟩
            · left
              rw [hmono]
              rw [← hstep, hl] at hx
              simp only [List.drop_left] at hx
              have : 0 < readHeads l := List.countP_pos_iff.2 ⟨_, hx, rfl⟩
              omega
      | write i => refine hsame ?_; simp only [Disp.step, hd, Bool.false_eq_true, if_false]; exact clock_writeTurn env d i
      | flush f i => refine hsame ?_; simp only [Disp.step, hd, Bool.false_eq_true, if_false]; exact clock_flushTurn d f i
      | readAgain => refine hsame ?_; simp only [Disp.step, hd, Bool.false_eq_true, if_false]; exact ⟨rfl, rfl, rfl⟩
      | finish s f => refine hsame ?_; simp only [Disp.step, hd, Bool.false_eq_true, if_false]; exact clock_finishTurn d s f
      | disable b => refine hsame ?_; simp only [Disp.step, hd, Bool.false_eq_true, if_false]; exact clock_disableTurn d b
      | want k => exact hsame (clock_want d k)
      | dropReader k => exact hsame (.refl _)
      | drop => refine hsame ?_; simp only [Disp.step]; rw [(failBody_fields d).1]; exact .refl _

theorem step_client (env : EncodeEnv) (P : TrailerParser) (d : Disp) (a : Act) : (d.step env P a).conn.client = d.conn.client := by
  have hv : ∀ x : Disp, x.view.client = x.conn.client := by intro x; unfold Disp.view; split <;> rfl
  have h := step_steps env P d a
  rw [← hv, ← hv]
  generalize d.view = v at h
  generalize (d.step env P a).view = w at h
  induction h with
  | refl => rfl
  | tail _ p ih => rw [← ih]; cases p <;> rfl

theorem Ticking.run {n D : Nat} (env : EncodeEnv) (P : TrailerParser) (as : List Act) (d : Disp) (h : Ticking n D d) (hn : n ≤ readHeads d.conn.log)
    (hs : d.conn.client = false) : Ticking n D (d.run env P as) := by
  induction as generalizing d with
  | nil => exact h
  | cons a as ih =>
    have hn' : n ≤ readHeads (d.step env P a).conn.log := by
      obtain ⟨l, hl⟩ := log_grows env P d a
      rw [hl]; simp only [readHeads, List.countP_append] at *; omega
    exact ih _ (h.step hn hs env P a) hn' ((step_client env P d a).trans hs)

end Hyper
