import Verif.Model.PollLoop
import Verif.Proof.ConnView
import Verif.Proof.DispBody
import Verif.Props.H1Upgrade

/-!
# Facts about one poll of a connection
-/

namespace Hyper

namespace Poll

open HandOver (Flat Sent pollFlush_facts pollShutdown_facts flat_put tryKeepAlive_keep startTimer_keep)

/-! ## What the states of reading, writing and the service have to do with each other -/

/-- On views. -/
structure VI (v : View) : Prop where
  flight : v.client = false → v.flight ≠ none → (v.wr = .init ∨ v.wr = .closed) ∧ v.rd ≠ .init
  init : v.client = false → v.rd = .init → v.wr = .init
  rest : v.wr = .init → (v.client = true ∨ v.flight = none) → v.rd = .init ∨ v.rd = .closed

theorem vi_prim (v w : View) (h : VI v) (p : Prim v w) : VI w := by
  obtain ⟨a, b, c⟩ := h
  cases p <;> constructor <;> grind

theorem vi_run (env : EncodeEnv) (P : TrailerParser) (as : List Act) {d : Disp} (h : VI d.view) : VI (d.run env P as).view :=
  Steps.keep vi_prim (run_steps env P as d) h

theorem vi_start {d : Disp} (h : d.Start) : VI d.view := by
  constructor <;> simp [Disp.view, h.done, Conn.view, h.reading, h.writing, h.inFlight, Reading.tag, Writing.tag]

/-- On connections. -/
structure CI (d : Disp) : Prop where
  flight : d.conn.client = false → d.inFlight ≠ none → (d.conn.writing = .init ∨ d.conn.writing = .closed) ∧ d.conn.reading ≠ .init
  init : d.conn.client = false → d.conn.reading = .init → d.conn.writing = .init
  rest : d.conn.writing = .init → (d.conn.client = true ∨ d.inFlight = none) → d.conn.reading = .init ∨ d.conn.reading = .closed

theorem rtag_init {r : Reading} : r.tag = .init ↔ r = .init := by cases r <;> simp [Reading.tag]
theorem rtag_closed {r : Reading} : r.tag = .closed ↔ r = .closed := by cases r <;> simp [Reading.tag]
theorem wtag_init {r : Writing} : r.tag = .init ↔ r = .init := by cases r <;> simp [Writing.tag]
theorem wtag_closed {r : Writing} : r.tag = .closed ↔ r = .closed := by cases r <;> simp [Writing.tag]

theorem ci_of_view {d : Disp} (hd : d.done = false) (h : VI d.view) : CI d := by
  obtain ⟨a, b, c⟩ := h
  simp only [Disp.view, hd, Bool.false_eq_true, if_false, Conn.view, rtag_init, rtag_closed, wtag_init, wtag_closed, ne_eq] at a b c
  exact ⟨a, b, c⟩

/-! ## The write side -/

structure OutOk (s : WriteStrategy) (o : WriteSide Bytes) : Prop where
  strategy : o.wbuf.strategy = s
  flat : Flat o
  pipeline : o.flushPipeline = false

theorem pollFlush_strategy (o : WriteSide Bytes) (rb : Bytes) : (o.pollFlush bytesBuf rb).2.wbuf.strategy = o.wbuf.strategy := by
  unfold WriteSide.pollFlush
  split
  · rfl
  · split
    · rfl
    · cases hs : o.wbuf.strategy with
      | flatten => simp only []; rw [(HandOver.finish_wbuf _ _).1, (HandOver.flushFlat_queue _ _ _).2, hs]
      | queue => simp only []; rw [(HandOver.finish_wbuf _ _).1, HandOver.flushQueue_strategy, hs]

theorem pollShutdown_strategy (o : WriteSide Bytes) (rb : Bytes) : (o.pollShutdown bytesBuf rb).2.wbuf.strategy = o.wbuf.strategy := by
  have := pollFlush_strategy o rb
  unfold WriteSide.pollShutdown
  split <;> exact this

theorem ok_flush {s : WriteStrategy} {c : Conn} (h : OutOk s c.out) (f : FlushIn) : OutOk s ((c.scripted f).pollFlush bytesBuf f.readBuf).2 := by
  obtain ⟨a, b, _, _⟩ := pollFlush_facts (c.scripted f) f.readBuf h.flat h.pipeline
  exact ⟨(pollFlush_strategy _ _).trans h.strategy, a, b⟩

theorem ok_pollShutdown {s : WriteStrategy} {c : Conn} (h : OutOk s c.out) (f : FlushIn) : OutOk s (c.pollShutdown f).2.out := by
  obtain ⟨a, b, _⟩ := pollShutdown_facts (c.scripted f) f.readBuf h.flat h.pipeline
  exact ⟨(pollShutdown_strategy (c.scripted f) f.readBuf).trans h.strategy, a, b⟩

theorem ok_putHeaders {s : WriteStrategy} {c : Conn} (h : OutOk s c.out) (bs : Bytes) : OutOk s (c.putHeaders bs).out := ⟨h.strategy, h.flat, h.pipeline⟩

theorem ok_put {s : WriteStrategy} {c : Conn} (h : OutOk s c.out) (bs : Bytes) : OutOk s (c.put bs).out := by
  obtain ⟨a, b⟩ := flat_put c bs h.flat
  refine ⟨?_, a, by rw [b]; exact h.pipeline⟩
  unfold Conn.put
  split
  · exact h.strategy
  split
  · rename_i w hw
    unfold WriteBuf.buffer at hw
    cases hs : c.out.wbuf.strategy with
    | flatten =>
      simp only [hs] at hw
      obtain ⟨x, _, rfl⟩ := Option.map_eq_some_iff.1 hw
      exact hs.symm.trans h.strategy
    | queue =>
      simp only [hs] at hw
      cases hw
      exact hs.symm.trans h.strategy
  · exact h.strategy

theorem ok_put_set {s : WriteStrategy} {c : Conn} (h : OutOk s c.out) (bs : Bytes) (w : Writing) : OutOk s ((c.put bs).setWriting w).out := ok_put h bs

theorem out_fail (d : Disp) : d.fail.conn = d.conn := by
  unfold Disp.fail Disp.failBody; split <;> rfl

theorem ok_tryKeepAlive {s : WriteStrategy} {c : Conn} (h : OutOk s c.out) (i : NotifyIn) : OutOk s (c.tryKeepAlive i).out := by
  rw [(tryKeepAlive_keep c i).2.1]; exact h

theorem ok_flushTurn {s : WriteStrategy} {d : Disp} (h : OutOk s d.conn.out) (f : FlushIn) (i : NotifyIn) : OutOk s (d.flushTurn f i).conn.out := by
  have e : OutOk s (d.conn.pollFlush f i).2.out := by
    have := ok_flush h f
    unfold Conn.pollFlush
    simp only
    split
    · exact ok_tryKeepAlive (c := { d.conn with out := ((d.conn.scripted f).pollFlush bytesBuf f.readBuf).2 }) this i
    · exact this
  unfold Disp.flushTurn
  simp only
  split
  · exact e
  · rw [out_fail]; exact e

theorem ok_endBody {s : WriteStrategy} {d : Disp} (h : OutOk s d.conn.out) : OutOk s d.endBody.conn.out := by
  unfold Disp.endBody
  simp only
  split
  · rw [out_fail]; exact ok_put_set h _ _
  · exact ok_put_set h _ _

theorem ok_writeTurn {s : WriteStrategy} (env : EncodeEnv) {d : Disp} (h : OutOk s d.conn.out) (i : WriteIn) : OutOk s (d.writeTurn env i).conn.out := by
  unfold Disp.writeTurn
  split
  · exact h
  · split
    · unfold Disp.writeHead
      repeat' split
      all_goals first | exact h | (rw [out_fail]; exact h) | exact ok_putHeaders h _
    · split
      · exact ok_flushTurn h _ _
      · split
        · split
          · unfold Disp.writeFrame
            repeat' split
            all_goals first | exact h | (rw [out_fail]; exact h) | exact ok_endBody h | exact ok_put_set h _ _
          · exact h
        · split
          · exact ok_endBody h
          · exact h

theorem ok_decodeBody {s : WriteStrategy} (P : TrailerParser) {c : Conn} (h : OutOk s c.out) (dd : Decoder) (r : Rd) (i : NotifyIn) :
    OutOk s (c.decodeBody P dd r i).2.out := by
  unfold Conn.decodeBody
  repeat' split
  all_goals first | exact h | exact ok_tryKeepAlive (c := c.readDone) h i | exact ok_tryKeepAlive (c := { c with reading := .closed }) h i

theorem ok_pollReadBody {s : WriteStrategy} (P : TrailerParser) {c : Conn} (h : OutOk s c.out) (r : Rd) (i : NotifyIn) : OutOk s (c.pollReadBody P r i).2.out := by
  unfold Conn.pollReadBody
  split
  · exact ok_decodeBody P h ..
  · refine ok_decodeBody P ?_ ..
    unfold Conn.sendContinue; split
    · exact ok_putHeaders h _
    · exact h
  · exact h

theorem ok_drain {s : WriteStrategy} (P : TrailerParser) {c : Conn} (h : OutOk s c.out) (r : Rd) (i : NotifyIn) : OutOk s (c.drainOrClose P r i).out := by
  unfold Conn.drainOrClose
  have h1 : ∀ x : Conn, x.drainEnd.out = x.out := by intro x; unfold Conn.drainEnd; split <;> rfl
  rw [h1]
  refine ok_pollReadBody P ?_ r i
  unfold Conn.drainStart; split <;> exact h

/-- What follows a piece of a body, but for the channels. -/
theorem afterPiece_conn (d : Disp) (k : Nat) (gone : Bool) (o : BodyRes) : (d.afterPiece k gone o).conn = d.conn ∨ (d.afterPiece k gone o).conn = d.conn.closeRead := by
  have m : ∀ fin, (d.markComplete k fin).conn = d.conn := by intro fin; unfold Disp.markComplete; split <;> rfl
  have e : ∀ (x : Disp) f, (x.deliver k gone f).conn = x.conn ∨ (x.deliver k gone f).conn = x.conn.closeRead := by
    intro x f
    unfold Disp.deliver
    split
    · simp only
      split
      · exact .inr rfl
      · exact .inl rfl
    · exact .inl rfl
  cases o with
  | pending => exact .inl rfl
  | data bs fin => have := e (d.markComplete k fin) (fun ch => { ch with items := ch.items ++ [.data bs] }); rw [m] at this; exact this
  | trailers fs => have := e (d.markComplete k true) (fun ch => { ch with trailers := some fs }); rw [m] at this; exact this
  | ended fin => exact .inl (m fin)
  | err => exact .inl rfl

theorem maybeLose_conn (d : Disp) (k : Nat) (gone : Bool) : (d.maybeLose k gone).conn = d.conn := by unfold Disp.maybeLose; split <;> rfl

theorem ok_readBody {s : WriteStrategy} (P : TrailerParser) {d : Disp} (h : OutOk s d.conn.out) (i : ReadIn) (k : Nat) : OutOk s (d.readBody P i k).conn.out := by
  unfold Disp.readBody
  split
  · split
    · split
      · exact h
      · unfold Disp.readPiece
        have e := ok_pollReadBody P h i.rd i.notify
        rcases afterPiece_conn (({ d with conn := (d.conn.pollReadBody P i.rd i.notify).2 } : Disp).maybeLose k i.gone) k i.gone (d.conn.pollReadBody P i.rd i.notify).1 with q | q
        · rw [q, maybeLose_conn]; exact e
        · rw [q, maybeLose_conn]; exact e
    · exact h
    · exact ok_drain P h _ _
  · exact h

theorem ok_afterHead {s : WriteStrategy} {d : Disp} (h : OutOk s d.conn.out) (o : HeadOut) : OutOk s (d.afterHead o).conn.out := by
  have hr : OutOk s d.recvErr.conn.out := by
    unfold Disp.recvErr
    repeat' split
    all_goals first | exact h | (rw [out_fail]; exact h)
  unfold Disp.afterHead
  cases o with
  | pending => exact h
  | err => exact hr
  | timeout => exact hr
  | eof => simp only; split <;> exact h
  | msg m =>
    have en : ∀ x : Disp, (x.newBody m).conn = x.conn := by intro x; unfold Disp.newBody; split <;> rfl
    simp only [Disp.recvHead]
    repeat' split
    all_goals first
      | (rw [out_fail]; simp only [en]; exact h)
      | (simp only [en]; exact h)

theorem ok_pollReadHead {s : WriteStrategy} (env : EncodeEnv) {c : Conn} (h : OutOk s c.out) (t0 t1 : Nat) (p : ParseIn) (i : NotifyIn) (n : Nat) :
    OutOk s (c.pollReadHead env t0 t1 p i n).2.out := by
  have ht : OutOk s (c.startTimer t0).out := by rw [(startTimer_keep c t0).2.1]; exact h
  unfold Conn.pollReadHead
  split
  · split <;> exact ht
  · unfold Conn.onReadHeadError Conn.onParseError
    repeat' split
    all_goals first | exact ht | exact ok_putHeaders (c := (c.startTimer t0).closeRead) ht _
  · unfold Conn.acceptHead
    repeat' split
    all_goals first | exact ht | exact ok_tryKeepAlive (c := ((c.startTimer t0).headState _ n).readDone) ht _

theorem ok_readTurn {s : WriteStrategy} (env : EncodeEnv) (P : TrailerParser) {d : Disp} (h : OutOk s d.conn.out) (i : ReadIn) :
    OutOk s (d.readTurn env P i).conn.out := by
  have hr : OutOk s (d.readHeadReady env i).conn.out := ok_afterHead (d := { d with conn := _ }) (ok_pollReadHead env h ..) _
  unfold Disp.readTurn
  split
  · exact h
  · split
    · unfold Disp.readHead
      repeat' split
      all_goals first | exact h | exact hr
    · split
      · exact ok_readBody P h ..
      · unfold Disp.readIdle Conn.pollReadKeepAlive Conn.requireEmpty Conn.midMessageEof
        simp only
        repeat' split
        all_goals first | exact h | (rw [out_fail]; exact h)

theorem ok_step {s : WriteStrategy} (env : EncodeEnv) (P : TrailerParser) {d : Disp} (h : OutOk s d.conn.out) (a : Act) : OutOk s (d.step env P a).conn.out := by
  cases a with
  | read i => simp only [Disp.step]; split; exact h; exact ok_readTurn env P h i
  | write i => simp only [Disp.step]; split; exact h; exact ok_writeTurn env h i
  | flush f i => simp only [Disp.step]; split; exact h; exact ok_flushTurn h f i
  | readAgain => simp only [Disp.step]; split <;> exact h
  | finish b f =>
    simp only [Disp.step]
    split
    · exact h
    · have hc : ∀ x : Disp, OutOk s x.conn.out → OutOk s x.complete.conn.out := by
        intro x hx; unfold Disp.complete; split
        · rw [out_fail]; exact hx
        · exact hx
      have hp := ok_pollShutdown h f
      unfold Disp.finishTurn
      split
      · exact h
      · split
        · exact hc _ h
        · split
          · by_cases hpp : (d.conn.pollShutdown f).1 = .pending
            · simp only [hpp, if_true]; exact hp
            · simp only [hpp, if_false]
              by_cases hpo : (d.conn.pollShutdown f).1 = .ok
              · simp only [hpo, if_true]; exact hc _ hp
              · simp only [hpo, if_false]; rw [out_fail]; exact hp
          · exact hc _ h
  | disable b =>
    simp only [Disp.step]
    split
    · exact h
    · unfold Disp.disableKeepAlive Conn.disableKeepAlive Disp.close
      simp only
      repeat' split
      all_goals exact h
  | want k =>
    simp only [Disp.step, Disp.want]
    repeat' split
    all_goals exact h
  | dropReader k => exact h
  | drop => simp only [Disp.step, Disp.failBody]; split <;> exact h

theorem ok_run {s : WriteStrategy} (env : EncodeEnv) (P : TrailerParser) : ∀ (as : List Act) {d : Disp}, OutOk s d.conn.out → OutOk s (d.run env P as).conn.out := by
  intro as
  induction as with
  | nil => intro d h; exact h
  | cons a t ih => intro d h; exact ih (ok_step env P h a)

/-! ## A body being read has a reader's channel -/

def Tx (d : Disp) : Prop := d.done = false → d.conn.canReadBody = true → d.bodyTx ≠ none

theorem Calm.back {c c' : Conn} (h : Calm c c') (hb : c'.canReadBody = true) : c.canReadBody = true := by
  cases hx : c.canReadBody
  · rw [h.cont hx] at hb; exact hb
  · rfl

theorem Tx.calm {d d' : Disp} (h : Tx d) (hc : Calm d.conn d'.conn) (h1 : d'.bodyTx = d.bodyTx) (h2 : d'.done = false → d.done = false) : Tx d' := by
  intro hd hb; rw [h1]; exact h (h2 hd) (Calm.back hc hb)

theorem tx_done {d : Disp} (h : d.done = true) : Tx d := by intro hd; rw [h] at hd; cases hd

theorem tx_closed {d : Disp} (h : d.conn.canReadBody = false) : Tx d := by intro _ hb; rw [h] at hb; cases hb

theorem tx_fail (d : Disp) : Tx d.fail := tx_done rfl

theorem tx_close (d : Disp) : Tx d.close := tx_closed rfl

theorem tx_recvErr {d : Disp} (h : Tx d) : Tx d.recvErr := by
  unfold Disp.recvErr
  repeat' split
  all_goals first | exact tx_fail _ | exact tx_close _

theorem tx_accept {d : Disp} (h : Tx d) (m : MsgIn) (i : NotifyIn) (t : Nat) :
    Tx ({ d with conn := (d.conn.startTimer t).acceptHead m d.headId i }.recvHead m) := by
  have key : Tx ({ d with conn := (d.conn.startTimer t).acceptHead m d.headId i }.newBody m) := by
    by_cases hz : m.decode = DecodedLength.ZERO
    · have hnb : ({ d with conn := (d.conn.startTimer t).acceptHead m d.headId i }.newBody m) = { d with conn := (d.conn.startTimer t).acceptHead m d.headId i } := by
        unfold Disp.newBody; rw [if_pos hz]
      rw [hnb]
      refine tx_closed ?_
      have hcalm : Calm (((d.conn.startTimer t).headState m d.headId).readDone) ((d.conn.startTimer t).acceptHead m d.headId i) := by
        unfold Conn.acceptHead
        rw [if_pos hz]
        split
        · exact calm_tryKeepAlive _ i
        · exact .refl _
      exact hcalm.cont rfl
    · intro _ _
      unfold Disp.newBody
      rw [if_neg hz]
      simp
  unfold Disp.recvHead
  simp only
  generalize ({ d with conn := (d.conn.startTimer t).acceptHead m d.headId i }.newBody m) = d1 at key
  have key2 : Tx { d1 with conn := { d1.conn with upgrade := d1.conn.upgrade || m.wantsUpgrade } } := key.calm (.of_eq rfl id rfl) rfl id
  split
  · split
    · exact key2
    · exact tx_fail _
  · exact key2

theorem tx_readHeadReady {d : Disp} (h : Tx d) (env : EncodeEnv) (i : ReadIn) (hr : d.conn.reading = .init) : Tx (d.readHeadReady env i) := by
  have ht := startTimer_fields d.conn i.t0
  unfold Disp.readHeadReady
  cases hp : i.parse with
  | pending =>
    simp only [Conn.pollReadHead]
    have h1 : Tx { d with conn := d.conn.startTimer i.t0 } := h.calm (calm_startTimer _ _) rfl id
    split
    · have h2 : Tx { d with conn := { d.conn.startTimer i.t0 with timing := false } } := h1.calm (.of_eq rfl id rfl) rfl id
      exact tx_recvErr h2
    · exact h1
  | error e rest h2 =>
    simp only [Conn.pollReadHead]
    have hc : Calm d.conn ((d.conn.startTimer i.t0).onReadHeadError env e rest h2).2 :=
      (calm_startTimer _ _).trans (calm_onReadHeadError _ env e rest h2 (by simp [Conn.canReadBody, ht.2.1, hr]))
    have h1 : Tx { d with conn := ((d.conn.startTimer i.t0).onReadHeadError env e rest h2).2 } := h.calm hc rfl id
    have ho := onReadHeadError_out env (d.conn.startTimer i.t0) e rest h2
    generalize ((d.conn.startTimer i.t0).onReadHeadError env e rest h2).1 = o at ho
    unfold Disp.afterHead
    cases o with
    | pending => exact h1
    | eof => simp only; split; exact tx_close _; exact h1
    | err => exact tx_recvErr h1
    | timeout => exact tx_recvErr h1
    | msg m => exact absurd rfl (ho m)
  | msg m =>
    simp only [Conn.pollReadHead, Disp.afterHead]
    exact tx_accept h m i.notify i.t0

/-- A body that has ended is not read any further. -/
theorem piece_over (c : Conn) (P : TrailerParser) (r : Rd) (i : NotifyIn) (h : (∃ b, (c.pollReadBody P r i).1 = .ended b) ∨ (c.pollReadBody P r i).1 = .err) :
    (c.pollReadBody P r i).2.canReadBody = false := by
  have hd : ∀ (c : Conn) (d : Decoder), (∃ b, (c.decodeBody P d r i).1 = .ended b) ∨ (c.decodeBody P d r i).1 = .err → (c.decodeBody P d r i).2.canReadBody = false := by
    intro c d
    have k1 : (c.readDone.tryKeepAlive i).canReadBody = false := (calm_tryKeepAlive c.readDone i).cont rfl
    have k2 : (({ c with reading := .closed } : Conn).tryKeepAlive i).canReadBody = false := (calm_tryKeepAlive { c with reading := .closed } i).cont rfl
    unfold Conn.decodeBody
    split
    · rintro (⟨b, h⟩ | h) <;> cases h
    · intro _; exact k2
    · rintro (⟨b, h⟩ | h) <;> cases h
    · split
      · intro _; exact k1
      · split
        · intro _; exact k2
        · rintro (⟨b, h⟩ | h) <;> cases h
  unfold Conn.pollReadBody at h ⊢
  split at h
  · exact hd _ _ h
  · exact hd _ _ h
  · rcases h with ⟨b, h⟩ | h <;> cases h

theorem markComplete_tx (d : Disp) (k : Nat) (b : Bool) : (d.markComplete k b).bodyTx = d.bodyTx ∧ (d.markComplete k b).conn = d.conn := by
  unfold Disp.markComplete; split <;> exact ⟨rfl, rfl⟩

theorem tx_deliver {d : Disp} {k : Nat} (ht : d.bodyTx = some k) (gone : Bool) (f : Chan → Chan) : Tx (d.deliver k gone f) := by
  unfold Disp.deliver
  split
  · simp only
    split
    · exact tx_closed rfl
    · rename_i hb; exact tx_closed (by simpa using hb)
  · intro _ _; simp [Disp.sendItem, ht]

theorem tx_readBody {d : Disp} (P : TrailerParser) (i : ReadIn) (k : Nat) (ht : d.bodyTx = some k) (h : Tx d) : Tx (d.readBody P i k) := by
  unfold Disp.readBody
  split
  · rename_i hc
    split
    · split
      · exact h
      · unfold Disp.readPiece
        have e1 : ((({ d with conn := (d.conn.pollReadBody P i.rd i.notify).2 } : Disp)).maybeLose k i.gone).bodyTx = some k := by
          unfold Disp.maybeLose Disp.loseReader; split <;> exact ht
        have e2 := maybeLose_conn ({ d with conn := (d.conn.pollReadBody P i.rd i.notify).2 } : Disp) k i.gone
        have e3 := piece_over d.conn P i.rd i.notify
        generalize (({ d with conn := (d.conn.pollReadBody P i.rd i.notify).2 } : Disp)).maybeLose k i.gone = x at e1 e2
        generalize (d.conn.pollReadBody P i.rd i.notify).1 = o at e3
        unfold Disp.afterPiece
        cases o with
        | pending => intro _ _; rw [e1]; simp
        | data bs fin => exact tx_deliver ((markComplete_tx x k fin).1.trans e1) _ _
        | trailers fs => exact tx_deliver ((markComplete_tx x k true).1.trans e1) _ _
        | ended fin =>
          refine tx_closed ?_
          simp only [Disp.dropBody]
          rw [(markComplete_tx x k fin).2, e2]
          exact e3 (.inl ⟨fin, rfl⟩)
        | err =>
          refine tx_closed ?_
          simp only
          rw [e2]
          exact e3 (.inr rfl)
    · exact h
    · exact tx_closed (drain_fields d.conn P i.rd i.notify hc).2.1
  · rename_i hc; exact tx_closed (by simpa [Disp.dropBody] using hc)

theorem tx_readTurn {d : Disp} (env : EncodeEnv) (P : TrailerParser) (i : ReadIn) (h : Tx d) : Tx (d.readTurn env P i) := by
  unfold Disp.readTurn
  split
  · exact h
  · split
    · rename_i hr
      have hrd : d.conn.reading = .init := by
        simp only [Conn.canReadHead, Bool.and_eq_true, beq_iff_eq] at hr; exact hr.1
      have h1 := tx_readHeadReady h env i hrd
      unfold Disp.readHead
      (repeat' split) <;> first | exact h1 | exact tx_close _ | exact h
    · split
      · rename_i k ht; exact tx_readBody P i k ht h
      · unfold Disp.readIdle
        simp only
        split
        · exact tx_fail _
        · rcases pollReadKeepAlive_fields d.conn i.bufEmpty i.io with hx | ⟨hx, _⟩
          · rw [hx]; exact h
          · exact tx_closed (by simp [Conn.canReadBody, hx])

theorem tx_flushTurn {d : Disp} (h : Tx d) (f : FlushIn) (i : NotifyIn) : Tx (d.flushTurn f i) := by
  have h1 : Tx { d with conn := (d.conn.pollFlush f i).2 } := h.calm (calm_pollFlush _ f i) rfl id
  unfold Disp.flushTurn
  simp only
  split
  · exact h1
  · exact tx_fail _

theorem tx_endBody {d : Disp} (h : Tx d) : Tx d.endBody := by
  have h1 : Tx { d with conn := d.conn.endBody.2 } := h.calm (calm_endBody _) rfl id
  unfold Disp.endBody
  simp only
  split
  · exact tx_fail _
  · exact h1

theorem tx_writeTurn {d : Disp} (h : Tx d) (env : EncodeEnv) (i : WriteIn) : Tx (d.writeTurn env i) := by
  have h0 : Tx { d with bodyRx := false } := h
  unfold Disp.writeTurn
  split
  · exact h
  · split
    · unfold Disp.writeHead
      split
      · exact h
      · split
        · exact tx_close _
        · exact h
      · split
        · exact h
        · exact tx_fail _
      · split
        · exact h
        · exact h.calm (calm_writeResp _ env _ _ (fun _ => ⟨by simp, by simp⟩)) rfl id
      · split
        · exact h.calm (calm_writeReq _ _ _ _) rfl id
        · exact h
    · split
      · exact tx_flushTurn h _ _
      · split
        · split
          · unfold Disp.writeFrame
            split
            · exact h
            · exact tx_endBody h0
            · split
              · exact tx_endBody h0
              · exact h0.calm (calm_writeBodyAndEnd _ _) rfl id
            · split
              · exact h
              · exact h.calm (calm_writeBody _ _) rfl id
            · exact h0.calm (calm_writeTrailers _ _) rfl id
            · exact h
            · exact tx_fail _
          · exact h0
        · split
          · exact tx_endBody h
          · exact h

theorem tx_complete (d : Disp) : Tx d.complete := by
  unfold Disp.complete
  split
  · exact tx_fail _
  · exact tx_done rfl

theorem tx_step (env : EncodeEnv) (P : TrailerParser) {d : Disp} (h : Tx d) (a : Act) : Tx (d.step env P a) := by
  cases a with
  | read i => simp only [Disp.step]; split; exact h; exact tx_readTurn env P i h
  | write i => simp only [Disp.step]; split; exact h; exact tx_writeTurn h env i
  | flush f i => simp only [Disp.step]; split; exact h; exact tx_flushTurn h f i
  | readAgain => simp only [Disp.step]; split; exact h; exact h.calm (.of_eq rfl id rfl) rfl id
  | finish b f =>
    simp only [Disp.step]
    split
    · exact h
    · unfold Disp.finishTurn
      split
      · exact h
      · split
        · exact tx_complete _
        · split
          · simp only
            split
            · exact h.calm (calm_pollShutdown _ f) rfl id
            · split
              · exact tx_complete _
              · exact tx_fail _
          · exact tx_complete _
  | disable b =>
    simp only [Disp.step]
    split
    · exact h
    · have h1 : Tx { d with conn := d.conn.disableKeepAlive } := by
        intro hd hb
        refine h hd ?_
        unfold Conn.disableKeepAlive at hb
        simp only at hb
        split at hb
        · simp [Conn.closeAll, Conn.canReadBody] at hb
        · exact hb
      unfold Disp.disableKeepAlive
      simp only
      split
      · exact tx_close _
      · exact h1
  | want k =>
    simp only [Disp.step, Disp.want]
    repeat' split
    all_goals exact h
  | dropReader k => exact h
  | drop => exact tx_done rfl

/-! ## Together -/

/-- What is known of every state that can be reached. -/
structure Good (s : WriteStrategy) (d : Disp) : Prop where
  view : VI d.view
  out : OutOk s d.conn.out
  tx : Tx d

theorem Good.step {s : WriteStrategy} {d : Disp} (h : Good s d) (env : EncodeEnv) (P : TrailerParser) (a : Act) : Good s (d.step env P a) :=
  ⟨Steps.keep vi_prim (step_steps env P d a) h.view, ok_step env P h.out a, tx_step env P h.tx a⟩

theorem Good.run {s : WriteStrategy} (env : EncodeEnv) (P : TrailerParser) : ∀ (as : List Act) {d : Disp}, Good s d → Good s (d.run env P as) := by
  intro as
  induction as with
  | nil => intro d h; exact h
  | cons a t ih => intro d h; exact ih (h.step env P a)

theorem Good.ci {s : WriteStrategy} {d : Disp} (h : Good s d) (hd : d.done = false) : CI d := ci_of_view hd h.view

theorem Good.read {s : WriteStrategy} {d : Disp} (h : Good s d) (hd : d.done = false) (env : EncodeEnv) (P : TrailerParser) (i : ReadIn) : Good s (d.readTurn env P i) := by
  have := h.step env P (.read i); simpa [Disp.step, hd] using this

theorem Good.write {s : WriteStrategy} {d : Disp} (h : Good s d) (hd : d.done = false) (env : EncodeEnv) (i : WriteIn) : Good s (d.writeTurn env i) := by
  have := h.step env (fun _ _ => none) (.write i); simpa [Disp.step, hd] using this

theorem Good.flush {s : WriteStrategy} {d : Disp} (h : Good s d) (hd : d.done = false) (f : FlushIn) (i : NotifyIn) : Good s (d.flushTurn f i) := by
  have := h.step exEnv (fun _ _ => none) (.flush f i); simpa [Disp.step, hd] using this

theorem Good.clear {s : WriteStrategy} {d : Disp} (h : Good s d) (hd : d.done = false) : Good s d.clearNotify := by
  have := h.step exEnv (fun _ _ => none) .readAgain; simpa [Disp.step, hd, Disp.clearNotify] using this

/-! ## The parts of a poll -/

/-- Somebody wakes the task for what is to be read. -/
structure Rd (d : Disp) (w : Wakers) : Prop where
  head : d.closing = false → d.conn.reading = .init → w.ioRead = true ∨ d.conn.notify = true ∨ w.self = true
  body : d.closing = false → d.conn.canReadBody = true → w.ioRead = true ∨ w.reader = true ∨ w.self = true

/-- Somebody wakes the task for what is to be written. -/
structure Wr (s : WriteStrategy) (d : Disp) (w : Wakers) : Prop where
  msg : s = .flatten → d.closing = false → d.bodyRx = false → d.conn.canWriteHead = true → d.shouldPoll = true →
    w.msg = true ∨ d.conn.notify = true ∨ w.self = true
  frame : d.closing = false → d.bodyRx = true → w.frame = true ∨ w.ioWrite = true ∨ w.self = true
  ending : d.closing = false → d.bodyRx = false → d.conn.canWriteBody = true → w.ioWrite = true ∨ w.self = true

/-- Somebody wakes the task for what is to be flushed. -/
structure Fl (d : Disp) (w : Wakers) : Prop where
  left : WriteBuf.remaining bytesBuf d.conn.out.wbuf ≠ 0 → w.ioWrite = true ∨ w.self = true
  over : d.conn.reading = .keepAlive → d.conn.writing = .keepAlive ∨ d.conn.writing = .closed → w.ioWrite = true ∨ w.self = true

theorem decode_pending_arms (P : TrailerParser) (c : Conn) (r : Hyper.Rd) (i : NotifyIn) (hc : c.canReadBody = true) (h : (c.pollReadBody P r i).1 = .pending) :
    c.bodyArms P r i = true := by
  have hd : ∀ (c c' : Conn) (d : Decoder), (c.decodeBody P d r i).1 = .pending → c'.pieceArms P d r i = true := by
    intro c c' d h
    unfold Conn.decodeBody at h
    unfold Conn.pieceArms
    split at h
    · rename_i e; rw [e]
    · cases h
    · cases h
    · split at h
      · split at h <;> cases h
      · split at h <;> cases h
  unfold Conn.pollReadBody at h
  unfold Conn.bodyArms
  cases hr : c.reading with
  | body d => rw [hr] at h; exact hd _ _ d h
  | cont d => rw [hr] at h; exact hd _ _ d h
  | init => simp [Conn.canReadBody, hr] at hc
  | keepAlive => simp [Conn.canReadBody, hr] at hc
  | closed => simp [Conn.canReadBody, hr] at hc

/-- A head which is not complete leaves the waker with the transport, or the connection does not read any more. -/
theorem head_pending_arms (env : EncodeEnv) (c : Conn) (i : ReadIn) (n : Nat) (h : (c.pollReadHead env i.t0 i.t1 i.parse i.notify n).1 = .pending) :
    (∀ c' : Conn, c'.headArms i.parse n i.notify = true) ∨ (c.pollReadHead env i.t0 i.t1 i.parse i.notify n).2.reading = .closed := by
  unfold Conn.pollReadHead at h ⊢
  cases hp : i.parse with
  | pending => exact .inl (fun _ => rfl)
  | error e rest h2 =>
    right
    rw [hp] at h
    simp only at h ⊢
    unfold Conn.onReadHeadError Conn.onParseError at h ⊢
    by_cases h1 : (e.isSome || rest || ((c.startTimer i.t0).client && (c.startTimer i.t0).ka != .idle)) = true
    · rw [if_pos h1] at h ⊢
      repeat' split
      all_goals rfl
    · rw [if_neg h1] at h; cases h
  | msg m => rw [hp] at h; cases h

theorem afterHead_pending (d : Disp) : d.afterHead .pending = d := rfl

/-- `poll_read` stops only when somebody wakes the task for reading. -/
theorem rd_readTurn (env : EncodeEnv) (P : TrailerParser) {s : WriteStrategy} {d : Disp} (hg : Good s d) (hd : d.done = false) (i : ReadIn) (w : Wakers)
    (h1 : (d.readTurn env P i).done = false) (h2 : d.readTurnRes env P i ≠ .again) : Rd (d.readTurn env P i) (d.readWakes P i w) := by
  have hci := hg.ci hd
  unfold Disp.readTurnRes at h2
  unfold Disp.readTurn at h1 ⊢
  unfold Disp.readWakes
  by_cases hc : d.closing = true
  · rw [if_pos hc, if_pos hc]
    exact ⟨(by intro h; rw [hc] at h; cases h), (by intro h; rw [hc] at h; cases h)⟩
  rw [if_neg hc] at h1 h2 ⊢
  rw [if_neg hc]
  by_cases hh : d.conn.canReadHead = true
  · rw [if_pos hh] at h1 h2 ⊢
    rw [if_pos hh]
    have hr : d.conn.reading = .init := by
      simp only [Conn.canReadHead, Bool.and_eq_true, beq_iff_eq] at hh; exact hh.1
    have key : (d.conn.pollReadHead env i.t0 i.t1 i.parse i.notify d.headId).1 = .pending →
        Rd (d.readHeadReady env i) { w with ioRead := w.ioRead || (d.conn.startTimer i.t0).headArms i.parse d.headId i.notify } := by
      intro hp
      unfold Disp.readHeadReady
      rcases head_pending_arms env d.conn i d.headId hp with ha | hcl
      · exact ⟨fun _ _ => .inl (by simp [ha]), fun _ _ => .inl (by simp [ha])⟩
      · rw [hp, afterHead_pending]
        refine ⟨fun _ hx => ?_, fun _ hx => ?_⟩
        · rw [hcl] at hx; cases hx
        · simp [Conn.canReadBody, hcl] at hx
    unfold Disp.headTurn at h2
    unfold Disp.headWakes Disp.readHead
    cases hf : d.inFlight with
    | some n =>
      rw [hf] at h2
      by_cases hcl : d.conn.client = true
      · simp only [hcl, if_true] at h2 ⊢
        by_cases hrd : i.ready = true
        · simp only [hrd, if_true, Bool.and_self] at h2 ⊢
          by_cases hp : (d.conn.pollReadHead env i.t0 i.t1 i.parse i.notify d.headId).1 = .pending
          · exact key hp
          · rw [if_neg hp] at h2; exact absurd rfl h2
        · rw [if_neg hrd] at h2; exact absurd rfl h2
      · exact absurd hr (hci.flight (by simpa using hcl) (by simp [hf])).2
    | none =>
      rw [hf] at h2
      by_cases hcl : d.conn.client = true
      · simp [hcl] at h2
      · simp only [hcl, if_false, Bool.false_eq_true] at h2 ⊢
        by_cases hp : (d.conn.pollReadHead env i.t0 i.t1 i.parse i.notify d.headId).1 = .pending
        · exact key hp
        · rw [if_neg hp] at h2; exact absurd rfl h2
  rw [if_neg hh] at h1 h2 ⊢
  rw [if_neg hh]
  cases ht : d.bodyTx with
  | some k =>
    rw [ht] at h1 h2
    simp only at h1 h2 ⊢
    unfold Disp.bodyTurn at h2
    unfold Disp.bodyWakes Disp.readBody
    by_cases hb : d.conn.canReadBody = true
    · rw [if_pos hb] at h2 ⊢
      rw [if_pos hb]
      have hni : d.conn.reading ≠ .init := by intro e; simp [Conn.canReadBody, e] at hb
      cases hw : (d.chans[k]?).map Chan.want with
      | none => rw [hw] at h2; exact absurd rfl h2
      | some x =>
        rw [hw] at h2
        cases x with
        | pending => exact ⟨fun _ hx => absurd hx hni, fun _ _ => .inr (.inl rfl)⟩
        | closed => exact absurd rfl h2
        | ready =>
          simp only at h2 ⊢
          by_cases hf : i.full = true
          · simp only [hf, if_true]
            exact ⟨fun _ hx => absurd hx hni, fun _ _ => .inr (.inl rfl)⟩
          · rw [if_neg hf] at h2 ⊢
            rw [if_neg hf]
            by_cases hp : (d.conn.pollReadBody P i.rd i.notify).1 = .pending
            · have := decode_pending_arms P d.conn i.rd i.notify hb hp
              exact ⟨fun _ _ => .inl (by simp [this]), fun _ _ => .inl (by simp [this])⟩
            · rw [if_neg hp] at h2; exact absurd rfl h2
    · rw [if_neg hb] at h2; exact absurd rfl h2
  | none =>
    have hnb : d.conn.canReadBody ≠ true := fun hb => hg.tx hd hb ht
    rw [ht] at h1
    simp only at h1 ⊢
    unfold Disp.readIdle at h1 ⊢
    simp only at h1 ⊢
    by_cases he : (d.conn.pollReadKeepAlive i.bufEmpty i.io).1 = .err
    · rw [if_pos he] at h1; cases h1
    rw [if_neg he]
    rcases pollReadKeepAlive_fields d.conn i.bufEmpty i.io with hx | ⟨hx, _⟩
    · refine ⟨fun _ hr => .inl ?_, fun _ hb => ?_⟩
      · simp only at hr ⊢
        rw [hx] at hr
        have hwi : d.conn.client = true ∧ d.conn.writing = .init := by
          simp [Conn.canReadHead, hr] at hh; exact hh
        have h3 : d.conn.pollReadKeepAlive i.bufEmpty i.io = d.conn.requireEmpty i.bufEmpty i.io := by
          unfold Conn.pollReadKeepAlive; simp [hr, hwi.2]
        rw [h3] at he hx
        unfold Conn.requireEmpty at he hx
        unfold Conn.idleArms
        cases hbe : i.bufEmpty with
        | false => simp [hbe] at he
        | true =>
          cases hio : i.io with
          | pending => simp [hr, hwi.2]
          | error => simp [hbe, hio] at he
          | bytes => simp [hbe, hio] at he
          | eof =>
            rw [hbe, hio] at hx
            have := congrArg Conn.reading hx
            simp [hr, Conn.closeRead] at this
      · simp only at hb; rw [hx] at hb; exact absurd hb hnb
    · refine ⟨fun _ hr => ?_, fun _ hb => ?_⟩
      · simp only at hr; rw [hx] at hr; cases hr
      · simp [Conn.canReadBody, hx] at hb

/-- The wakers given out earlier in the poll are kept. -/
structure More (w w' : Wakers) : Prop where
  ioRead : w.ioRead = true → w'.ioRead = true
  ioWrite : w.ioWrite = true → w'.ioWrite = true
  msg : w.msg = true → w'.msg = true
  frame : w.frame = true → w'.frame = true
  reader : w.reader = true → w'.reader = true
  self : w.self = true → w'.self = true

theorem More.refl (w : Wakers) : More w w := ⟨id, id, id, id, id, id⟩

theorem More.trans {a b c : Wakers} (h : More a b) (h' : More b c) : More a c :=
  ⟨h'.ioRead ∘ h.ioRead, h'.ioWrite ∘ h.ioWrite, h'.msg ∘ h.msg, h'.frame ∘ h.frame, h'.reader ∘ h.reader, h'.self ∘ h.self⟩

theorem more_flush (d : Disp) (f : FlushIn) (i : NotifyIn) (w : Wakers) : More w (d.flushWakes f i w) := by
  constructor <;> intro h <;> simp [Disp.flushWakes, h]

theorem more_write (d : Disp) (i : WriteIn) (w : Wakers) : More w (d.writeWakes i w) := by
  unfold Disp.writeWakes
  repeat' split
  all_goals first | exact .refl _ | exact more_flush .. | (constructor <;> intro h <;> simp [h])

theorem Rd.more {d d' : Disp} {w w' : Wakers} (h : Rd d w) (hw : More w w') (h1 : d'.conn.reading = d.conn.reading) (h2 : d'.conn.notify = d.conn.notify)
    (h3 : d'.closing = false → d.closing = false) : Rd d' w' := by
  refine ⟨fun hc hr => ?_, fun hc hb => ?_⟩
  · rcases h.head (h3 hc) (h1 ▸ hr) with h | h | h
    · exact .inl (hw.ioRead h)
    · exact .inr (.inl (h2.trans h))
    · exact .inr (.inr (hw.self h))
  · have hb' : d.conn.canReadBody = true := by unfold Conn.canReadBody at *; rw [← h1]; exact hb
    rcases h.body (h3 hc) hb' with h | h | h
    · exact .inl (hw.ioRead h)
    · exact .inr (.inl (hw.reader h))
    · exact .inr (.inr (hw.self h))

/-- A flush waits for the transport, or has written everything. -/
theorem flush_cases {s : WriteStrategy} {d : Disp} (hg : Good s d) (f : FlushIn) (i : NotifyIn) (h1 : (d.flushTurn f i).done = false) :
    ∃ o : WriteSide Bytes, OutOk s o ∧
      (((d.conn.pollFlush f i).1 = .pending ∧ d.flushTurn f i = { d with conn := { d.conn with out := o } }) ∨
       ((d.conn.pollFlush f i).1 = .ok ∧ d.flushTurn f i = { d with conn := ({ d.conn with out := o } : Conn).tryKeepAlive i } ∧ Sent o ∧
        d.conn.flushArms f i = ({ d.conn with out := o } : Conn).arms i)) := by
  obtain ⟨_, _, hs, _⟩ := pollFlush_facts (d.conn.scripted f) f.readBuf hg.out.flat hg.out.pipeline
  refine ⟨((d.conn.scripted f).pollFlush bytesBuf f.readBuf).2, ok_flush hg.out f, ?_⟩
  have e1 : (d.conn.pollFlush f i).1 = ((d.conn.scripted f).pollFlush bytesBuf f.readBuf).1 := by unfold Conn.pollFlush; simp only; split <;> rfl
  by_cases hok : ((d.conn.scripted f).pollFlush bytesBuf f.readBuf).1 = .ok
  · refine .inr ⟨e1.trans hok, ?_, hs hok, ?_⟩
    · unfold Disp.flushTurn
      simp only [e1, hok, true_or, if_true]
      unfold Conn.pollFlush
      simp only [hok, if_true]
    · unfold Conn.flushArms
      rw [e1, hok]; simp
  · left
    have e2 : (d.conn.pollFlush f i).2 = { d.conn with out := ((d.conn.scripted f).pollFlush bytesBuf f.readBuf).2 } := by
      unfold Conn.pollFlush; simp only; rw [if_neg hok]
    by_cases hp : ((d.conn.scripted f).pollFlush bytesBuf f.readBuf).1 = .pending
    · refine ⟨e1.trans hp, ?_⟩
      unfold Disp.flushTurn
      simp only [e1, hp, or_true, if_true, e2]
    · exfalso
      unfold Disp.flushTurn at h1
      simp only [e1] at h1
      rw [if_neg (by rintro (h | h); exact hok h; exact hp h)] at h1
      cases h1

/-- What `try_keep_alive` does. -/
theorem tka_cases (c : Conn) (i : NotifyIn) :
    (c.tryKeepAlive i).client = c.client ∧ (c.notify = true → (c.tryKeepAlive i).notify = true) ∧
    ((c.tryKeepAlive i).reading = .init → c.reading = .init ∨ (c.reading = .keepAlive ∧ c.writing = .keepAlive)) ∧
    ((c.tryKeepAlive i).reading = .init → (∃ e, c.writing = .body e ∧ c.tryKeepAlive i = c) ∨ c.arms i = true ∨ (c.tryKeepAlive i).notify = true) ∧
    ((c.tryKeepAlive i).canReadBody = true → c.canReadBody = true) ∧
    ((c.tryKeepAlive i).canWriteBody = true → c.canWriteBody = true) ∧
    ((c.tryKeepAlive i).writing = .init → (c.writing = .init ∧ (c.reading = .closed → (c.tryKeepAlive i).reading = .closed)) ∨
      (c.reading = .keepAlive ∧ c.writing = .keepAlive ∧ (c.client = true → (c.tryKeepAlive i).notify = true))) ∧
    ((c.tryKeepAlive i).reading = .keepAlive → (c.tryKeepAlive i).writing ≠ .keepAlive ∧ (c.tryKeepAlive i).writing ≠ .closed) ∧
    (c.canWriteBody = true → c.tryKeepAlive i = c) := by
  unfold Conn.tryKeepAlive
  cases hr : c.reading <;> cases hw : c.writing <;> by_cases hk : c.ka = .busy <;> cases i <;>
    simp [Conn.stateKeepAlive, Conn.maybeNotify, Conn.notifyFrom, Conn.goIdle, Conn.closeAll, Conn.closeRead, Conn.arms, Conn.canReadBody, Conn.canWriteBody, hr, hw, hk]
  all_goals (repeat' split) <;> simp_all

theorem flat_canHead {s : WriteStrategy} {o : WriteSide Bytes} (h : OutOk s o) (hs : s = .flatten) : WriteBuf.canHeadersBuf bytesBuf o.wbuf = true := by
  unfold WriteBuf.canHeadersBuf
  rw [h.flat (h.strategy.trans hs)]
  rfl

theorem canHead_iff {s : WriteStrategy} {c : Conn} (h : OutOk s c.out) (hs : s = .flatten) :
    c.canWriteHead = true ↔ (c.client = true → c.reading ≠ .closed) ∧ c.writing = .init := by
  unfold Conn.canWriteHead
  rw [flat_canHead h hs]
  simp only [Bool.and_true, Bool.and_eq_true, Bool.not_eq_true', Bool.and_eq_false_iff, beq_iff_eq, beq_eq_false_iff_ne, ne_eq]
  refine and_congr_left (fun _ => ?_)
  cases c.client <;> simp

/-- After a flush. -/
theorem flush_pres {s : WriteStrategy} {d : Disp} (hg : Good s d) (hd : d.done = false) (f : FlushIn) (i : NotifyIn) (w : Wakers)
    (h1 : (d.flushTurn f i).done = false) :
    (Rd d w → Rd (d.flushTurn f i) (d.flushWakes f i w)) ∧ (Wr s d w → Wr s (d.flushTurn f i) (d.flushWakes f i w)) ∧
    Fl (d.flushTurn f i) (d.flushWakes f i w) ∧ (d.flushTurn f i).closing = d.closing ∧ (d.flushTurn f i).bodyRx = d.bodyRx ∧
    ((d.conn.pollFlush f i).1 = .ok → (w.ioWrite = true → (d.flushWakes f i w).self = true)) ∧
    (d.conn.canWriteBody = true → (d.flushTurn f i).conn.canWriteBody = true ∧ (d.flushTurn f i).conn.notify = d.conn.notify) := by
  have hci := hg.ci hd
  have hm := more_flush d f i w
  obtain ⟨o, ho, ⟨hp, e⟩ | ⟨hp, e, hs, ha⟩⟩ := flush_cases hg f i h1
  · have hio : (d.flushWakes f i w).ioWrite = true := by simp [Disp.flushWakes, hp]
    rw [e]
    refine ⟨fun hr => hr.more hm rfl rfl id, fun hw => ⟨?_, fun _ _ => .inr (.inl hio), fun _ _ _ => .inl hio⟩, ⟨fun _ => .inl hio, fun _ _ => .inl hio⟩, rfl, rfl, ?_,
      fun hb => ⟨hb, rfl⟩⟩
    · intro hfl hc hb hh hsp
      have h2 : d.conn.canWriteHead = true := (canHead_iff hg.out hfl).2 ((canHead_iff (c := { d.conn with out := o }) ho hfl).1 hh)
      rcases hw.msg hfl hc hb h2 hsp with h | h | h
      · exact .inl (hm.msg h)
      · exact .inr (.inl h)
      · exact .inr (.inr (hm.self h))
    · intro h; rw [hp] at h; cases h
  · obtain ⟨t1, t2, t3, t4, t5, t6, t7, t8, t9⟩ := tka_cases { d.conn with out := o } i
    have hself : w.ioWrite = true → (d.flushWakes f i w).self = true := by intro h; simp [Disp.flushWakes, hp, h]
    have hor : (d.flushWakes f i w).ioRead = (w.ioRead || ({ d.conn with out := o } : Conn).arms i) := by simp [Disp.flushWakes, ha]
    rw [e]
    refine ⟨fun hr => ⟨?_, ?_⟩, fun hw => ⟨?_, ?_, ?_⟩, ⟨?_, ?_⟩, rfl, rfl, fun _ => hself, ?_⟩
    · intro hc hx
      rcases t4 hx with ⟨e', he1, he2⟩ | h | h
      · simp only [he2] at hx ⊢
        rcases hr.head hc hx with h | h | h
        · exact .inl (hm.ioRead h)
        · exact .inr (.inl h)
        · exact .inr (.inr (hm.self h))
      · exact .inl (by rw [hor, h]; simp)
      · exact .inr (.inl h)
    · intro hc hx
      rcases hr.body hc (t5 hx) with h | h | h
      · exact .inl (hm.ioRead h)
      · exact .inr (.inl (hm.reader h))
      · exact .inr (.inr (hm.self h))
    · intro hfl hc hb hh hsp
      have hout : OutOk s (({ d.conn with out := o } : Conn).tryKeepAlive i).out := ok_tryKeepAlive (c := { d.conn with out := o }) ho i
      obtain ⟨q1, q2⟩ := (canHead_iff hout hfl).1 hh
      rcases t7 q2 with ⟨r1, r2⟩ | ⟨r1, r2, r3⟩
      · have h2 : d.conn.canWriteHead = true := (canHead_iff hg.out hfl).2 ⟨fun hcl hx => q1 (t1.trans hcl) (r2 hx), r1⟩
        have hsp' : d.shouldPoll = true := by
          unfold Disp.shouldPoll at hsp ⊢
          simp only [t1] at hsp
          exact hsp
        rcases hw.msg hfl hc hb h2 hsp' with h | h | h
        · exact .inl (hm.msg h)
        · exact .inr (.inl (t2 h))
        · exact .inr (.inr (hm.self h))
      · cases hcl : d.conn.client with
        | true => exact .inr (.inl (r3 hcl))
        | false =>
          exfalso
          have hsp' : d.shouldPoll = true := by
            unfold Disp.shouldPoll at hsp ⊢
            simp only [t1] at hsp
            exact hsp
          unfold Disp.shouldPoll at hsp'
          simp only [hcl, Bool.false_eq_true, if_false] at hsp'
          have := (hci.flight hcl (by intro e; rw [e] at hsp'; cases hsp')).1
          simp only at r2
          rw [r2] at this
          simp at this
    · intro hc hb
      rcases hw.frame hc hb with h | h | h
      · exact .inl (hm.frame h)
      · exact .inr (.inr (hself h))
      · exact .inr (.inr (hm.self h))
    · intro hc hb hx
      rcases hw.ending hc hb (t6 hx) with h | h
      · exact .inr (hself h)
      · exact .inr (hm.self h)
    · intro h
      exfalso
      simp only [(tryKeepAlive_keep ({ d.conn with out := o } : Conn) i).2.1] at h
      exact h hs
    · intro hx hy
      rcases hy with hy | hy
      · exact absurd hy (t8 hx).1
      · exact absurd hy (t8 hx).2
    · intro hb
      have := t9 hb
      simp only [this]
      exact ⟨hb, trivial⟩

theorem setWriting_rd (c : Conn) (bs : Bytes) (x : Writing) : ((c.put bs).setWriting x).reading = c.reading ∧ ((c.put bs).setWriting x).notify = c.notify := by
  unfold Conn.put; repeat' split
  all_goals exact ⟨rfl, rfl⟩

/-- A turn of `poll_write` keeps what wakes the task for reading. -/
theorem rd_writeTurn (env : EncodeEnv) {s : WriteStrategy} {d : Disp} (hg : Good s d) (hd : d.done = false) (i : WriteIn) (w : Wakers)
    (h1 : (d.writeTurn env i).done = false) (h : Rd d w) : Rd (d.writeTurn env i) (d.writeWakes i w) := by
  have hm := more_write d i w
  by_cases hb : (d.closing = false ∧ (!d.bodyRx && d.conn.canWriteHead && d.shouldPoll) = false ∧ d.conn.canBufferBody = false)
  · obtain ⟨a, b, c⟩ := hb
    have e1 : d.writeTurn env i = d.flushTurn i.flush i.notify := by unfold Disp.writeTurn; simp [a, b, c]
    have e2 : d.writeWakes i w = d.flushWakes i.flush i.notify w := by unfold Disp.writeWakes; simp [a, b, c]
    rw [e1] at h1 ⊢
    rw [e2]
    exact (flush_pres hg hd _ _ w h1).1 h
  · have key : (d.writeTurn env i).closing = true ∨
        ((d.writeTurn env i).conn.reading = d.conn.reading ∧ (d.writeTurn env i).conn.notify = d.conn.notify ∧ (d.writeTurn env i).closing = d.closing) := by
      have he : ∀ x : Disp, x.endBody.done = false → x.endBody.conn.reading = x.conn.reading ∧ x.endBody.conn.notify = x.conn.notify ∧ x.endBody.closing = x.closing := by
        intro x hx
        unfold Disp.endBody at hx ⊢
        simp only at hx ⊢
        split at hx
        · cases hx
        · rw [if_neg (by assumption)]
          exact ⟨(setWriting_rd _ _ _).1, (setWriting_rd _ _ _).2, rfl⟩
      unfold Disp.writeTurn at h1 ⊢
      split
      · exact .inr ⟨rfl, rfl, rfl⟩
      · rename_i hc
        rw [if_neg hc] at h1
        split
        · rename_i hh
          rw [if_pos hh] at h1
          unfold Disp.writeHead at h1 ⊢
          cases hmsg : i.msg with
          | pending => exact .inr ⟨rfl, rfl, rfl⟩
          | none => simp only; split; exact .inl rfl; exact .inr ⟨rfl, rfl, rfl⟩
          | err =>
            rw [hmsg] at h1
            simp only at h1 ⊢
            split at h1
            · rw [if_pos (by assumption)]; exact .inr ⟨rfl, rfl, rfl⟩
            · cases h1
          | resp m => simp only; split <;> exact .inr ⟨rfl, rfl, rfl⟩
          | req r b => simp only; split <;> exact .inr ⟨rfl, rfl, rfl⟩
        · rename_i hh
          rw [if_neg hh] at h1
          split
          · rename_i hbb
            exact absurd ⟨by simpa using hc, by simpa using hh, by simpa using hbb⟩ hb
          · rename_i hbb
            rw [if_neg hbb] at h1
            split
            · rename_i hrx
              rw [if_pos hrx] at h1
              split
              · rename_i hwb
                rw [if_pos hwb] at h1
                unfold Disp.writeFrame at h1 ⊢
                split
                · exact .inr ⟨rfl, rfl, rfl⟩
                · rename_i hfr; rw [hfr] at h1; exact .inr (he { d with bodyRx := false } h1)
                · rename_i hfr
                  rw [hfr] at h1
                  simp only at h1
                  split
                  · rename_i hbs; rw [if_pos hbs] at h1; exact .inr (he { d with bodyRx := false } h1)
                  · exact .inr ⟨(setWriting_rd _ _ _).1, (setWriting_rd _ _ _).2, rfl⟩
                · split
                  · exact .inr ⟨rfl, rfl, rfl⟩
                  · exact .inr ⟨(setWriting_rd _ _ _).1, (setWriting_rd _ _ _).2, rfl⟩
                · exact .inr ⟨(setWriting_rd _ _ _).1, (setWriting_rd _ _ _).2, rfl⟩
                · exact .inr ⟨rfl, rfl, rfl⟩
                · rename_i hfr; rw [hfr] at h1; cases h1
              · exact .inr ⟨rfl, rfl, rfl⟩
            · rename_i hrx
              rw [if_neg hrx] at h1
              split
              · rename_i hwb; rw [if_pos hwb] at h1; exact .inr (he d h1)
              · exact .inr ⟨rfl, rfl, rfl⟩
    rcases key with hc | ⟨k1, k2, k3⟩
    · exact ⟨(by intro h; rw [hc] at h; cases h), (by intro h; rw [hc] at h; cases h)⟩
    · exact h.more hm k1 k2 (fun hc => k3.symm.trans hc)

/-- `poll_write` stops only when somebody wakes the task for writing. -/
theorem wr_writeTurn (env : EncodeEnv) {s : WriteStrategy} {d : Disp} (hg : Good s d) (hd : d.done = false) (i : WriteIn) (w : Wakers)
    (h1 : (d.writeTurn env i).done = false) (h2 : d.writeTurnRes i ≠ .again) : Wr s (d.writeTurn env i) (d.writeWakes i w) := by
  have hcl : ∀ (x : Disp) (w : Wakers), x.closing = true → Wr s x w := fun x w hc =>
    ⟨(by intro _ h; rw [hc] at h; cases h), (by intro h; rw [hc] at h; cases h), (by intro h; rw [hc] at h; cases h)⟩
  unfold Disp.writeTurnRes at h2
  unfold Disp.writeTurn at h1 ⊢
  unfold Disp.writeWakes
  by_cases hc : d.closing = true
  · rw [if_pos hc]; exact hcl _ _ hc
  rw [if_neg hc] at h1 h2 ⊢
  rw [if_neg hc]
  by_cases hh : (!d.bodyRx && d.conn.canWriteHead && d.shouldPoll) = true
  · rw [if_pos hh] at h1 h2 ⊢
    rw [if_pos hh]
    simp only [Bool.and_eq_true, Bool.not_eq_true'] at hh
    cases hm : i.msg with
    | pending =>
      refine ⟨fun _ _ _ _ _ => .inl rfl, fun _ hb => ?_, fun _ _ hb => ?_⟩
      · simp only [Disp.writeHead] at hb; rw [hh.1.1] at hb; cases hb
      · exfalso
        have := hh.1.2
        simp only [Conn.canWriteHead, Bool.and_eq_true, beq_iff_eq] at this
        simp [Disp.writeHead, Conn.canWriteBody, this.2.1] at hb
    | none =>
      rw [hm] at h2
      simp only at h2
      by_cases hcc : d.conn.client = true
      · refine hcl _ _ ?_
        simp [Disp.writeHead, hcc, Disp.close]
      · rw [if_neg hcc] at h2; exact absurd rfl h2
    | err => rw [hm] at h2; exact absurd rfl h2
    | resp m => rw [hm] at h2; exact absurd rfl h2
    | req r b => rw [hm] at h2; exact absurd rfl h2
  rw [if_neg hh] at h1 h2 ⊢
  rw [if_neg hh]
  by_cases hb : (!d.conn.canBufferBody) = true
  · rw [if_pos hb] at h1 h2 ⊢
    rw [if_pos hb]
    have hp : (d.conn.pollFlush i.flush i.notify).1 = .pending := by
      apply Classical.byContradiction; intro hp; rw [if_neg hp] at h2; exact h2 rfl
    obtain ⟨o, ho, ⟨_, e⟩ | ⟨hp', _⟩⟩ := flush_cases hg i.flush i.notify h1
    · have hio : (d.flushWakes i.flush i.notify w).ioWrite = true := by simp [Disp.flushWakes, hp]
      rw [e]
      refine ⟨?_, fun _ _ => .inr (.inl hio), fun _ _ _ => .inl hio⟩
      intro hfl hcc hbx hx hsp
      exfalso
      have h3 : d.conn.canWriteHead = true := (canHead_iff hg.out hfl).2 ((canHead_iff (c := { d.conn with out := o }) ho hfl).1 hx)
      have hbx' : d.bodyRx = false := hbx
      have hsp' : d.shouldPoll = true := hsp
      exact hh (by simp [hbx', h3, hsp'])
    · rw [hp] at hp'; cases hp'
  rw [if_neg hb] at h1 h2 ⊢
  rw [if_neg hb]
  by_cases hrx : d.bodyRx = true
  · rw [if_pos hrx] at h1 h2 ⊢
    rw [if_pos hrx]
    by_cases hwb : d.conn.canWriteBody = true
    · rw [if_pos hwb] at h1 h2 ⊢
      rw [if_pos hwb]
      cases hf : i.frame with
      | pending =>
        refine ⟨fun _ _ hx => ?_, fun _ _ => .inl rfl, fun _ hx => ?_⟩
        · simp only [Disp.writeFrame] at hx; rw [hrx] at hx; cases hx
        · simp only [Disp.writeFrame] at hx; rw [hrx] at hx; cases hx
      | eof => rw [hf] at h2; exact absurd rfl h2
      | frame f => rw [hf] at h2; exact absurd rfl h2
    · rw [if_neg hwb] at h2; exact absurd rfl h2
  rw [if_neg hrx] at h1 h2 ⊢
  rw [if_neg hrx]
  by_cases hwb : d.conn.canWriteBody = true
  · rw [if_pos hwb] at h2; exact absurd rfl h2
  rw [if_neg hwb]
  refine ⟨fun _ _ hbx hx hsp => ?_, fun _ hx => absurd hx hrx, fun _ _ hx => absurd hx hwb⟩
  exact absurd (by simp [hbx, hx, hsp]) hh

/-- The state in which the second write of a turn starts (dispatch.rs 199-218), unless the task is woken already. -/
structure Again (d : Disp) (w : Wakers) : Prop where
  frame : w.frame = true
  bodyRx : d.bodyRx = true
  body : d.conn.canWriteBody = true
  notify : d.conn.notify = false
  rd : Rd d w

theorem again_writeTurn (env : EncodeEnv) {s : WriteStrategy} {d : Disp} (hg : Good s d) (hd : d.done = false) (i : WriteIn) (w : Wakers)
    (h1 : (d.writeTurn env i).done = false) (h : w.self = true ∨ Again d w) :
    (d.writeWakes i w).self = true ∨ Again (d.writeTurn env i) (d.writeWakes i w) := by
  have hm := more_write d i w
  rcases h with h | h
  · exact .inl (hm.self h)
  have hr := rd_writeTurn env hg hd i w h1 h.rd
  have hbx := h.bodyRx
  have hwb := h.body
  by_cases hc : d.closing = true
  · have e : d.writeTurn env i = d := by unfold Disp.writeTurn; simp [hc]
    rw [e] at hr ⊢
    exact .inr ⟨hm.frame h.frame, h.bodyRx, h.body, h.notify, hr⟩
  by_cases hb : d.conn.canBufferBody = true
  · cases hf : i.frame with
    | pending =>
      have e : d.writeTurn env i = d := by unfold Disp.writeTurn; simp [hc, hb, hbx, hwb, hf, Disp.writeFrame]
      rw [e] at hr ⊢
      exact .inr ⟨hm.frame h.frame, h.bodyRx, h.body, h.notify, hr⟩
    | eof => left; unfold Disp.writeWakes; simp [hc, hb, hbx, hwb, hf, h.frame]
    | frame f => left; unfold Disp.writeWakes; simp [hc, hb, hbx, hwb, hf, h.frame]
  · have e : d.writeTurn env i = d.flushTurn i.flush i.notify := by unfold Disp.writeTurn; simp [hc, hb, hbx]
    rw [e] at h1 hr ⊢
    obtain ⟨_, _, _, f1, f2, _, f3⟩ := flush_pres hg hd i.flush i.notify w h1
    exact .inr ⟨hm.frame h.frame, f2.trans hbx, (f3 hwb).1, (f3 hwb).2.trans h.notify, hr⟩

/-! ## The loops -/

theorem run_append' (env : EncodeEnv) (P : TrailerParser) (d : Disp) (as bs : List Act) : (d.run env P as).run env P bs = d.run env P (as ++ bs) := by
  simp [Disp.run, List.foldl_append]

/-- One state is reached from another by acts. -/
def Reach (env : EncodeEnv) (P : TrailerParser) (d d' : Disp) : Prop := ∃ as, d' = d.run env P as

theorem Reach.refl (env : EncodeEnv) (P : TrailerParser) (d : Disp) : Reach env P d d := ⟨[], rfl⟩

theorem Reach.trans {env : EncodeEnv} {P : TrailerParser} {d e f : Disp} (h : Reach env P d e) (h' : Reach env P e f) : Reach env P d f := by
  obtain ⟨as, rfl⟩ := h
  obtain ⟨bs, rfl⟩ := h'
  exact ⟨as ++ bs, run_append' env P d as bs⟩

theorem Reach.act {env : EncodeEnv} {P : TrailerParser} {d d' : Disp} (a : Act) (h : d.step env P a = d') : Reach env P d d' := ⟨[a], h.symm⟩

theorem Good.reach {s : WriteStrategy} {env : EncodeEnv} {P : TrailerParser} {d d' : Disp} (h : Good s d) (hr : Reach env P d d') : Good s d' := by
  obtain ⟨as, rfl⟩ := hr; exact h.run env P as

theorem reach_read (env : EncodeEnv) (P : TrailerParser) {d : Disp} (hd : d.done = false) (i : ReadIn) : Reach env P d (d.readTurn env P i) :=
  .act (.read i) (by simp [Disp.step, hd])

theorem reach_write (env : EncodeEnv) (P : TrailerParser) {d : Disp} (hd : d.done = false) (i : WriteIn) : Reach env P d (d.writeTurn env i) :=
  .act (.write i) (by simp [Disp.step, hd])

theorem reach_flush (env : EncodeEnv) (P : TrailerParser) {d : Disp} (hd : d.done = false) (f : FlushIn) (i : NotifyIn) : Reach env P d (d.flushTurn f i) :=
  .act (.flush f i) (by simp [Disp.step, hd])

theorem reach_clear (env : EncodeEnv) (P : TrailerParser) {d : Disp} (hd : d.done = false) : Reach env P d d.clearNotify :=
  .act .readAgain (by simp [Disp.step, hd, Disp.clearNotify])

theorem readLoop_reach (env : EncodeEnv) (P : TrailerParser) : ∀ (is : List ReadIn) (d : Disp) (w : Wakers) (d' : Disp) (w' : Wakers), d.done = false →
    d.readLoop env P is w = some (d', w') → Reach env P d d' := by
  intro is
  induction is with
  | nil => intro d w d' w' _ h; cases h
  | cons i is ih =>
    intro d w d' w' hd h
    have hr := reach_read env P hd i
    simp only [Disp.readLoop] at h
    split at h
    · cases h; exact hr
    · rename_i h1
      split at h
      · exact hr.trans (ih _ _ _ _ (by simpa using h1) h)
      · cases h; exact hr

theorem readLoop_spec (env : EncodeEnv) (P : TrailerParser) {s : WriteStrategy} : ∀ (is : List ReadIn) (d : Disp) (w : Wakers) (d' : Disp) (w' : Wakers), Good s d →
    d.done = false → d.readLoop env P is w = some (d', w') → d'.done = false → Rd d' w' := by
  intro is
  induction is with
  | nil => intro d w d' w' _ _ h; cases h
  | cons i is ih =>
    intro d w d' w' hg hd h hd'
    simp only [Disp.readLoop] at h
    split at h
    · rename_i h1; cases h; rw [hd'] at h1; cases h1
    · rename_i h1
      split at h
      · exact ih _ _ _ _ (hg.read hd env P i) (by simpa using h1) h hd'
      · rename_i h2; cases h; exact rd_readTurn env P hg hd i w hd' h2

theorem writeLoop_reach (env : EncodeEnv) (P : TrailerParser) : ∀ (is : List WriteIn) (d : Disp) (w : Wakers) (d' : Disp) (w' : Wakers) (b : Bool), d.done = false →
    d.writeLoop env is w = some (d', w', b) → Reach env P d d' := by
  intro is
  induction is with
  | nil => intro d w d' w' b _ h; cases h
  | cons i is ih =>
    intro d w d' w' b hd h
    have hr := reach_write env P hd i
    simp only [Disp.writeLoop] at h
    split at h
    · cases h; exact hr
    · rename_i h1
      split at h
      · exact hr.trans (ih _ _ _ _ _ (by simpa using h1) h)
      · cases h; exact hr

theorem ready_closing (env : EncodeEnv) (d : Disp) (i : WriteIn) (h : d.writeTurnRes i = .ready) : (d.writeTurn env i).closing = true := by
  unfold Disp.writeTurnRes at h
  unfold Disp.writeTurn
  repeat' split at h
  all_goals first | (cases h; done) | skip
  · rename_i hc; rw [if_pos hc]; exact hc
  · rename_i hc hh _ hm hcl
    rw [if_neg hc, if_pos hh, hm]
    simp [Disp.writeHead, hcl, Disp.close]

theorem writeLoop_spec (env : EncodeEnv) {s : WriteStrategy} (I : Disp → Wakers → Prop)
    (hI : ∀ (d : Disp) (i : WriteIn) (w : Wakers), Good s d → d.done = false → (d.writeTurn env i).done = false → I d w → I (d.writeTurn env i) (d.writeWakes i w)) :
    ∀ (is : List WriteIn) (d : Disp) (w : Wakers) (d' : Disp) (w' : Wakers) (b : Bool), Good s d → d.done = false → I d w →
      d.writeLoop env is w = some (d', w', b) → d'.done = false → I d' w' ∧ Wr s d' w' ∧ (b = true → d'.closing = true) := by
  intro is
  induction is with
  | nil => intro d w d' w' b _ _ _ h; cases h
  | cons i is ih =>
    intro d w d' w' b hg hd hi h hd'
    simp only [Disp.writeLoop] at h
    split at h
    · rename_i h1; cases h; rw [hd'] at h1; cases h1
    · rename_i h1
      have h1 : (d.writeTurn env i).done = false := by simpa using h1
      split at h
      · exact ih _ _ _ _ _ (hg.write hd env i) h1 (hI d i w hg hd h1 hi) h hd'
      · rename_i h2
        cases h
        exact ⟨hI d i w hg hd h1 hi, wr_writeTurn env hg hd i w h1 h2, fun hb => ready_closing env d i (by simpa using hb)⟩

/-- How a turn of `poll_loop` may end. -/
def Stopped (s : WriteStrategy) (d : Disp) (w : Wakers) : Prop := Rd d w ∧ Wr s d w ∧ Fl d w ∧ d.conn.notify = false ∨ w.self = true

/-- What a turn leaves. -/
def NextOk (env : EncodeEnv) (P : TrailerParser) (s : WriteStrategy) (d : Disp) (n : Disp.Next) : Prop :=
  match n with
  | .stop e d' w => Reach env P d d' ∧ (e = .failed ↔ d'.done = true) ∧ e ≠ .yielded ∧ (e ≠ .failed → Stopped s d' w)
  | .go d' _ => Reach env P d d' ∧ d'.done = false

theorem NextOk.from {env : EncodeEnv} {P : TrailerParser} {s : WriteStrategy} {d d1 : Disp} (hr : Reach env P d d1) {n : Disp.Next} (h : NextOk env P s d1 n) :
    NextOk env P s d n := by
  cases n with
  | stop e d' w => exact ⟨hr.trans h.1, h.2⟩
  | go d' w => exact ⟨hr.trans h.1, h.2⟩

theorem secondWrite_ok (env : EncodeEnv) (P : TrailerParser) {s : WriteStrategy} (r : Round) {d : Disp} {w : Wakers} (hg : Good s d) (hd : d.done = false)
    (h : w.self = true ∨ Again d w) {n : Disp.Next} (hn : d.secondWrite env r w = some n) : NextOk env P s d n := by
  unfold Disp.secondWrite at hn
  cases hl : d.writeLoop env r.writes2 w with
  | none => rw [hl] at hn; cases hn
  | some p =>
    obtain ⟨d', w', b⟩ := p
    rw [hl] at hn
    simp only at hn
    have hr := writeLoop_reach env P _ _ _ _ _ _ hd hl
    have hg' := hg.reach hr
    split at hn
    · rename_i hdn; cases hn; exact ⟨hr, by simp [hdn], by simp, fun h => absurd rfl h⟩
    · rename_i hdn
      have hdn : d'.done = false := by simpa using hdn
      obtain ⟨hi, hw, hb⟩ := writeLoop_spec env (fun d w => w.self = true ∨ Again d w) (fun d i w hg hd h1 h => again_writeTurn env hg hd i w h1 h) _ _ _ _ _ _ hg hd h hl hdn
      split at hn
      · cases hn; exact ⟨hr, hdn⟩
      · cases hn
        unfold Disp.lateFlush Disp.lateWakes
        split
        · have hr' := hr.trans (reach_flush env P hdn r.flush2 r.notify2)
          refine ⟨hr', ?_, ?_, ?_⟩
          · split <;> rename_i hx <;> simp [hx]
          · split <;> simp
          · intro hne
            have hx : (d'.flushTurn r.flush2 r.notify2).done = false := by
              cases hx : (d'.flushTurn r.flush2 r.notify2).done with
              | false => rfl
              | true => rw [if_pos hx] at hne; exact absurd rfl hne
            obtain ⟨f1, f2, f3, f4, f5, f6, f7⟩ := flush_pres hg' hdn r.flush2 r.notify2 w' hx
            rcases hi with hi | hi
            · exact .inr ((more_flush ..).self hi)
            · exact .inl ⟨f1 hi.rd, f2 hw, f3, (f7 hi.body).2.trans hi.notify⟩
        · rename_i hbw
          refine ⟨hr, by simp [hdn], by simp [hdn], fun _ => ?_⟩
          rcases hi with hi | hi
          · exact .inr hi
          · refine .inl ⟨hi.rd, hw, ⟨fun hx => ?_, fun _ hy => ?_⟩, hi.notify⟩
            · exfalso
              unfold Conn.hasBufferedWrite at hbw
              simp at hbw
              exact hx hbw
            · have := hi.body
              rcases hy with hy | hy <;> simp [Conn.canWriteBody, hy] at this

theorem clear_ok {d : Disp} (hn : d.conn.notify = false) : d.clearNotify = d := by
  unfold Disp.clearNotify
  cases d with
  | mk conn a b c e f g h =>
    cases conn
    simp at hn ⊢
    exact hn

theorem flushStage_ok (env : EncodeEnv) (P : TrailerParser) {s : WriteStrategy} (r : Round) {d : Disp} {w : Wakers} (hg : Good s d) (hd : d.done = false) (ready : Bool)
    (h1 : Rd d w) (h2 : Wr s d w) (h3 : ready = true → d.closing = true) {n : Disp.Next} (hn : d.flushStage env r w ready = some n) : NextOk env P s d n := by
  have hr := reach_flush env P hd r.flush r.notify
  unfold Disp.flushStage at hn
  split at hn
  · rename_i hx; cases hn; exact ⟨hr, by simp [hx], by simp, fun h => absurd rfl h⟩
  · rename_i hx
    have hx : (d.flushTurn r.flush r.notify).done = false := by simpa using hx
    have hg' := hg.reach hr
    obtain ⟨f1, f2, f3, f4, f5, f6, _⟩ := flush_pres hg hd r.flush r.notify w hx
    refine NextOk.from hr ?_
    unfold Disp.afterFlush at hn
    split at hn
    · cases hn; exact ⟨reach_clear env P hx, hx⟩
    · rename_i hnf
      have hnf : (d.flushTurn r.flush r.notify).conn.notify = false := by simpa using hnf
      rw [clear_ok hnf] at hn
      split at hn
      · rename_i hcw
        refine secondWrite_ok env P r hg' hx ?_ hn
        simp only [Disp.canWriteAgain, Bool.and_eq_true, Bool.not_eq_true', Bool.or_eq_true, decide_eq_true_eq] at hcw
        obtain ⟨⟨⟨hc, hb⟩, hwb⟩, hrdy⟩ := hcw
        have hc' : d.closing = false := f4.symm.trans hc
        have hok : (d.conn.pollFlush r.flush r.notify).1 = .ok := by
          rcases hrdy with h | h
          · rw [h3 h] at hc'; cases hc'
          · exact h
        rcases h2.frame hc' (f5.symm.trans hb) with h | h | h
        · exact .inr ⟨(more_flush ..).frame h, hb, hwb, hnf, f1 h1⟩
        · exact .inl (f6 hok h)
        · exact .inl ((more_flush ..).self h)
      · cases hn
        exact ⟨.refl .., by simp [hx], by simp, fun _ => .inl ⟨f1 h1, f2 h2, f3, hnf⟩⟩

theorem round_ok (env : EncodeEnv) (P : TrailerParser) {s : WriteStrategy} (r : Round) {d : Disp} {w : Wakers} (hg : Good s d) (hd : d.done = false)
    {n : Disp.Next} (hn : d.round env P r w = some n) : NextOk env P s d n := by
  unfold Disp.round at hn
  cases hl : d.readLoop env P r.reads w with
  | none => rw [hl] at hn; cases hn
  | some p =>
    obtain ⟨d1, w1⟩ := p
    rw [hl] at hn
    simp only at hn
    have hr := readLoop_reach env P _ _ _ _ _ hd hl
    have hg1 := hg.reach hr
    split at hn
    · rename_i hx; cases hn; exact ⟨hr, by simp [hx], by simp, fun h => absurd rfl h⟩
    · rename_i hx
      have hx : d1.done = false := by simpa using hx
      have hrd := readLoop_spec env P _ _ _ _ _ hg hd hl hx
      refine NextOk.from hr ?_
      unfold Disp.writeStage at hn
      cases hl2 : d1.writeLoop env r.writes w1 with
      | none => rw [hl2] at hn; cases hn
      | some p =>
        obtain ⟨d2, w2, b⟩ := p
        rw [hl2] at hn
        simp only at hn
        have hr2 := writeLoop_reach env P _ _ _ _ _ _ hx hl2
        have hg2 := hg1.reach hr2
        split at hn
        · rename_i hy; cases hn; exact ⟨hr2, by simp [hy], by simp, fun h => absurd rfl h⟩
        · rename_i hy
          have hy : d2.done = false := by simpa using hy
          obtain ⟨q1, q2, q3⟩ := writeLoop_spec env Rd (fun d i w hg hd h1 h => rd_writeTurn env hg hd i w h1 h) _ _ _ _ _ _ hg1 hx hrd hl2 hy
          exact NextOk.from hr2 (flushStage_ok env P r hg2 hy b q1 q2 q3 hn)

theorem loopFrom_ok (env : EncodeEnv) (P : TrailerParser) {s : WriteStrategy} : ∀ (k : Nat) (rs : List Round) (d : Disp) (w : Wakers), Good s d → d.done = false →
    ∀ {e : LoopEnd} {d' : Disp} {w' : Wakers}, d.loopFrom env P k rs w = some (e, d', w') →
      Reach env P d d' ∧ (e = .failed ↔ d'.done = true) ∧ (e ≠ .failed → Stopped s d' w') ∧ (e = .yielded → w'.self = true) := by
  intro k
  induction k with
  | zero =>
    intro rs d w hg hd e d' w' h
    simp only [Disp.loopFrom] at h
    cases h
    exact ⟨.refl .., by simp [hd], fun _ => .inr rfl, fun _ => rfl⟩
  | succ k ih =>
    intro rs d w hg hd e d' w' h
    cases rs with
    | nil => cases h
    | cons r rs =>
      simp only [Disp.loopFrom] at h
      cases hn : d.round env P r w with
      | none => rw [hn] at h; cases h
      | some n =>
        have hok := round_ok env P r hg hd hn
        rw [hn] at h
        cases n with
        | stop e1 d1 w1 => cases h; exact ⟨hok.1, hok.2.1, hok.2.2.2, fun h => absurd h hok.2.2.1⟩
        | go d1 w1 =>
          obtain ⟨a, b, c⟩ := ih rs d1 w1 (hg.reach hok.1) hok.2 h
          exact ⟨hok.1.trans a, b, c⟩

end Poll

end Hyper
