import Verif.Model.Errors
import Verif.Proof.ConnView

/-!
# The errors followed are those of the connection's model
-/

namespace Hyper

open Errors

section conn

variable (c : Conn)

theorem error_stateKeepAlive : c.stateKeepAlive.error = c.error := by
  unfold Conn.stateKeepAlive
  (repeat' split) <;> rfl

theorem error_notify (i : NotifyIn) (w : Why) (old : Option Err) (h : old.isSome = c.error) : (c.notifyKept i w old).isSome = (c.maybeNotify i).error := by
  unfold Conn.notifyKept Conn.maybeNotify
  cases c.reading <;> cases c.writing <;> cases i <;> simp only [Conn.notifyFrom, reduceCtorEq, if_true, if_false] <;>
    first
      | exact h
      | rfl
      | (split <;> exact h)

theorem error_keepAlive (i : NotifyIn) (w : Why) (old : Option Err) (h : old.isSome = c.error) : (c.keepAliveKept i w old).isSome = (c.tryKeepAlive i).error :=
  error_notify _ i w old (h.trans (error_stateKeepAlive c).symm)

theorem error_startTimer (t : Nat) : (c.startTimer t).error = c.error := by
  unfold Conn.startTimer
  (repeat' split) <;> rfl

theorem client_startTimer (t : Nat) : (c.startTimer t).client = c.client := by
  unfold Conn.startTimer
  (repeat' split) <;> rfl

theorem ka_startTimer (t : Nat) : (c.startTimer t).ka = c.ka := by
  unfold Conn.startTimer
  (repeat' split) <;> rfl

theorem writing_startTimer (t : Nat) : (c.startTimer t).writing = c.writing := by
  unfold Conn.startTimer
  (repeat' split) <;> rfl

theorem error_onParse (env : EncodeEnv) (e : Option ParseErr) (h2 : Bool) (w : Why) (old : Option Err) (h : old.isSome = c.error) :
    (c.onParseKept e h2 w old).isSome = (c.onParseError env e h2).2.error := by
  unfold Conn.onParseKept Conn.onParseError
  by_cases hw : c.writing = .init
  · rw [if_pos hw, if_pos hw]
    cases h2
    · simp only [Bool.false_eq_true, if_false]
      cases c.onError e with
      | some s => rfl
      | none => exact h
    · exact h
  · rw [if_neg hw, if_neg hw]
    exact h

theorem error_pollReadHead (env : EncodeEnv) (i : ReadIn) (w : Why) (n : Nat) (old : Option Err) (h : old.isSome = c.error) :
    (c.headKept i w n old).isSome = (c.pollReadHead env i.t0 i.t1 i.parse i.notify n).2.error := by
  have ht := h.trans (error_startTimer c i.t0).symm
  unfold Conn.headKept Conn.pollReadHead
  cases i.parse with
  | pending =>
    simp only
    split <;> exact ht
  | error e rest h2 =>
    simp only [Conn.onReadHeadError, client_startTimer, ka_startTimer]
    split
    · exact error_onParse _ env e h2 w old ht
    · exact ht
  | msg m =>
    unfold Conn.acceptHead
    simp only [client_startTimer]
    split
    · split
      · exact error_keepAlive _ i.notify w old ht
      · exact ht
    · split <;> exact ht

theorem error_decode (P : TrailerParser) (d : Decoder) (i : ReadIn) (w : Why) (old : Option Err) (h : old.isSome = c.error) :
    (c.decodeKept P d i w old).isSome = (c.decodeBody P d i.rd i.notify).2.error := by
  unfold Conn.decodeKept Conn.decodeBody
  cases (d.decode P i.rd).1 with
  | pending => exact h
  | ready r =>
    cases r with
    | error e => exact error_keepAlive _ i.notify w old h
    | ok f =>
      cases f with
      | trailers fs => exact error_keepAlive _ i.notify w old h
      | data bs =>
        simp only
        repeat' split
        all_goals first
          | exact h
          | exact error_keepAlive _ i.notify w old h

theorem error_sendContinue : c.sendContinue.error = c.error := by
  unfold Conn.sendContinue
  split <;> rfl

theorem error_body (P : TrailerParser) (i : ReadIn) (w : Why) (old : Option Err) (h : old.isSome = c.error) :
    (c.bodyKept P i w old).isSome = (c.pollReadBody P i.rd i.notify).2.error := by
  unfold Conn.bodyKept Conn.pollReadBody
  cases c.reading with
  | body d => exact error_decode c P _ i w old h
  | cont d => exact error_decode _ P _ i w old (h.trans (error_sendContinue c).symm)
  | _ => exact h

theorem error_drainStart : c.drainStart.error = c.error := by
  unfold Conn.drainStart
  split <;> rfl

theorem error_drainEnd : c.drainEnd.error = c.error := by
  unfold Conn.drainEnd
  split <;> rfl

theorem error_drain (P : TrailerParser) (i : ReadIn) (w : Why) (old : Option Err) (h : old.isSome = c.error) :
    (c.drainStart.bodyKept P i w old).isSome = (c.drainOrClose P i.rd i.notify).error := by
  rw [Conn.drainOrClose, error_drainEnd]
  exact error_body _ P i w old (h.trans (error_drainStart c).symm)

theorem error_encode (r : EncodeRes) (old : Option Err) (h : old.isSome = c.error) : (Conn.encodeKept r old).isSome = (c.error || !r.isOk) := by
  cases r <;> simp [Conn.encodeKept, EncodeRes.isOk, h]

theorem error_setWriting (w : Writing) : (c.setWriting w).error = c.error := rfl

theorem error_put (bs : Bytes) : (c.put bs).error = c.error := by
  unfold Conn.put
  repeat' split
  all_goals rfl

theorem error_keepAliveRead (b : Bool) (i : IoIn) : (c.pollReadKeepAlive b i).2.error = c.error := by
  unfold Conn.pollReadKeepAlive Conn.requireEmpty Conn.midMessageEof
  repeat' split
  all_goals rfl

/-- When the read buffer and the transport are looked at between messages, an error is given exactly if the model says so. -/
theorem idleFault_iff (b : Bool) (i : IoIn) (w : Why) : (c.idleFault b i w).isSome = decide ((c.pollReadKeepAlive b i).1 = .err) := by
  unfold Conn.idleFault Conn.pollReadKeepAlive Conn.requireEmpty Conn.midMessageEof
  repeat' split
  all_goals simp_all

theorem flushFault_iff (k : Kind) (w : Why) (r : FlushRes) : (r.fault k w).isSome = decide (¬ (r = .ok ∨ r = .pending)) := by
  cases r <;> simp [FlushRes.fault]

/-- An error of a head is given exactly if the model says so. -/
theorem headFault_iff (env : EncodeEnv) (i : ReadIn) (w : Why) (n : Nat) :
    (c.headFault i w).isSome =
      decide ((c.pollReadHead env i.t0 i.t1 i.parse i.notify n).1 = .err ∨ (c.pollReadHead env i.t0 i.t1 i.parse i.notify n).1 = .timeout) := by
  unfold Conn.headFault Conn.pollReadHead
  cases i.parse with
  | pending =>
    simp only
    split <;> simp
  | error e rest h2 =>
    simp only [Conn.onReadHeadError, client_startTimer, ka_startTimer]
    split
    · unfold Conn.onParseFault Conn.onParseError
      by_cases hw : (c.startTimer i.t0).closeRead.writing = .init
      · rw [if_pos hw, if_pos hw]
        cases h2
        · simp only [Bool.false_eq_true, if_false]
          cases (c.startTimer i.t0).closeRead.onError e <;> simp
        · simp
      · rw [if_neg hw, if_neg hw]
        simp
    · simp
  | msg m => simp

end conn

section disp

variable (d : Disp)

theorem conn_failBody : d.failBody.conn = d.conn := by
  unfold Disp.failBody
  split <;> rfl

theorem conn_fail : d.fail.conn = d.conn := conn_failBody d

theorem conn_newBody (m : MsgIn) : (d.newBody m).conn = d.conn := by
  unfold Disp.newBody
  split <;> rfl

theorem error_recvHead (m : MsgIn) : (d.recvHead m).conn.error = d.conn.error := by
  unfold Disp.recvHead
  simp only
  repeat' split
  all_goals simp [conn_fail, conn_newBody]

theorem error_recvErr : d.recvErr.conn.error = d.conn.error := by
  unfold Disp.recvErr
  repeat' split
  all_goals simp [conn_fail, Disp.close, Conn.closeRead, Conn.closeWrite]

theorem error_afterHead (o : HeadOut) : (d.afterHead o).conn.error = d.conn.error := by
  unfold Disp.afterHead
  split
  · rfl
  · exact error_recvHead d _
  · exact error_recvErr d
  · exact error_recvErr d
  · split <;> rfl

theorem conn_markComplete (k : Nat) (fin : Bool) : (d.markComplete k fin).conn = d.conn := by
  unfold Disp.markComplete
  split <;> rfl

theorem error_deliver (k : Nat) (gone : Bool) (f : Chan → Chan) : (d.deliver k gone f).conn.error = d.conn.error := by
  unfold Disp.deliver
  repeat' split
  all_goals first
    | rfl
    | (simp only; split <;> rfl)

theorem error_afterPiece (k : Nat) (gone : Bool) (o : BodyRes) : (d.afterPiece k gone o).conn.error = d.conn.error := by
  unfold Disp.afterPiece
  split
  · rfl
  · rw [error_deliver, conn_markComplete]
  · rw [error_deliver, conn_markComplete]
  · simp [Disp.dropBody, conn_markComplete]
  · rfl

theorem conn_maybeLose (k : Nat) (gone : Bool) : (d.maybeLose k gone).conn = d.conn := by
  unfold Disp.maybeLose
  split <;> rfl

theorem error_readTurn (env : EncodeEnv) (P : TrailerParser) (i : ReadIn) (w : Why) (old : Option Err) (h : old.isSome = d.conn.error) :
    (d.readKept P i w old).isSome = (d.readTurn env P i).conn.error := by
  unfold Disp.readKept Disp.readTurn
  split
  · exact h
  · split
    · have hh : (d.conn.headKept i w d.headId old).isSome = (d.readHeadReady env i).conn.error := by
        rw [Disp.readHeadReady, error_afterHead]
        exact error_pollReadHead _ env i w _ old h
      unfold Disp.readHead Disp.asksHead
      cases hf : d.inFlight <;> cases hc : d.conn.client <;> simp [Disp.close, Conn.closeRead, Conn.closeWrite, h, hh]
      split <;> simp [h, hh]
    · cases d.bodyTx with
      | some k =>
        simp only [Disp.readBody]
        split
        · cases (d.chans[k]?).map Chan.want with
          | none => exact error_drain _ P i w old h
          | some wt =>
            cases wt with
            | ready =>
              simp only
              split
              · exact h
              · rw [Disp.readPiece, error_afterPiece, conn_maybeLose]
                exact error_body _ P i w old h
            | pending => exact h
            | closed => exact error_drain _ P i w old h
        · exact h
      | none =>
        unfold Disp.readIdle
        simp only
        split
        · rw [conn_fail, error_keepAliveRead]
          exact h
        · rw [error_keepAliveRead]
          exact h

theorem error_flushTurn (f : FlushIn) (i : NotifyIn) (w : Why) (old : Option Err) (h : old.isSome = d.conn.error) :
    (d.flushKept f i w old).isSome = (d.flushTurn f i).conn.error := by
  have hp : (d.flushKept f i w old).isSome = (d.conn.pollFlush f i).2.error := by
    unfold Disp.flushKept Conn.pollFlush
    simp only
    split
    · exact error_keepAlive _ i w old h
    · exact h
  unfold Disp.flushTurn
  simp only
  split
  · exact hp
  · rw [conn_fail]
    exact hp

theorem error_endBody : d.endBody.conn.error = d.conn.error := by
  have h : d.conn.endBody.2.error = d.conn.error := by rw [Conn.endBody, error_setWriting, error_put]
  unfold Disp.endBody
  simp only
  split
  · rw [conn_fail]
    exact h
  · exact h

theorem error_writeFrame (f : FrameIn) : (d.writeFrame f).conn.error = d.conn.error := by
  unfold Disp.writeFrame
  repeat' split
  all_goals first
    | rfl
    | exact error_endBody _
    | (simp only [Conn.writeBodyAndEnd, Conn.writeBody, Conn.writeTrailers, error_setWriting, error_put])
    | exact congrArg Conn.error (conn_fail _)

theorem error_writeHead (env : EncodeEnv) (m : MsgOut) (old : Option Err) (h : old.isSome = d.conn.error) :
    (match m with
      | .resp m => if d.conn.client then old else Conn.encodeKept (d.conn.respEnc env m).2 old
      | .req h body => if d.conn.client then Conn.encodeKept (d.conn.reqEnc h body).2 old else old
      | _ => old).isSome = (d.writeHead env m).conn.error := by
  unfold Disp.writeHead
  cases m with
  | pending => exact h
  | none =>
    simp only
    split <;> exact h
  | err =>
    simp only
    split
    · exact h
    · rw [conn_fail]
      exact h
  | resp m =>
    simp only
    split
    · exact h
    · exact error_encode _ _ old h
  | req r body =>
    simp only
    split
    · exact error_encode _ _ old h
    · exact h

theorem error_writeTurn (env : EncodeEnv) (i : WriteIn) (w : Why) (old : Option Err) (h : old.isSome = d.conn.error) :
    (d.writeKept env i w old).isSome = (d.writeTurn env i).conn.error := by
  unfold Disp.writeKept Disp.writeTurn
  split
  · exact h
  · split
    · exact error_writeHead d env i.msg old h
    · split
      · exact error_flushTurn d i.flush i.notify w old h
      · split
        · split
          · exact h.trans (error_writeFrame d i.frame).symm
          · exact h
        · split
          · exact h.trans (error_endBody d).symm
          · exact h

theorem error_complete : d.complete.conn.error = false := by
  unfold Disp.complete
  split
  · rw [conn_fail]
  · simp_all

theorem error_finishTurn (s : Bool) (f : FlushIn) (old : Option Err) (h : old.isSome = d.conn.error) :
    (d.finishKept s f old).isSome = (d.finishTurn s f).conn.error := by
  unfold Disp.finishKept Disp.finishTurn
  split
  · exact h
  · split
    · rw [error_complete]; rfl
    · split
      · simp only
        have hs : (d.conn.pollShutdown f).2.error = d.conn.error := rfl
        by_cases hp : (d.conn.pollShutdown f).1 = .pending
        · rw [if_pos hp, if_neg (by rw [hp]; decide)]
          exact h.trans hs.symm
        · rw [if_neg hp]
          by_cases ho : (d.conn.pollShutdown f).1 = .ok
          · rw [if_pos ho, if_pos ho, error_complete]; rfl
          · rw [if_neg ho, if_neg ho, conn_fail]
            exact h.trans hs.symm
      · rw [error_complete]; rfl

theorem error_disable (b : Bool) : (d.disableKeepAlive b).conn.error = d.conn.error := by
  unfold Disp.disableKeepAlive
  have h : d.conn.disableKeepAlive.error = d.conn.error := by
    unfold Conn.disableKeepAlive
    simp only
    split <;> rfl
  simp only
  split <;> exact h

theorem error_want (k : Nat) : (d.want k).conn.error = d.conn.error := by
  unfold Disp.want
  repeat' split
  all_goals rfl

/-- The error kept is there exactly if the model says so. -/
theorem error_step (env : EncodeEnv) (P : TrailerParser) (a : Act) (w : Why) (old : Option Err) (h : old.isSome = d.conn.error) :
    (d.kept env P a w old).isSome = (d.step env P a).conn.error := by
  unfold Disp.kept Disp.step
  cases hd : d.done
  · cases a <;> simp only [if_false, Bool.false_eq_true]
    · exact error_readTurn d env P _ w old h
    · exact error_writeTurn d env _ w old h
    · exact error_flushTurn d _ _ w old h
    · exact h
    · exact error_finishTurn d _ _ old h
    · exact h.trans (error_disable d _).symm
    · exact h.trans (error_want d _).symm
    · exact h
    · exact h.trans (congrArg Conn.error (conn_failBody d)).symm
  · cases a <;> simp only [if_true]
    · exact h
    · exact h
    · exact h
    · exact h
    · exact h
    · exact h
    · exact h.trans (error_want d _).symm
    · exact h
    · exact h.trans (congrArg Conn.error (conn_failBody d)).symm

/-! ## An error ends the future -/

theorem done_fail : d.fail.done = true := rfl

theorem done_failBody : d.failBody.done = d.done := by
  unfold Disp.failBody
  split <;> rfl

theorem done_newBody (m : MsgIn) : (d.newBody m).done = d.done := by
  unfold Disp.newBody
  split <;> rfl

theorem inFlight_newBody (m : MsgIn) : (d.newBody m).inFlight = d.inFlight := by
  unfold Disp.newBody
  split <;> rfl

theorem done_deliver (k : Nat) (gone : Bool) (f : Chan → Chan) : (d.deliver k gone f).done = d.done := by
  unfold Disp.deliver
  repeat' split
  all_goals first
    | rfl
    | (simp only; split <;> rfl)

theorem done_afterPiece (k : Nat) (gone : Bool) (o : BodyRes) : (d.afterPiece k gone o).done = d.done := by
  have hm : ∀ b, (d.markComplete k b).done = d.done := by
    intro b
    unfold Disp.markComplete
    split <;> rfl
  unfold Disp.afterPiece
  split
  · rfl
  · rw [done_deliver, hm]
  · rw [done_deliver, hm]
  · simp [Disp.dropBody, hm]
  · rfl

theorem client_tryKeepAlive (c : Conn) (i : NotifyIn) : (c.tryKeepAlive i).client = c.client := by
  have h : c.stateKeepAlive.client = c.client := by
    unfold Conn.stateKeepAlive
    (repeat' split) <;> rfl
  rw [← h]
  unfold Conn.tryKeepAlive Conn.maybeNotify Conn.notifyFrom
  (repeat' split) <;> rfl

theorem client_pollReadHead (c : Conn) (env : EncodeEnv) (t0 t1 : Nat) (i : ParseIn) (nt : NotifyIn) (n : Nat) :
    (c.pollReadHead env t0 t1 i nt n).2.client = c.client := by
  unfold Conn.pollReadHead
  cases i with
  | pending =>
    simp only
    split <;> exact client_startTimer c t0
  | error e rest h2 =>
    simp only [Conn.onReadHeadError]
    split
    · unfold Conn.onParseError
      repeat' split
      all_goals exact client_startTimer c t0
    · exact client_startTimer c t0
  | msg m =>
    unfold Conn.acceptHead
    simp only
    repeat' split
    all_goals first
      | exact (client_tryKeepAlive _ _).trans (client_startTimer c t0)
      | exact client_startTimer c t0

theorem done_readHeadReady (env : EncodeEnv) (i : ReadIn) (w : Why) (hd : d.done = false) (ha : d.asksHead i = true) :
    (d.readHeadReady env i).done = ((d.conn.headFault i w).isSome && !d.conn.client) := by
  rw [headFault_iff d.conn env i w d.headId, Disp.readHeadReady]
  have hc := client_pollReadHead d.conn env i.t0 i.t1 i.parse i.notify d.headId
  generalize d.conn.pollReadHead env i.t0 i.t1 i.parse i.notify d.headId = p at hc
  obtain ⟨o, c⟩ := p
  simp only at hc
  unfold Disp.asksHead at ha
  cases hcl : d.conn.client <;> rw [hcl] at hc ha
  · cases o <;> simp [Disp.afterHead, Disp.recvErr, Disp.recvHead, hc, hd, conn_newBody, done_newBody, done_fail]
    split <;> simp [Disp.close, hd]
  · cases hf : d.inFlight with
    | none => simp [hf] at ha
    | some n =>
      cases o <;> simp [Disp.afterHead, Disp.recvErr, Disp.recvHead, hc, hd, conn_newBody, done_newBody, inFlight_newBody, hf, Disp.close]
      split <;> simp [hd]

theorem done_readTurn (env : EncodeEnv) (P : TrailerParser) (i : ReadIn) (w : Why) (hd : d.done = false) :
    (d.readTurn env P i).done = (d.readFault i w).isSome := by
  unfold Disp.readTurn Disp.readFault
  split
  · simpa using hd
  · split
    · by_cases ha : d.asksHead i = true
      · have h := done_readHeadReady d env i w hd ha
        have he : d.readHead env i = d.readHeadReady env i := by
          unfold Disp.asksHead at ha
          unfold Disp.readHead
          cases hf : d.inFlight <;> cases hc : d.conn.client <;> simp_all
        rw [he, h, ha]
        cases d.conn.client <;> simp
      · rw [Bool.not_eq_true] at ha
        rw [ha]
        unfold Disp.asksHead at ha
        unfold Disp.readHead
        cases hf : d.inFlight <;> cases hc : d.conn.client <;> simp_all [Disp.close]
    · cases d.bodyTx with
      | some k =>
        simp only [Disp.readBody]
        split
        · split
          · split
            · simpa using hd
            · rw [Disp.readPiece, done_afterPiece]
              unfold Disp.maybeLose Disp.loseReader
              split <;> simpa using hd
          · simpa using hd
          · simpa [Disp.dropBody] using hd
        · simpa [Disp.dropBody] using hd
      | none =>
        simp only [Disp.readIdle]
        rw [idleFault_iff]
        split
        · rename_i h
          simp [h, done_fail]
        · rename_i h
          simp [h, hd]

theorem done_flushTurn (f : FlushIn) (i : NotifyIn) (w : Why) (hd : d.done = false) :
    (d.flushTurn f i).done = ((d.conn.pollFlush f i).1.fault .bodyWrite w).isSome := by
  rw [flushFault_iff]
  unfold Disp.flushTurn
  simp only
  split
  · rename_i h
    simp [h, hd]
  · rename_i h
    simp [h, done_fail]

theorem done_endBody (hd : d.done = false) : d.endBody.done = d.conn.endBody.1.isSome := by
  unfold Disp.endBody
  simp only
  split
  · rename_i h
    rw [h]; rfl
  · rename_i h
    simpa [h] using hd

theorem done_writeTurn (env : EncodeEnv) (i : WriteIn) (w : Why) (hd : d.done = false) : (d.writeTurn env i).done = (d.writeFault i w).isSome := by
  have he : ∀ b : Bool, ({ d with bodyRx := b }.endBody).done = d.conn.endBody.1.isSome := fun b => done_endBody _ hd
  unfold Disp.writeTurn Disp.writeFault
  split
  · simpa using hd
  · split
    · cases i.msg <;> simp only [Disp.writeHead]
      · simpa using hd
      · split <;> simpa [Disp.close] using hd
      · split <;> simp [hd, done_fail]
      · split <;> simpa using hd
      · split <;> simpa using hd
    · split
      · exact done_flushTurn d _ _ w hd
      · split
        · split
          · unfold Disp.writeFrame
            cases hf : i.frame with
            | pending => simpa using hd
            | eof =>
              simp only [he]
              split <;> simp_all
            | frame fr =>
              cases fr with
              | data bs b =>
                cases b
                · simp only
                  split <;> simpa using hd
                · simp only
                  by_cases hb : bs = []
                  · simp only [hb, if_true, he, true_and]
                    split <;> simp_all
                  · simp [hb, hd]
              | trailers m => simpa using hd
              | unknown => simpa using hd
              | error => rfl
          · simpa using hd
        · split
          · rw [done_endBody d hd]
            split <;> simp_all
          · simpa using hd

theorem done_complete : d.complete.done = true := by
  unfold Disp.complete
  split <;> rfl

/-- An error makes the future complete. -/
theorem done_finishTurn (s : Bool) (f : FlushIn) (w : Why) (kept : Option Err) (h : (d.finishFault s f w kept).isSome = true) :
    (d.finishTurn s f).done = true := by
  unfold Disp.finishFault at h
  unfold Disp.finishTurn
  split
  · rename_i hn
    simp [hn] at h
  · rename_i hn
    rw [if_neg hn] at h
    split
    · exact done_complete _
    · rename_i hu
      rw [if_neg hu] at h
      split
      · rename_i hs
        rw [if_pos hs] at h
        simp only
        by_cases hp : (d.conn.pollShutdown f).1 = .pending
        · simp [hp] at h
        · rw [if_neg hp]
          split
          · exact done_complete _
          · rfl
      · exact done_complete _

theorem done_disable (b : Bool) : (d.disableKeepAlive b).done = d.done := by
  unfold Disp.disableKeepAlive
  simp only
  split <;> rfl

theorem done_want (k : Nat) : (d.want k).done = d.done := by
  unfold Disp.want
  repeat' split
  all_goals rfl

/-- An error returned by `poll_inner` completes the future. -/
theorem fault_done (env : EncodeEnv) (P : TrailerParser) (a : Act) (w : Why) (kept : Option Err) (h : (d.fault a w kept).isSome = true) :
    d.done = false ∧ (d.step env P a).done = true := by
  unfold Disp.fault at h
  cases hd : d.done
  · refine ⟨rfl, ?_⟩
    simp only [hd, if_false, Bool.false_eq_true] at h
    unfold Disp.step
    simp only [hd, if_false, Bool.false_eq_true]
    cases a with
    | read i => rw [done_readTurn d env P i w hd]; exact h
    | write i => rw [done_writeTurn d env i w hd]; exact h
    | flush f i => rw [done_flushTurn d f i w hd]; exact h
    | finish s f => exact done_finishTurn d s f w kept h
    | _ => simp at h
  · simp [hd] at h

/-- The future completes with an error, at the end of a poll, or by being dropped. -/
theorem done_fault (env : EncodeEnv) (P : TrailerParser) (a : Act) (w : Why) (kept : Option Err) (hd : d.done = false) (h : (d.step env P a).done = true) :
    (d.fault a w kept).isSome = true ∨ a = .drop ∨ ∃ s f, a = .finish s f := by
  unfold Disp.fault
  simp only [hd, if_false, Bool.false_eq_true]
  unfold Disp.step at h
  simp only [hd, if_false, Bool.false_eq_true] at h
  cases a with
  | read i => rw [done_readTurn d env P i w hd] at h; exact .inl h
  | write i => rw [done_writeTurn d env i w hd] at h; exact .inl h
  | flush f i => rw [done_flushTurn d f i w hd] at h; exact .inl h
  | finish s f => exact .inr (.inr ⟨s, f, rfl⟩)
  | readAgain => simp [hd] at h
  | disable b => simp [done_disable, hd] at h
  | want k => simp [done_want, hd] at h
  | dropReader k => simp [Disp.loseReader, hd] at h
  | drop => exact .inr (.inl rfl)

theorem done_step (env : EncodeEnv) (P : TrailerParser) (a : Act) (hd : d.done = true) : (d.step env P a).done = true := by
  unfold Disp.step
  cases a <;> simp [hd, done_want, Disp.loseReader]

theorem client_step (env : EncodeEnv) (P : TrailerParser) (a : Act) : (d.step env P a).conn.client = d.conn.client := by
  have hv : ∀ d : Disp, d.view.client = d.conn.client := by
    intro d
    unfold Disp.view
    split <;> rfl
  have h := (step_steps env P d a).keep (I := fun v => v.client = d.conn.client) (fun v w hv p => by cases p <;> exact hv) (hv d)
  rwa [hv] at h

end disp

end Hyper
