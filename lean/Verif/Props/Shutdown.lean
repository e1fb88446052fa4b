import Verif.Spec.Shutdown
import Verif.Props.H1Upgrade

/-!
# C71: graceful shutdown of an HTTP/1 server's connection

`Connection::graceful_shutdown` (src/server/conn/http1.rs 138-140, 526-532) calls `Dispatcher::disable_keep_alive`
(src/proto/h1/dispatch.rs 91-100).  The statements are about all runs before and after that call.
-/

namespace Hyper

open Spec

namespace Graceful

/-- What more holds of a server's connection between moves. -/
structure Serving (v : View) : Prop where
  inv : SInv v
  fresh : v.next = 0 → v.rd = .init ∨ v.rd = .closed
  owed : v.rd = .cont ∨ v.rd = .body ∨ v.rd = .keepAlive → v.wr = .init → v.flight ≠ none
  idle : v.ka = .idle → v.rd = .init ∧ v.wr = .init ∧ v.flight = none

set_option maxHeartbeats 2000000 in
theorem Serving.prim {v w : View} (h : Serving v) (p : Prim v w) : Serving w := by
  obtain ⟨inv, fresh, owed, idle⟩ := h
  refine ⟨inv.prim p, ?_, ?_, ?_⟩ <;>
    (obtain ⟨server, heads, init, body, rest, winit, wbody, wrest, flight, sync, peer, last, bad, off, idle'⟩ := inv
     cases p <;> grind)

theorem serving_start (d : Disp) (h : d.Start) (hs : d.conn.client = false) : Serving d.view := by
  refine ⟨?_, ?_, ?_, ?_⟩
  · exact start_sinv d h hs
  all_goals rw [start_view d h]; simp

theorem serving_run (env : EncodeEnv) (P : TrailerParser) (as : List Act) (d : Disp) (h : d.Start) (hs : d.conn.client = false) :
    Serving (d.run env P as).view :=
  (run_steps env P as d).keep (fun _ _ h p => h.prim p) (serving_start d h hs)

/-- No head of a request any more. -/
structure Closing (N : Nat) (v : View) : Prop where
  serving : Serving v
  heads : readHeads v.log = N
  shut : v.rd = .init → False

/-- Graceful shutdown was asked for, or the connection is over. -/
structure Leaving (N : Nat) (v : View) : Prop where
  serving : Serving v
  off : wasOff v.log = true ∨ v.rd = .closed
  heads : readHeads v.log = N ∨ (N = 0 ∧ readHeads v.log = 1)

set_option maxHeartbeats 2000000 in
theorem Leaving.prim {N : Nat} {v w : View} (h : Leaving N v) (p : Prim v w) : Leaving N w := by
  obtain ⟨serving, off, heads⟩ := h
  refine ⟨serving.prim p, ?_, ?_⟩ <;>
    (obtain ⟨⟨server, hheads, init, body, rest, winit, wbody, wrest, flight, sync, peer, last, bad, hoff, idle'⟩, fresh, owed, idle⟩ := serving
     cases p <;> simp only [readHeads_snoc, wasOff_snoc] <;> grind)

set_option maxHeartbeats 2000000 in
/-- With reuse off and a request read, nothing is left to begin. -/
theorem Closing.prim {N : Nat} {v w : View} (h : Closing N v) (hk : v.ka = .disabled) (p : Prim v w) : Closing N w ∧ w.ka = .disabled := by
  obtain ⟨serving, heads, shut⟩ := h
  refine ⟨⟨serving.prim p, ?_, ?_⟩, ?_⟩ <;>
    (obtain ⟨⟨server, hheads, init, body, rest, winit, wbody, wrest, flight, sync, peer, last, bad, hoff, idle'⟩, fresh, owed, idle⟩ := serving
     cases p <;> simp only [readHeads_snoc] <;> grind)

theorem Closing.run {N : Nat} (env : EncodeEnv) (P : TrailerParser) (as : List Act) (d : Disp) (h : Closing N d.view) (hk : d.view.ka = .disabled) :
    readHeads (d.run env P as).conn.log = N := by
  rw [← view_log]
  exact ((run_steps env P as d).keep (I := fun v => Closing N v ∧ v.ka = .disabled) (fun _ _ h p => h.1.prim h.2 p) ⟨h, hk⟩).1.heads

/-- What the call does to the view. -/
theorem disable_view (d : Disp) (b : Bool) (hd : d.done = false) :
    (d.disableKeepAlive b).view.ka = .disabled ∧ (d.disableKeepAlive b).view.log = d.conn.log ++ [.shutdown] := by
  unfold Disp.disableKeepAlive Conn.disableKeepAlive
  simp only
  split <;> (try split) <;> simp [Disp.view, hd, Conn.view, Disp.close, Conn.closeRead, Conn.closeWrite, Conn.closeAll]

theorem announce_prim {v w : View} (hv : (wasOff v.log = true → v.ka = .disabled) ∧ Each AnnouncesEnd v.log) (p : Prim v w) :
    (wasOff w.log = true → w.ka = .disabled) ∧ Each AnnouncesEnd w.log := by
  obtain ⟨hk, he⟩ := hv
  have hoff : Ev.shutdown ∈ v.log → wasOff v.log = true := by
    intro hm
    rw [← Bool.not_eq_false, wasOff_iff]; simpa using hm
  refine ⟨?_, ?_⟩
  · cases p <;> simp only [wasOff_snoc] <;> grind
  · cases p <;> first | exact he | exact each_snoc he trivial | skip
    · rename_i hs hw n hf last w k hk' hw' hl hd
      exact each_snoc he (fun hm => hd (hk (hoff hm)))
    · rename_i hs hw hr hf last w k hk' hw' hl hd
      exact each_snoc he (fun hm => hd (hk (hoff hm)))

end Graceful

open Graceful

/-- C71: once the call was made and at least one request had been read, or the read buffer was empty, no further request is read,
whatever the client sends. -/
theorem C71_no_new (env : EncodeEnv) (P : TrailerParser) (as bs : List Act) (d : Disp) (h : d.Start) (hs : d.conn.client = false) (b : Bool)
    (hn : b = true ∨ 0 < readHeads (d.run env P as).conn.log) :
    readHeads (d.run env P (as ++ .disable b :: bs)).conn.log = readHeads (d.run env P as).conn.log := by
  have hrun : d.run env P (as ++ .disable b :: bs) = ((d.run env P as).step env P (.disable b)).run env P bs := by
    simp [Disp.run, List.foldl_append]
  rw [hrun]
  have hsv := serving_run env P as d h hs
  have hsv' : Serving ((d.run env P as).step env P (.disable b)).view :=
    (step_steps env P (d.run env P as) (.disable b)).keep (fun _ _ h p => h.prim p) hsv
  generalize d.run env P as = e at *
  cases hd : e.done with
  | true =>
    have : e.step env P (.disable b) = e := by simp [Disp.step, hd]
    rw [this]
    refine Closing.run env P bs e ⟨hsv, by rw [view_log], ?_⟩ ?_ <;> simp [Disp.view, hd]
  | false =>
    have hst : e.step env P (.disable b) = e.disableKeepAlive b := by simp [Disp.step, hd]
    rw [hst] at hsv' ⊢
    obtain ⟨hk, hl⟩ := disable_view e b hd
    have hheads : readHeads (e.disableKeepAlive b).view.log = readHeads e.conn.log := by rw [hl]; simp [readHeads_snoc]
    refine Closing.run env P bs _ ⟨hsv', hheads, ?_⟩ hk
    intro hi
    have hoff := (hsv'.inv.off (by rw [hl]; simp)).2 hi
    have hz : readHeads e.conn.log = 0 := by rw [← hheads, hsv'.inv.heads, hoff]
    rcases hn with rfl | hn
    · have hnx : e.view.next = 0 := by rw [← hsv.inv.heads, view_log, hz]
      have hclosed : (e.disableKeepAlive true).view.rd = .closed := by
        rw [view_live hd] at hsv hnx
        have hf := hsv.fresh hnx
        unfold Disp.disableKeepAlive Conn.disableKeepAlive
        simp only
        by_cases hid : e.conn.ka = .idle
        · simp only [hid, if_true]
          simp [Disp.view, Disp.close, hd, Conn.view, Conn.closeRead, Conn.closeWrite, Conn.closeAll, Reading.tag]
        · simp only [hid, if_false]
          rcases hf with hf | hf
          · have hw := (hsv.inv.init hf).1
            have hr' : e.conn.reading = .init := by
              revert hf; simp only [Conn.view]; cases e.conn.reading <;> simp [Reading.tag]
            have hw' : e.conn.writing = .init := by
              revert hw; simp only [Conn.view]; cases e.conn.writing <;> simp [Writing.tag]
            simp [Conn.initialState, hr', hw', Disp.view, Disp.close, hd, Conn.view, Conn.closeRead, Conn.closeWrite, Reading.tag]
          · have hr' : e.conn.reading = .closed := by
              revert hf; simp only [Conn.view]; cases e.conn.reading <;> simp [Reading.tag]
            split <;> simp [hr', Disp.view, Disp.close, hd, Conn.view, Conn.closeRead, Conn.closeWrite, Reading.tag]
      rw [hclosed] at hi
      exact absurd hi (by simp)
    · omega

/-- C71: otherwise the first request, whose bytes had begun to arrive, may still be read, and no second. -/
theorem C71_at_most_one (env : EncodeEnv) (P : TrailerParser) (as bs : List Act) (d : Disp) (h : d.Start) (hs : d.conn.client = false) (b : Bool) :
    readHeads (d.run env P (as ++ .disable b :: bs)).conn.log = readHeads (d.run env P as).conn.log ∨
      readHeads (d.run env P as).conn.log = 0 ∧ readHeads (d.run env P (as ++ .disable b :: bs)).conn.log = 1 := by
  have hrun : d.run env P (as ++ .disable b :: bs) = ((d.run env P as).step env P (.disable b)).run env P bs := by
    simp [Disp.run, List.foldl_append]
  rw [hrun]
  have hsv := serving_run env P as d h hs
  have hsv' : Serving ((d.run env P as).step env P (.disable b)).view :=
    (step_steps env P (d.run env P as) (.disable b)).keep (fun _ _ h p => h.prim p) hsv
  generalize d.run env P as = e at *
  have key : Leaving (readHeads e.conn.log) (e.step env P (.disable b)).view := by
    cases hd : e.done with
    | true =>
      have : e.step env P (.disable b) = e := by simp [Disp.step, hd]
      rw [this]
      exact ⟨hsv, .inr (by simp [Disp.view, hd]), .inl (by rw [view_log])⟩
    | false =>
      have hst : e.step env P (.disable b) = e.disableKeepAlive b := by simp [Disp.step, hd]
      rw [hst] at hsv' ⊢
      obtain ⟨_, hl⟩ := disable_view e b hd
      exact ⟨hsv', .inl (by rw [hl]; simp), .inl (by rw [hl]; simp [readHeads_snoc])⟩
  have := ((run_steps env P bs _).keep (I := Leaving _) (fun _ _ h p => h.prim p) key).heads
  rw [view_log] at this
  exact this

/-- C71: an exchange in progress goes on: the call changes nothing but that the connection is not reused. -/
theorem C71_kept (env : EncodeEnv) (P : TrailerParser) (as : List Act) (d : Disp) (h : d.Start) (hs : d.conn.client = false) (b : Bool) (e : Disp)
    (he : e = d.run env P as) (hd : e.done = false) (hw : e.conn.writing ≠ .closed) (hi : ¬ (e.conn.reading = .init ∧ e.conn.writing = .init)) :
    e.step env P (.disable b) = { e with conn := { e.conn with ka := .disabled, log := e.conn.log ++ [.shutdown] } } := by
  have hsv := serving_run env P as d h hs
  rw [← he, view_live hd] at hsv
  have hk : e.conn.ka ≠ .idle := by
    intro hk
    obtain ⟨h1, h2, _⟩ := hsv.idle hk
    refine hi ⟨?_, ?_⟩
    · revert h1; simp only [Conn.view]; cases e.conn.reading <;> simp [Reading.tag]
    · revert h2; simp only [Conn.view]; cases e.conn.writing <;> simp [Writing.tag]
  have hin : ¬ (({ e.conn with ka := KA.disabled, log := e.conn.log ++ [Ev.shutdown] } : Conn).initialState b = true) := by
    simp only [Conn.initialState, Bool.and_eq_true, beq_iff_eq]
    exact fun hh => hi hh.1
  have hst : e.step env P (.disable b) = e.disableKeepAlive b := by simp [Disp.step, hd]
  rw [hst]
  unfold Disp.disableKeepAlive Conn.disableKeepAlive
  simp only [hk, if_false]
  rw [if_neg (by rintro (hh | hh); exact hw hh; exact hin hh)]

/-- C71: a connection between exchanges, one on which nothing has arrived, and one on which nothing can be written any more are done at
once. -/
theorem C71_at_once (env : EncodeEnv) (P : TrailerParser) (b : Bool) (e : Disp) (hd : e.done = false)
    (hi : e.conn.ka = .idle ∨ e.conn.writing = .closed ∨ (b = true ∧ e.conn.reading = .init ∧ e.conn.writing = .init)) :
    (e.step env P (.disable b)).isDone = true := by
  simp only [Disp.step, hd, Bool.false_eq_true, if_false]
  unfold Disp.disableKeepAlive Conn.disableKeepAlive
  simp only
  have hcl : ∀ x : Disp, x.close.isDone = true := by intro x; simp [Disp.close, Disp.isDone]
  by_cases hk : e.conn.ka = .idle
  · simp only [hk, if_true]
    rw [if_pos (.inl rfl)]; exact hcl _
  · simp only [hk, if_false]
    rcases hi with hi | hi | ⟨rfl, h1, h2⟩
    · exact absurd hi hk
    · rw [if_pos (.inl hi)]; exact hcl _
    · rw [if_pos (.inr (by simp [Conn.initialState, h1, h2]))]; exact hcl _

/-- C71: every response head written after the call is marked as the last one. -/
theorem C71_announced (env : EncodeEnv) (P : TrailerParser) (as : List Act) (d : Disp) (h : d.Start) :
    Each AnnouncesEnd (d.run env P as).conn.log := by
  rw [← view_log]
  refine ((run_steps env P as d).keep (I := fun v => (wasOff v.log = true → v.ka = .disabled) ∧ Each AnnouncesEnd v.log)
    (fun _ _ => announce_prim) ?_).2
  rw [start_view d h]
  exact ⟨by simp [wasOff], each_nil _⟩

/-- C71: and on an HTTP/1.1 connection it says so: `close` is among its connection options. -/
theorem C71_says_close (env : EncodeEnv) (P : TrailerParser) (as : List Act) (d : Disp) (h : d.Start) (e : Disp) (he : e = d.run env P as)
    (hd : e.done = false) (hm : .shutdown ∈ e.conn.log) (m : RespOut) (out : Bytes) (r : Encoder)
    (hwf : ResponseWf (e.conn.respMsg m).2) (hdate : DateOk env) (hr : e.conn.respEnc env m = (out, .ok r)) :
    r.isLast = true ∧ (e.conn.version = .h11 → ∃ line fs, out = e.conn.out.wbuf.headers.bytes ++ line ++ lines fs ++ CRLF ∧
      (∀ f ∈ fs, WireField f) ∧ ∃ w ∈ valuesOf hCONN fs, ∃ x, Element w x ∧ Padded x (ascii "close")) := by
  have hk : e.conn.ka = .disabled := by
    have := ((run_steps env P as d).keep (I := fun v => (wasOff v.log = true → v.ka = .disabled) ∧ Each AnnouncesEnd v.log)
      (fun _ _ => announce_prim) (by rw [start_view d h]; exact ⟨by simp [wasOff], each_nil _⟩)).1
    rw [← he, view_live hd] at this
    refine this ?_
    rw [← Bool.not_eq_false, wasOff_iff]; simpa [Conn.view] using hm
  exact C26_response_announces_close env e.conn m out r hk hwf hdate hr

/-- C71: the connection ends: when the call was made, a request had been read, every request read is answered, no body is being read or
written, and what was written has been flushed, then the poll completes, unless shutting the transport down has to wait. -/
theorem C71_ends (env : EncodeEnv) (P : TrailerParser) (as : List Act) (d : Disp) (h : d.Start) (hs : d.conn.client = false) (e : Disp)
    (he : e = d.run env P as) (hd : e.done = false) (hm : .shutdown ∈ e.conn.log) (hn : 0 < readHeads e.conn.log)
    (hf : e.inFlight = none) (hx : e.bodyRx = false) (hr : e.conn.canReadBody = false) (hw : ∀ x, e.conn.writing ≠ .body x)
    (f g : FlushIn) (i : NotifyIn) (s : Bool) (hfl : (e.conn.pollFlush f i).1 = .ok) :
    ((e.step env P (.flush f i)).step env P (.finish s g)).done = true ∨ (s = true ∧ ((e.step env P (.flush f i)).conn.pollShutdown g).1 = .pending) := by
  have hsv := serving_run env P as d h hs
  rw [← he, view_live hd] at hsv
  have hoff := hsv.inv.off (by rw [← Bool.not_eq_false, wasOff_iff]; simpa [Conn.view] using hm)
  have hheads : e.next = readHeads e.conn.log := hsv.inv.heads.symm
  have hst : e.step env P (.flush f i) = { e with conn := (e.conn.pollFlush f i).2 } := by
    simp only [Disp.step, hd, Bool.false_eq_true, if_false, Disp.flushTurn, hfl, if_true]
    simp
  have hclient : e.conn.client = false := hsv.inv.server
  have hpf : (e.conn.pollFlush f i).2 = ({ e.conn with out := ((e.conn.scripted f).pollFlush bytesBuf f.readBuf).2 } : Conn).tryKeepAlive i := by
    revert hfl; unfold Conn.pollFlush; simp only
    split
    · intro _; rfl
    · rename_i hne; intro hh; exact absurd hh hne
  have hdone : (e.step env P (.flush f i)).isDone = true := by
    rw [hst, hpf]
    generalize ((e.conn.scripted f).pollFlush bytesBuf f.readBuf).2 = o
    unfold Conn.tryKeepAlive Conn.stateKeepAlive
    simp only
    have hrd := hoff.2
    have howed := hsv.owed
    have hka := hoff.1
    simp only [Conn.view] at hrd howed hka
    cases hr' : e.conn.reading with
    | init => rw [hr'] at hrd; have := hrd rfl; omega
    | cont x => simp [Conn.canReadBody, hr'] at hr
    | body x => simp [Conn.canReadBody, hr'] at hr
    | keepAlive =>
      cases hw' : e.conn.writing with
      | init => rw [hr', hw', hf] at howed; simp [Reading.tag, Writing.tag] at howed
      | body x => exact absurd hw' (hw x)
      | keepAlive => simp [hka, Conn.closeAll, Conn.maybeNotify, Disp.isDone]
      | closed => simp [Conn.closeAll, Conn.maybeNotify, Disp.isDone]
    | closed =>
      cases hw' : e.conn.writing with
      | init => simp [Conn.maybeNotify, Disp.isDone, hr', hf, hx, Disp.shouldPoll, hclient]
      | body x => exact absurd hw' (hw x)
      | keepAlive => simp [Conn.closeAll, Conn.maybeNotify, Disp.isDone]
      | closed => simp [Conn.maybeNotify, Disp.isDone, hr', hw']
  have hd' : (e.step env P (.flush f i)).done = false := by rw [hst]; exact hd
  generalize e.step env P (.flush f i) = q at *
  have hfin : q.step env P (.finish s g) = q.finishTurn s g := by simp [Disp.step, hd']
  rw [hfin]
  have hc : ∀ x : Disp, x.complete.done = true := by intro x; unfold Disp.complete; split <;> rfl
  have hfa : ∀ x : Disp, x.fail.done = true := fun _ => rfl
  unfold Disp.finishTurn
  simp only [hdone, Bool.not_true, Bool.false_eq_true, if_false]
  by_cases h2 : q.conn.upgrade = true
  · rw [if_pos h2]; exact .inl (hc _)
  · rw [if_neg h2]
    by_cases h3 : s = true
    · rw [if_pos h3]
      by_cases h4 : (q.conn.pollShutdown g).1 = .pending
      · exact .inr ⟨h3, h4⟩
      · rw [if_neg h4]
        split
        · exact .inl (hc _)
        · exact .inl (hfa _)
    · rw [if_neg h3]; exact .inl (hc _)

/-- A request being answered: the answer is written, and says that it is the last one; the request behind it is not read; the poll
completes. -/
example :
    let d := (exDisp false).run exEnv exP [exRead (.msg (exIn 0 false true)) exNo, .disable false, exWrite (exResp [] none) .pending, exRead (.msg (exIn 0 false true)) exNo]
    d.conn.log = [.readHead 0 false true, .readEnd, .shutdown, .writeHead 0 true] ∧ d.done = false ∧ d.inFlight = none ∧ d.bodyRx = false ∧
      d.conn.canReadBody = false ∧ (d.conn.pollFlush exFlushIn .pending).1 = .ok ∧
      (d.run exEnv exP [.flush exFlushIn .pending, .finish false exFlushIn]).done = true := by
  decide +kernel

/-- A new connection on which nothing has arrived is done; one on which something has reads that request and no other. -/
example :
    ((exDisp false).run exEnv exP [.disable true, exRead (.msg (exIn 0 false true)) exNo]).conn.log = [.shutdown] ∧
    ((exDisp false).run exEnv exP [.disable true]).isDone = true ∧
    ((exDisp false).run exEnv exP [.disable false, exRead (.msg (exIn 0 false true)) exNo, exWrite (exResp [] none) .pending, .flush exFlushIn .pending,
      exRead (.msg (exIn 0 false true)) exNo]).conn.log = [.shutdown, .readHead 0 false true, .readEnd, .writeHead 0 true] := by
  decide +kernel

/-- Between exchanges. -/
example :
    let as := [exRead (.msg (exIn 0 false true)) exNo, exWrite (exResp [] none) .pending, .flush exFlushIn .pending]
    ((exDisp false).run exEnv exP as).conn.ka = .idle ∧
    ((exDisp false).run exEnv exP (as ++ [.disable false])).isDone = true ∧
    ((exDisp false).run exEnv exP (as ++ [exRead (.msg (exIn 0 false true)) exNo])).conn.log.length = 6 := by
  decide +kernel

/-- Toward an HTTP/1.0 client it is not said: a `Connection: keep-alive` of the service stays in the head (`fix_keep_alive`, conn.rs 666-688, looks at the state only
when the field does not say so), though the connection ends with this response. -/
theorem C71_http10_says_keep_alive :
    let d := (exDisp false).run exEnv exP [exRead (.msg { exIn 0 false true with version := .h10 }) exNo, .disable false]
    let r := Conn.respEnc exEnv { d.conn with dateHeader := false } ⟨⟨.h10, 200, [(hCONN, [ascii "keep-alive"])], none, none⟩, none⟩
    d.conn.ka = .disabled ∧ r.1 = ascii "HTTP/1.0 200 <none>\r\nconnection: keep-alive\r\ncontent-length: 0\r\n\r\n" ∧ r.2.isLast = true := by
  decide +kernel

end Hyper
