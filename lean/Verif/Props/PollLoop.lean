import Verif.Proof.PollLoop

/-!
# C64: a connection does not go to sleep while there is something to do
-/

namespace Hyper

namespace Poll

/-- Whatever a connection waits for, somebody will wake its task: the task has been woken already, or whoever can make progress possible was asked in
this poll and has the task's waker. -/
structure Attended (d : Disp) (w : Wakers) : Prop where
  /-- Bytes are to be sent. -/
  unsent : WriteBuf.remaining bytesBuf d.conn.out.wbuf ≠ 0 → w.ioWrite = true ∨ w.self = true
  /-- The message being sent has a body which goes on. -/
  frame : d.closing = false → d.bodyRx = true → w.frame = true ∨ w.ioWrite = true ∨ w.self = true
  /-- The end of a body is to be written. -/
  ending : d.closing = false → d.bodyRx = false → d.conn.canWriteBody = true → w.ioWrite = true ∨ w.self = true
  /-- A message is to be read. -/
  head : d.closing = false → d.conn.reading = .init → w.ioRead = true ∨ w.self = true
  /-- The body of a message is to be read. -/
  body : d.closing = false → d.conn.canReadBody = true → w.ioRead = true ∨ w.reader = true ∨ w.self = true
  /-- Both messages of the exchange are complete. -/
  over : d.conn.reading = .keepAlive → d.conn.writing = .keepAlive ∨ d.conn.writing = .closed → w.ioWrite = true ∨ w.self = true

/-- The same for the service's answer, or the next request of the user: the connection could write the head now. -/
def Answered (d : Disp) (w : Wakers) : Prop :=
  d.closing = false → d.bodyRx = false → d.conn.writing = .init → (d.conn.client = true → d.conn.reading ≠ .closed) → d.shouldPoll = true → w.msg = true ∨ w.self = true

/-- A connection as it starts, with either way to keep what is to be sent, and without `pipeline_flush`. -/
structure Fresh (d : Disp) : Prop where
  start : d.Start
  queue : d.conn.out.wbuf.queue = []
  pipeline : d.conn.out.flushPipeline = false

theorem Fresh.good {d : Disp} (h : Fresh d) : Good d.conn.out.wbuf.strategy d :=
  ⟨vi_start h.start, ⟨rfl, fun _ => h.queue, h.pipeline⟩, fun _ hb => by simp [Conn.canReadBody, h.start.reading] at hb⟩

theorem fresh_ok (env : EncodeEnv) (P : TrailerParser) {d : Disp} (h : Fresh d) (as : List Act) (rs : List Round) (hd : (d.run env P as).done = false)
    {e : LoopEnd} {d' : Disp} {w : Wakers} (hl : (d.run env P as).pollLoop env P rs = some (e, d', w)) :
    Good d.conn.out.wbuf.strategy d' ∧ Reach env P (d.run env P as) d' ∧ (e = .failed ↔ d'.done = true) ∧ (e ≠ .failed → Stopped d.conn.out.wbuf.strategy d' w) := by
  have hg := h.good.run env P as
  obtain ⟨a, b, c, _⟩ := loopFrom_ok env P 16 rs _ {} hg hd hl
  exact ⟨hg.reach a, a, b, c⟩

end Poll

open Poll

/-- C64: a poll of `poll_loop` is one of the runs of which all other statements speak; it fails exactly when the future is over. -/
theorem C64_run (env : EncodeEnv) (P : TrailerParser) (d : Disp) (h : Fresh d) (as : List Act) (rs : List Round) (hd : (d.run env P as).done = false)
    (e : LoopEnd) (d' : Disp) (w : Wakers) (hl : (d.run env P as).pollLoop env P rs = some (e, d', w)) :
    (∃ bs, d' = (d.run env P as).run env P bs) ∧ (e = .failed ↔ d'.done = true) :=
  let ⟨_, a, b, _⟩ := fresh_ok env P h as rs hd hl
  ⟨a, b⟩

/-- C64: when a poll is over, everything but the service (or the queue of requests) which the connection waits for has the waker. -/
theorem C64_attended (env : EncodeEnv) (P : TrailerParser) (d : Disp) (h : Fresh d) (as : List Act) (rs : List Round) (hd : (d.run env P as).done = false)
    (e : LoopEnd) (d' : Disp) (w : Wakers) (hl : (d.run env P as).pollLoop env P rs = some (e, d', w)) (he : e ≠ .failed) : Attended d' w := by
  rcases (fresh_ok env P h as rs hd hl).2.2.2 he with ⟨a, b, c, hn⟩ | hs
  · refine ⟨c.left, b.frame, b.ending, fun h1 h2 => ?_, a.body, c.over⟩
    rcases a.head h1 h2 with h | h | h
    · exact .inl h
    · rw [hn] at h; cases h
    · exact .inr h
  · exact ⟨fun _ => .inr hs, fun _ _ => .inr (.inr hs), fun _ _ _ => .inr hs, fun _ _ => .inr hs, fun _ _ => .inr (.inr hs), fun _ _ => .inr hs⟩

/-- C64: the same for the service or the queue of requests, provided that what is to be sent is kept in one buffer.  With a queue it does not hold
(`C64_service_forgotten`, `C64_request_forgotten`). -/
theorem C64_answered_partial (env : EncodeEnv) (P : TrailerParser) (d : Disp) (h : Fresh d) (hs : d.conn.out.wbuf.strategy = .flatten) (as : List Act) (rs : List Round)
    (hd : (d.run env P as).done = false) (e : LoopEnd) (d' : Disp) (w : Wakers) (hl : (d.run env P as).pollLoop env P rs = some (e, d', w)) (he : e ≠ .failed) :
    Answered d' w := by
  obtain ⟨hg, _, _, hst⟩ := fresh_ok env P h as rs hd hl
  intro h1 h2 h3 h4 h5
  rcases hst he with ⟨a, b, c, hn⟩ | hs'
  · rcases b.msg hs h1 h2 ((canHead_iff hg.out hs).2 ⟨h4, h3⟩) h5 with h | h | h
    · exact .inl h
    · rw [hn] at h; cases h
    · exact .inr h
  · exact .inr hs'

/-- C64: unless the connection is to end, a poll never leaves it without anybody who could wake it. -/
theorem C64_never_silent_partial (env : EncodeEnv) (P : TrailerParser) (d : Disp) (h : Fresh d) (hs : d.conn.out.wbuf.strategy = .flatten) (as : List Act)
    (rs : List Round) (hd : (d.run env P as).done = false) (e : LoopEnd) (d' : Disp) (w : Wakers) (hl : (d.run env P as).pollLoop env P rs = some (e, d', w))
    (he : e ≠ .failed) (hn : d'.isDone = false) :
    w.ioRead = true ∨ w.ioWrite = true ∨ w.msg = true ∨ w.frame = true ∨ w.reader = true ∨ w.self = true := by
  obtain ⟨hg, _, hf, _⟩ := fresh_ok env P h as rs hd hl
  have ha := C64_attended env P d h as rs hd e d' w hl he
  have hw := C64_answered_partial env P d h hs as rs hd e d' w hl he
  have hdn : d'.done = false := by
    cases hx : d'.done with
    | false => rfl
    | true => exact absurd (hf.2 hx) he
  have hci := hg.ci hdn
  unfold Disp.isDone at hn
  have hc : d'.closing = false := by
    cases hx : d'.closing with
    | false => rfl
    | true => rw [hx] at hn; simp at hn
  simp only [hc, Bool.false_eq_true, if_false] at hn
  have hsend : d'.bodyRx = true ∨ d'.conn.canWriteBody = true ∨ (d'.conn.writing = .init ∧ (d'.conn.client = true → d'.conn.reading ≠ .closed) ∧ d'.shouldPoll = true) →
      w.ioRead = true ∨ w.ioWrite = true ∨ w.msg = true ∨ w.frame = true ∨ w.reader = true ∨ w.self = true := by
    intro h
    cases hb : d'.bodyRx with
    | true => rcases ha.frame hc hb with h | h | h <;> simp [h]
    | false =>
      rcases h with h | h | ⟨h1, h2, h3⟩
      · rw [hb] at h; cases h
      · rcases ha.ending hc hb h with h | h <;> simp [h]
      · rcases hw hc hb h1 h2 h3 with h | h <;> simp [h]
  cases hr : d'.conn.reading with
  | init => rcases ha.head hc hr with h | h <;> simp [h]
  | cont x => rcases ha.body hc (by simp [Conn.canReadBody, hr]) with h | h | h <;> simp [h]
  | body x => rcases ha.body hc (by simp [Conn.canReadBody, hr]) with h | h | h <;> simp [h]
  | closed =>
    cases hcl : d'.conn.client with
    | true => simp [hcl, hr] at hn
    | false =>
      cases hwr : d'.conn.writing with
      | closed => simp [hcl, hr, hwr] at hn
      | body x => exact hsend (.inr (.inl (by simp [Conn.canWriteBody, hwr])))
      | init =>
        simp only [hcl, hr, hwr, Bool.false_and, Bool.false_eq_true, if_false] at hn
        cases hb : d'.bodyRx with
        | true => exact hsend (.inl hb)
        | false =>
          refine hsend (.inr (.inr ⟨hwr, by simp [hcl], ?_⟩))
          simp [hb] at hn
          exact hn
      | keepAlive =>
        simp only [hcl, hr, hwr, Bool.false_and, Bool.false_eq_true, if_false] at hn
        cases hb : d'.bodyRx with
        | true => exact hsend (.inl hb)
        | false =>
          exfalso
          simp [hb, Disp.shouldPoll, hcl] at hn
          have := (hci.flight hcl (by intro e; rw [e] at hn; cases hn)).1
          rw [hwr] at this
          simp at this
  | keepAlive =>
    cases hwr : d'.conn.writing with
    | keepAlive => rcases ha.over hr (.inl hwr) with h | h <;> simp [h]
    | closed => rcases ha.over hr (.inr hwr) with h | h <;> simp [h]
    | body x => exact hsend (.inr (.inl (by simp [Conn.canWriteBody, hwr])))
    | init =>
      refine hsend (.inr (.inr ⟨hwr, by rw [hr]; simp, ?_⟩))
      unfold Disp.shouldPoll
      have hrest := hci.rest hwr
      rw [hr] at hrest
      cases hcl : d'.conn.client with
      | true => simp [hcl] at hrest
      | false =>
        cases hfl : d'.inFlight with
        | none => simp [hfl] at hrest
        | some n => rfl

/-- C64: a poll which gives up after its 16 turns wakes its own task. -/
theorem C64_yield (env : EncodeEnv) (P : TrailerParser) (d : Disp) (h : Fresh d) (as : List Act) (rs : List Round) (hd : (d.run env P as).done = false)
    (d' : Disp) (w : Wakers) (hl : (d.run env P as).pollLoop env P rs = some (.yielded, d', w)) : w.self = true := by
  exact (loopFrom_ok env P 16 rs _ {} (h.good.run env P as) hd hl).2.2.2 rfl

/-! ## Executions -/

namespace Poll

theorem exFresh (client : Bool) (t : Option Nat) : Fresh (exDisp client t) := ⟨exDisp_start client t, rfl, rfl⟩

/-- With a transport that takes several pieces at once, what is to be sent is queued (io.rs 55-60). -/
def queued (d : Disp) : Disp := { d with conn := { d.conn with out := { d.conn.out with wbuf := { d.conn.out.wbuf with strategy := .queue } } } }

/-- With `pipeline_flush`. -/
def pipelined (d : Disp) : Disp := { d with conn := { d.conn with out := { d.conn.out with flushPipeline := true } } }

/-- With `half_close`. -/
def halved (d : Disp) : Disp := { d with conn := { d.conn with halfClose := true } }

theorem queued_fresh (client : Bool) : Fresh (queued (exDisp client)) := ⟨by constructor <;> rfl, rfl, rfl⟩

theorem halved_fresh : Fresh (halved (queued (exDisp false))) := ⟨by constructor <;> rfl, rfl, rfl⟩

def rIn (p : ParseIn) (rd : Hyper.Rd) : ReadIn :=
  { ready := true, t0 := 0, t1 := 0, parse := p, notify := .pending, full := false, gone := false, rd := rd, bufEmpty := true, io := .pending }

def wIn (m : MsgOut) (f : FrameIn) : WriteIn := { msg := m, frame := f, flush := HandOver.exStuck, notify := .pending }

/-- Polls of one turn or more each; what the last one leaves. -/
def polls (d : Disp) : List (List Round) → Option (LoopEnd × Disp × Wakers)
  | [] => none
  | [r] => d.pollLoop exEnv exP r
  | r :: rs =>
    match d.pollLoop exEnv exP r with
    | some (.settled, d, _) => polls d rs
    | _ => none

/-- What the connection is waiting for, and who has the waker. -/
def seen (x : Option (LoopEnd × Disp × Wakers)) : Option (LoopEnd × Wakers) := x.map (fun y => (y.1, y.2.2))

/-- A message is wanted from the service or from the queue of requests, and could be written. -/
def wanted (x : Option (LoopEnd × Disp × Wakers)) : Bool :=
  match x with
  | some y => !y.2.1.closing && !y.2.1.bodyRx && y.2.1.conn.canWriteHead && y.2.1.shouldPoll
  | none => false

/-- A request with a body arrives; the answer is complete, but the transport takes nothing of it yet. -/
def busy : Round :=
  { reads := [rIn (.msg (exIn 3 false true)) exNo, rIn .pending exNo],
    writes := [wIn (exResp [] (some (.known 5))) .pending, wIn .pending (.frame (.data (ascii "hello") true)), wIn .pending .pending],
    flush := HandOver.exStuck, notify := .pending }

/-- The rest of the request arrives. -/
def rest : Round :=
  { reads := [rIn .pending ⟨ascii "abc", [], .silent⟩, rIn .pending exNo], writes := [wIn .pending .pending], flush := HandOver.exStuck, notify := .pending }

/-- The next request arrives, and the transport takes all that is to be sent. -/
def second : Round :=
  { reads := [rIn (.msg (exIn 0 false true)) exNo, rIn .pending exNo, rIn .pending exNo], writes := [wIn .pending .pending], flush := exFlushIn, notify := .pending }

/-- A request with a body is written, of which the transport takes nothing yet. -/
def asking : Round :=
  { reads := [rIn .pending exNo],
    writes := [wIn (exSend [] (some (.known 5))) .pending, wIn .pending (.frame (.data (ascii "hello") true)), wIn .pending .pending],
    flush := HandOver.exStuck, notify := .pending }

/-- The response arrives nevertheless. -/
def early : Round :=
  { reads := [rIn (.msg (exIn 0 false true)) exNo, rIn .pending exNo], writes := [wIn .pending .pending], flush := HandOver.exStuck, notify := .pending }

/-- Nothing happens; the transport is (`true`) or is not able to take what is to be sent. -/
def nothing (f : Bool) : Round :=
  { reads := [rIn .pending exNo], writes := [wIn .pending .pending], flush := if f then exFlushIn else HandOver.exStuck, notify := .pending }

/-- A request arrives, with a part of the next one, and is answered. -/
def partly : Round :=
  { reads := [rIn (.msg (exIn 0 false true)) exNo, rIn .pending exNo],
    writes := [wIn (exResp [] (some (.known 5))) .pending, wIn .pending (.frame (.data (ascii "hello") true)), wIn .pending .pending],
    flush := { writes := [], flushes := [], readBuf := ascii "GET /" }, notify := .bytes }

def partly' : Round :=
  { reads := [rIn .pending exNo], writes := [wIn .pending .pending], flush := { writes := [], flushes := [], readBuf := ascii "GET /" }, notify := .blocked }

/-- A request is answered, and more of the answer's body is there after the flush. -/
def twice : Round :=
  { reads := [rIn (.msg (exIn 0 false true)) exNo, rIn .pending exNo, rIn .pending exNo],
    writes := [wIn (exResp [] (some (.known 5))) .pending, wIn .pending .pending], flush := exFlushIn, notify := .pending,
    writes2 := [wIn .pending (.frame (.data (ascii "hel") false)), wIn .pending .pending], flush2 := HandOver.exStuck }

end Poll

/-- The usual case: the service has the waker as soon as its answer can be written. -/
example : seen (polls (exDisp false) [[busy], [rest], [second]]) = some (.settled, { ioRead := true, msg := true }) ∧
    wanted (polls (exDisp false) [[busy], [rest], [second]]) = true := by
  decide +kernel

/-- While the transport takes nothing it has the waker, and so has the body of the request. -/
example : seen (polls (exDisp false) [[busy]]) = some (.settled, { ioRead := true, ioWrite := true }) := by
  decide +kernel

/-- A client which waits for requests. -/
example : seen (polls (exDisp true) [[asking], [early, nothing false], [nothing true]]) = some (.settled, { ioRead := true, msg := true }) ∧
    wanted (polls (exDisp true) [[asking], [early, nothing false], [nothing true]]) = true := by
  decide +kernel

/-- A second write after the flush has made room: the body is asked again. -/
example : seen (polls (exDisp false) [[twice]]) = some (.late, { ioRead := true, ioWrite := true, frame := true, self := true }) := by
  decide +kernel

/-- C64 does not hold for the service when what is to be sent is queued: the second request arrives while the first response is being sent; the
service was given the request, and nobody polls its future. -/
theorem C64_service_forgotten :
    seen (polls (queued (exDisp false)) [[busy], [rest], [second]]) = some (.settled, { ioRead := true }) ∧
    wanted (polls (queued (exDisp false)) [[busy], [rest], [second]]) = true := by
  decide +kernel

/-- The same with `half_close`: nobody at all can wake the connection. -/
theorem C64_silent :
    seen (polls (halved (queued (exDisp false))) [[busy], [rest], [second]]) = some (.settled, {}) ∧
    wanted (polls (halved (queued (exDisp false))) [[busy], [rest], [second]]) = true := by
  decide +kernel

/-- The same for a client: the response arrives while the request is being sent; afterwards nobody looks for further requests. -/
theorem C64_request_forgotten :
    seen (polls (queued (exDisp true)) [[asking], [early, nothing false], [nothing true]]) = some (.settled, { ioRead := true }) ∧
    wanted (polls (queued (exDisp true)) [[asking], [early, nothing false], [nothing true]]) = true := by
  decide +kernel

/-- With `pipeline_flush` a complete response is kept back as long as a part of the next request has arrived, and the transport is not asked to take
it. -/
theorem C64_response_kept_back :
    seen (polls (pipelined (exDisp false)) [[partly, partly']]) = some (.settled, { ioRead := true }) ∧
    (polls (pipelined (exDisp false)) [[partly, partly']]).map (fun y => (y.2.1.conn.out.sink.sent, decide (WriteBuf.remaining bytesBuf y.2.1.conn.out.wbuf = 0))) =
      some ([], false) := by
  decide +kernel

end Hyper
