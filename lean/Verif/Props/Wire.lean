import Verif.Proof.Wire

/-!
# C65: the bytes of an HTTP/1 connection are its messages

`story env P d [] as` lists what the connection has begun to write in the run `as`, in order: interim responses, and messages with the frames
their user's bodies have yielded.  What each of them looks like is told by the encoder of heads and by `writeFrames`, the writing of a body on
its own.  The theorems say that the connection, which interleaves this with reading, flushing and everything else, puts exactly that on the wire.
-/

namespace Hyper

namespace Wire

/-- A connection as it starts, with nothing written. -/
structure Fresh (d : Disp) : Prop where
  start : d.Start
  headers : d.conn.out.wbuf.headers = ⟨[], 0⟩
  queue : d.conn.out.wbuf.queue = []
  sent : d.conn.out.sink.sent = []

/-- The pieces are on the wire, one after the other: all of them complete, but for the last one as long as the connection is writing it, or if the
connection ended with it. -/
inductive OnWire (d : Disp) : List Piece → Prop where
  | whole {st : List Piece} (h : ∀ p ∈ st, p.Whole) (hw : wire d.conn = st.flatMap Piece.bytes) : OnWire d st
  | last {pre : List Piece} {m : Message} {body : Bytes} (h : ∀ p ∈ pre, p.Whole) (hw : wire d.conn = pre.flatMap Piece.bytes ++ (m.head ++ body))
      (ht : body = (m.written []).out ∨ Partly m body) (hc : (∃ e, d.conn.writing = .body e) ∨ d.conn.writing = .closed ∨ d.done = true) :
      OnWire d (pre ++ [.message m])

theorem Fresh.wi {d : Disp} (h : Fresh d) : WI d.conn.out.wbuf.strategy d [] := by
  refine ⟨⟨?_, ?_, fun _ => h.queue⟩, rfl, ?_, .whole (fun p hp => by cases hp) ?_ (fun e he => ?_)⟩
  · rw [h.headers]; exact Nat.le_refl _
  · rw [h.queue]; intro b hb; cases hb
  · rw [h.start.log]; rfl
  · simp [wire, h.sent, Spec.waiting, h.headers, h.queue, Spec.concat]
  · rw [h.start.writing] at he; cases he

theorem WI.onWire {s : WriteStrategy} {d : Disp} {st : List Piece} (h : WI s d st) : OnWire d st := by
  cases h.st with
  | whole a b c => exact .whole a b
  | stopped pre m body hs a b c hc => rw [hs]; exact .last a (by rw [b]; simp) c (.inr hc)
  | going pre m body e hs a b hp hb => rw [hs]; exact .last a (by rw [b]; simp) (.inr hp) (.inl ⟨e, hb⟩)

theorem WI.gated (env : EncodeEnv) (P : TrailerParser) : ∀ (as : List Act) {d : Disp} {st : List Piece}, WI .flatten d st → Poll.VI d.view → Gated env P d as := by
  intro as
  induction as with
  | nil => intro d st _ _; trivial
  | cons a as ih =>
    intro d st h hv
    have hc : WriteBuf.canHeadersBuf bytesBuf d.conn.out.wbuf = true := by
      simp [WriteBuf.canHeadersBuf, h.ok.flat h.strategy, BufList.remaining]
    exact ⟨fun _ _ _ => hc, ih (h.step env P hv a (fun _ _ _ => hc)) (Poll.vi_run env P [a] hv)⟩

/-- A client's connection puts nothing on the wire on its own. -/
theorem gated_client (env : EncodeEnv) (P : TrailerParser) : ∀ (as : List Act) (d : Disp), d.conn.client = true → Gated env P d as := by
  intro as
  induction as with
  | nil => intro d _; trivial
  | cons a as ih => intro d h; exact ⟨fun _ hc => by rw [h] at hc; (cases hc), ih _ ((step_client env P d a).trans h)⟩

end Wire

open Wire

/-- C65, with either strategy of buffering.  What is missing with the queueing one is `Gated`: no interim response and no answer to an unparsable
request is put while bytes of the body before are queued, for they overtake them (`C65_continue_overtakes`). -/
theorem C65_wire_partial (env : EncodeEnv) (P : TrailerParser) (d : Disp) (h : Fresh d) (as : List Act) (hg : Wire.Gated env P d as) :
    (story env P d [] as).map Piece.ev = (d.run env P as).conn.log.filter isOut ∧ OnWire (d.run env P as) (story env P d [] as) :=
  have hw := h.wi.run env P as (Poll.vi_start h.start) hg
  ⟨hw.log, hw.onWire⟩

/-- C65, with the flattening strategy: in every run, the bytes given to the transport or waiting to be are those of the messages begun, in the
order of the log, each complete before the next. -/
theorem C65_wire (env : EncodeEnv) (P : TrailerParser) (d : Disp) (h : Fresh d) (hf : d.conn.out.wbuf.strategy = .flatten) (as : List Act) :
    (story env P d [] as).map Piece.ev = (d.run env P as).conn.log.filter isOut ∧ OnWire (d.run env P as) (story env P d [] as) :=
  C65_wire_partial env P d h as (WI.gated env P as (hf ▸ h.wi) (Poll.vi_start h.start))

/-- C65, for a client, with either strategy. -/
theorem C65_client_wire (env : EncodeEnv) (P : TrailerParser) (d : Disp) (h : Fresh d) (hc : d.conn.client = true) (as : List Act) :
    (story env P d [] as).map Piece.ev = (d.run env P as).conn.log.filter isOut ∧ OnWire (d.run env P as) (story env P d [] as) :=
  C65_wire_partial env P d h as (gated_client env P as d hc)

/-- C65, between messages: a connection that is ready for the next message, or waits for the other half of the exchange, has put nothing but complete
messages on the wire. -/
theorem C65_settled (env : EncodeEnv) (P : TrailerParser) (d : Disp) (h : Fresh d) (as : List Act) (hg : Wire.Gated env P d as)
    (hd : (d.run env P as).done = false) (hw : (d.run env P as).conn.writing = .init ∨ (d.run env P as).conn.writing = .keepAlive) :
    (∀ p ∈ story env P d [] as, p.Whole) ∧ wire (d.run env P as).conn = (story env P d [] as).flatMap Piece.bytes := by
  have hi := h.wi.run env P as (Poll.vi_start h.start) hg
  cases hi.st with
  | whole a b c => exact ⟨a, b⟩
  | stopped pre m body hs a b c hc => rw [hd] at hc; rcases hw with hw | hw <;> rw [hw] at hc <;> rcases hc with hc | hc <;> cases hc
  | going pre m body e hs a b hp hb => rcases hw with hw | hw <;> rw [hw] at hb <;> cases hb

/-- C65, the end of a message: when a turn of writing ends the body being written, without an error, all of the message is on the wire, even if it
is the last one of the connection. -/
theorem C65_finished (env : EncodeEnv) (P : TrailerParser) (d : Disp) (h : Fresh d) (as : List Act) (i : WriteIn) (hg : Wire.Gated env P d as)
    (hb : ∃ e, (d.run env P as).conn.writing = .body e) (hd : (d.run env P (as ++ [.write i])).done = false)
    (hn : ∀ e, (d.run env P (as ++ [.write i])).conn.writing ≠ .body e) :
    ∃ pre m, story env P d [] (as ++ [.write i]) = pre ++ [.message m] ∧ (∀ p ∈ pre, p.Whole) ∧ (m.written []).result = .ok ∧
      wire (d.run env P (as ++ [.write i])).conn = pre.flatMap Piece.bytes ++ m.bytes := by
  have hi := h.wi.run env P as (Poll.vi_start h.start) hg
  have hs : ∀ (as : List Act) (d : Disp) (st : List Wire.Piece),
      story env P d st (as ++ [.write i]) = record env P (d.run env P as) (.write i) (story env P d st as) := by
    intro as
    induction as with
    | nil => intro d st; rfl
    | cons a as ih => intro d st; exact ih _ _
  have hr : d.run env P (as ++ [.write i]) = (d.run env P as).step env P (.write i) := by rw [disp_run_append]; rfl
  rw [hr] at hd hn ⊢
  rw [hs]
  obtain ⟨pre, m, h1, h2, h3, h4⟩ := (hi.write env P i).2 hb hd hn
  exact ⟨pre, m, h1, h2, h4, h3⟩

/-- C65: what the transport was given begins all that. -/
theorem C65_sent (env : EncodeEnv) (P : TrailerParser) (d : Disp) (h : Fresh d) (as : List Act) (hg : Wire.Gated env P d as)
    (hd : (d.run env P as).done = false) (hw : (d.run env P as).conn.writing = .init ∨ (d.run env P as).conn.writing = .keepAlive) :
    (d.run env P as).conn.out.sink.sent <+: (story env P d [] as).flatMap Piece.bytes := by
  rw [← (C65_settled env P d h as hg hd hw).2]
  exact List.prefix_append _ _

/-! ## Examples -/

namespace Wire

theorem exDisp_fresh (client : Bool) (t : Option Nat) : Fresh (exDisp client t) := ⟨exDisp_start client t, rfl, rfl, rfl⟩

/-- Two requests, the first with `Expect: 100-continue`; a chunked answer in two frames, then one with a length. -/
def exTwo : List Act :=
  [exRead (.msg (exIn 2 true true)) exNo, .want 0, exRead (.msg (exIn 0 false true)) ⟨ascii "hi", [], .silent⟩,
   exWrite (exResp [] (some .unknown)) .pending, exWrite .pending (.frame (.data (ascii "ab") false)),
   exWrite .pending (.frame (.data (ascii "cde") false)), exWrite .pending .eof, .flush exFlushIn .pending,
   exRead (.msg (exIn 0 false true)) exNo, exWrite (exResp [] (some (.known 3))) .pending, exWrite .pending (.frame (.data (ascii "xyz") true))]

example : wire ((exDisp false).run exEnv exP exTwo).conn = ascii ("HTTP/1.1 100 Continue\r\n\r\n" ++
      "HTTP/1.1 200 OK\r\ntransfer-encoding: chunked\r\ndate: today\r\n\r\n2\r\nab\r\n3\r\ncde\r\n0\r\n\r\n" ++
      "HTTP/1.1 200 OK\r\ncontent-length: 3\r\ndate: today\r\n\r\nxyz") ∧
    (story exEnv exP (exDisp false) [] exTwo).map Piece.bytes = [ascii "HTTP/1.1 100 Continue\r\n\r\n",
      ascii "HTTP/1.1 200 OK\r\ntransfer-encoding: chunked\r\ndate: today\r\n\r\n2\r\nab\r\n3\r\ncde\r\n0\r\n\r\n",
      ascii "HTTP/1.1 200 OK\r\ncontent-length: 3\r\ndate: today\r\n\r\nxyz"] ∧
    ((exDisp false).run exEnv exP exTwo).done = false := by decide +kernel

/-- A new server connection with the queueing strategy. -/
def exQueue : Disp := { exDisp false with conn.out.wbuf.strategy := .queue }

/-- A request is answered before its body has been read; then the body is read, and a request with `Expect: 100-continue` follows. -/
def exOvertake : List Act :=
  [exRead (.msg (exIn 2 false true)) exNo, exWrite (exResp [] (some (.known 3))) .pending, exWrite .pending (.frame (.data (ascii "xyz") true)),
   .want 0, exRead .pending ⟨ascii "hi", [], .silent⟩, exRead (.msg (exIn 2 true true)) exNo, .want 1, exRead .pending exNo]

end Wire

/-- C65 is false with the queueing strategy: the automatic `100 Continue` for the second request gets between the head and the body of the first
answer, as long as that body is still queued.  (The flattening strategy writes the same run in order.) -/
theorem C65_continue_overtakes :
    wire (exQueue.run exEnv exP exOvertake).conn =
      ascii "HTTP/1.1 200 OK\r\ncontent-length: 3\r\ndate: today\r\n\r\nHTTP/1.1 100 Continue\r\n\r\nxyz" ∧
    wire ((exDisp false).run exEnv exP exOvertake).conn =
      ascii "HTTP/1.1 200 OK\r\ncontent-length: 3\r\ndate: today\r\n\r\nxyzHTTP/1.1 100 Continue\r\n\r\n" ∧
    (exQueue.run exEnv exP exOvertake).conn.log.filter isOut = [.writeHead 0 false, .continue100] := by decide +kernel

/-- Yet queueing is fine as long as nothing of the kind happens. -/
example : Fresh exQueue ∧ wire (exQueue.run exEnv exP (exOvertake.take 5)).conn =
    ascii "HTTP/1.1 200 OK\r\ncontent-length: 3\r\ndate: today\r\n\r\nxyz" :=
  ⟨⟨by constructor <;> rfl, rfl, rfl, rfl⟩, by decide +kernel⟩

end Hyper
