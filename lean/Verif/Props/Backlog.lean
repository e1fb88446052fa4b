import Verif.Proof.Backlog
import Verif.Props.Wire

/-!
# C89: what a connection holds for writing is bounded

A peer that does not read must not make the connection buffer without end: the user's body is asked for more only while little waits
(`can_buffer`, io.rs 157-159 and 584-591; dispatch.rs 356-448).
-/

namespace Hyper

open Backlog

/-- C89, taking from the user: without `pipeline_flush`, in every reachable state a turn of writing polls the user's body only while fewer bytes wait
than the limit, in fewer than sixteen pieces. -/
theorem C89_backpressure (env : EncodeEnv) (P : TrailerParser) (d : Disp) (h : Wire.Fresh d) (hp : d.conn.out.flushPipeline = false) (as : List Act)
    (hpoll : Wire.polls (d.run env P as) = true) :
    held (d.run env P as).conn < d.conn.out.wbuf.maxBufSize ∧ pieces (d.run env P as).conn < 16 := by
  obtain ⟨p, hm⟩ : ∃ p, ∀ a ∈ as, actCost a ≤ p := by
    clear hpoll
    induction as with
    | nil => exact ⟨0, fun a ha => by cases ha⟩
    | cons a as ih =>
      obtain ⟨p, hm⟩ := ih
      refine ⟨max (actCost a) p, fun x hx => ?_⟩
      rcases List.mem_cons.1 hx with e | e
      · rw [e]; exact Nat.le_max_left _ _
      · exact Nat.le_trans (hm x e) (Nat.le_max_right _ _)
  have b : Bounded d.conn.out.wbuf.maxBufSize p 0 d :=
    ⟨Poll.vi_start h.start, h.wi.ok, rfl, hp, by simp [held, Spec.waiting, h.headers, h.queue, Spec.concat], by simp [pieces, h.queue]⟩
  have hb := b.run env P as hm
  obtain ⟨_, _, _, hc, _⟩ := Wire.polls_iff.1 hpoll
  have := canBuffer_room hb.ok hb.pipeline hc
  rw [hb.same] at this
  exact this

/-- C89, partial: without `pipeline_flush`, in every run no more waits than the heads put since nothing waited, the limit, and one frame.  Missing: a
bound on the heads themselves; there is none (`C89_heads_unbounded`), and with `pipeline_flush` there is no bound at all
(`C89_pipeline_unbounded`). -/
theorem C89_bound_partial (env : EncodeEnv) (P : TrailerParser) (d : Disp) (h : Wire.Fresh d) (hp : d.conn.out.flushPipeline = false) (as : List Act)
    (p : Nat) (hm : ∀ a ∈ as, actCost a ≤ p) :
    held (d.run env P as).conn ≤ heads env P d 0 as + d.conn.out.wbuf.maxBufSize + p ∧ pieces (d.run env P as).conn ≤ 16 := by
  have b : Bounded d.conn.out.wbuf.maxBufSize p 0 d :=
    ⟨Poll.vi_start h.start, h.wi.ok, rfl, hp, by simp [held, Spec.waiting, h.headers, h.queue, Spec.concat], by simp [pieces, h.queue]⟩
  have hb := b.run env P as hm
  exact ⟨hb.bytes, hb.count⟩

/-- C89 of a server whose requests have no bodies: without `pipeline_flush` no more ever waits than the largest head, or the limit and one frame. -/
theorem C89_bodyless (env : EncodeEnv) (P : TrailerParser) (d : Disp) (h : Wire.Fresh d) (hc : d.conn.client = false)
    (hp : d.conn.out.flushPipeline = false) (as : List Act) (hb : ∀ a ∈ as, bodyless a = true) (p : Nat) (hm : ∀ a ∈ as, actCost a ≤ p) :
    held (d.run env P as).conn ≤ max (tallest env P d as) (d.conn.out.wbuf.maxBufSize + p) := by
  have hz : held d.conn = 0 := by simp [held, Spec.waiting, h.headers, h.queue, Spec.concat]
  have b : Tight d.conn.out.wbuf.maxBufSize p (tallest env P d as) d :=
    ⟨Poll.vi_start h.start, h.wi.ok, rfl, hp, ⟨hc, fun dd => by rw [h.start.reading]; exact ⟨by simp, by simp⟩, fun _ => hz⟩, by rw [hz]; exact Nat.zero_le _⟩
  exact (b.run env P as hm hb (Nat.le_refl _)).bytes

/-! ## Heads pile up -/

namespace Backlog

/-- The peer takes nothing. -/
def stuck : FlushIn := ⟨[.pending], [], []⟩

/-- A request with a body of two bytes is answered; the service drops its body `k`; the peer takes nothing of the answer but sends the two bytes. -/
def ignored (k : Nat) : List Act :=
  [exRead (.msg (exIn 2 false true)) exNo, exWrite (exResp [] none) .pending, .flush stuck .pending, .dropReader k, .finish true stuck,
   exRead .pending ⟨ascii "hi", [], .silent⟩]

/-- `n` such requests. -/
def pile : Nat → List Act
  | 0 => []
  | n + 1 => pile n ++ ignored n

/-- The connection between two of the requests. -/
def between (s : WriteStrategy) (hb : Bytes) (log : List Ev) (chans : List Chan) (next : Nat) (ka : KA) : Disp :=
  { conn := { client := false, ka := ka, log := log,
              out := { wbuf := { headers := ⟨hb, 0⟩, maxBufSize := 8192, queue := [], strategy := s }, flushPipeline := false,
                       sink := { writes := [], flushes := [], sent := [] } } },
    next := next, chans := chans }

/-- The answer. -/
def answer : Bytes := ascii "HTTP/1.1 200 OK\r\ncontent-length: 0\r\ndate: today\r\n\r\n"

theorem answer_enc : serverEncode exEnv ⟨⟨.h11, 200, [], none, none⟩, none, true, some mGET, false, true⟩ [] = (answer, .ok ⟨.length 0, false⟩) := by
  decide +kernel

/-- A request has been read. -/
def asked (s : WriteStrategy) (hb : Bytes) (log : List Ev) (chans : List Chan) (next : Nat) : Disp :=
  { between s hb log chans next .busy with
    conn := { (between s hb log chans next .busy).conn with
      reading := .body (Decoder.ofLength ⟨2⟩ none none), method := some mGET, log := log ++ [Ev.readHead next false true] },
    bodyTx := some chans.length, chans := chans ++ [{ id := next, len := ⟨2⟩, want := .ready }], inFlight := some next, next := next + 1 }

/-- It has been answered. -/
def replied (s : WriteStrategy) (hb : Bytes) (log : List Ev) (chans : List Chan) (next k : Nat) : Disp :=
  { between s hb log chans next .busy with
    conn := { (between s hb log chans next .busy).conn with
      reading := .body (Decoder.ofLength ⟨2⟩ none none), writing := .keepAlive, method := some mGET },
    bodyTx := some k }

theorem asks (s : WriteStrategy) (hb : Bytes) (log : List Ev) (chans : List Chan) (next : Nat) (ka : KA) (hk : ka ≠ .disabled) :
    (between s hb log chans next ka).step exEnv exP (exRead (.msg (exIn 2 false true)) exNo) = asked s hb log chans next := by
  cases ka with
  | disabled => exact absurd rfl hk
  | _ => rfl

theorem replies (s : WriteStrategy) (hb : Bytes) (log : List Ev) (chans : List Chan) (next : Nat) :
    (asked s hb log chans next).step exEnv exP (exWrite (exResp [] none) .pending) =
      replied s (hb ++ answer) (log ++ [Ev.readHead next false true] ++ [Ev.writeHead next false] ++ [Ev.writeEnd])
        (chans ++ [{ id := next, len := ⟨2⟩, want := .ready }]) (next + 1) chans.length := by
  have hr : (asked s hb log chans next).conn.respEnc exEnv ⟨⟨.h11, 200, [], none, none⟩, none⟩ = (hb ++ answer, .ok ⟨.length 0, false⟩) := by
    unfold Conn.respEnc
    rw [Wire.serverEncode_pre]
    have : serverEncode exEnv ((asked s hb log chans next).conn.respMsg ⟨⟨.h11, 200, [], none, none⟩, none⟩).2 [] = (answer, .ok ⟨.length 0, false⟩) :=
      answer_enc
    rw [this]; rfl
  have hs : (asked s hb log chans next).step exEnv exP (exWrite (exResp [] none) .pending) =
      { asked s hb log chans next with
        inFlight := none, bodyRx := false,
        conn := (asked s hb log chans next).conn.writeResp exEnv ⟨⟨.h11, 200, [], none, none⟩, none⟩ (.writeHead next) } := rfl
  rw [hs]
  unfold Conn.writeResp
  simp only [hr]
  rfl

theorem flushes (s : WriteStrategy) (hb : Bytes) (hne : hb ≠ []) (log : List Ev) (chans : List Chan) (next k : Nat) :
    (replied s hb log chans next k).step exEnv exP (.flush stuck .pending) = replied s hb log chans next k := by
  cases hb with
  | nil => exact absurd rfl hne
  | cons b t => cases s <;> rfl

theorem ends (s : WriteStrategy) (hb : Bytes) (log : List Ev) (chans : List Chan) (next k : Nat) :
    (replied s hb log chans next k).step exEnv exP (.finish true stuck) = replied s hb log chans next k := rfl

theorem modify_last (cs : List Chan) (c : Chan) (f : Chan → Chan) : updChan (cs ++ [c]) cs.length f = cs ++ [f c] := by
  unfold updChan
  induction cs with
  | nil => rfl
  | cons x cs ih => simp only [List.cons_append, List.length_cons, List.modify_succ_cons, ih]

theorem leaves (s : WriteStrategy) (hb : Bytes) (log : List Ev) (chans : List Chan) (c : Chan) (next : Nat) :
    (replied s hb log (chans ++ [c]) next chans.length).step exEnv exP (.dropReader chans.length) =
      replied s hb log (chans ++ [{ c with want := .closed }]) next chans.length := by
  have : updChan (chans ++ [c]) chans.length (fun ch => { ch with want := .closed }) = chans ++ [{ c with want := .closed }] := modify_last _ _ _
  show ({ replied s hb log (chans ++ [c]) next chans.length with chans := updChan (chans ++ [c]) chans.length (fun ch => { ch with want := .closed }) } : Disp) = _
  rw [this]; rfl

theorem drains (s : WriteStrategy) (hb : Bytes) (log : List Ev) (chans : List Chan) (c : Chan) (hc : c.want = .closed) (next : Nat) :
    (replied s hb log (chans ++ [c]) next chans.length).step exEnv exP (exRead .pending ⟨ascii "hi", [], .silent⟩) =
      between s hb (log ++ [Ev.readEnd]) (chans ++ [c.dropSender]) next .idle := by
  have h1 : ((chans ++ [c])[chans.length]?).map Chan.want = some .closed := by simp [hc]
  have h2 : updChan (chans ++ [c]) chans.length Chan.dropSender = chans ++ [c.dropSender] := modify_last _ _ _
  have hs : (replied s hb log (chans ++ [c]) next chans.length).step exEnv exP (exRead .pending ⟨ascii "hi", [], .silent⟩) =
      (replied s hb log (chans ++ [c]) next chans.length).readBody exP
        { ready := true, t0 := 0, t1 := 0, parse := .pending, notify := .pending, full := false, gone := false, rd := ⟨ascii "hi", [], .silent⟩, bufEmpty := true, io := .pending }
        chans.length := rfl
  rw [hs]
  unfold Disp.readBody
  have hcan : (replied s hb log (chans ++ [c]) next chans.length).conn.canReadBody = true := rfl
  have hch : (replied s hb log (chans ++ [c]) next chans.length).chans = chans ++ [c] := rfl
  rw [if_pos hcan, hch, h1]
  simp only [Disp.dropBody, hch, h2]
  rfl

theorem ignored_run (s : WriteStrategy) (hb : Bytes) (log : List Ev) (chans : List Chan) (next : Nat) (ka : KA) (hk : ka ≠ .disabled) :
    ∃ log' c, (between s hb log chans next ka).run exEnv exP (ignored chans.length) = between s (hb ++ answer) log' (chans ++ [c]) (next + 1) .idle := by
  simp only [ignored, Disp.run, List.foldl_cons, List.foldl_nil]
  rw [asks _ _ _ _ _ _ hk, replies, flushes _ _ (by intro h; have := congrArg List.length h; simp [answer, ascii] at this), leaves, ends, drains _ _ _ _ _ rfl]
  exact ⟨_, _, rfl⟩

theorem pile_run (s : WriteStrategy) : ∀ n, ∃ log chans ka, ka ≠ .disabled ∧ chans.length = n ∧
    ((between s [] [] [] 0 .busy).run exEnv exP (pile n)) = between s ((List.replicate n answer).flatten) log chans n ka := by
  intro n
  induction n with
  | zero => exact ⟨[], [], .busy, by decide, rfl, rfl⟩
  | succ n ih =>
    obtain ⟨log, chans, ka, hk, hn, h⟩ := ih
    obtain ⟨log', c, h'⟩ := ignored_run s (List.replicate n answer).flatten log chans n ka hk
    refine ⟨log', chans ++ [c], .idle, by decide, by simp [hn], ?_⟩
    rw [hn] at h'
    simp only [pile, Disp.run, List.foldl_append] at h h' ⊢
    rw [h, h', List.replicate_succ', List.flatten_append]; simp

theorem answers_length (n : Nat) : n ≤ (List.replicate n answer).flatten.length := by
  have : answer.length = 51 := by decide +kernel
  induction n with
  | zero => exact Nat.zero_le _
  | succ n ih => simp only [List.replicate_succ, List.flatten_cons, List.length_append, this]; omega

theorem held_between (s : WriteStrategy) (hb : Bytes) (log : List Ev) (chans : List Chan) (n : Nat) (ka : KA) : held (between s hb log chans n ka).conn = hb.length := by
  simp [held, Spec.waiting, between, Spec.concat]

end Backlog

/-- C89 without the heads is false: a peer that sends requests with small bodies and reads none of the answers makes a server whose service ignores
these bodies hold any number of heads, with either strategy and without `pipeline_flush`: the end of a request's body makes the connection ready
for the next request although the answer has not been flushed, and a head is written however much waits. -/
theorem C89_heads_unbounded (s : WriteStrategy) (n : Nat) :
    Wire.Fresh (between s [] [] [] 0 .busy) ∧ (between s [] [] [] 0 .busy).conn.out.flushPipeline = false ∧
    n ≤ held ((between s [] [] [] 0 .busy).run exEnv exP (pile n)).conn := by
  refine ⟨⟨by constructor <;> rfl, rfl, rfl, rfl⟩, rfl, ?_⟩
  obtain ⟨log, chans, ka, _, _, h⟩ := pile_run s n
  rw [h, held_between]
  exact answers_length n

/-! ## Frames pile up with `pipeline_flush` -/

namespace Backlog

/-- A connection with `pipeline_flush` that is writing a chunked body. -/
structure Streaming (d : Disp) : Prop where
  polls : Wire.polls d = true
  pipeline : d.conn.out.flushPipeline = true
  ok : Wire.BufOk d.conn
  writing : d.conn.writing = .body Encoder.chunked

theorem Streaming.step {d : Disp} (h : Streaming d) (env : EncodeEnv) (P : TrailerParser) (m : MsgOut) (fl : FlushIn) (nt : NotifyIn) :
    Streaming (d.step env P (.write ⟨m, .frame (.data (ascii "x") false), fl, nt⟩)) ∧
    held (d.step env P (.write ⟨m, .frame (.data (ascii "x") false), fl, nt⟩)).conn = held d.conn + 6 := by
  obtain ⟨hd, hcl, hrx, hb, hwb⟩ := Wire.polls_iff.1 h.polls
  have hs : d.step env P (.write ⟨m, .frame (.data (ascii "x") false), fl, nt⟩) = { d with conn := d.conn.writeBody (ascii "x") } := by
    have : d.writeFrame (.frame (.data (ascii "x") false)) = { d with conn := d.conn.writeBody (ascii "x") } := by
      rw [Disp.writeFrame, if_neg (by decide +kernel)]
    rw [← this]
    simp only [Disp.step, Disp.writeTurn, hd, hcl, hrx, hb, hwb, Bool.false_eq_true, if_false, Bool.not_true, Bool.false_and, if_true]
  have hw : d.conn.writing.writeBody (ascii "x") = (ascii "1\r\nx\r\n", .body Encoder.chunked) := by
    rw [h.writing]; decide +kernel
  have hc : d.conn.writeBody (ascii "x") = (d.conn.put (ascii "1\r\nx\r\n")).setWriting (.body Encoder.chunked) := by
    unfold Conn.writeBody; rw [hw]
  have hg := grow_put d.conn (ascii "1\r\nx\r\n")
  have hne : (ascii "1\r\nx\r\n") ≠ [] := by decide +kernel
  obtain ⟨w', b1, b2, b3, b4⟩ := buffer_spec bytesBuf_stands h.ok true (ascii "1\r\nx\r\n") trivial hne
  have hp : d.conn.put (ascii "1\r\nx\r\n") = { d.conn with out := { d.conn.out with wbuf := w' } } := by
    unfold Conn.put; rw [if_neg hne, b1]
  rw [hs, hc, hp]
  refine ⟨⟨Wire.polls_iff.2 ⟨hd, hcl, hrx, ?_, rfl⟩, h.pipeline, b2, rfl⟩, ?_⟩
  · show (d.conn.out.flushPipeline || _) = true
    rw [h.pipeline]; rfl
  · show (Spec.waiting id w').length = _
    rw [b4, List.length_append]
    have : (id (ascii "1\r\nx\r\n")).length = 6 := by decide +kernel
    rw [this]; rfl

theorem Streaming.run {d : Disp} (h : Streaming d) (env : EncodeEnv) (P : TrailerParser) (m : MsgOut) (fl : FlushIn) (nt : NotifyIn) : ∀ n,
    Streaming (d.run env P (List.replicate n (.write ⟨m, .frame (.data (ascii "x") false), fl, nt⟩))) ∧
    held (d.run env P (List.replicate n (.write ⟨m, .frame (.data (ascii "x") false), fl, nt⟩))).conn = held d.conn + 6 * n := by
  intro n
  induction n with
  | zero => exact ⟨h, by simp [Disp.run]⟩
  | succ n ih =>
    obtain ⟨a, b⟩ := ih
    obtain ⟨x, y⟩ := a.step env P m fl nt
    simp only [List.replicate_succ', Disp.run, List.foldl_append, List.foldl_cons, List.foldl_nil] at b x y ⊢
    exact ⟨x, by rw [y, b]; omega⟩

/-- A new connection with `pipeline_flush`. -/
def piping (s : WriteStrategy) : Disp := { between s [] [] [] 0 .busy with conn.out.flushPipeline := true }

/-- A request is answered by a body of unknown length that always has a byte. -/
def endless (n : Nat) : List Act :=
  [exRead (.msg (exIn 0 false true)) exNo, exWrite (exResp [] (some .unknown)) .pending] ++
    List.replicate n (.write ⟨.pending, .frame (.data (ascii "x") false), stuck, .pending⟩)

theorem streams (s : WriteStrategy) : Streaming ((piping s).run exEnv exP (endless 0)) := by
  cases s
  all_goals
    refine ⟨by decide +kernel, by decide +kernel, ⟨by decide +kernel, ?_, ?_⟩, by decide +kernel⟩
    · rw [show ((piping _).run exEnv exP (endless 0)).conn.out.wbuf.queue = [] by decide +kernel]
      intro b hb; cases hb
    · intro _; decide +kernel

end Backlog

/-- C89 is false with `pipeline_flush`: whatever waits, the user's body is asked for more. -/
theorem C89_pipeline_unbounded (s : WriteStrategy) (n : Nat) :
    Wire.Fresh (piping s) ∧ n ≤ held ((piping s).run exEnv exP (endless n)).conn ∧ Wire.polls ((piping s).run exEnv exP (endless n)) = true := by
  refine ⟨⟨by constructor <;> rfl, rfl, rfl, rfl⟩, ?_⟩
  have h := (streams s).run exEnv exP .pending stuck .pending n
  have e : (piping s).run exEnv exP (endless n) = ((piping s).run exEnv exP (endless 0)).run exEnv exP
      (List.replicate n (.write ⟨.pending, .frame (.data (ascii "x") false), stuck, .pending⟩)) := by
    simp [endless, Disp.run]
  rw [e]
  exact ⟨by rw [h.2]; omega, h.1.polls⟩

/-! ## Examples -/

/-- A connection with a small limit. -/
def Backlog.exSmall (s : WriteStrategy) : Disp := { exDisp false with conn.out.wbuf.strategy := s, conn.out.wbuf.maxBufSize := 100 }

example : Wire.Fresh (exSmall .queue) ∧
    (let d := (exSmall .queue).run exEnv exP (endless 6)
     Wire.polls ((exSmall .queue).run exEnv exP (endless 0)) = true ∧ Wire.polls d = true ∧ held d.conn = 96 ∧ pieces d.conn = 6 ∧
     heads exEnv exP (exSmall .queue) 0 (endless 6) = 60 ∧ actCost (.write ⟨.pending, .frame (.data (ascii "x") false), stuck, .pending⟩) = 11) :=
  ⟨⟨by constructor <;> rfl, rfl, rfl, rfl⟩, by decide +kernel⟩

/-- One more is taken, and no further one. -/
example : held ((exSmall .flatten).run exEnv exP (endless 7)).conn = 102 ∧ Wire.polls ((exSmall .flatten).run exEnv exP (endless 7)) = false ∧
    held ((exSmall .flatten).run exEnv exP (endless 30)).conn = 102 := by decide +kernel

/-- With the queue, sixteen pieces are enough. -/
example : pieces ((exDisp false).run exEnv exP (endless 20)).conn = 0 ∧ held ((exDisp false).run exEnv exP (endless 20)).conn = 180 ∧
    pieces (Wire.exQueue.run exEnv exP (endless 20)).conn = 16 ∧ held (Wire.exQueue.run exEnv exP (endless 20)).conn = 156 := by decide +kernel

/-- Requests without bodies: the second is not read before the first answer is flushed. -/
example : (∀ a ∈ endless 7, bodyless a = true) ∧ tallest exEnv exP (exSmall .flatten) (endless 7) = 60 ∧
    (let two := [exRead (.msg (exIn 0 false true)) exNo, exWrite (exResp [] none) .pending, .flush stuck .pending,
       exRead (.msg (exIn 0 false true)) exNo, exWrite (exResp [] none) .pending]
     (∀ a ∈ two, bodyless a = true) ∧ tallest exEnv exP (exSmall .flatten) two = 51 ∧ held ((exSmall .flatten).run exEnv exP two).conn = 51) := by decide +kernel

/-- Once all is flushed the heads are counted anew. -/
example : heads exEnv exP (exDisp false) 0 (pile 3) = 153 ∧ held ((exDisp false).run exEnv exP (pile 3)).conn = 153 ∧
    heads exEnv exP (exDisp false) 0 (pile 3 ++ [.flush exFlushIn .pending]) = 0 ∧
    held ((exDisp false).run exEnv exP (pile 3 ++ [.flush exFlushIn .pending])).conn = 0 := by decide +kernel

end Hyper
