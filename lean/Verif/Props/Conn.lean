import Verif.Proof.ConnTimer
import Verif.Props.ServerEncode
import Verif.Props.ClientEncode

/-!
# C26-C29, C42, C49, C54: the life of an HTTP/1 connection

Every statement is about all runs of the dispatcher: any sequence of turns, whatever the transport, the parser, the user's
messages and bodies, and the readers of bodies do at each of them.
-/

namespace Hyper

open Spec

/-! ## Examples of connections and inputs -/

/-- A new connection. -/
def exDisp (client : Bool) (timeout : Option Nat := none) : Disp :=
  { conn := { client := client, timeout := timeout,
              out := { wbuf := { headers := ⟨[], 0⟩, maxBufSize := 8192, queue := [], strategy := .flatten }, flushPipeline := false,
                       sink := { writes := [], flushes := [], sent := [] } } } }

theorem exDisp_start (client : Bool) (t : Option Nat) : (exDisp client t).Start := by
  constructor <;> rfl

/-- A message with a body of known length. -/
def exIn (len : Nat) (expect persist : Bool) : MsgIn :=
  { decode := ⟨len⟩, expect := expect, keepAlive := persist, wantsUpgrade := false, version := .h11, method := some mGET, teTrailers := false }

def exRead (p : ParseIn) (rd : Rd) : Act :=
  .read { ready := true, t0 := 0, t1 := 0, parse := p, notify := .pending, full := false, gone := false, rd := rd, bufEmpty := true, io := .pending }

/-- Nothing to read. -/
def exNo : Rd := ⟨[], [], .silent⟩

def exFlushIn : FlushIn := { writes := [.wrote 1000], flushes := [.ok], readBuf := [] }

def exWrite (m : MsgOut) (f : FrameIn) : Act := .write { msg := m, frame := f, flush := exFlushIn, notify := .pending }

/-- A response of the service. -/
def exResp (headers : HeaderMap) (body : Option BodyLength) : MsgOut := .resp ⟨⟨.h11, 200, headers, none, none⟩, body⟩

/-- A request of the user. -/
def exSend (headers : HeaderMap) (body : Option BodyLength) : MsgOut := .req ⟨mGET, ascii "/", .h11, headers, none⟩ body

def exP : TrailerParser := fun _ _ => none

/-! ## C27: exchanges do not interleave -/

/-- C27, server. -/
theorem C27_server_order (env : EncodeEnv) (P : TrailerParser) (as : List Act) (d : Disp) (h : d.Start) (hs : d.conn.client = false) :
    Each ServerOrder (d.run env P as).conn.log := by
  rw [← view_log]; exact (server_hist env P as d h hs).order

/-- C27, client. -/
theorem C27_client_order (env : EncodeEnv) (P : TrailerParser) (as : List Act) (d : Disp) (h : d.Start) (hs : d.conn.client = true) :
    Each ClientOrder (d.run env P as).conn.log := by
  rw [← view_log]; exact (client_hist env P as d h hs).order

/-- Two exchanges of a server, one after the other. -/
example : ((exDisp false).run exEnv exP
      [exRead (.msg (exIn 0 false true)) exNo, exWrite (exResp [] none) .pending, .flush exFlushIn .pending,
       exRead (.msg (exIn 0 false true)) exNo, exWrite (exResp [] none) .pending]).conn.log =
    [.readHead 0 false true, .readEnd, .writeHead 0 false, .writeEnd, .readHead 1 false true, .readEnd, .writeHead 1 false, .writeEnd] := by
  decide +kernel

/-- Two exchanges of a client. -/
example : ((exDisp true).run exEnv exP
      [exWrite (exSend [] none) .pending, exRead (.msg (exIn 0 false true)) exNo, .flush exFlushIn .pending,
       exWrite (exSend [] none) .pending, exRead (.msg (exIn 0 false true)) exNo]).conn.log =
    [.writeHead 0 false, .writeEnd, .readHead 0 false true, .readEnd, .writeHead 1 false, .writeEnd, .readHead 1 false true, .readEnd] := by
  decide +kernel

/-! ## C26: a connection once marked non-persistent is not reused -/

/-- C26, server: what happened before a request head is read. -/
theorem C26_server_persist (env : EncodeEnv) (P : TrailerParser) (as : List Act) (d : Disp) (h : d.Start) (hs : d.conn.client = false) :
    Each ServerPersist (d.run env P as).conn.log := by
  rw [← view_log]; exact (server_hist env P as d h hs).persist

/-- C26, client: what happened before a request head is written. -/
theorem C26_client_persist (env : EncodeEnv) (P : TrailerParser) (as : List Act) (d : Disp) (h : d.Start) (hs : d.conn.client = true) :
    Each ClientPersist (d.run env P as).conn.log := by
  rw [← view_log]; exact (client_hist env P as d h hs).persist

/-- C26: a response that says `Connection: close` is logged as the last one, unless the peer speaks HTTP/1.0.  Missing for the full
claim: HTTP/1.0 peers (`C26_close_overridden`). -/
theorem C26_response_close_partial (env : EncodeEnv) (c : Conn) (m : RespOut) (ev : Bool → Ev) (hv : c.version ≠ .h10)
    (hwf : ResponseWf (c.respMsg m).2) (hd : DateOk env) (hc : ∃ v ∈ valuesOf hCONN m.head.headers.fields, connectionClose v = true) :
    ev true ∈ (c.writeResp env m ev).log := by
  have hlast : ((c.respEnc env m).2.isLast || (c.respMsg m).1 == KA.disabled) = true := by
    by_cases hk : c.ka = .disabled
    · have : (c.respMsg m).1 = .disabled := by
        rcases respMsg_ka c m with h | h
        · rw [h, hk]
        · exact h
      simp [this]
    · have hh : (c.respMsg m).2.head.headers = m.head.headers := by
        unfold Conn.respMsg connMsg enforceVersion
        cases hver : c.version <;> simp_all
      have : (c.respEnc env m).2.isLast = true := by
        cases hr : c.respEnc env m with
        | mk out res =>
          cases res with
          | ok e =>
            obtain ⟨line, fs, _, _, _, hsays⟩ := serverEncode_full (S := False) hwf hd (fun h => h.elim) hr
            have hl := hsays.last
            rw [hh] at hl
            show e.isLast = true
            rw [hl, Bool.or_eq_true]
            right
            obtain ⟨v, h1, h2⟩ := hc
            exact List.any_eq_true.2 ⟨v, h1, h2⟩
          | _ => rfl
      simp [this]
  unfold Conn.writeResp Conn.setWriting
  simp only [hlast]
  split <;> simp

/-- C26: a request that says `Connection: close` is logged as the last one. -/
theorem C26_request_close (c : Conn) (h : ReqHead) (body : Option BodyLength) (n : Nat) (hc : connectionAnyClose h.headers = true) :
    Ev.writeHead n true ∈ (c.writeReq h body n).log := by
  have hk : (connReq c.version c.ka h).1 = .disabled := by
    unfold connReq enforceVersion fixKeepAlive
    simp only [hc, if_true]
    cases c.version <;> simp only [if_true]
    (repeat' split) <;> rfl
  unfold Conn.writeReq Conn.setWriting
  simp only [hk]
  split <;> simp

/-- C26, what the peer is told: once keep-alive is off, every response is marked as the last one, and on an HTTP/1.1 connection its head
lists `close` among the connection options. -/
theorem C26_response_announces_close (env : EncodeEnv) (c : Conn) (m : RespOut) (out : Bytes) (e : Encoder) (hk : c.ka = .disabled)
    (hwf : ResponseWf (c.respMsg m).2) (hd : DateOk env) (hr : c.respEnc env m = (out, .ok e)) :
    e.isLast = true ∧ (c.version = .h11 → ∃ line fs, out = c.out.wbuf.headers.bytes ++ line ++ lines fs ++ CRLF ∧
      (∀ f ∈ fs, WireField f) ∧ ∃ w ∈ valuesOf hCONN fs, ∃ x, Element w x ∧ Padded x (ascii "close")) := by
  obtain ⟨line, fs, _, _, hout, hsays⟩ := serverEncode_full (S := False) hwf hd (fun h => h.elim) hr
  have hka : (c.respMsg m).1 = .disabled := by
    rcases respMsg_ka c m with h | h
    · rw [h, hk]
    · exact h
  have hkeep : (c.respMsg m).2.keepAlive = false := by
    have : (c.respMsg m).2.keepAlive = (c.respMsg m).1.wants := rfl
    rw [this, hka]; rfl
  refine ⟨by rw [hsays.last, show decide (EndsConnection (c.respMsg m).2) = true from decide_eq_true (Or.inr (Or.inr hkeep))]; rfl, fun hv => ⟨line, fs, hout, hsays.wire, ?_⟩⟩
  have hh : (c.respMsg m).2.head.headers = m.head.headers.insert hCONN (ascii "close") := by
    unfold Conn.respMsg connMsg enforceVersion
    simp only [hv, hk, if_true]
  have hmem : ascii "close" ∈ valuesOf hCONN (c.respMsg m).2.head.headers.fields := by
    have hg : (hCONN, ascii "close") ∈ (c.respMsg m).2.head.headers.fields := by
      rw [hh]; apply getAll_mem_fields; rw [getAll_insert, if_pos rfl]; simp
    exact List.mem_map.2 ⟨_, List.mem_filter.2 ⟨hg, by decide +kernel⟩, rfl⟩
  obtain ⟨t, ht, w, hw, x, hx, hp⟩ := hsays.elems _ hmem (ascii "close") ⟨[], [], by simp, by decide, .inl rfl, .inl rfl⟩
  obtain ⟨a, b, ha, hb, e⟩ := ht
  have hnb : ∀ y ∈ ascii "close", y ≠ 32 ∧ y ≠ 9 := by decide
  have ha' : a = [] := by
    cases a with
    | nil => rfl
    | cons y a => have := hnb y (by rw [e]; simp); rcases ha y (by simp) with h | h <;> simp_all
  have hb' : b = [] := by
    cases b with
    | nil => rfl
    | cons y b => have := hnb y (by rw [e]; simp); rcases hb y (by simp) with h | h <;> simp_all
  rw [ha', hb'] at e
  simp only [List.nil_append, List.append_nil] at e
  rw [← e] at hp
  exact ⟨w, hw, x, hx, hp⟩

/-- C26: toward an HTTP/1.0 peer an HTTP/1.0 response that does not say `keep-alive` is logged as the last one. -/
theorem C26_http10_response_closes (env : EncodeEnv) (c : Conn) (m : RespOut) (ev : Bool → Ev) (hv : c.version = .h10) (hm : m.head.version = .h10)
    (hc : ∀ v ∈ m.head.headers.getAll hCONN, connectionKeepAlive v = false) : ev true ∈ (c.writeResp env m ev).log := by
  have hka : (c.respMsg m).1 = .disabled := by
    unfold Conn.respMsg connMsg enforceVersion fixKeepAlive
    simp only [hv, hm, if_true]
    cases hg : m.head.headers.get hCONN with
    | none => simp
    | some v =>
      have : connectionKeepAlive v = false := hc v (by
        unfold HeaderMap.get at hg
        exact List.mem_of_mem_head? hg)
      simp [this]
  unfold Conn.writeResp Conn.setWriting
  simp only [hka, beq_self_eq_true, Bool.or_true]
  split <;> simp

/-- C26: and once keep-alive is off, a request to an HTTP/1.1 server carries `Connection: close`. -/
theorem C26_request_announces_close (c : Conn) (h : ReqHead) (body : Option BodyLength) (out : Bytes) (e : Encoder)
    (hk : c.ka = .disabled ∨ connectionAnyClose h.headers = true) (hv : c.version = .h11) (hwf : RequestWf h body)
    (hr : c.reqEnc h body = (out, .ok e)) :
    ∃ line bs fs, out = c.out.wbuf.headers.bytes ++ line ++ bs ++ CRLF ∧ WrittenLines bs fs ∧ (∀ f ∈ fs, WireField f) ∧
      valuesOf hCONN fs = [ascii "close"] := by
  have hr' : clientEncode c.titleCase (connReq c.version c.ka h).2 body c.out.wbuf.headers.bytes = some (out, e) := by
    unfold Conn.reqEnc at hr
    split at hr
    · rename_i r hr0
      simp only [Prod.mk.injEq, EncodeRes.ok.injEq] at hr
      rw [hr0, ← hr.1, ← hr.2]
    · simp at hr
  obtain ⟨line, bs, fs, hs, _, h2, h3, h4, h5, h6⟩ := clientEncode_spec (U := False) (connReq_wf hwf _ _) (fun h => h.elim) hr'
  refine ⟨line, bs, fs, h2, h3, h4, ?_⟩
  rw [h5, h6.other _ (by decide) (by decide)]
  have : (connReq c.version c.ka h).2.headers = h.headers.insert hCONN (ascii "close") := by
    unfold connReq enforceVersion
    rcases hk with hk | hk
    · simp only [hv, hk, if_true]; split <;> simp
    · simp only [hv, hk, if_true]
  rw [this, getAll_insert, if_pos rfl]

/-- Bytes of such heads. -/
example : (Conn.respEnc exEnv { (exDisp false).conn with ka := .disabled, dateHeader := false } ⟨⟨.h11, 200, [], none, none⟩, none⟩).1 =
      ascii "HTTP/1.1 200 OK\r\nconnection: close\r\ncontent-length: 0\r\n\r\n" ∧
    (Conn.reqEnc { (exDisp true).conn with ka := .disabled } (exReq mGET .h11 []) none).1 = ascii "GET / HTTP/1.1\r\nconnection: close\r\n\r\n" := by
  decide +kernel

/-- C26 does not hold for a service's `Connection: close` when the peer speaks HTTP/1.0 with `keep-alive`: the field of an HTTP/1.1
response is replaced by `keep-alive` (conn.rs 681-684), and the next request is read. -/
theorem C26_close_overridden :
    ((exDisp false).run exEnv exP
      [exRead (.msg { exIn 0 false true with version := .h10 }) exNo, exWrite (exResp [(hCONN, [ascii "close"])] none) .pending, .flush exFlushIn .pending,
       exRead (.msg (exIn 0 false true)) exNo]).conn.log =
      [.readHead 0 false true, .readEnd, .writeHead 0 false, .writeEnd, .readHead 1 false true, .readEnd] := by
  decide +kernel

/-- On an HTTP/1.1 connection the same response is the last one, and no request is read after it. -/
example : ((exDisp false).run exEnv exP
      [exRead (.msg (exIn 0 false true)) exNo, exWrite (exResp [(hCONN, [ascii "close"])] none) .pending, .flush exFlushIn .pending,
       exRead (.msg (exIn 0 false true)) exNo]).conn.log = [.readHead 0 false true, .readEnd, .writeHead 0 true] := by
  decide +kernel

/-- After graceful shutdown the current exchange is finished. -/
example : ((exDisp false).run exEnv exP
      [exRead (.msg (exIn 0 false true)) exNo, .disable true, exWrite (exResp [] none) .pending, .flush exFlushIn .pending,
       exRead (.msg (exIn 0 false true)) exNo]).conn.log = [.readHead 0 false true, .readEnd, .shutdown, .writeHead 0 true] := by
  decide +kernel

/-- A client after a response that ends the connection. -/
example : ((exDisp true).run exEnv exP
      [exWrite (exSend [] none) .pending, exRead (.msg (exIn 0 false false)) exNo, .flush exFlushIn .pending,
       exWrite (exSend [] none) .pending]).conn.log = [.writeHead 0 false, .writeEnd, .readHead 0 false false, .readEnd] := by
  decide +kernel

/-! ## C28: `100 Continue` -/

theorem last_head_unique {a a' m m' : List Ev} {n n' : Nat} {x x' p p' : Bool} (h : a ++ .readHead n x p :: m = a' ++ .readHead n' x' p' :: m')
    (hm : ∀ e ∈ m, ∀ i j k, e ≠ .readHead i j k) (hm' : ∀ e ∈ m', ∀ i j k, e ≠ .readHead i j k) : n = n' ∧ m = m' := by
  rcases List.append_eq_append_iff.1 h with ⟨b, h1, h2⟩ | ⟨b, h1, h2⟩
  · cases b with
    | nil => simp at h2; exact ⟨h2.1.1, h2.2⟩
    | cons y ys =>
      simp at h2
      exact absurd rfl (hm _ (by rw [h2.2]; simp) n' x' p')
  · cases b with
    | nil => simp at h2; exact ⟨h2.1.1.symm, h2.2.symm⟩
    | cons y ys =>
      simp at h2
      exact absurd rfl (hm' _ (by rw [h2.2]; simp) n x p)

/-- C28, server. -/
theorem C28_continue (env : EncodeEnv) (P : TrailerParser) (as : List Act) (d : Disp) (h : d.Start) (hs : d.conn.client = false) :
    Each Continues (d.run env P as).conn.log := by
  have h1 := (server_cont env P as d h hs).interim
  rw [view_log] at h1
  have h2 := ((DInv.start h).run env P as).first
  intro pre e post hl
  have g1 := h1 pre e post hl
  have g2 := h2 pre e post hl
  cases e with
  | continue100 =>
    obtain ⟨a, n, p, mid, e1, q⟩ := g1
    obtain ⟨a', n', p', mid', e2, q', w⟩ := g2
    obtain ⟨hn, hm⟩ := last_head_unique (e1.symm.trans e2) (fun e he i j k hx => by have := q e he; rw [hx] at this; exact this)
      (fun e he => (q' e he).2)
    exact ⟨a, n, p, mid, e1, q, by rw [hm, hn]; exact w⟩
  | _ => trivial

/-- C28, client: it sends none. -/
theorem C28_client (env : EncodeEnv) (P : TrailerParser) (as : List Act) (d : Disp) (h : d.Start) (hs : d.conn.client = true) :
    Ev.continue100 ∉ (d.run env P as).conn.log := by
  rw [← view_log]; exact (client_hist env P as d h hs).quiet

/-- A request that is owed `100 Continue` if its body is wanted: it says so, it has a body, and its version knows the code. -/
def Spec.Expecting (m : MsgIn) : Prop := m.expect = true ∧ m.decode ≠ DecodedLength.ZERO ∧ m.version ≠ .h09 ∧ m.version ≠ .h10

/-- C28: exactly the requests that expect it, have a body and are of HTTP/1.1 or later are marked as owed `100 Continue`. -/
theorem C28_expecting (c : Conn) (m : MsgIn) (n : Nat) (i : NotifyIn) (hs : c.client = false) :
    ∃ e l, (c.acceptHead m n i).log = c.log ++ .readHead n e m.keepAlive :: l ∧ (e = true ↔ Spec.Expecting m) ∧ Ev.continue100 ∉ l := by
  refine ⟨m.continues, if m.decode = DecodedLength.ZERO then [.readEnd] else [], ?_, ?_, by split <;> simp⟩
  · unfold Conn.acceptHead
    rw [hs]
    by_cases hz : m.decode = DecodedLength.ZERO
    · simp [hz, Conn.readDone, Conn.headState]
    · simp only [hz, if_false]
      split <;> simp [Conn.headState]
  · unfold MsgIn.continues Spec.Expecting
    cases hv : m.version <;> cases he : m.expect <;> simp

/-- The body is asked for, then `100 Continue` is sent, once. -/
example : ((exDisp false).run exEnv exP
      [exRead (.msg (exIn 3 true true)) exNo, exRead .pending exNo, .want 0, exRead .pending exNo, exRead .pending exNo,
       exRead .pending ⟨ascii "abc", [], .silent⟩]).conn.log = [.readHead 0 true true, .wanted 0, .continue100, .readEnd] := by
  decide +kernel

/-- The response comes first: no `100 Continue`. -/
example : ((exDisp false).run exEnv exP
      [exRead (.msg (exIn 3 true true)) exNo, exWrite (exResp [] none) .pending, .want 0, exRead .pending exNo]).conn.log =
      [.readHead 0 true true, .writeHead 0 false, .writeEnd, .wanted 0] := by
  decide +kernel

/-! ## C29: short bodies of the user -/

/-- C29: the end of the user's body before `n` more bytes is an error, and the write side is closed. -/
theorem C29_short_end (env : EncodeEnv) (P : TrailerParser) (d : Disp) (i : WriteIn) (n : Nat) (last : Bool) (hn : 0 < n) (hd : d.done = false)
    (hc : d.closing = false) (hw : d.conn.writing = .body ⟨.length n, last⟩) (hb : d.conn.canBufferBody = true)
    (hf : d.bodyRx = false ∨ i.frame = .eof ∨ i.frame = .frame (.data [] true)) :
    (d.step env P (.write i)).done = true ∧ (d.step env P (.write i)).conn.writing = .closed := by
  have hcw : d.conn.canWriteBody = true := by simp [Conn.canWriteBody, hw]
  have hwh : d.conn.canWriteHead = false := by simp [Conn.canWriteHead, hw]
  have key : ∀ b, Disp.done (Disp.endBody { d with bodyRx := b }) = true ∧ (Disp.endBody { d with bodyRx := b }).conn.writing = .closed := by
    intro b
    have he : d.conn.writing.endBody = ([], .closed, some n) := by
      rw [hw]
      unfold Writing.endBody Encoder.finish
      obtain ⟨k, rfl⟩ : ∃ k, n = k + 1 := ⟨n - 1, by omega⟩
      rfl
    have h1 : d.conn.endBody.1 = some n := by simp [Conn.endBody, he]
    have h2 : d.conn.endBody.2.writing = .closed := by simp [Conn.endBody, he, Conn.setWriting]
    unfold Disp.endBody
    simp only [h1, Option.isSome_some, if_true]
    refine ⟨rfl, ?_⟩
    show (Disp.failBody _).conn.writing = .closed
    rw [(failBody_fields _).1]; exact h2
  have hstep : d.step env P (.write i) = d.writeTurn env i := by simp [Disp.step, hd]
  rw [hstep]
  unfold Disp.writeTurn
  rw [hwh, hcw, hb, hc]
  cases hrx : d.bodyRx with
  | false =>
    have := key false
    rw [← hrx] at this
    simpa using this
  | true =>
    rw [hrx] at hf
    simp only [Bool.not_true, Bool.false_and, Bool.false_eq_true, if_false, if_true, Disp.writeFrame]
    rcases hf with hf | hf | hf
    · simp at hf
    · rw [hf]; exact key false
    · rw [hf]; simp only [if_true]; exact key false

/-- C29: an error of the user's body ends the connection. -/
theorem C29_user_error (env : EncodeEnv) (P : TrailerParser) (d : Disp) (i : WriteIn) (hd : d.done = false) (hc : d.closing = false)
    (hb : d.conn.canBufferBody = true) (hrx : d.bodyRx = true) (hw : d.conn.canWriteBody = true) (hf : i.frame = .frame .error) :
    (d.step env P (.write i)).done = true := by
  have hstep : d.step env P (.write i) = d.writeTurn env i := by simp [Disp.step, hd]
  rw [hstep]
  simp only [Disp.writeTurn, hc, hrx, hb, hw, hf, Bool.not_true, Bool.false_and, Bool.false_eq_true, if_false, if_true, Disp.writeFrame]
  rfl

/-- C29: a last frame with too little data closes the write side.  Missing for the full claim: this case is not reported as an
error (`C29_short_frame_unreported`). -/
theorem C29_short_frame_partial (env : EncodeEnv) (P : TrailerParser) (d : Disp) (i : WriteIn) (n : Nat) (last : Bool) (bs : Bytes) (hn : bs.length < n)
    (hb0 : bs ≠ []) (hd : d.done = false) (hc : d.closing = false) (hrx : d.bodyRx = true) (hw : d.conn.writing = .body ⟨.length n, last⟩)
    (hb : d.conn.canBufferBody = true) (hf : i.frame = .frame (.data bs true)) :
    (d.step env P (.write i)).conn.writing = .closed := by
  have hcw : d.conn.canWriteBody = true := by simp [Conn.canWriteBody, hw]
  have hstep : d.step env P (.write i) = d.writeTurn env i := by simp [Disp.step, hd]
  have he : (d.conn.writing.writeBodyAndEnd bs).2 = .closed := by
    rw [hw]
    simp only [Writing.writeBodyAndEnd, Encoder.encodeAndEnd]
    (repeat' split) <;> simp_all <;> omega
  rw [hstep]
  simp only [Disp.writeTurn, hc, hrx, hb, hcw, hf, Bool.not_true, Bool.false_and, Bool.false_eq_true, if_false, if_true, Disp.writeFrame, if_neg hb0]
  simp [Conn.writeBodyAndEnd, he, Conn.setWriting]

/-- C29 does not hold as far as the error is concerned: a last frame with too little data closes the write side without one. -/
theorem C29_short_frame_unreported :
    let d := (exDisp false).run exEnv exP
      [exRead (.msg (exIn 0 false true)) exNo, exWrite (exResp [] (some (.known 5))) .pending, exWrite .pending (.frame (.data (ascii "abc") true))]
    d.conn.writing = .closed ∧ d.done = false ∧ d.conn.error = false := by
  decide +kernel

/-- Nothing begins any more. -/
structure Over (v w : View) : Prop where
  inv : w.client = false → SInv w
  client : w.client = v.client
  wr : w.wr = .closed
  writeHeads : writeHeads w.log = writeHeads v.log
  readHeads : w.client = false → readHeads w.log = readHeads v.log

set_option maxHeartbeats 1000000 in
theorem Over.prim {v w x : View} (h : Over v w) (p : Prim w x) : Over v x := by
  obtain ⟨inv, client, wr, wh, rh⟩ := h
  have hs : x.client = false → SInv x := by
    intro hx
    have : w.client = false := by cases p <;> exact hx
    exact (inv this).prim p
  cases p with
  | headIn hs' hr hf e q k hk =>
    have := ((inv hs').init hr).1
    simp_all
  | closeWrite hr => exact ⟨hs, client, rfl, wh, rh⟩
  | shutdownIdle hk => exact ⟨hs, client, rfl, by simp [wh], fun hx => by simp [rh hx]⟩
  | idle hr hw hk => simp_all
  | writeFail l hw => simp_all
  | continue100 hr hw => simp_all
  | writeEnd hw => simp_all
  | headOut hs' hw => simp_all
  | reqOut hs' hw => simp_all
  | errorOut hs' hr hw => simp_all
  | closeRead => exact ⟨hs, client, wr, wh, rh⟩
  | readFail hr => exact ⟨hs, client, wr, wh, rh⟩
  | skip hr => exact ⟨hs, client, wr, wh, rh⟩
  | readEnd hr => exact ⟨hs, client, wr, by simp [wh], fun hx => by simp [rh hx]⟩
  | respIn hs' hr hw n hf e q k hk => exact ⟨hs, client, wr, by simp [wh], fun hx => by simp_all⟩
  | abandon hr hw => exact ⟨hs, client, wr, wh, rh⟩
  | shutdown hk => exact ⟨hs, client, wr, by simp [wh], fun hx => by simp [rh hx]⟩
  | wanted k => exact ⟨hs, client, wr, by simp [wh], fun hx => by simp [rh hx]⟩

theorem view_client (d : Disp) : d.view.client = d.conn.client := by unfold Disp.view; split <;> rfl

theorem disp_run_append (env : EncodeEnv) (P : TrailerParser) (d : Disp) (as bs : List Act) : d.run env P (as ++ bs) = (d.run env P as).run env P bs := by
  simp [Disp.run, List.foldl_append]

theorem run_client (env : EncodeEnv) (P : TrailerParser) (d : Disp) (as : List Act) : (d.run env P as).conn.client = d.conn.client := by
  induction as generalizing d with
  | nil => rfl
  | cons a as ih => exact (ih _).trans (step_client env P d a)

/-- C29: once the write side is closed or the connection has ended, no message head is written any more, and a server reads no
request head any more. -/
theorem C29_not_reused (env : EncodeEnv) (P : TrailerParser) (as bs : List Act) (d : Disp) (h : d.Start)
    (hc : (d.run env P as).conn.writing = .closed ∨ (d.run env P as).done = true) :
    writeHeads (d.run env P (as ++ bs)).conn.log = writeHeads (d.run env P as).conn.log ∧
      (d.conn.client = false → readHeads (d.run env P (as ++ bs)).conn.log = readHeads (d.run env P as).conn.log) := by
  rw [disp_run_append]
  have hsteps := run_steps env P bs (d.run env P as)
  have hcl : (d.run env P as).view.client = d.conn.client := by rw [view_client, run_client]
  have h0 : Over (d.run env P as).view (d.run env P as).view := by
    refine ⟨fun hx => (server_hist env P as d h (hcl ▸ hx)).inv, rfl, ?_, rfl, fun _ => rfl⟩
    unfold Disp.view
    split
    · rfl
    · rename_i hd
      rcases hc with hc | hc
      · simp [Conn.view, hc, Writing.tag]
      · exact absurd hc hd
  have hov := hsteps.keep (I := Over (d.run env P as).view) (fun _ _ => Over.prim) h0
  rw [← view_log, ← view_log]
  exact ⟨hov.writeHeads, fun hx => hov.readHeads (hov.client.trans (hcl.trans hx))⟩

/-- The user's body ends too early. -/
example : ((exDisp false).run exEnv exP
      [exRead (.msg (exIn 0 false true)) exNo, exWrite (exResp [] (some (.known 5))) .pending, exWrite .pending (.frame (.data (ascii "abc") false)),
       exWrite .pending .eof]).done = true := by
  decide +kernel

/-! ## C42: a body that was cut off ends in an error -/

/-- C42: unless the body was received completely or its reader is gone, a body whose sender is gone has ended in an error, after the
data delivered. -/
theorem C42_never_clean (env : EncodeEnv) (P : TrailerParser) (as : List Act) (d : Disp) (h : d.Start) (k : Nat) (ch : Chan)
    (hk : (d.run env P as).chans[k]? = some ch) (hc : ch.complete = false) (hw : ch.want ≠ .closed) (hs : ch.sender = false) :
    ∃ l, ch.items = l ++ [.error] ∧ Item.error ∉ l := by
  have ho := (((DInv.start h).run env P as).chan.ok k ch hk).1
  have he : Item.error ∈ ch.items := by
    rcases ho.ended hs with h' | h' | h'
    · rw [hc] at h'; simp at h'
    · exact absurd h' hw
    · exact h'
  obtain ⟨l, h1, h2⟩ := ho.shape
  rcases h2 with h2 | h2
  · rw [h2] at he; exact absurd he h1
  · exact ⟨l, h2, h1⟩

/-- C42: when the connection is dropped, at whatever point, every body not received completely whose reader is there has ended in an
error. -/
theorem C42_dropped (env : EncodeEnv) (P : TrailerParser) (as : List Act) (d : Disp) (h : d.Start) (k : Nat) (ch : Chan)
    (hk : (d.run env P (as ++ [.drop])).chans[k]? = some ch) (hc : ch.complete = false) (hw : ch.want ≠ .closed) :
    ∃ l, ch.items = l ++ [.error] ∧ Item.error ∉ l := by
  refine C42_never_clean env P (as ++ [.drop]) d h k ch hk hc hw ?_
  have hi := ((DInv.start h).run env P (as ++ [.drop])).chan.ok k ch hk
  have hn : (d.run env P (as ++ [.drop])).bodyTx = none := by
    rw [disp_run_append]
    exact (failBody_chan ((DInv.start h).run env P as).chan).2
  rw [hn] at hi
  cases hx : ch.sender
  · rfl
  · simp [hx] at hi

/-- The same when the connection fails: the sender is gone at once. -/
theorem C42_failed (env : EncodeEnv) (P : TrailerParser) (as : List Act) (d : Disp) (h : d.Start) (k : Nat) (ch : Chan)
    (hk : (d.run env P as).fail.chans[k]? = some ch) (hc : ch.complete = false) (hw : ch.want ≠ .closed) :
    ∃ l, ch.items = l ++ [.error] ∧ Item.error ∉ l := by
  have : (d.run env P (as ++ [.drop])).chans = (d.run env P as).fail.chans := by rw [disp_run_append]; rfl
  exact C42_dropped env P as d h k ch (this ▸ hk) hc hw

/-- The peer goes away in the middle of a body. -/
example : ((exDisp false).run exEnv exP
      [exRead (.msg (exIn 5 false true)) exNo, exRead .pending ⟨ascii "abc", [], .eof⟩, exRead .pending ⟨[], [], .eof⟩]).chans =
      [{ id := 0, len := ⟨5⟩, want := .ready, items := [.data (ascii "abc"), .error], sender := false }] := by
  decide +kernel

/-! ## C54: a body received completely does not end in an error -/

/-- Once the body is over, the next turn of `poll_read` drops the sender. -/
theorem next_turn_drops (env : EncodeEnv) (P : TrailerParser) (d' : Disp) (c : Conn) (k : Nat) (i : NotifyIn) (j : ReadIn) (ht : d'.bodyTx = some k) (hc : d'.closing = false)
    (hrole : c.client = true ∨ c.writing ≠ .keepAlive) (hd : d'.conn = c.readDone.tryKeepAlive i) :
    d'.readTurn env P j = d'.dropBody k := by
  have hr : (c.readDone.tryKeepAlive i).canReadBody = false := (calm_tryKeepAlive c.readDone i).cont rfl
  have hh : (c.readDone.tryKeepAlive i).canReadHead = false := by
    unfold Conn.tryKeepAlive Conn.stateKeepAlive Conn.maybeNotify Conn.notifyFrom Conn.canReadHead Conn.readDone Conn.goIdle Conn.closeAll Conn.closeRead
    cases hw : c.writing <;> simp [hw] at hrole ⊢
    (repeat' split) <;> simp_all
  unfold Disp.readTurn
  simp [hc, hd, hh, ht, Disp.readBody, hr]

theorem modify_snoc {α : Type} (l : List α) (x : α) (f : α → α) : (l ++ [x]).modify l.length f = l ++ [f x] := by
  induction l with
  | nil => rfl
  | cons y ys ih => simp [ih]

/-- Without a current body a turn of `poll_read` does not touch earlier ones. -/
theorem chans_kept (env : EncodeEnv) (P : TrailerParser) (d : Disp) (j : ReadIn) (ht : d.bodyTx = none) : ∃ l, (d.readTurn env P j).chans = d.chans ++ l := by
  have hfail : ∀ c : Conn, ({ d with conn := c } : Disp).fail.chans = d.chans := by
    intro c; simp [Disp.fail, Disp.failBody, ht]
  have herr : ∀ c : Conn, ({ d with conn := c } : Disp).recvErr.chans = d.chans := by
    intro c
    unfold Disp.recvErr
    (repeat' split) <;> first | exact hfail c | rfl
  have hnew : ∀ (c : Conn) (m : MsgIn), ∃ l, (({ d with conn := c } : Disp).newBody m).chans = d.chans ++ l := by
    intro c m
    unfold Disp.newBody
    split
    · exact ⟨[], by simp⟩
    · simp only [Disp.replaced, ht]; exact ⟨_, rfl⟩
  have hhead : ∀ (c : Conn) (m : MsgIn), ∃ l, (({ d with conn := c } : Disp).recvHead m).chans = d.chans ++ l := by
    intro c m
    obtain ⟨l, hl⟩ := hnew c m
    by_cases hz : m.decode = DecodedLength.ZERO
    · have : ({ d with conn := c } : Disp).newBody m = { d with conn := c } := by unfold Disp.newBody; rw [if_pos hz]
      unfold Disp.recvHead
      rw [this]
      simp only
      (repeat' split)
      · exact ⟨[], by simp⟩
      · exact ⟨[], by simp [Disp.fail, Disp.failBody, ht]⟩
      · exact ⟨[], by simp⟩
    · have hb : (({ d with conn := c } : Disp).newBody m) = { d with conn := c, bodyTx := some d.chans.length, chans := d.chans ++ [{ id := Disp.headId { d with conn := c }, len := m.decode, want := if m.continues then .pending else .ready }] } := by
        unfold Disp.newBody; rw [if_neg hz]; simp [Disp.replaced, ht]
      unfold Disp.recvHead
      rw [hb]
      simp only
      (repeat' split) <;> first
        | exact ⟨_, rfl⟩
        | (simp only [Disp.fail, Disp.failBody, updChan, modify_snoc]; exact ⟨_, rfl⟩)
  unfold Disp.readTurn
  rw [ht]
  (repeat' split)
  · exact ⟨[], by simp⟩
  · unfold Disp.readHead
    have hready : ∃ l, (d.readHeadReady env j).chans = d.chans ++ l := by
      unfold Disp.readHeadReady Disp.afterHead
      split
      · exact ⟨[], by simp⟩
      · exact hhead _ _
      · exact ⟨[], by simp [herr]⟩
      · exact ⟨[], by simp [herr]⟩
      · split <;> exact ⟨[], by simp [Disp.close]⟩
    (repeat' split) <;> first | exact hready | exact ⟨[], by simp [Disp.close]⟩
  · rename_i hx; simp at hx
  · unfold Disp.readIdle
    simp only
    split
    · exact ⟨[], by simp [hfail]⟩
    · exact ⟨[], by simp⟩

/-- C54: the turn of `poll_read` in which a body is completed, followed by the next one (between them the loop of `poll_read` does not
yield), leaves the reader with a clean end.  Missing for the full claim: a server that has already written its response
(`C54_lingering`). -/
theorem C54_clean_end_partial (env : EncodeEnv) (P : TrailerParser) (as : List Act) (d0 d : Disp) (h : d0.Start) (hd0 : d = d0.run env P as) (k : Nat) (ch ch' : Chan)
    (i j : ReadIn) (ht : d.bodyTx = some k) (hk : d.chans[k]? = some ch) (hk' : (d.step env P (.read i)).chans[k]? = some ch')
    (hc : ch.complete = false) (hc' : ch'.complete = true) (hg : i.gone = false) (hrole : d.conn.client = true ∨ d.conn.writing ≠ .keepAlive) :
    ∃ ch'', ((d.step env P (.read i)).step env P (.read j)).chans[k]? = some ch'' ∧ ch''.sender = false ∧ Item.error ∉ ch''.items := by
  have hinv : DInv d := by rw [hd0]; exact (DInv.start h).run env P as
  have hok := hinv.chan.ok k ch hk
  have hclean : Item.error ∉ ch.items := hok.1.clean (hok.2.2 ht)
  cases hdone : d.done with
  | true =>
    simp only [Disp.step, hdone, if_true] at hk'
    rw [hk] at hk'; simp at hk'; subst hk'; rw [hc] at hc'; simp at hc'
  | false =>
    cases hcl : d.closing with
    | true =>
      simp only [Disp.step, hdone, Disp.readTurn, hcl, if_true, Bool.false_eq_true, if_false] at hk'
      rw [hk] at hk'; simp at hk'; subst hk'; rw [hc] at hc'; simp at hc'
    | false =>
      have hcb : d.conn.canReadBody = true := by
        rcases hinv.live hdone k ch ht hk with h' | h' | h'
        · rw [hc] at h'; simp at h'
        · exact h'
        · rw [hcl] at h'; simp at h'
      have hch : d.conn.canReadHead = false := by
        unfold Conn.canReadBody at hcb
        unfold Conn.canReadHead
        cases hr : d.conn.reading <;> simp_all
      have hstep : d.step env P (.read i) = d.readBody P i k := by
        simp [Disp.step, hdone, Disp.readTurn, hcl, hch, ht]
      -- a channel changed by `f`
      have hupd : ∀ f : Chan → Chan, (updChan d.chans k f)[k]? = some (f ch) := by
        intro f; simp [updChan, List.getElem?_modify, hk]
      have hcontra : ∀ x : Option Chan, x = some ch' → (∀ y, x = some y → y.complete = false) → False := by
        intro x hx hy
        have := hy ch' hx
        rw [hc'] at this; simp at this
      rw [hstep] at hk' ⊢
      have hwant : ch.want = .ready ∧ i.full = false := by
        unfold Disp.readBody at hk'
        rw [if_pos hcb, hk] at hk'
        simp only [Option.map_some] at hk'
        cases hw : ch.want with
        | ready =>
          rw [hw] at hk'
          cases hfl : i.full with
          | false => exact ⟨rfl, rfl⟩
          | true =>
            simp only [hfl, if_true] at hk'
            exact (hcontra _ hk' (fun y hy => by rw [hk] at hy; simp at hy; rw [← hy]; exact hc)).elim
        | pending =>
          rw [hw] at hk'
          exact (hcontra _ hk' (fun y hy => by rw [hk] at hy; simp at hy; rw [← hy]; exact hc)).elim
        | closed =>
          rw [hw] at hk'
          simp only [Disp.dropBody] at hk'
          exact (hcontra _ hk' (fun y hy => by rw [hupd] at hy; simp at hy; rw [← hy]; exact hc)).elim
      have hpiece : d.readBody P i k = ({ d with conn := (d.conn.pollReadBody P i.rd i.notify).2 } : Disp).afterPiece k false (d.conn.pollReadBody P i.rd i.notify).1 := by
        unfold Disp.readBody Disp.readPiece Disp.maybeLose
        simp [hcb, hk, hwant.1, hwant.2, hg]
      rw [hpiece] at hk' ⊢
      -- the connection once the body is over
      have hover : ∀ c : Conn, c = d.conn ∨ c = d.conn.sendContinue → c.client = true ∨ c.writing ≠ .keepAlive := by
        intro c hx
        rcases hx with rfl | rfl
        · exact hrole
        · unfold Conn.sendContinue
          split
          · rename_i hw; right; simp [Conn.putHeaders, hw]
          · exact hrole
      have hres : ∃ c, (c = d.conn ∨ c = d.conn.sendContinue) ∧
          ((∃ bs, (d.conn.pollReadBody P i.rd i.notify).1 = .data bs true) ∨ (∃ fs, (d.conn.pollReadBody P i.rd i.notify).1 = .trailers fs) ∨
            (d.conn.pollReadBody P i.rd i.notify).1 = .ended true → (d.conn.pollReadBody P i.rd i.notify).2 = c.readDone.tryKeepAlive i.notify) := by
        have hdec : ∀ (c : Conn) (dec : Decoder), ((∃ bs, (c.decodeBody P dec i.rd i.notify).1 = .data bs true) ∨ (∃ fs, (c.decodeBody P dec i.rd i.notify).1 = .trailers fs) ∨
            (c.decodeBody P dec i.rd i.notify).1 = .ended true → (c.decodeBody P dec i.rd i.notify).2 = c.readDone.tryKeepAlive i.notify) := by
          intro c dec
          unfold Conn.decodeBody
          (repeat' split) <;> simp
        unfold Conn.pollReadBody
        split
        · exact ⟨d.conn, .inl rfl, hdec _ _⟩
        · exact ⟨d.conn.sendContinue, .inr rfl, hdec _ _⟩
        · exact ⟨d.conn, .inl rfl, by simp⟩
      obtain ⟨c, hcx, hfin⟩ := hres
      have hrl := hover c hcx
      generalize (d.conn.pollReadBody P i.rd i.notify).1 = o at hk' hfin ⊢
      generalize (d.conn.pollReadBody P i.rd i.notify).2 = c' at hk' hfin ⊢
      -- the second turn
      have hsecond : ∀ d' : Disp, d'.done = false → d'.closing = false → d'.bodyTx = some k → d'.conn = c.readDone.tryKeepAlive i.notify →
          ∀ y, d'.chans[k]? = some y → Item.error ∉ y.items →
          ∃ ch'', (d'.step env P (.read j)).chans[k]? = some ch'' ∧ ch''.sender = false ∧ Item.error ∉ ch''.items := by
        intro d' h1 h2 h3 h4 y hy hye
        have : d'.step env P (.read j) = d'.dropBody k := by
          simp only [Disp.step, h1, Bool.false_eq_true, if_false]
          exact next_turn_drops env P d' c k i.notify j h3 h2 hrl h4
        rw [this]
        exact ⟨y.dropSender, by simp [Disp.dropBody, updChan, List.getElem?_modify, hy], rfl, hye⟩
      cases o with
      | pending => exact (hcontra _ hk' (fun y hy => by simp only [Disp.afterPiece] at hy; rw [hk] at hy; simp at hy; rw [← hy]; exact hc)).elim
      | err =>
        refine (hcontra _ hk' (fun y hy => ?_)).elim
        simp only [Disp.afterPiece] at hy; rw [hupd] at hy; simp at hy; rw [← hy]; exact hc
      | data bs fin =>
        cases fin with
        | false =>
          refine (hcontra _ hk' (fun y hy => ?_)).elim
          simp only [Disp.afterPiece, Disp.markComplete, Disp.deliver, Disp.sendItem, Bool.false_eq_true, if_false] at hy
          rw [hupd] at hy; simp at hy; rw [← hy]; exact hc
        | true =>
          have hc2 := hfin (.inl ⟨bs, rfl⟩)
          refine hsecond _ hdone hcl ht hc2 { ch with complete := true, items := ch.items ++ [.data bs] } ?_ (by simp [hclean])
          simp [Disp.afterPiece, Disp.markComplete, Disp.deliver, Disp.sendItem, updChan, List.getElem?_modify, hk]
      | trailers fs =>
        have hc2 := hfin (.inr (.inl ⟨fs, rfl⟩))
        refine hsecond _ hdone hcl ht hc2 { ch with complete := true, trailers := some fs } ?_ hclean
        simp [Disp.afterPiece, Disp.markComplete, Disp.deliver, Disp.sendItem, updChan, List.getElem?_modify, hk]
      | ended fin =>
        cases fin with
        | false =>
          refine (hcontra _ hk' (fun y hy => ?_)).elim
          simp only [Disp.afterPiece, Disp.markComplete, Disp.dropBody, Bool.false_eq_true, if_false] at hy
          rw [hupd] at hy; simp at hy; rw [← hy]; exact hc
        | true =>
          obtain ⟨l, hl⟩ := chans_kept env P (({ d with conn := c' } : Disp).afterPiece k false (.ended true)) j rfl
          have hch1 : (({ d with conn := c' } : Disp).afterPiece k false (.ended true)).chans[k]? = some { ch with complete := true, sender := false } := by
            simp [Disp.afterPiece, Disp.markComplete, Disp.dropBody, updChan, List.getElem?_modify, hk, Chan.dropSender]
          have hdn : (({ d with conn := c' } : Disp).afterPiece k false (.ended true)).done = false := hdone
          refine ⟨{ ch with complete := true, sender := false }, ?_, rfl, hclean⟩
          simp only [Disp.step, hdn, Bool.false_eq_true, if_false]
          rw [hl, List.getElem?_append_left (by
            have := List.getElem?_eq_some_iff.1 hch1
            exact this.1)]
          exact hch1

/-- C54 does not hold for a server that has written its response before the request body ends: the reader of the complete body sees an
error if the connection is dropped then. -/
theorem C54_lingering :
    ((exDisp false).run exEnv exP
      [exRead (.msg (exIn 3 false true)) exNo, exWrite (exResp [] none) .pending, .flush exFlushIn .pending,
       exRead .pending ⟨ascii "abc", [], .silent⟩, exRead .pending exNo, exRead .pending exNo, .drop]).chans =
      [{ id := 0, len := ⟨3⟩, want := .ready, items := [.data (ascii "abc"), .error], sender := false, complete := true }] := by
  decide +kernel

/-- With the response still to come the body ends cleanly. -/
example : ((exDisp false).run exEnv exP
      [exRead (.msg (exIn 3 false true)) exNo, exRead .pending ⟨ascii "abc", [], .silent⟩, exRead .pending exNo, .drop]).chans =
      [{ id := 0, len := ⟨3⟩, want := .ready, items := [.data (ascii "abc")], sender := false, complete := true }] := by
  decide +kernel

/-! ## C49: the header read timeout -/

/-- C49: the timeout starts when a server first looks for a head. -/
theorem C49_started (env : EncodeEnv) (P : TrailerParser) (d : Disp) (i : ReadIn) (T : Nat) (hd : d.done = false) (hc : d.closing = false) (hs : d.conn.client = false)
    (hh : d.conn.canReadHead = true) (hf : d.inFlight = none) (ht : d.conn.timing = false) (hT : d.conn.timeout = some T) (hp : i.parse = .pending)
    (hlt : i.t1 < i.t0 + T) :
    (d.step env P (.read i)).conn.timing = true ∧ (d.step env P (.read i)).conn.deadline = some (i.t0 + T) ∧ (d.step env P (.read i)).done = false := by
  have h1 : (d.conn.startTimer i.t0).timing = true := by simp [Conn.startTimer, ht, hT]
  have h2 : (d.conn.startTimer i.t0).deadline = some (i.t0 + T) := by simp [Conn.startTimer, ht, hT]
  have hto : (d.conn.startTimer i.t0).timedOut i.t1 = false := by
    simp [Conn.timedOut, h2]; omega
  simp [Disp.step, hd, Disp.readTurn, hc, hh, Disp.readHead, hf, hs, Disp.readHeadReady, hp, Conn.pollReadHead, hto, Disp.afterHead, h1, h2]

/-- C49: whatever happens then, the deadline stays until a head has been read (or the connection has ended). -/
theorem C49_deadline_fixed (env : EncodeEnv) (P : TrailerParser) (as : List Act) (d : Disp) (D : Nat) (hs : d.conn.client = false)
    (ht : d.conn.timing = true) (hD : d.conn.deadline = some D) :
    readHeads d.conn.log < readHeads (d.run env P as).conn.log ∨
      ((d.run env P as).conn.deadline = some D ∧ ((d.run env P as).conn.timing = true ∨ (d.run env P as).done = true)) :=
  Ticking.run env P as d (.inr ⟨hD, .inl ht⟩) (Nat.le_refl _) hs

/-- C49: looking for a head after the deadline ends the connection, unless the head is there. -/
theorem C49_timeout (env : EncodeEnv) (P : TrailerParser) (d : Disp) (i : ReadIn) (D : Nat) (hd : d.done = false) (hc : d.closing = false) (hs : d.conn.client = false)
    (hh : d.conn.canReadHead = true) (hf : d.inFlight = none) (ht : d.conn.timing = true) (hD : d.conn.deadline = some D) (hp : i.parse = .pending) (hle : D ≤ i.t1) :
    (d.step env P (.read i)).done = true ∧ (d.conn.pollReadHead env i.t0 i.t1 i.parse i.notify d.headId).1 = .timeout := by
  have hst : d.conn.startTimer i.t0 = d.conn := by simp [Conn.startTimer, ht]
  have hto : d.conn.timedOut i.t1 = true := by simp [Conn.timedOut, ht, hD, hle]
  refine ⟨?_, by simp [hp, Conn.pollReadHead, hst, hto]⟩
  simp [Disp.step, hd, Disp.readTurn, hc, hh, Disp.readHead, hf, hs, Disp.readHeadReady, hp, Conn.pollReadHead, hst, hto, Disp.afterHead, Disp.recvErr, Disp.fail]

/-- C49: a complete head stops the timeout, so that the next request has a deadline of its own. -/
theorem C49_stopped (env : EncodeEnv) (P : TrailerParser) (d : Disp) (i : ReadIn) (m : MsgIn) (hd : d.done = false) (hc : d.closing = false)
    (hs : d.conn.client = false) (hh : d.conn.canReadHead = true) (hf : d.inFlight = none) (hp : i.parse = .msg m) :
    (d.step env P (.read i)).conn.timing = false ∧ (d.step env P (.read i)).conn.deadline = none := by
  have hcl : (d.conn.startTimer i.t0).client = false := by unfold Conn.startTimer; (repeat' split) <;> exact hs
  have h1 : ((d.conn.startTimer i.t0).acceptHead m d.headId i.notify).timing = false ∧
      ((d.conn.startTimer i.t0).acceptHead m d.headId i.notify).deadline = none ∧
      ((d.conn.startTimer i.t0).acceptHead m d.headId i.notify).client = false := by
    unfold Conn.acceptHead
    rw [hcl]
    (repeat' split) <;> simp_all [Conn.readDone, Conn.headState]
  have hn := newBody_fields { d with conn := (d.conn.startTimer i.t0).acceptHead m d.headId i.notify } m
  have he : d.step env P (.read i) = { d with conn := (d.conn.startTimer i.t0).acceptHead m d.headId i.notify }.recvHead m := by
    simp [Disp.step, hd, Disp.readTurn, hc, hh, Disp.readHead, hf, hs, Disp.readHeadReady, hp, Conn.pollReadHead, Disp.afterHead]
  rw [he]
  unfold Disp.recvHead
  simp only [hn.1, h1.2.2, Bool.false_eq_true, if_false]
  exact ⟨h1.1, h1.2.1⟩

/-- Partial heads at 1, 5 and 9, a timeout of 10 started at 0; and what happens at 10. -/
example :
    let r := fun t => Act.read { ready := true, t0 := t, t1 := t, parse := .pending, notify := .pending, full := false, gone := false, rd := exNo, bufEmpty := true, io := .pending }
    ((exDisp false (some 10)).run exEnv exP [r 0, r 1, r 5, r 9]).done = false ∧
      ((exDisp false (some 10)).run exEnv exP [r 0, r 1, r 5, r 9]).conn.deadline = some 10 ∧
      ((exDisp false (some 10)).run exEnv exP [r 0, r 1, r 5, r 9, r 10]).done = true := by
  decide +kernel

end Hyper
