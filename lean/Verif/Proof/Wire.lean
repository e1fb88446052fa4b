import Verif.Proof.Room
import Verif.Spec.Wire
import Verif.Proof.PollLoop

/-! # Facts about what a connection puts on the wire -/

namespace Hyper

namespace Wire

open Hyper.Spec (waiting)

/-! ## Encoding a head appends to the buffer -/

/-- The same with more in front of it. -/
def pre (p : Bytes) (s : HSt) : HSt := { s with dst := p ++ s.dst }

def preR (p : Bytes) : Except HStop HSt → Except HStop HSt
  | .ok s => .ok (pre p s)
  | .error e => .error e

theorem pre_handle (p : Bytes) (s : HSt) : (pre p s).handle = pre p s.handle := by
  unfold HSt.handle pre; split <;> simp_all

theorem pre_enter (p : Bytes) (s : HSt) (o : Option Bytes) : (pre p s).enter o = pre p (s.enter o) := by
  cases o with
  | none => rfl
  | some n =>
    simp only [HSt.enter]
    have := pre_handle p { s with curName := some n }
    simp only [pre] at this ⊢
    rw [this]

theorem pre_generic (p : Bytes) (s : HSt) (n v : Bytes) : (pre p s).generic n v = pre p (s.generic n v) := by
  simp [HSt.generic, pre]

theorem pre_openLine (p : Bytes) (s : HSt) (l n v : Bytes) : (pre p s).openLine l n v = pre p (s.openLine l n v) := by
  simp [HSt.openLine, pre]

theorem pre_joinLine (p : Bytes) (s : HSt) (l n v : Bytes) : (pre p s).joinLine l n v = pre p (s.joinLine l n v) := by
  unfold HSt.joinLine
  by_cases h : s.isNameWritten
  · simp [pre, h]
  · have : (pre p s).isNameWritten = false := by simp [pre, h]
    simp only [this, h, Bool.not_false, if_true]
    simpa using pre_openLine p s l n v

theorem pre_clArm (p : Bytes) (m : EncodeMsg) (s : HSt) (v : Bytes) : clArm m (pre p s) v = preR p (clArm m s v) := by
  rcases s with ⟨dst, w, e, al, wl, wd, cn, nw, mc, il, pc⟩
  unfold clArm
  cases wl <;> cases nw <;> cases hb : m.body with
  | none => by_cases hm : m.reqMethod = some mHEAD <;> simp [pre, preR, HSt.generic, hm]
  | some b =>
    cases b with
    | known k => simp [pre, preR, HSt.openLine]
    | unknown =>
      cases hc : contentLengthParse v with
      | none => simp [pre, preR]
      | some len =>
        cases pc with
        | none => simp [pre, preR, HSt.openLine]
        | some k => by_cases hk : k = len <;> simp [pre, preR, hk]

theorem pre_teArm (p : Bytes) (m : EncodeMsg) (s : HSt) (v : Bytes) : teArm m (pre p s) v = preR p (teArm m s v) := by
  rcases s with ⟨dst, w, e, al, wl, wd, cn, nw, mc, il, pc⟩
  unfold teArm
  by_cases hc : m.head.version = .h10 ∨ canChunked m.reqMethod m.head.status = false
  · cases wl <;> cases nw <;> simp [pre, preR, hc]
  · cases wl <;> cases nw <;> simp [pre, preR, hc, HSt.joinLine, HSt.openLine]

theorem pre_connArm (p : Bytes) (s : HSt) (v : Bytes) : connArm (pre p s) v = pre p (connArm s v) := by
  rcases s with ⟨dst, w, e, al, wl, wd, cn, nw, mc, il, pc⟩
  unfold connArm
  cases hc : connectionClose v <;> cases il <;> cases nw <;> simp [pre, HSt.joinLine, HSt.openLine]

theorem pre_trailerArm (p : Bytes) (m : EncodeMsg) (s : HSt) (v : Bytes) : trailerArm m (pre p s) v = pre p (trailerArm m s v) := by
  rcases s with ⟨dst, w, e, al, wl, wd, cn, nw, mc, il, pc⟩
  unfold trailerArm
  by_cases hc : m.head.version = .h10 ∨ canChunked m.reqMethod m.head.status = false
  · simp [pre, hc]
  · cases nw <;> cases al <;> cases ht : toStr v <;> simp [pre, hc, HSt.joinLine, HSt.openLine]

theorem pre_harm (p : Bytes) (m : EncodeMsg) (s : HSt) (n v : Bytes) : harm m (pre p s) n v = preR p (harm m s n v) := by
  unfold harm
  repeat' split
  · exact pre_clArm ..
  · exact pre_teArm ..
  · simp only [preR, pre_connArm]
  · have := pre_generic p { s with wroteDate := true } n v
    simp only [preR]
    rw [← this]; rfl
  · simp only [preR, pre_trailerArm]
  · simp only [preR, pre_generic]

theorem pre_hstep (p : Bytes) (m : EncodeMsg) (s : HSt) (f : Option Bytes × Bytes) : hstep m (pre p s) f = preR p (hstep m s f) := by
  unfold hstep
  rw [pre_enter]
  have : (pre p (s.enter f.1)).curName = (s.enter f.1).curName := rfl
  rw [this]
  cases (s.enter f.1).curName with
  | none => rfl
  | some n => exact pre_harm ..

theorem pre_hrun (p : Bytes) (m : EncodeMsg) : ∀ (fs : List (Option Bytes × Bytes)) (s : HSt), hrun m (pre p s) fs = preR p (hrun m s fs) := by
  intro fs
  induction fs with
  | nil => intro s; rfl
  | cons f fs ih =>
    intro s
    simp only [hrun, pre_hstep]
    cases hstep m s f with
    | error e => rfl
    | ok s' => simp only [preR]; exact ih s'

theorem pre_implicitLen (p : Bytes) (m : EncodeMsg) (s : HSt) : implicitLen m (pre p s) = pre p (implicitLen m s) := by
  rcases s with ⟨dst, w, e, al, wl, wd, cn, nw, mc, il, pc⟩
  have h0 : ∀ b, m.body = b → (b = none ∨ b = some (.known 0)) → implicitLen m (pre p ⟨dst, w, e, al, wl, wd, cn, nw, mc, il, pc⟩) =
      pre p (implicitLen m ⟨dst, w, e, al, wl, wd, cn, nw, mc, il, pc⟩) := by
    intro b hb h
    unfold implicitLen
    rcases h with rfl | rfl <;> cases wl <;> cases hz : canHaveImplicitZero m.reqMethod m.head.status <;> simp [pre, hb]
  cases hb : m.body with
  | none => exact h0 _ hb (.inl rfl)
  | some b =>
    cases b with
    | known k =>
      cases k with
      | zero => exact h0 _ hb (.inr rfl)
      | succ k =>
        unfold implicitLen
        cases wl <;> cases hz : canHaveContentLength m.reqMethod m.head.status <;> simp [pre, hb]
    | unknown =>
      unfold implicitLen
      by_cases hc : m.head.version = .h10 ∨ canChunked m.reqMethod m.head.status = false
      · cases wl <;> simp [pre, hc, hb]
      · cases wl <;> simp [pre, hc, hb]

theorem pre_forceBody (p : Bytes) (m : EncodeMsg) (s : HSt) : forceBody m (pre p s) = pre p (forceBody m s) := by
  unfold forceBody; split <;> rfl

theorem pre_dateAndEnd (env : EncodeEnv) (p : Bytes) (m : EncodeMsg) (s : HSt) : dateAndEnd env m (pre p s) = pre p (dateAndEnd env m s) := by
  rcases s with ⟨dst, w, e, al, wl, wd, cn, nw, mc, il, pc⟩
  unfold dateAndEnd
  cases wd <;> cases hd : m.dateHeader <;> simp [pre]

theorem encodeHeaders_pre (env : EncodeEnv) (m : EncodeMsg) (p dst : Bytes) (l wl : Bool) (n : Nat) (w : NameWriter) :
    encodeHeaders env m (p ++ dst) l (p.length + n) wl w = (p ++ (encodeHeaders env m dst l n wl w).1, (encodeHeaders env m dst l n wl w).2) := by
  unfold encodeHeaders
  have := pre_hrun p m m.head.headers.drain ⟨dst, w, Encoder.length 0, none, wl, false, none, false, false, l, none⟩
  simp only [pre] at this
  rw [this]
  cases hrun m ⟨dst, w, Encoder.length 0, none, wl, false, none, false, false, l, none⟩ m.head.headers.drain with
  | error e =>
    cases e with
    | userHeader => simp [preR, List.take_length_add_append]
    | panic => rfl
  | ok s =>
    simp only [preR, pre_handle, pre_implicitLen, pre_forceBody, pre_dateAndEnd]
    rfl

/-- A response head is appended to what is in the buffer; nothing else depends on that. -/
theorem serverEncode_pre (env : EncodeEnv) (m : EncodeMsg) (dst : Bytes) :
    serverEncode env m dst = (dst ++ (serverEncode env m []).1, (serverEncode env m []).2) := by
  unfold serverEncode
  simp only []
  cases hl : statusLine env (encodePrep m).1.head with
  | none => simp
  | some line =>
    have := encodeHeaders_pre env (encodePrep m).1 dst line (encodePrep m).2.2.1 (encodePrep m).2.2.2 0 (nameWriterOf (encodePrep m).1)
    simp only [Nat.add_zero] at this
    simp only [this, List.nil_append, List.length_nil]
    rcases encodeHeaders env (encodePrep m).1 line (encodePrep m).2.2.1 0 (encodePrep m).2.2.2 (nameWriterOf (encodePrep m).1) with ⟨o, r⟩
    cases r <;> rfl

/-- A request head is appended to what is in the buffer. -/
theorem clientEncode_pre (t : Bool) (h : ReqHead) (b : Option BodyLength) (dst : Bytes) :
    clientEncode t h b dst = (clientEncode t h b []).map (fun r => (dst ++ r.1, r.2)) := by
  unfold clientEncode
  simp only
  cases versionText h.version <;> simp

/-! ## The loop over a body -/

theorem finishBody_prefix (out : Bytes) (w : Writing) : out <+: (finishBody out w).out := by
  unfold finishBody
  split
  · simp only
    split <;> exact List.prefix_append _ _
  · exact List.prefix_refl _

theorem writeFrames_prefix (t c : Bool) : ∀ (fs : List UserFrame) (out : Bytes) (w : Writing), out <+: (writeFrames t c out w fs).out := by
  intro fs
  induction fs with
  | nil =>
    intro out w
    cases w with
    | body e => rw [writeFrames]; exact finishBody_prefix _ _
    | _ => rw [writeFrames] <;> first | exact List.prefix_refl _ | (intro e h; cases h)
  | cons f fs ih =>
    intro out w
    cases w with
    | body e =>
      cases f with
      | data bs es =>
        cases es with
        | true =>
          rw [writeFrames]; split
          · exact finishBody_prefix _ _
          · exact List.prefix_append _ _
        | false =>
          rw [writeFrames]; split
          · exact ih _ _
          · exact (List.prefix_append _ _).trans (ih _ _)
      | trailers m => rw [writeFrames]; exact (List.prefix_append _ _).trans (finishBody_prefix _ _)
      | unknown => rw [writeFrames]; exact ih _ _
      | error => rw [writeFrames]; exact List.prefix_refl _
    | _ => rw [writeFrames] <;> first | exact List.prefix_refl _ | (intro e h; cases h)

theorem writeFrames_over (t c : Bool) (out : Bytes) (w : Writing) (h : ∀ e, w ≠ .body e) (fs : List UserFrame) : writeFrames t c out w fs = ⟨out, w, .ok⟩ := by
  cases w with
  | body e => exact absurd rfl (h e)
  | _ => rw [writeFrames]; intro e h; cases h

theorem writeFrames_body_nil (t c : Bool) (out : Bytes) (w : Writing) : writeFrames t c out w [] = finishBody out w := by
  cases w with
  | body e => rw [writeFrames]
  | _ => rw [writeFrames_over _ _ _ _ (by intro e h; cases h)]; rfl

/-! ## Moves that put nothing on the wire -/

abbrev BufOk (c : Conn) : Prop := WBufOk (fun _ : Bytes => True) id c.out.wbuf

def allow (c : Conn) : Bool := c.client || c.allowTrailers

structure Qc (c c' : Conn) : Prop where
  ok : BufOk c → BufOk c' ∧ wire c' = wire c
  log : ∃ evs, c'.log = c.log ++ evs ∧ evs.filter isOut = []
  writing : c'.writing = c.writing ∨ c'.writing = .closed ∨ (c.writing = .keepAlive ∧ c'.writing = .init)
  title : c'.titleCase = c.titleCase
  client : c'.client = c.client
  allow : (∃ e, c'.writing = .body e) → allow c' = allow c
  strategy : c'.out.wbuf.strategy = c.out.wbuf.strategy
  room : Room.NoMore c.out.wbuf c'.out.wbuf
  pipeline : c'.out.flushPipeline = c.out.flushPipeline
  less : BufOk c → (waiting id c'.out.wbuf).length ≤ (waiting id c.out.wbuf).length

theorem Qc.refl (c : Conn) : Qc c c :=
  ⟨fun h => ⟨h, rfl⟩, ⟨[], by simp⟩, .inl rfl, rfl, rfl, fun _ => rfl, rfl, .refl _, rfl, fun _ => Nat.le_refl _⟩

theorem Qc.body {c c' : Conn} (h : Qc c c') {e : Encoder} (hb : c'.writing = .body e) : c.writing = .body e := by
  rcases h.writing with a | a | ⟨_, a⟩
  · rw [← a]; exact hb
  · rw [a] at hb; cases hb
  · rw [a] at hb; cases hb

theorem Qc.trans {a b c : Conn} (h : Qc a b) (k : Qc b c) : Qc a c := by
  refine ⟨fun x => ?_, ?_, ?_, k.title.trans h.title, k.client.trans h.client, fun ⟨e, he⟩ => ?_, k.strategy.trans h.strategy,
    h.room.trans k.room, k.pipeline.trans h.pipeline, fun x => Nat.le_trans (k.less (h.ok x).1) (h.less x)⟩
  · obtain ⟨y, z⟩ := h.ok x
    obtain ⟨y', z'⟩ := k.ok y
    exact ⟨y', z'.trans z⟩
  · obtain ⟨x, hx, hx'⟩ := h.log
    obtain ⟨y, hy, hy'⟩ := k.log
    exact ⟨x ++ y, by rw [hy, hx, List.append_assoc], by rw [List.filter_append, hx', hy']; rfl⟩
  · have h1 := h.writing
    have h2 := k.writing
    grind
  · rw [k.allow ⟨e, he⟩, h.allow ⟨e, k.body he⟩]

/-- Nothing but the states of reading and writing and things that do not matter change. -/
theorem Qc.of {c c' : Conn} (h1 : c'.out = c.out) (h2 : c'.log = c.log)
    (h3 : c'.writing = c.writing ∨ c'.writing = .closed ∨ (c.writing = .keepAlive ∧ c'.writing = .init))
    (h4 : c'.titleCase = c.titleCase) (h5 : c'.client = c.client) (h6 : c'.allowTrailers = c.allowTrailers) : Qc c c' := by
  refine ⟨fun x => ?_, ⟨[], by simp [h2]⟩, h3, h4, h5, fun _ => by simp only [Wire.allow, h5, h6], by rw [h1],
    by rw [h1]; exact .refl _, by rw [h1], fun _ => by rw [h1]; exact Nat.le_refl _⟩
  unfold BufOk at *
  exact ⟨by rw [h1]; exact x, by simp only [wire, h1]⟩

theorem qc_closeRead (c : Conn) : Qc c c.closeRead := .of rfl rfl (.inl rfl) rfl rfl rfl
theorem qc_closeWrite (c : Conn) : Qc c c.closeWrite := .of rfl rfl (.inr (.inl rfl)) rfl rfl rfl
theorem qc_closeAll (c : Conn) : Qc c c.closeAll := .of rfl rfl (.inr (.inl rfl)) rfl rfl rfl

theorem qc_stateKeepAlive (c : Conn) : Qc c c.stateKeepAlive := by
  unfold Conn.stateKeepAlive
  cases hr : c.reading <;> cases hw : c.writing <;> simp only
  all_goals first
    | exact .refl _
    | exact qc_closeAll _
    | (split
       · exact .of rfl rfl (.inr (.inr ⟨hw, rfl⟩)) rfl rfl rfl
       · exact qc_closeAll _)

theorem qc_notifyFrom (c : Conn) (i : NotifyIn) : Qc c (c.notifyFrom i) := by
  unfold Conn.notifyFrom
  repeat' split
  all_goals first
    | exact .refl _
    | exact qc_closeAll _
    | exact qc_closeRead _
    | exact .of rfl rfl (.inl rfl) rfl rfl rfl
    | exact .of rfl rfl (.inr (.inl rfl)) rfl rfl rfl

theorem qc_tryKeepAlive (c : Conn) (i : NotifyIn) : Qc c (c.tryKeepAlive i) := by
  refine (qc_stateKeepAlive c).trans ?_
  unfold Conn.tryKeepAlive Conn.maybeNotify
  repeat' split
  all_goals first | exact .refl _ | exact qc_notifyFrom _ _

theorem qc_log (c : Conn) (e : Ev) (h : isOut e = false) : Qc c { c with log := c.log ++ [e] } :=
  ⟨fun h => ⟨h, rfl⟩, ⟨[e], rfl, by simp [h]⟩, .inl rfl, rfl, rfl, fun _ => rfl, rfl, .refl _, rfl, fun _ => Nat.le_refl _⟩

theorem qc_readDone (c : Conn) : Qc c c.readDone := (qc_log c .readEnd rfl).trans (.of rfl rfl (.inl rfl) rfl rfl rfl)

theorem qc_decodeBody (P : TrailerParser) (c : Conn) (dd : Decoder) (r : Rd) (i : NotifyIn) : Qc c (c.decodeBody P dd r i).2 := by
  have h0 : ∀ x, Qc c { c with reading := x } := fun x => .of rfl rfl (.inl rfl) rfl rfl rfl
  unfold Conn.decodeBody
  repeat' split
  all_goals first
    | exact h0 _
    | exact (qc_readDone c).trans (qc_tryKeepAlive _ i)
    | exact (h0 _).trans (qc_tryKeepAlive _ i)

theorem qc_startTimer (c : Conn) (t : Nat) : Qc c (c.startTimer t) := by
  unfold Conn.startTimer
  repeat' split
  all_goals first | exact .refl _ | exact .of rfl rfl (.inl rfl) rfl rfl rfl

theorem qc_headState (c : Conn) (m : MsgIn) (n : Nat) (h : c.client = false → c.writing = .init) : Qc c (c.headState m n) := by
  refine ⟨fun h => ⟨h, rfl⟩, ⟨[_], rfl, rfl⟩, .inl rfl, rfl, rfl, ?_, rfl, .refl _, rfl, fun _ => Nat.le_refl _⟩
  intro ⟨e, he⟩
  cases hc : c.client with
  | true => simp [Wire.allow, Conn.headState, hc]
  | false =>
    have := h hc
    have he' : c.writing = .body e := he
    rw [this] at he'; cases he'

theorem qc_acceptHead (c : Conn) (m : MsgIn) (n : Nat) (i : NotifyIn) (h : c.client = false → c.writing = .init) : Qc c (c.acceptHead m n i) := by
  have h0 : ∀ x, Qc (c.headState m n) { c.headState m n with reading := x } := fun x => .of rfl rfl (.inl rfl) rfl rfl rfl
  have h1 := qc_headState c m n h
  unfold Conn.acceptHead
  repeat' split
  all_goals first
    | exact h1.trans ((qc_readDone _).trans (qc_tryKeepAlive _ i))
    | exact h1.trans (qc_readDone _)
    | exact h1.trans (h0 _)

theorem qc_keepAlive (c : Conn) (b : Bool) (i : IoIn) : Qc c (c.pollReadKeepAlive b i).2 := by
  unfold Conn.pollReadKeepAlive Conn.requireEmpty Conn.midMessageEof
  repeat' split
  all_goals first | exact .refl _ | exact qc_closeAll _ | exact qc_closeRead _

theorem qc_out (c : Conn) (o : WriteSide Bytes) (h : BufOk c → WBufOk (fun _ : Bytes => True) id o.wbuf ∧ o.sink.sent ++ waiting id o.wbuf = wire c)
    (hs : o.wbuf.strategy = c.out.wbuf.strategy) (hr : Room.NoMore c.out.wbuf o.wbuf) (hp : o.flushPipeline = c.out.flushPipeline)
    (hm : BufOk c → ∃ t, o.sink.sent = c.out.sink.sent ++ t) : Qc c { c with out := o } :=
  ⟨fun x => h x, ⟨[], by simp⟩, .inl rfl, rfl, rfl, fun _ => rfl, hs, hr, hp, fun x => by
    obtain ⟨t, ht⟩ := hm x
    have := congrArg List.length (h x).2
    simp only [wire, List.length_append, ht] at this
    show (waiting id o.wbuf).length ≤ _
    omega⟩

theorem qc_pollFlush (c : Conn) (f : FlushIn) (i : NotifyIn) : Qc c (c.pollFlush f i).2 := by
  have h : Qc c { c with out := ((c.scripted f).pollFlush bytesBuf f.readBuf).2 } := by
    obtain ⟨r1, r2⟩ := Room.pollFlush_noMore (I := bytesBuf) (c.scripted f) f.readBuf
    refine qc_out c _ (fun x => ?_) (Poll.pollFlush_strategy _ _) r1 r2 (fun x => (pollFlush_ok bytesBuf_stands (c.scripted f) x f.readBuf).1.more)
    obtain ⟨a, _, _⟩ := pollFlush_ok bytesBuf_stands (c.scripted f) x f.readBuf
    exact ⟨a.ok, a.conserve⟩
  unfold Conn.pollFlush
  simp only
  split
  · exact h.trans (qc_tryKeepAlive _ i)
  · exact h

theorem qc_pollShutdown (c : Conn) (f : FlushIn) : Qc c (c.pollShutdown f).2 := by
  obtain ⟨r1, r2⟩ := Room.pollShutdown_noMore (I := bytesBuf) (c.scripted f) f.readBuf
  have hm : BufOk c → ∃ t, ((c.scripted f).pollShutdown bytesBuf f.readBuf).2.sink.sent = c.out.sink.sent ++ t := by
    intro x
    have a := (pollFlush_ok bytesBuf_stands (c.scripted f) x f.readBuf).1.more
    unfold WriteSide.pollShutdown
    split
    · simp only [Sink.shutdown]
      rw [(sinkFlush_spec _).1]
      exact a
    · exact a
  refine qc_out c _ (fun x => ?_) (Poll.pollShutdown_strategy _ _) r1 r2 hm
  obtain ⟨a, _, _⟩ := pollFlush_ok bytesBuf_stands (c.scripted f) x f.readBuf
  unfold WriteSide.pollShutdown
  split
  · refine ⟨a.ok, ?_⟩
    simp only [Sink.shutdown]
    rw [(sinkFlush_spec _).1]
    exact a.conserve
  · exact ⟨a.ok, a.conserve⟩

/-! ## Putting something on the wire -/

theorem put_spec {c : Conn} (h : BufOk c) (bs : Bytes) : BufOk (c.put bs) ∧ wire (c.put bs) = wire c ++ bs := by
  unfold Conn.put
  split
  · rename_i e; exact ⟨h, by rw [e, List.append_nil]⟩
  · rename_i e
    obtain ⟨w', h1, h2, _, h3⟩ := buffer_spec bytesBuf_stands h true bs trivial e
    rw [h1]
    exact ⟨h2, by simp only [wire, h3, id, List.append_assoc]⟩

theorem put_strategy {c : Conn} (h : BufOk c) (bs : Bytes) : (c.put bs).out.wbuf.strategy = c.out.wbuf.strategy := by
  unfold Conn.put
  split
  · rfl
  · rename_i e
    obtain ⟨w', h1, _, h3, _⟩ := buffer_spec bytesBuf_stands h true bs trivial e
    rw [h1]
    exact h3

theorem put_keep (c : Conn) (bs : Bytes) : (c.put bs).titleCase = c.titleCase ∧ (c.put bs).client = c.client ∧ (c.put bs).allowTrailers = c.allowTrailers ∧
    (c.put bs).log = c.log := by
  unfold Conn.put; repeat' split
  all_goals simp

theorem putHeaders_spec {c : Conn} (h : BufOk c) (hg : WriteBuf.canHeadersBuf bytesBuf c.out.wbuf = true) (bs : Bytes) :
    BufOk (c.putHeaders (c.out.wbuf.headers.bytes ++ bs)) ∧ wire (c.putHeaders (c.out.wbuf.headers.bytes ++ bs)) = wire c ++ bs := by
  obtain ⟨a, b⟩ := putHead_spec bytesBuf_stands h bs hg
  refine ⟨a, ?_⟩
  show _ ++ waiting id (c.out.wbuf.putHead bs) = _
  rw [b, ← List.append_assoc]; rfl

/-! ## The story and the wire -/

/-- How far the connection is with its story. -/
inductive St (d : Disp) (st : List Piece) : Prop where
  | whole (h : ∀ p ∈ st, p.Whole) (hw : wire d.conn = st.flatMap Piece.bytes) (hb : ∀ e, d.conn.writing ≠ .body e)
  | stopped (pre : List Piece) (m : Message) (body : Bytes) (hs : st = pre ++ [.message m]) (h : ∀ p ∈ pre, p.Whole)
      (hw : wire d.conn = pre.flatMap Piece.bytes ++ m.head ++ body) (ht : body = (m.written []).out ∨ Partly m body)
      (hc : d.conn.writing = .closed ∨ d.done = true)
  | going (pre : List Piece) (m : Message) (body : Bytes) (e : Encoder) (hs : st = pre ++ [.message m]) (h : ∀ p ∈ pre, p.Whole)
      (hw : wire d.conn = pre.flatMap Piece.bytes ++ m.head ++ body) (hp : Partly m body) (hb : d.conn.writing = .body e)
      (h1 : m.titleCase = d.conn.titleCase) (h2 : m.trailers = allow d.conn)
      (h3 : d.bodyRx = true → ∀ more, m.written more = writeFrames m.trailers m.titleCase body (.body e) more)
      (h4 : m.written [] = finishBody body (.body e))

/-- What holds of a connection and its story. -/
structure WI (s : WriteStrategy) (d : Disp) (st : List Piece) : Prop where
  ok : BufOk d.conn
  strategy : d.conn.out.wbuf.strategy = s
  log : st.map Piece.ev = d.conn.log.filter isOut
  st : St d st

variable {s : WriteStrategy}

/-- An act that puts nothing on the wire. -/
structure Qd (d d' : Disp) : Prop where
  conn : Qc d.conn d'.conn
  rx : (∃ e, d'.conn.writing = .body e) → d'.bodyRx = d.bodyRx
  done : d.done = true → d'.done = true

theorem Qd.refl (d : Disp) : Qd d d := ⟨.refl _, fun _ => rfl, id⟩

theorem Qd.trans {a b c : Disp} (h : Qd a b) (k : Qd b c) : Qd a c :=
  ⟨h.conn.trans k.conn, fun ⟨e, he⟩ => (k.rx ⟨e, he⟩).trans (h.rx ⟨e, k.conn.body he⟩), fun x => k.done (h.done x)⟩

theorem Qd.conn_only (d : Disp) {c : Conn} (h : Qc d.conn c) : Qd d { d with conn := c } := ⟨h, fun _ => rfl, id⟩

theorem qd_fail (d : Disp) : Qd d d.fail := by
  refine ⟨by rw [Poll.out_fail]; exact .refl _, fun _ => ?_, fun _ => rfl⟩
  unfold Disp.fail Disp.failBody; split <;> rfl

theorem qd_close (d : Disp) : Qd d d.close := ⟨(qc_closeRead _).trans (qc_closeWrite _), fun _ => rfl, id⟩

theorem WI.quiet {d d' : Disp} {st : List Piece} (h : WI s d st) (q : Qd d d') : WI s d' st := by
  obtain ⟨ok', hwire⟩ := q.conn.ok h.ok
  refine ⟨ok', q.conn.strategy.trans h.strategy, ?_, ?_⟩
  · obtain ⟨evs, he, hf⟩ := q.conn.log
    rw [he, List.filter_append, hf, List.append_nil]; exact h.log
  · cases h.st with
    | whole a b c =>
      refine .whole a (hwire.trans b) (fun e he => c e (q.conn.body he))
    | stopped pre m body hs a b c hc =>
      refine .stopped pre m body hs a (hwire.trans b) c ?_
      rcases hc with hc | hc
      · rcases q.conn.writing with w | w | ⟨w, _⟩
        · exact .inl (w.trans hc)
        · exact .inl w
        · rw [hc] at w; cases w
      · exact .inr (q.done hc)
    | going pre m body e hs a b hp hb h1 h2 h3 h4 =>
      rcases q.conn.writing with w | w | ⟨w, _⟩
      · have hb' := w.trans hb
        refine .going pre m body e hs a (hwire.trans b) hp hb' (h1.trans q.conn.title.symm) (h2.trans (q.conn.allow ⟨e, hb'⟩).symm) ?_ h4
        rw [q.rx ⟨e, hb'⟩]; exact h3
      · exact .stopped pre m body hs a (hwire.trans b) (.inr hp) (.inl w)
      · rw [hb] at w; cases w

/-- Where the connection may write a head, everything before it is complete. -/
theorem WI.init {d : Disp} {st : List Piece} (h : WI s d st) (hd : d.done = false) (hw : d.conn.writing = .init) :
    (∀ p ∈ st, p.Whole) ∧ wire d.conn = st.flatMap Piece.bytes := by
  cases h.st with
  | whole a b c => exact ⟨a, b⟩
  | stopped pre m body hs a b c hc => rw [hw, hd] at hc; rcases hc with hc | hc <;> cases hc
  | going pre m body e hs a b hp hb => rw [hw] at hb; cases hb

theorem addFrame_last (f : UserFrame) (m : Message) : ∀ pre : List Piece, addFrame f (pre ++ [.message m]) = pre ++ [.message { m with frames := m.frames ++ [f] }] := by
  intro pre
  induction pre with
  | nil => rfl
  | cons p ps ih =>
    cases ps with
    | nil => rw [List.cons_append, addFrame]; exact congrArg (List.cons p) ih; intro m' hm; simp
    | cons q qs => rw [List.cons_append, addFrame]; exact congrArg (List.cons p) ih; intro m' hm; simp

theorem written_add (m : Message) (f : UserFrame) (more : List UserFrame) :
    ({ m with frames := m.frames ++ [f] } : Message).written more = m.written (f :: more) := by
  simp [Message.written]

/-- A head is put on the wire. -/
theorem WI.head {d d' : Disp} {st : List Piece} (h : WI s d st) (hd : d.done = false) (hw : d.conn.writing = .init) (m : Message) (hm : m.frames = [])
    (ok : BufOk d'.conn) (hst : d'.conn.out.wbuf.strategy = s) (hwire : wire d'.conn = wire d.conn ++ m.head) (hwr : d'.conn.writing = m.framing)
    (hni : m.framing ≠ .init) (h1 : m.titleCase = d'.conn.titleCase) (h2 : m.trailers = allow d'.conn) (evs : List Ev) (hl : d'.conn.log = d.conn.log ++ evs)
    (he : evs.filter isOut = [m.ev]) : WI s d' (st ++ [.message m]) := by
  obtain ⟨a, b⟩ := h.init hd hw
  refine ⟨ok, hst, ?_, ?_⟩
  · rw [hl, List.filter_append, he, List.map_append, h.log]; rfl
  · have hwn : ∀ more, m.written more = writeFrames m.trailers m.titleCase [] m.framing more := by intro more; simp [Message.written, hm]
    have hover : (∀ e, m.framing ≠ .body e) → m.written [] = ⟨[], m.framing, .ok⟩ := fun hx => by rw [hwn]; exact writeFrames_over _ _ _ _ hx _
    cases hf : m.framing with
    | init => exact absurd hf hni
    | body e =>
      refine .going st m [] e rfl a (by rw [hwire, b]; simp) (fun _ => List.nil_prefix) (hwr.trans hf) h1 h2 (fun _ more => ?_) ?_
      · rw [hwn, hf]
      · rw [hwn, hf, writeFrames_body_nil]
    | keepAlive =>
      have := hover (by rw [hf]; intro e he; cases he)
      refine .whole (fun p hp => ?_) ?_ (fun e he => by rw [hwr, hf] at he; cases he)
      · rcases List.mem_append.1 hp with hp | hp
        · exact a p hp
        · rw [List.mem_singleton] at hp
          rw [hp]; simp only [Piece.Whole, this]; exact ⟨hf, trivial⟩
      · rw [hwire, b, List.flatMap_append]; simp [Piece.bytes, Message.bytes, this]
    | closed =>
      have := hover (by rw [hf]; intro e he; cases he)
      exact .stopped st m [] rfl a (by rw [hwire, b]; simp) (.inl (by rw [this])) (.inl (hwr.trans hf))

/-- The end of a body. -/
theorem endBody_spec (e : Encoder) (body : Bytes) :
    finishBody body (.body e) = ⟨body ++ (Writing.body e).endBody.1, (Writing.body e).endBody.2.1,
      match (Writing.body e).endBody.2.2 with | none => .ok | some n => .aborted n⟩ ∧
    ((Writing.body e).endBody.2.1 = .keepAlive ∨ (Writing.body e).endBody.2.1 = .closed) ∧
    ((Writing.body e).endBody.2.2 ≠ none → (Writing.body e).endBody.2.1 = .closed) := by
  have hb : ∀ l, Writing.afterBody l = .keepAlive ∨ Writing.afterBody l = .closed := by intro l; cases l <;> simp [Writing.afterBody]
  refine ⟨?_, ?_, ?_⟩
  · unfold finishBody
    simp only
    cases (Writing.body e).endBody.2.2 <;> rfl
  · unfold Writing.endBody
    simp only
    split
    · exact hb _
    · exact .inr rfl
  · unfold Writing.endBody
    simp only
    split
    · intro h; exact absurd rfl h
    · intro _; rfl

theorem setWriting_log (c : Conn) (w : Writing) : ∃ evs, (c.setWriting w).log = c.log ++ evs ∧ evs.filter isOut = [] := by
  unfold Conn.setWriting
  simp only
  split
  · exact ⟨[.writeEnd], rfl, rfl⟩
  · exact ⟨[], by simp, rfl⟩

/-- The last message of the story is finished, and all of it is on the wire. -/
def Fin (d : Disp) (st : List Piece) : Prop :=
  ∃ pre m, st = pre ++ [.message m] ∧ (∀ p ∈ pre, p.Whole) ∧ wire d.conn = pre.flatMap Piece.bytes ++ m.bytes ∧ (m.written []).result = .ok

/-- A piece of the current body is put on the wire. -/
theorem WI.piece {d : Disp} {pre : List Piece} {m : Message} {body : Bytes} (ok : BufOk d.conn) (hst : d.conn.out.wbuf.strategy = s) (hlog : (pre ++ [Piece.message m]).map Piece.ev = d.conn.log.filter isOut)
    (a : ∀ p ∈ pre, p.Whole) (hw : wire d.conn = pre.flatMap Piece.bytes ++ m.head ++ body) (h1 : m.titleCase = d.conn.titleCase) (h2 : m.trailers = allow d.conn)
    (o : Bytes) (w : Writing) (b : Bool) (hi : w ≠ .init)
    (hg : ∀ e, w = .body e → (b = true → ∀ more, m.written more = writeFrames m.trailers m.titleCase (body ++ o) (.body e) more) ∧
      m.written [] = finishBody (body ++ o) (.body e) ∧ Partly m (body ++ o))
    (hx : (∀ e, w ≠ .body e) → body ++ o = (m.written []).out ∧ (m.written []).writing = w ∧ (w = .keepAlive → (m.written []).result = .ok)) :
    WI s { d with bodyRx := b, conn := (d.conn.put o).setWriting w } (pre ++ [.message m]) ∧
    ((∀ e, w ≠ .body e) → (m.written []).result = .ok → Fin { d with bodyRx := b, conn := (d.conn.put o).setWriting w } (pre ++ [.message m])) := by
  obtain ⟨p1, p2⟩ := put_spec ok o
  obtain ⟨k1, k2, k3, k4⟩ := put_keep d.conn o
  have hw' : wire ((d.conn.put o).setWriting w) = pre.flatMap Piece.bytes ++ m.head ++ (body ++ o) := by
    show wire (d.conn.put o) = _
    rw [p2, hw]; simp
  refine ⟨⟨p1, (put_strategy ok o).trans hst, ?_, ?_⟩, fun hn hr => ⟨pre, m, rfl, a, ?_, hr⟩⟩
  rotate_left 2
  · refine Eq.trans hw' ?_
    rw [(hx hn).1]; simp [Message.bytes]
  · obtain ⟨evs, e1, e2⟩ := setWriting_log (d.conn.put o) w
    show _ = ((d.conn.put o).setWriting w).log.filter isOut
    rw [e1, List.filter_append, e2, List.append_nil, k4]; exact hlog
  · cases w with
    | init => exact absurd rfl hi
    | body e =>
      obtain ⟨g1, g2, g3⟩ := hg e rfl
      refine .going pre m (body ++ o) e rfl a hw' g3 rfl (h1.trans k1.symm) ?_ g1 g2
      rw [h2]; simp only [allow, Conn.setWriting, k2, k3]
    | keepAlive =>
      obtain ⟨x1, x2, x3⟩ := hx (by intro e he; cases he)
      refine .whole (fun p hp => ?_) ?_ (fun e he => by cases he)
      · rcases List.mem_append.1 hp with hp | hp
        · exact a p hp
        · rw [List.mem_singleton] at hp
          rw [hp]; exact ⟨x2, x3 rfl⟩
      · refine Eq.trans hw' ?_
        rw [List.flatMap_append, x1]
        simp [Piece.bytes, Message.bytes]
    | closed => exact .stopped pre m (body ++ o) rfl a hw' (.inl (hx (by intro e he; cases he)).1) (.inl rfl)

/-- The end of the current body is put on the wire. -/
theorem WI.endBody {d : Disp} {pre : List Piece} {m : Message} {body : Bytes} {e : Encoder} (ok : BufOk d.conn) (hst : d.conn.out.wbuf.strategy = s)
    (hlog : (pre ++ [Piece.message m]).map Piece.ev = d.conn.log.filter isOut)
    (a : ∀ p ∈ pre, p.Whole) (hw : wire d.conn = pre.flatMap Piece.bytes ++ m.head ++ body) (hb : d.conn.writing = .body e)
    (h1 : m.titleCase = d.conn.titleCase) (h2 : m.trailers = allow d.conn) (h4 : m.written [] = finishBody body (.body e)) :
    WI s d.endBody (pre ++ [.message m]) ∧ (d.endBody.done = false → Fin d.endBody (pre ++ [.message m])) := by
  obtain ⟨f1, f2, f3⟩ := endBody_spec e body
  have hnb : ∀ e', (Writing.body e).endBody.2.1 ≠ .body e' := by intro e' he; rcases f2 with f | f <;> rw [f] at he <;> cases he
  have hres : (m.written []).result = (match (Writing.body e).endBody.2.2 with | none => .ok | some n => .aborted n) := by rw [h4, f1]
  obtain ⟨hh, hfin⟩ := WI.piece (d := d) (pre := pre) (m := m) (body := body) ok hst hlog a hw h1 h2 (Writing.body e).endBody.1 (Writing.body e).endBody.2.1 d.bodyRx
      (by rcases f2 with f | f <;> rw [f] <;> intro hx <;> cases hx)
      (fun e' he => absurd he (hnb e'))
      (by
        intro _
        refine ⟨by rw [h4, f1], by rw [h4, f1], fun hk => ?_⟩
        rw [hres]
        cases hn : (Writing.body e).endBody.2.2 with
        | none => rfl
        | some n => have := f3 (by rw [hn]; simp); rw [hk] at this; cases this)
  have he : d.conn.endBody = ((Writing.body e).endBody.2.2, (d.conn.put (Writing.body e).endBody.1).setWriting (Writing.body e).endBody.2.1) := by
    unfold Conn.endBody; rw [hb]
  unfold Disp.endBody
  simp only [he]
  split
  · exact ⟨hh.quiet (qd_fail _), fun hd => by cases hd⟩
  · rename_i hn
    refine ⟨hh, fun _ => hfin hnb ?_⟩
    rw [hres]
    cases hn' : (Writing.body e).endBody.2.2 with
    | none => rfl
    | some n => rw [hn'] at hn; exact absurd rfl hn

/-! ## What the acts add -/

theorem record_none (env : EncodeEnv) (P : TrailerParser) {d : Disp} {a : Act} {st : List Piece} (h : frameOf d a = none) (evs : List Ev)
    (hl : (d.step env P a).conn.log = d.conn.log ++ evs) (he : evs.filter isOut = []) : record env P d a st = st := by
  simp [record, h, hl, he]

theorem record_one (env : EncodeEnv) (P : TrailerParser) {d : Disp} {a : Act} {st : List Piece} (h : frameOf d a = none) (evs : List Ev) (e : Ev)
    (hl : (d.step env P a).conn.log = d.conn.log ++ evs) (he : evs.filter isOut = [e]) : record env P d a st = st ++ [pieceOf env d.conn a e] := by
  simp [record, h, hl, he]

theorem WI.step_quiet (env : EncodeEnv) (P : TrailerParser) {d : Disp} {a : Act} {st : List Piece} (h : WI s d st) (hf : frameOf d a = none)
    (q : Qd d (d.step env P a)) : WI s (d.step env P a) (record env P d a st) := by
  obtain ⟨evs, he, he'⟩ := q.conn.log
  rw [record_none env P hf evs he he']
  exact h.quiet q

theorem polls_iff {d : Disp} : polls d = true ↔ d.done = false ∧ d.closing = false ∧ d.bodyRx = true ∧ d.conn.canBufferBody = true ∧ d.conn.canWriteBody = true := by
  simp [polls, and_assoc]

theorem canWriteBody_iff {c : Conn} : c.canWriteBody = true ↔ ∃ e, c.writing = .body e := by
  unfold Conn.canWriteBody; split <;> simp_all

theorem WI.going_of {d : Disp} {st : List Piece} (h : WI s d st) (hd : d.done = false) {e : Encoder} (hb : d.conn.writing = .body e) :
    ∃ pre m body, st = pre ++ [.message m] ∧ (∀ p ∈ pre, p.Whole) ∧ wire d.conn = pre.flatMap Piece.bytes ++ m.head ++ body ∧ Partly m body ∧
      m.titleCase = d.conn.titleCase ∧ m.trailers = allow d.conn ∧
      (d.bodyRx = true → ∀ more, m.written more = writeFrames m.trailers m.titleCase body (.body e) more) ∧ m.written [] = finishBody body (.body e) := by
  cases h.st with
  | whole a b c => exact absurd hb (c e)
  | stopped pre m body hs a b c hc => rw [hb, hd] at hc; rcases hc with hc | hc <;> cases hc
  | going pre m body e' hs a b hp hb' h1 h2 h3 h4 =>
    rw [hb] at hb'; cases hb'
    exact ⟨pre, m, body, hs, a, b, hp, h1, h2, h3, h4⟩

theorem writeBody_cases (e : Encoder) (bs : Bytes) : ((Writing.body e).writeBody bs).2 ≠ .init := by
  unfold Writing.writeBody Writing.afterBody
  simp only
  repeat' split
  all_goals simp

theorem writeBodyAndEnd_cases (e : Encoder) (bs : Bytes) : ((Writing.body e).writeBodyAndEnd bs).2 = .keepAlive ∨ ((Writing.body e).writeBodyAndEnd bs).2 = .closed := by
  unfold Writing.writeBodyAndEnd
  simp only
  split <;> simp

theorem writeTrailers_cases (e : Encoder) (t c : Bool) (m : HeaderMap) : ((Writing.body e).writeTrailers t c m).2 ≠ .init := by
  unfold Writing.writeTrailers Writing.afterBody
  repeat' split
  all_goals simp_all

theorem finishBody_over (out : Bytes) {w : Writing} (h : ∀ e, w ≠ .body e) : finishBody out w = ⟨out, w, .ok⟩ := by
  cases w with
  | body e => exact absurd rfl (h e)
  | _ => rfl

/-- A frame of the user's body. -/
theorem WI.frame {d : Disp} {st : List Piece} (h : WI s d st) (hp : polls d = true) (f : UserFrame) : WI s (d.writeFrame (.frame f)) (addFrame f st) ∧
    ((d.writeFrame (.frame f)).done = false → (∀ e, (d.writeFrame (.frame f)).conn.writing ≠ .body e) → Fin (d.writeFrame (.frame f)) (addFrame f st)) := by
  obtain ⟨hd, hcl, hrx, hbb, hwb⟩ := polls_iff.1 hp
  obtain ⟨e, hb⟩ := canWriteBody_iff.1 hwb
  obtain ⟨pre, m, body, rfl, a, hw, hpa, h1, h2, h3, h4⟩ := h.going_of hd hb
  rw [addFrame_last]
  have hwn := fun more => (written_add m f more).trans (h3 hrx (f :: more))
  have hlog : (pre ++ [Piece.message { m with frames := m.frames ++ [f] }]).map Piece.ev = d.conn.log.filter isOut := by
    rw [← h.log, List.map_append, List.map_append]; rfl
  have hpartly : Partly { m with frames := m.frames ++ [f] } body := by
    intro more; rw [written_add]; exact hpa _
  cases f with
  | data bs es =>
    cases es with
    | true =>
      simp only [Disp.writeFrame]
      by_cases hbs : bs = []
      · rw [if_pos hbs]
        obtain ⟨x, y⟩ := WI.endBody (d := { d with bodyRx := false }) (m := { m with frames := _ }) h.ok h.strategy hlog a hw hb h1 h2
          (by rw [hwn, writeFrames, if_pos hbs])
        exact ⟨x, fun hd _ => y hd⟩
      · rw [if_neg hbs]
        have hk := writeBodyAndEnd_cases e bs
        have hwr : ∀ more, ({ m with frames := m.frames ++ [UserFrame.data bs true] } : Message).written more =
            ⟨body ++ ((Writing.body e).writeBodyAndEnd bs).1, ((Writing.body e).writeBodyAndEnd bs).2, .ok⟩ := by
          intro more; rw [hwn, writeFrames, if_neg hbs]
        have := WI.piece (d := d) (m := { m with frames := m.frames ++ [UserFrame.data bs true] }) (body := body) h.ok h.strategy hlog a hw h1 h2
          ((Writing.body e).writeBodyAndEnd bs).1 ((Writing.body e).writeBodyAndEnd bs).2 false
          (by rcases hk with f | f <;> rw [f] <;> intro hx <;> cases hx)
          (by intro e' he; rcases hk with f | f <;> rw [f] at he <;> cases he)
          (by intro _; rw [hwr]; exact ⟨rfl, rfl, fun _ => rfl⟩)
        have he : d.conn.writeBodyAndEnd bs = (d.conn.put ((Writing.body e).writeBodyAndEnd bs).1).setWriting ((Writing.body e).writeBodyAndEnd bs).2 := by
          unfold Conn.writeBodyAndEnd; rw [hb]
        rw [he]; exact ⟨this.1, fun _ hn => this.2 hn (by rw [hwr])⟩
    | false =>
      simp only [Disp.writeFrame]
      by_cases hbs : bs = []
      · rw [if_pos hbs]
        have hwr : ∀ more, ({ m with frames := m.frames ++ [UserFrame.data bs false] } : Message).written more =
            writeFrames m.trailers m.titleCase body (.body e) more := by
          intro more; rw [hwn, writeFrames, if_pos hbs]
        exact ⟨⟨h.ok, h.strategy, hlog, .going pre _ body e rfl a hw hpartly hb h1 h2 (fun _ more => hwr more) (by rw [hwr, writeFrames_body_nil])⟩,
          fun _ hn => absurd hb (hn e)⟩
      · rw [if_neg hbs]
        have hwr : ∀ more, ({ m with frames := m.frames ++ [UserFrame.data bs false] } : Message).written more =
            writeFrames m.trailers m.titleCase (body ++ ((Writing.body e).writeBody bs).1) ((Writing.body e).writeBody bs).2 more := by
          intro more; rw [hwn, writeFrames, if_neg hbs]
        have := WI.piece (d := d) (m := { m with frames := m.frames ++ [UserFrame.data bs false] }) (body := body) h.ok h.strategy hlog a hw h1 h2
          ((Writing.body e).writeBody bs).1 ((Writing.body e).writeBody bs).2 true (writeBody_cases e bs)
          (by
            intro e' he
            refine ⟨fun _ more => by rw [hwr, he], by rw [hwr, he, writeFrames_body_nil], fun more => ?_⟩
            rw [hwr]; exact writeFrames_prefix _ _ _ _ _)
          (by intro hn; rw [hwr, writeFrames_over _ _ _ _ hn]; exact ⟨rfl, rfl, fun _ => rfl⟩)
        have he : d.conn.writeBody bs = (d.conn.put ((Writing.body e).writeBody bs).1).setWriting ((Writing.body e).writeBody bs).2 := by
          unfold Conn.writeBody; rw [hb]
        rw [he]
        have hd' : ({ d with bodyRx := true, conn := (d.conn.put ((Writing.body e).writeBody bs).1).setWriting ((Writing.body e).writeBody bs).2 } : Disp) =
            { d with conn := (d.conn.put ((Writing.body e).writeBody bs).1).setWriting ((Writing.body e).writeBody bs).2 } := by rw [hrx.symm]
        rw [← hd']; exact ⟨this.1, fun _ hn => this.2 hn (by rw [hwr, writeFrames_over _ _ _ ((Writing.body e).writeBody bs).2 hn])⟩
  | trailers tm =>
    simp only [Disp.writeFrame]
    have hal : m.trailers = (d.conn.client || d.conn.allowTrailers) := h2
    have hwr : ∀ more, ({ m with frames := m.frames ++ [UserFrame.trailers tm] } : Message).written more =
        finishBody (body ++ ((Writing.body e).writeTrailers (d.conn.client || d.conn.allowTrailers) d.conn.titleCase tm).1)
          ((Writing.body e).writeTrailers (d.conn.client || d.conn.allowTrailers) d.conn.titleCase tm).2 := by
      intro more; rw [hwn, writeFrames, hal, h1]
    have := WI.piece (d := d) (m := { m with frames := m.frames ++ [UserFrame.trailers tm] }) (body := body) h.ok h.strategy hlog a hw h1 h2
      ((Writing.body e).writeTrailers (d.conn.client || d.conn.allowTrailers) d.conn.titleCase tm).1
      ((Writing.body e).writeTrailers (d.conn.client || d.conn.allowTrailers) d.conn.titleCase tm).2 false (writeTrailers_cases e _ _ tm)
      (by
        intro e' he
        refine ⟨fun hx => (by cases hx), by rw [hwr, he], fun more => ?_⟩
        rw [hwr]; exact finishBody_prefix _ _)
      (by intro hn; rw [hwr, finishBody_over _ hn]; exact ⟨rfl, rfl, fun _ => rfl⟩)
    have he : d.conn.writeTrailers tm = (d.conn.put ((Writing.body e).writeTrailers (d.conn.client || d.conn.allowTrailers) d.conn.titleCase tm).1).setWriting
        ((Writing.body e).writeTrailers (d.conn.client || d.conn.allowTrailers) d.conn.titleCase tm).2 := by
      unfold Conn.writeTrailers; rw [hb]
    rw [he]; exact ⟨this.1, fun _ hn => this.2 hn (by rw [hwr, finishBody_over (w := ((Writing.body e).writeTrailers (d.conn.client || d.conn.allowTrailers) d.conn.titleCase tm).2) _ hn])⟩
  | unknown =>
    have hwr : ∀ more, ({ m with frames := m.frames ++ [UserFrame.unknown] } : Message).written more =
        writeFrames m.trailers m.titleCase body (.body e) more := by
      intro more; rw [hwn, writeFrames]
    exact ⟨⟨h.ok, h.strategy, hlog, .going pre _ body e rfl a hw hpartly hb h1 h2 (fun _ more => hwr more) (by rw [hwr, writeFrames_body_nil])⟩,
      fun _ hn => absurd hb (hn e)⟩
  | error =>
    simp only [Disp.writeFrame]
    have hx : ({ d with bodyRx := false } : Disp).fail.conn = d.conn := Poll.out_fail _
    exact ⟨⟨by rw [hx]; exact h.ok, by rw [hx]; exact h.strategy, by rw [hx]; exact hlog, .stopped pre _ body rfl a (by rw [hx]; exact hw) (.inr hpartly) (.inr rfl)⟩,
      fun hd => by cases hd⟩

theorem head_log {c c' : Conn} {ev : Ev} (w : Writing) (h : c'.log = c.log ++ [ev]) (he : isOut ev = true) :
    ∃ evs, (c'.setWriting w).log = c.log ++ evs ∧ evs.filter isOut = [ev] := by
  obtain ⟨evs, e1, e2⟩ := setWriting_log c' w
  exact ⟨ev :: evs, by rw [e1, h]; simp, by simp [he, e2]⟩

theorem ofHead_init (r : EncodeRes) : Writing.ofHead r ≠ .init := by
  unfold Writing.ofHead Writing.afterBody; repeat' split
  all_goals simp

/-- A response head is put on the wire: by the service, or for a parse error. -/
theorem WI.resp (env : EncodeEnv) {d d' : Disp} {st : List Piece} (h : WI s d st) (hd : d.done = false) (hw : d.conn.writing = .init)
    (hg : WriteBuf.canHeadersBuf bytesBuf d.conn.out.wbuf = true) {c : Conn} (ho : c.out = d.conn.out) (hl : c.log = d.conn.log)
    (m : RespOut) (ev : Bool → Ev) (he : ∀ b, isOut (ev b) = true) (hd' : ∃ b, d'.conn = { c.writeResp env m ev with error := b }) :
    ∃ b, WI s d' (st ++ [.message (respMessage env c m (ev b))]) ∧ ∃ evs, d'.conn.log = d.conn.log ++ evs ∧ evs.filter isOut = [ev b] := by
  have hr : c.respEnc env m = (c.out.wbuf.headers.bytes ++ (serverEncode env (c.respMsg m).2 []).1, (serverEncode env (c.respMsg m).2 []).2) :=
    serverEncode_pre env _ _
  obtain ⟨err, hd'⟩ := hd'
  refine ⟨(c.respEnc env m).2.isLast || (c.respMsg m).1 == KA.disabled, ?_⟩
  have hlog : ∃ evs, d'.conn.log = d.conn.log ++ evs ∧ evs.filter isOut = [ev ((c.respEnc env m).2.isLast || (c.respMsg m).1 == KA.disabled)] := by
    rw [hd', ← hl]
    exact head_log (c := c) (c' := { c.putHeaders (c.respEnc env m).1 with
      ka := (c.respMsg m).1, error := c.error || !(c.respEnc env m).2.isOk,
      log := c.log ++ [ev ((c.respEnc env m).2.isLast || (c.respMsg m).1 == KA.disabled)] }) (Writing.ofHead (c.respEnc env m).2) rfl (he _)
  refine ⟨?_, hlog⟩
  obtain ⟨evs, l1, l2⟩ := hlog
  have hok : BufOk c := by unfold BufOk; rw [ho]; exact h.ok
  have hwc : wire c = wire d.conn := by unfold wire; rw [ho]
  obtain ⟨p1, p2⟩ := putHeaders_spec hok (by rw [ho]; exact hg) (serverEncode env (c.respMsg m).2 []).1
  have hout : d'.conn.out = (c.putHeaders (c.respEnc env m).1).out := by rw [hd']; rfl
  refine WI.head h hd hw _ rfl ?_ (by rw [hout]; exact (congrArg (fun o : WriteSide Bytes => o.wbuf.strategy) ho).trans h.strategy) ?_ ?_ (ofHead_init _) ?_ ?_ evs l1 l2
  · unfold BufOk; rw [hout, hr]; exact p1
  · unfold wire; rw [hout, hr, ← show wire c = d.conn.out.sink.sent ++ waiting id d.conn.out.wbuf from hwc]; exact p2
  · rw [hd']
    show Writing.ofHead (c.respEnc env m).2 = _
    rw [hr]; rfl
  · rw [hd']; rfl
  · rw [hd']; rfl

/-- The head of a message. -/
theorem WI.writeHead (env : EncodeEnv) {d : Disp} {st : List Piece} (h : WI s d st) (hd : d.done = false) (hh : d.conn.canWriteHead = true) (i : WriteIn) :
    (∃ ev, WI s (d.writeHead env i.msg) (st ++ [pieceOf env d.conn (.write i) ev]) ∧
      ∃ evs, (d.writeHead env i.msg).conn.log = d.conn.log ++ evs ∧ evs.filter isOut = [ev]) ∨ Qd d (d.writeHead env i.msg) := by
  simp only [Conn.canWriteHead, Bool.and_eq_true, beq_iff_eq] at hh
  obtain ⟨_, hw, hg⟩ := hh
  rcases i with ⟨m, fr, fl, nt⟩
  cases m with
  | pending => right; exact .refl _
  | none => right; simp only [Disp.writeHead]; split; exact qd_close _; exact .refl _
  | err => right; simp only [Disp.writeHead]; split; exact .refl _; exact qd_fail _
  | resp m =>
    simp only [Disp.writeHead]
    split
    · right; exact .refl _
    · left
      obtain ⟨b, h1, h2⟩ := WI.resp env (d' := { d with inFlight := none, bodyRx := m.body.isSome, conn := d.conn.writeResp env m (.writeHead (d.inFlight.getD d.next)) })
        h hd hw hg rfl rfl m (Ev.writeHead (d.inFlight.getD d.next)) (fun _ => rfl) ⟨_, rfl⟩
      exact ⟨.writeHead (d.inFlight.getD d.next) b, h1, h2⟩
  | req q body =>
    simp only [Disp.writeHead]
    split
    · left
      have hr : ∀ ev, d.conn.reqEnc q body = (d.conn.out.wbuf.headers.bytes ++ (reqMessage d.conn q body ev).head, (d.conn.reqEnc q body).2) ∧
          Writing.ofHead (d.conn.reqEnc q body).2 = (reqMessage d.conn q body ev).framing := by
        intro ev
        unfold Conn.reqEnc reqMessage
        rw [clientEncode_pre]
        cases clientEncode d.conn.titleCase (connReq d.conn.version d.conn.ka q).2 body [] with
        | none => simp [Writing.ofHead]
        | some r => simp
      have hm : ∀ ev, (reqMessage d.conn q body ev).ev = ev ∧ (reqMessage d.conn q body ev).frames = [] ∧ (reqMessage d.conn q body ev).titleCase = d.conn.titleCase ∧
          (reqMessage d.conn q body ev).trailers = allow d.conn := by
        intro ev; unfold reqMessage; split <;> exact ⟨rfl, rfl, rfl, rfl⟩
      refine ⟨Ev.writeHead d.next ((d.conn.reqEnc q body).2.isLast || (connReq d.conn.version d.conn.ka q).1 == KA.disabled), ?_⟩
      have hlog := head_log (c := d.conn) (c' := { d.conn.putHeaders (d.conn.reqEnc q body).1 with
        ka := (connReq d.conn.version d.conn.ka q).1, method := some q.method, error := d.conn.error || !(d.conn.reqEnc q body).2.isOk,
        log := d.conn.log ++ [Ev.writeHead d.next ((d.conn.reqEnc q body).2.isLast || (connReq d.conn.version d.conn.ka q).1 == KA.disabled)] })
        (Writing.ofHead (d.conn.reqEnc q body).2) rfl rfl
      refine ⟨?_, hlog⟩
      obtain ⟨evs, l1, l2⟩ := hlog
      obtain ⟨r1, r2⟩ := hr (Ev.writeHead d.next ((d.conn.reqEnc q body).2.isLast || (connReq d.conn.version d.conn.ka q).1 == KA.disabled))
      obtain ⟨m1, m2, m3, m4⟩ := hm (Ev.writeHead d.next ((d.conn.reqEnc q body).2.isLast || (connReq d.conn.version d.conn.ka q).1 == KA.disabled))
      obtain ⟨p1, p2⟩ := putHeaders_spec h.ok hg
        (reqMessage d.conn q body (Ev.writeHead d.next ((d.conn.reqEnc q body).2.isLast || (connReq d.conn.version d.conn.ka q).1 == KA.disabled))).head
      have r1' := congrArg Prod.fst r1
      simp only at r1'
      refine WI.head (d' := { d with inFlight := some d.next, next := d.next + 1, bodyRx := body.isSome, conn := d.conn.writeReq q body d.next })
        h hd hw (reqMessage d.conn q body _) m2 ?_ h.strategy ?_ r2 ?_ m3 m4 evs l1 (l2.trans (by rw [m1]))
      · show WBufOk _ _ (d.conn.putHeaders (d.conn.reqEnc q body).1).out.wbuf
        rw [r1']; exact p1
      · show wire (d.conn.putHeaders (d.conn.reqEnc q body).1) = _
        rw [r1']; exact p2
      · rw [← r2]; exact ofHead_init _
    · right; exact .refl _

theorem qd_flushTurn (d : Disp) (f : FlushIn) (i : NotifyIn) : Qd d (d.flushTurn f i) := by
  have h := Qd.conn_only d (qc_pollFlush d.conn f i)
  unfold Disp.flushTurn
  simp only
  split
  · exact h
  · exact h.trans (qd_fail _)

theorem endBody_log {d : Disp} : ∃ evs, d.endBody.conn.log = d.conn.log ++ evs ∧ evs.filter isOut = [] := by
  have h : ∃ evs, d.conn.endBody.2.log = d.conn.log ++ evs ∧ evs.filter isOut = [] := by
    unfold Conn.endBody
    obtain ⟨evs, e1, e2⟩ := setWriting_log (d.conn.put d.conn.writing.endBody.1) d.conn.writing.endBody.2.1
    exact ⟨evs, by rw [← (put_keep d.conn d.conn.writing.endBody.1).2.2.2]; exact e1, e2⟩
  unfold Disp.endBody
  simp only
  split
  · rw [Poll.out_fail]; exact h
  · exact h

theorem tryKeepAlive_body {c : Conn} {e : Encoder} (h : c.writing = .body e) (i : NotifyIn) : (c.tryKeepAlive i).writing = .body e := by
  have h1 : c.stateKeepAlive = c := by
    unfold Conn.stateKeepAlive; rw [h]; cases c.reading <;> rfl
  unfold Conn.tryKeepAlive Conn.maybeNotify
  rw [h1, h]
  cases c.reading <;> exact h

theorem flushTurn_body {d : Disp} {e : Encoder} (h : d.conn.writing = .body e) (f : FlushIn) (i : NotifyIn) : (d.flushTurn f i).conn.writing = .body e := by
  have : (d.conn.pollFlush f i).2.writing = .body e := by
    unfold Conn.pollFlush
    simp only
    split
    · exact tryKeepAlive_body (c := { d.conn with out := ((d.conn.scripted f).pollFlush bytesBuf f.readBuf).2 }) h i
    · exact h
  unfold Disp.flushTurn
  simp only
  split
  · exact this
  · rw [Poll.out_fail]; exact this

/-- A turn of writing. -/
theorem WI.write (env : EncodeEnv) (P : TrailerParser) {d : Disp} {st : List Piece} (h : WI s d st) (i : WriteIn) :
    WI s (d.step env P (.write i)) (record env P d (.write i) st) ∧
    ((∃ e, d.conn.writing = .body e) → (d.step env P (.write i)).done = false → (∀ e, (d.step env P (.write i)).conn.writing ≠ .body e) →
      Fin (d.step env P (.write i)) (record env P d (.write i) st)) := by
  have hsame : ∀ d' : Disp, d'.conn.writing = d.conn.writing → (∃ e, d.conn.writing = .body e) → ¬ (∀ e, d'.conn.writing ≠ .body e) := by
    intro d' he ⟨e, hb⟩ hn; exact hn e (he.trans hb)
  have hnp : polls d = false → frameOf d (.write i) = none := by
    intro hp
    rcases i with ⟨m, fr, fl, nt⟩
    cases fr <;> simp [frameOf, hp]
  cases hd : d.done with
  | true =>
    have he : d.step env P (.write i) = d := by simp only [Disp.step, hd, if_true]
    refine ⟨h.step_quiet env P (hnp (by simp [polls, hd])) (by rw [he]; exact .refl _), fun _ hx => ?_⟩
    rw [he, hd] at hx; cases hx
  | false =>
    have hs : d.step env P (.write i) = d.writeTurn env i := by simp [Disp.step, hd]
    cases hcl : d.closing with
    | true =>
      have he : d.step env P (.write i) = d := by rw [hs]; unfold Disp.writeTurn; simp only [hcl, if_true]
      refine ⟨h.step_quiet env P (hnp (by simp [polls, hcl])) (by rw [he]; exact .refl _), fun hb _ hn => ?_⟩
      exact absurd hn (hsame _ (by rw [he]) hb)
    | false =>
      by_cases hh : (!d.bodyRx && d.conn.canWriteHead && d.shouldPoll) = true
      · have ht : d.writeTurn env i = d.writeHead env i.msg := by
          unfold Disp.writeTurn; simp only [hcl, Bool.false_eq_true, if_false]; rw [if_pos hh]
        simp only [Bool.and_eq_true, Bool.not_eq_true'] at hh
        have hf := hnp (by simp [polls, hh.1.1])
        refine ⟨?_, fun ⟨e, hb⟩ => ?_⟩
        rotate_left
        · have := hh.1.2
          simp only [Conn.canWriteHead, Bool.and_eq_true, beq_iff_eq] at this
          rw [this.2.1] at hb; cases hb
        rcases h.writeHead env hd hh.1.2 i with ⟨ev, w, evs, l1, l2⟩ | q
        · rw [record_one env P hf evs ev (by rw [hs, ht]; exact l1) l2, hs, ht]; exact w
        · exact h.step_quiet env P hf (by rw [hs, ht]; exact q)
      · by_cases hbb : (!d.conn.canBufferBody) = true
        · have ht : d.writeTurn env i = d.flushTurn i.flush i.notify := by
            unfold Disp.writeTurn; simp only [hcl, Bool.false_eq_true, if_false]; rw [if_neg hh, if_pos hbb]
          simp only [Bool.not_eq_true'] at hbb
          refine ⟨h.step_quiet env P (hnp (by simp [polls, hbb])) (by rw [hs, ht]; exact qd_flushTurn _ _ _), fun ⟨e, hb⟩ _ hn => ?_⟩
          rw [hs, ht] at hn
          exact absurd (flushTurn_body hb i.flush i.notify) (hn e)
        · cases hrx : d.bodyRx with
          | true =>
            cases hwb : d.conn.canWriteBody with
            | true =>
              have ht : d.writeTurn env i = d.writeFrame i.frame := by
                unfold Disp.writeTurn; simp only [hcl, Bool.false_eq_true, if_false]; rw [if_neg hh, if_neg hbb, if_pos hrx, if_pos hwb]
              have hp : polls d = true := polls_iff.2 ⟨hd, hcl, hrx, by simpa using hbb, hwb⟩
              rcases i with ⟨m, fr, fl, nt⟩
              cases fr with
              | pending =>
                exact ⟨h.step_quiet env P rfl (by rw [hs, ht]; exact .refl _), fun hb _ hn => absurd hn (hsame _ (by rw [hs, ht]; rfl) hb)⟩
              | eof =>
                obtain ⟨evs, e1, e2⟩ := endBody_log (d := { d with bodyRx := false })
                rw [record_none env P rfl evs (by rw [hs, ht]; exact e1) e2, hs, ht]
                obtain ⟨e, hb⟩ := canWriteBody_iff.1 hwb
                obtain ⟨pre, m', body, rfl, a, hw, hpa, h1, h2, h3, h4⟩ := h.going_of hd hb
                obtain ⟨x, y⟩ := WI.endBody (d := { d with bodyRx := false }) h.ok h.strategy h.log a hw hb h1 h2 h4
                exact ⟨x, fun _ hd _ => y hd⟩
              | frame f =>
                have hf : frameOf d (.write ⟨m, .frame f, fl, nt⟩) = some f := by simp [frameOf, hp]
                simp only [record, hf]
                rw [hs, ht]
                obtain ⟨x, y⟩ := h.frame hp f
                exact ⟨x, fun _ hd hn => y hd hn⟩
            | false =>
              have ht : d.writeTurn env i = { d with bodyRx := false } := by
                unfold Disp.writeTurn; simp only [hcl, Bool.false_eq_true, if_false]; rw [if_neg hh, if_neg hbb, if_pos hrx, if_neg (by simp [hwb])]
              refine ⟨h.step_quiet env P (hnp (by simp [polls, hwb])) ?_, fun hb _ hn => absurd hn (hsame _ (by rw [hs, ht]) hb)⟩
              rw [hs, ht]
              refine ⟨.refl _, fun ⟨e, he⟩ => ?_, id⟩
              have := canWriteBody_iff.2 ⟨e, he⟩
              rw [show d.conn.canWriteBody = true from this] at hwb; cases hwb
          | false =>
            have hf := hnp (by simp [polls, hrx])
            cases hwb : d.conn.canWriteBody with
            | true =>
              have ht : d.writeTurn env i = d.endBody := by
                unfold Disp.writeTurn; simp only [hcl, Bool.false_eq_true, if_false]
                rw [if_neg hh, if_neg hbb, if_neg (by simp [hrx]), if_pos hwb]
              obtain ⟨evs, e1, e2⟩ := endBody_log (d := d)
              rw [record_none env P hf evs (by rw [hs, ht]; exact e1) e2, hs, ht]
              obtain ⟨e, hb⟩ := canWriteBody_iff.1 hwb
              obtain ⟨pre, m', body, rfl, a, hw, hpa, h1, h2, h3, h4⟩ := h.going_of hd hb
              obtain ⟨x, y⟩ := WI.endBody h.ok h.strategy h.log a hw hb h1 h2 h4
              exact ⟨x, fun _ hd _ => y hd⟩
            | false =>
              have ht : d.writeTurn env i = d := by
                unfold Disp.writeTurn; simp only [hcl, Bool.false_eq_true, if_false]
                rw [if_neg hh, if_neg hbb, if_neg (by simp [hrx]), if_neg (by simp [hwb])]
              exact ⟨h.step_quiet env P hf (by rw [hs, ht]; exact .refl _), fun hb _ hn => absurd hn (hsame _ (by rw [hs, ht]) hb)⟩

/-! ## Reading -/

theorem qd_recvErr (d : Disp) : Qd d d.recvErr := by
  unfold Disp.recvErr
  repeat' split
  · exact ⟨(qc_closeRead _).trans (qc_closeWrite _), fun _ => rfl, id⟩
  · exact qd_fail _
  · exact qd_fail _

theorem qd_recvHead (d : Disp) (m : MsgIn) : Qd d (d.recvHead m) := by
  have en : (d.newBody m).conn = d.conn ∧ (d.newBody m).bodyRx = d.bodyRx ∧ (d.newBody m).done = d.done := by
    unfold Disp.newBody; split <;> exact ⟨rfl, rfl, rfl⟩
  have h0 : Qd d { d.newBody m with conn := { (d.newBody m).conn with upgrade := (d.newBody m).conn.upgrade || m.wantsUpgrade } } := by
    refine ⟨?_, fun _ => en.2.1, fun x => en.2.2.trans x⟩
    rw [en.1]
    exact .of rfl rfl (.inl rfl) rfl rfl rfl
  unfold Disp.recvHead
  simp only
  repeat' split
  · exact h0.trans ⟨.refl _, fun _ => rfl, id⟩
  · exact h0.trans (qd_fail _)
  · exact h0.trans ⟨.refl _, fun _ => rfl, id⟩

theorem qd_afterHead (d : Disp) (o : HeadOut) : Qd d (d.afterHead o) := by
  unfold Disp.afterHead
  repeat' split
  all_goals first
    | exact .refl _
    | exact qd_recvHead _ _
    | exact qd_recvErr _
    | exact qd_close _

/-- Reading a head puts nothing on the wire, or the answer to a bad one. -/
theorem pollReadHead_cases (env : EncodeEnv) (c : Conn) (t0 t1 : Nat) (p : ParseIn) (i : NotifyIn) (n : Nat) (hi : c.client = false → c.writing = .init) :
    Qc c (c.pollReadHead env t0 t1 p i n).2 ∨
    ∃ e rest h2 status, p = .error (some e) rest h2 ∧ serverOnError e = some status ∧ c.client = false ∧ c.writing = .init ∧
      c.pollReadHead env t0 t1 p i n =
        (.pending, { (c.startTimer t0).closeRead.writeResp env (Conn.errorResp status) (fun _ => .errorHead) with error := true }) := by
  have ht := qc_startTimer c t0
  have htw : (c.startTimer t0).writing = c.writing ∧ (c.startTimer t0).client = c.client := by
    unfold Conn.startTimer; repeat' split
    all_goals exact ⟨rfl, rfl⟩
  cases p with
  | pending =>
    left
    simp only [Conn.pollReadHead]
    split
    · exact ht.trans (.of rfl rfl (.inl rfl) rfl rfl rfl)
    · exact ht
  | msg m =>
    left
    simp only [Conn.pollReadHead]
    exact ht.trans (qc_acceptHead _ m n i (by rw [htw.1, htw.2]; exact hi))
  | error e rest h2 =>
    simp only [Conn.pollReadHead]
    unfold Conn.onReadHeadError
    split
    · unfold Conn.onParseError
      split
      · rename_i hw
        split
        · left; exact ht.trans (qc_closeRead _)
        · split
          · rename_i status hs
            right
            unfold Conn.onError at hs
            split at hs
            · cases hs
            · rename_i hcl
              cases e with
              | none => cases hs
              | some e => exact ⟨e, rest, h2, status, rfl, hs, by rw [← htw.2]; exact Bool.eq_false_iff.2 hcl, by rw [← htw.1]; exact hw, rfl⟩
          · left; exact ht.trans (qc_closeRead _)
      · left; exact ht.trans (qc_closeRead _)
    · left; exact ht.trans ((qc_closeRead _).trans (qc_closeWrite _))

theorem startTimer_respMsg (c : Conn) (t : Nat) (m : RespOut) : (c.startTimer t).closeRead.respMsg m = c.closeRead.respMsg m := by
  unfold Conn.startTimer; repeat' split
  all_goals rfl

theorem startTimer_keep' (c : Conn) (t : Nat) : (c.startTimer t).out = c.out ∧ (c.startTimer t).log = c.log ∧ (c.startTimer t).titleCase = c.titleCase ∧
    (c.startTimer t).client = c.client ∧ (c.startTimer t).allowTrailers = c.allowTrailers := by
  unfold Conn.startTimer; repeat' split
  all_goals exact ⟨rfl, rfl, rfl, rfl, rfl⟩

/-- Sending `100 Continue` or not. -/
theorem WI.continue {d : Disp} {st : List Piece} (h : WI s d st) (hd : d.done = false)
    (hg : d.conn.writing = .init → WriteBuf.canHeadersBuf bytesBuf d.conn.out.wbuf = true) :
    (WI s { d with conn := d.conn.sendContinue } (st ++ [.interim]) ∧ d.conn.sendContinue.log = d.conn.log ++ [.continue100]) ∨ d.conn.sendContinue = d.conn := by
  unfold Conn.sendContinue
  split
  · rename_i hw
    left
    refine ⟨?_, rfl⟩
    obtain ⟨p1, p2⟩ := putHeaders_spec h.ok (hg hw) Conn.continueLine
    obtain ⟨a, b⟩ := h.init hd hw
    refine ⟨p1, h.strategy, ?_, .whole ?_ ?_ ?_⟩
    · show _ = (d.conn.log ++ [Ev.continue100]).filter isOut
      rw [List.filter_append, List.map_append, h.log]; rfl
    · intro p hp
      rcases List.mem_append.1 hp with hp | hp
      · exact a p hp
      · rw [List.mem_singleton] at hp; rw [hp]; trivial
    · refine Eq.trans p2 ?_
      rw [b, List.flatMap_append]; simp [Piece.bytes]
    · intro e he
      have : d.conn.writing = .body e := he
      rw [hw] at this; cases this
  · right; rfl

/-- What an act that is not a frame adds: nothing, or one piece. -/
def Adds (s : WriteStrategy) (env : EncodeEnv) (d d' : Disp) (a : Act) (st : List Piece) : Prop :=
  (WI s d' st ∧ ∃ evs, d'.conn.log = d.conn.log ++ evs ∧ evs.filter isOut = []) ∨
  ∃ ev, WI s d' (st ++ [pieceOf env d.conn a ev]) ∧ ∃ evs, d'.conn.log = d.conn.log ++ evs ∧ evs.filter isOut = [ev]

theorem Adds.quiet {env : EncodeEnv} {d d' : Disp} {a : Act} {st : List Piece} (h : WI s d st) (q : Qd d d') : Adds s env d d' a st :=
  .inl ⟨h.quiet q, q.conn.log⟩

theorem Adds.then {env : EncodeEnv} {d d' d'' : Disp} {a : Act} {st : List Piece} (h : Adds s env d d' a st) (q : Qd d' d'') : Adds s env d d'' a st := by
  obtain ⟨x, x1, x2⟩ := q.conn.log
  rcases h with ⟨w, evs, l1, l2⟩ | ⟨ev, w, evs, l1, l2⟩
  · exact .inl ⟨w.quiet q, evs ++ x, by rw [x1, l1, List.append_assoc], by rw [List.filter_append, l2, x2]; rfl⟩
  · exact .inr ⟨ev, w.quiet q, evs ++ x, by rw [x1, l1, List.append_assoc], by rw [List.filter_append, l2, x2]; rfl⟩

theorem Adds.record {env : EncodeEnv} {P : TrailerParser} {d : Disp} {a : Act} {st : List Piece} (h : Adds s env d (d.step env P a) a st) (hf : frameOf d a = none) :
    WI s (d.step env P a) (record env P d a st) := by
  rcases h with ⟨w, evs, l1, l2⟩ | ⟨ev, w, evs, l1, l2⟩
  · rw [record_none env P hf evs l1 l2]; exact w
  · rw [record_one env P hf evs ev l1 l2]; exact w

theorem adds_readHead (env : EncodeEnv) {d : Disp} {st : List Piece} (h : WI s d st) (hd : d.done = false) (i : ReadIn)
    (hi : d.conn.client = false → d.conn.writing = .init) (hg : d.conn.client = false → d.conn.writing = .init → WriteBuf.canHeadersBuf bytesBuf d.conn.out.wbuf = true) :
    Adds s env d (d.readHeadReady env i) (.read i) st := by
  unfold Disp.readHeadReady
  rcases pollReadHead_cases env d.conn i.t0 i.t1 i.parse i.notify d.headId hi with q | ⟨e, rest, h2, status, hp, hs, hcl, hw, hc⟩
  · exact (Adds.quiet h (Qd.conn_only d q)).then (qd_afterHead _ _)
  · rw [hc]
    obtain ⟨k1, k2, k3, k4, k5⟩ := startTimer_keep' d.conn i.t0
    obtain ⟨b, w1, w2⟩ := WI.resp env (d' := { d with conn := { (d.conn.startTimer i.t0).closeRead.writeResp env (Conn.errorResp status) (fun _ => .errorHead) with error := true } })
      h hd hw (hg hcl hw) (c := (d.conn.startTimer i.t0).closeRead) k1 k2 (Conn.errorResp status) (fun _ => .errorHead) (fun _ => rfl) ⟨true, rfl⟩
    refine .inr ⟨.errorHead, ?_, w2⟩
    have he : pieceOf env d.conn (.read i) .errorHead = .message (respMessage env (d.conn.startTimer i.t0).closeRead (Conn.errorResp status) .errorHead) := by
      simp only [pieceOf, hp, errMessage, hs, Option.getD_some, respMessage, startTimer_respMsg]
      simp only [Conn.closeRead, k3, k4, k5]
    rw [he]; exact w1

theorem adds_pollReadBody (env : EncodeEnv) (P : TrailerParser) {d : Disp} {st : List Piece} (h : WI s d st) (hd : d.done = false) (hv : Poll.CI d) (i : ReadIn)
    (hg : d.conn.client = false → d.conn.writing = .init → WriteBuf.canHeadersBuf bytesBuf d.conn.out.wbuf = true) :
    Adds s env d { d with conn := (d.conn.pollReadBody P i.rd i.notify).2 } (.read i) st := by
  unfold Conn.pollReadBody
  split
  · exact .quiet h (.conn_only d (qc_decodeBody ..))
  · rename_i dd hr
    have hg' : d.conn.writing = .init → WriteBuf.canHeadersBuf bytesBuf d.conn.out.wbuf = true := by
      intro hw
      cases hcl : d.conn.client with
      | false => exact hg hcl hw
      | true => rcases hv.rest hw (.inl hcl) with e | e <;> rw [hr] at e <;> cases e
    rcases h.continue hd hg' with ⟨w, l⟩ | e
    · refine Adds.then (d' := { d with conn := d.conn.sendContinue }) (.inr ⟨.continue100, w, [.continue100], l, rfl⟩) ?_
      exact Qd.conn_only { d with conn := d.conn.sendContinue } (qc_decodeBody ..)
    · rw [e]; exact .quiet h (.conn_only d (qc_decodeBody ..))
  · exact .quiet h (.conn_only d (.refl _))

theorem qc_drainStart (c : Conn) : Qc c c.drainStart ∧ ∀ dd, c.drainStart.reading ≠ .cont dd := by
  unfold Conn.drainStart
  split
  · exact ⟨.of rfl rfl (.inl rfl) rfl rfl rfl, by intro dd h; cases h⟩
  · rename_i hx; exact ⟨.refl _, fun dd h => hx dd h⟩

theorem qc_drain (P : TrailerParser) (c : Conn) (r : Rd) (i : NotifyIn) : Qc c (c.drainOrClose P r i) := by
  obtain ⟨h1, h2⟩ := qc_drainStart c
  have h3 : Qc c.drainStart (c.drainStart.pollReadBody P r i).2 := by
    unfold Conn.pollReadBody
    split
    · exact qc_decodeBody ..
    · rename_i dd hx; exact absurd hx (h2 dd)
    · exact .refl _
  have h4 : ∀ x : Conn, Qc x x.drainEnd := by
    intro x; unfold Conn.drainEnd; split
    · exact .refl _
    · exact .refl _
    · exact qc_closeRead _
  exact h1.trans (h3.trans (h4 _))

theorem qd_afterPiece (d : Disp) (k : Nat) (gone : Bool) (o : BodyRes) : Qd d (d.afterPiece k gone o) := by
  have m : ∀ fin, Qd d (d.markComplete k fin) := by
    intro fin; unfold Disp.markComplete; split
    · exact ⟨.refl _, fun _ => rfl, id⟩
    · exact .refl _
  have e : ∀ (x : Disp) f, Qd x (x.deliver k gone f) := by
    intro x f
    unfold Disp.deliver
    split
    · simp only
      split
      · exact ⟨qc_closeRead _, fun _ => rfl, id⟩
      · exact ⟨.refl _, fun _ => rfl, id⟩
    · exact ⟨.refl _, fun _ => rfl, id⟩
  cases o with
  | pending => exact .refl _
  | data bs fin => exact (m fin).trans (e _ _)
  | trailers fs => exact (m true).trans (e _ _)
  | ended fin => exact (m fin).trans ⟨.refl _, fun _ => rfl, id⟩
  | err => exact ⟨.refl _, fun _ => rfl, id⟩

theorem qd_maybeLose (d : Disp) (k : Nat) (gone : Bool) : Qd d (d.maybeLose k gone) := by
  unfold Disp.maybeLose; split
  · exact ⟨.refl _, fun _ => rfl, id⟩
  · exact .refl _

theorem adds_readTurn (env : EncodeEnv) (P : TrailerParser) {d : Disp} {st : List Piece} (h : WI s d st) (hd : d.done = false) (hv : Poll.CI d) (i : ReadIn)
    (hg : d.conn.client = false → d.conn.writing = .init → WriteBuf.canHeadersBuf bytesBuf d.conn.out.wbuf = true) : Adds s env d (d.readTurn env P i) (.read i) st := by
  unfold Disp.readTurn
  split
  · exact .quiet h (.refl _)
  · split
    · rename_i hr
      have hrd : d.conn.reading = .init := by
        simp only [Conn.canReadHead, Bool.and_eq_true, beq_iff_eq] at hr; exact hr.1
      have hx := adds_readHead env h hd i (fun hc => hv.init hc hrd) hg
      unfold Disp.readHead
      repeat' split
      all_goals first
        | exact hx
        | exact .quiet h (.refl _)
        | exact .quiet h (qd_close _)
    · split
      · rename_i k _
        unfold Disp.readBody
        repeat' split
        · exact .quiet h (.refl _)
        · exact ((adds_pollReadBody env P h hd hv i hg).then (qd_maybeLose _ _ _)).then (qd_afterPiece _ _ _ _)
        · exact .quiet h (.refl _)
        · exact .quiet h ⟨qc_drain .., fun _ => rfl, id⟩
        · exact .quiet h ⟨.refl _, fun _ => rfl, id⟩
      · have hq := Qd.conn_only d (qc_keepAlive d.conn i.bufEmpty i.io)
        unfold Disp.readIdle
        simp only
        split
        · exact .quiet h (hq.trans (qd_fail _))
        · exact .quiet h hq

/-- Acts other than turns of reading and writing put nothing on the wire. -/
theorem qd_other (env : EncodeEnv) (P : TrailerParser) (d : Disp) (a : Act) (hr : ∀ i, a ≠ .read i) (hw : ∀ i, a ≠ .write i) : Qd d (d.step env P a) := by
  cases a with
  | write i => exact absurd rfl (hw i)
  | read i => exact absurd rfl (hr i)
  | flush f i =>
    simp only [Disp.step]; split
    · exact .refl _
    · exact qd_flushTurn _ _ _
  | readAgain =>
    simp only [Disp.step]; split
    · exact .refl _
    · exact .conn_only d (.of rfl rfl (.inl rfl) rfl rfl rfl)
  | finish s f =>
    have hc : ∀ x : Disp, Qd x x.complete := by
      intro x; unfold Disp.complete; split
      · exact (Qd.conn_only x (c := { x.conn with error := false }) (.of rfl rfl (.inl rfl) rfl rfl rfl)).trans (qd_fail _)
      · exact ⟨.refl _, fun _ => rfl, fun _ => rfl⟩
    have hp := Qd.conn_only d (qc_pollShutdown d.conn f)
    simp only [Disp.step]; split
    · exact .refl _
    · unfold Disp.finishTurn
      split
      · exact .refl _
      · split
        · exact (Qd.conn_only d (c := { d.conn with upgrade := false }) (.of rfl rfl (.inl rfl) rfl rfl rfl)).trans (hc _)
        · split
          · simp only
            split
            · exact hp
            · split
              · exact hp.trans (hc _)
              · exact hp.trans (qd_fail _)
          · exact hc _
  | disable b =>
    have hq : Qc d.conn d.conn.disableKeepAlive := by
      unfold Conn.disableKeepAlive
      simp only
      split
      · exact (qc_log d.conn .shutdown rfl).trans (qc_closeAll _)
      · exact (qc_log d.conn .shutdown rfl).trans (.of rfl rfl (.inl rfl) rfl rfl rfl)
    simp only [Disp.step]; split
    · exact .refl _
    · unfold Disp.disableKeepAlive
      simp only
      split
      · exact (Qd.conn_only d hq).trans (qd_close _)
      · exact Qd.conn_only d hq
  | want k =>
    simp only [Disp.step, Disp.want]
    repeat' split
    · exact ⟨qc_log d.conn _ rfl, fun _ => rfl, id⟩
    · exact .refl _
    · exact .refl _
  | dropReader k => exact ⟨.refl _, fun _ => rfl, id⟩
  | drop =>
    simp only [Disp.step]
    refine ⟨?_, fun _ => ?_, fun _ => rfl⟩
    · unfold Disp.failBody; split <;> exact .refl _
    · unfold Disp.failBody; split <;> rfl

/-- One act. -/
theorem WI.step (env : EncodeEnv) (P : TrailerParser) {d : Disp} {st : List Piece} (h : WI s d st) (hv : Poll.VI d.view) (a : Act)
    (hg : (∃ i, a = .read i) → d.conn.client = false → d.conn.writing = .init → WriteBuf.canHeadersBuf bytesBuf d.conn.out.wbuf = true) :
    WI s (d.step env P a) (record env P d a st) := by
  have hdone : ∀ a, d.done = true → frameOf d a = none → (d.step env P a = d) → WI s (d.step env P a) (Wire.record env P d a st) :=
    fun a _ hf e => h.step_quiet env P hf (by rw [e]; exact .refl _)
  cases a with
  | write i => exact (h.write env P i).1
  | read i =>
    cases hd : d.done with
    | true => exact hdone _ hd rfl (by simp [Disp.step, hd])
    | false =>
      have hs : d.step env P (.read i) = d.readTurn env P i := by simp [Disp.step, hd]
      have := adds_readTurn env P h hd (Poll.ci_of_view hd hv) i (hg ⟨i, rfl⟩)
      rw [← hs] at this
      exact this.record rfl
  | flush f i => exact h.step_quiet env P rfl (qd_other env P d _ (by intro i h; cases h) (by intro i h; cases h))
  | readAgain => exact h.step_quiet env P rfl (qd_other env P d _ (by intro i h; cases h) (by intro i h; cases h))
  | finish s f => exact h.step_quiet env P rfl (qd_other env P d _ (by intro i h; cases h) (by intro i h; cases h))
  | disable b => exact h.step_quiet env P rfl (qd_other env P d _ (by intro i h; cases h) (by intro i h; cases h))
  | want k => exact h.step_quiet env P rfl (qd_other env P d _ (by intro i h; cases h) (by intro i h; cases h))
  | dropReader k => exact h.step_quiet env P rfl (qd_other env P d _ (by intro i h; cases h) (by intro i h; cases h))
  | drop => exact h.step_quiet env P rfl (qd_other env P d _ (by intro i h; cases h) (by intro i h; cases h))

theorem WI.run (env : EncodeEnv) (P : TrailerParser) : ∀ (as : List Act) {d : Disp} {st : List Piece}, WI s d st → Poll.VI d.view → Gated env P d as →
    WI s (d.run env P as) (story env P d st as) := by
  intro as
  induction as with
  | nil => intro d st h _ _; exact h
  | cons a as ih =>
    intro d st h hv hg
    exact ih (h.step env P hv a hg.1) (Poll.vi_run env P [a] hv) hg.2

end Wire

end Hyper
