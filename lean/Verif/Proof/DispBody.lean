import Verif.Proof.ConnOrder

/-!
# Invariants of the body channels of a connection
-/

namespace Hyper

open Spec

/-- An event that is neither a request head nor `100 Continue`. -/
def Plain (e : Ev) : Prop := e ≠ .continue100 ∧ ∀ m x q, e ≠ .readHead m x q

/-- A change of the connection that leaves a body being read alone. -/
structure Calm (c c' : Conn) : Prop where
  keep : c.canReadBody = true → c'.reading = c.reading
  cont : c.canReadBody = false → c'.canReadBody = false
  ka : c'.ka = .idle → c.ka = .idle ∨ c'.canReadBody = false
  log : ∃ l, c'.log = c.log ++ l ∧ ∀ e ∈ l, Plain e

theorem Calm.refl (c : Conn) : Calm c c := ⟨fun _ => rfl, id, .inl, [], by simp, by simp⟩

theorem Calm.trans {c d e : Conn} (h : Calm c d) (h' : Calm d e) : Calm c e := by
  refine ⟨?_, fun x => h'.cont (h.cont x), ?_, ?_⟩
  · intro hc
    have h1 := h.keep hc
    rw [h'.keep (by unfold Conn.canReadBody at *; rw [h1]; exact hc), h1]
  · intro he
    rcases h'.ka he with h1 | h1
    · rcases h.ka h1 with h2 | h2
      · exact .inl h2
      · exact .inr (h'.cont h2)
    · exact .inr h1
  · obtain ⟨l, h1, h2⟩ := h.log
    obtain ⟨l', h3, h4⟩ := h'.log
    refine ⟨l ++ l', by rw [h3, h1]; simp, ?_⟩
    intro e he
    rcases List.mem_append.1 he with he | he
    · exact h2 e he
    · exact h4 e he

/-- A change of other parts. -/
theorem Calm.of_eq {c c' : Conn} (hr : c'.reading = c.reading) (hk : c'.ka = .idle → c.ka = .idle) (hl : c'.log = c.log) : Calm c c' :=
  ⟨fun _ => hr, by unfold Conn.canReadBody; rw [hr]; exact id, fun h => .inl (hk h), [], by simp [hl], by simp⟩

/-- A change of other parts with an event. -/
theorem Calm.of_log {c c' : Conn} (e : Ev) (hr : c'.reading = c.reading) (hk : c'.ka = .idle → c.ka = .idle) (hl : c'.log = c.log ++ [e]) (he : Plain e) :
    Calm c c' :=
  ⟨fun _ => hr, by unfold Conn.canReadBody; rw [hr]; exact id, fun h => .inl (hk h), [e], by simp [hl], by simpa using he⟩

/-- Nothing is being read, before and after. -/
theorem Calm.of_free {c c' : Conn} (h : c.canReadBody = false) (h' : c'.canReadBody = false) (hl : c'.log = c.log) : Calm c c' :=
  ⟨by simp [h], fun _ => h', fun _ => .inr h', [], by simp [hl], by simp⟩

section conn

variable (c : Conn)

theorem calm_stateKeepAlive : Calm c c.stateKeepAlive := by
  unfold Conn.stateKeepAlive
  cases hr : c.reading with
  | keepAlive =>
    cases hw : c.writing with
    | keepAlive =>
      simp only
      split
      · exact .of_free (by simp [Conn.canReadBody, hr]) (by simp [Conn.canReadBody, Conn.goIdle]) rfl
      · exact .of_free (by simp [Conn.canReadBody, hr]) (by simp [Conn.canReadBody, Conn.closeAll]) rfl
    | closed => exact .of_free (by simp [Conn.canReadBody, hr]) (by simp [Conn.canReadBody, Conn.closeAll]) rfl
    | init => exact .refl _
    | body e => exact .refl _
  | closed =>
    cases hw : c.writing with
    | keepAlive => exact .of_free (by simp [Conn.canReadBody, hr]) (by simp [Conn.canReadBody, Conn.closeAll]) rfl
    | closed => exact .refl _
    | init => exact .refl _
    | body e => exact .refl _
  | init => exact .refl _
  | cont d => exact .refl _
  | body d => exact .refl _

theorem calm_maybeNotify (i : NotifyIn) : Calm c (c.maybeNotify i) := by
  unfold Conn.maybeNotify
  cases hr : c.reading with
  | init =>
    have hn : Calm c (c.notifyFrom i) := by
      cases i with
      | blocked => exact .refl _
      | pending => exact .refl _
      | bytes => exact .of_eq rfl id rfl
      | eof =>
        simp only [Conn.notifyFrom]
        split
        · exact .of_free (by simp [Conn.canReadBody, hr]) (by simp [Conn.canReadBody, Conn.closeAll]) rfl
        · exact .of_free (by simp [Conn.canReadBody, hr]) (by simp [Conn.canReadBody, Conn.closeRead]) rfl
      | error => exact .of_free (by simp [Conn.canReadBody, hr]) (by simp [Conn.canReadBody, Conn.closeAll, Conn.notifyFrom]) rfl
    cases c.writing with
    | body _ => exact .refl _
    | init => exact hn
    | keepAlive => exact hn
    | closed => exact hn
  | cont _ => exact .refl _
  | body _ => exact .refl _
  | keepAlive => exact .refl _
  | closed => exact .refl _

theorem calm_tryKeepAlive (i : NotifyIn) : Calm c (c.tryKeepAlive i) := (calm_stateKeepAlive c).trans (calm_maybeNotify _ i)

theorem calm_setWriting (w : Writing) : Calm c (c.setWriting w) := by
  unfold Conn.setWriting
  split
  · exact .of_log .writeEnd rfl id rfl ⟨by simp, by simp⟩
  · exact .of_eq rfl id rfl

theorem calm_put (bs : Bytes) : Calm c (c.put bs) := by
  unfold Conn.put
  split
  · exact .refl _
  split
  · exact .of_eq rfl id rfl
  · exact .refl _

theorem calm_writeBody (bs : Bytes) : Calm c (c.writeBody bs) := (calm_put c _).trans (calm_setWriting _ _)

theorem calm_writeBodyAndEnd (bs : Bytes) : Calm c (c.writeBodyAndEnd bs) := (calm_put c _).trans (calm_setWriting _ _)

theorem calm_writeTrailers (m : HeaderMap) : Calm c (c.writeTrailers m) := (calm_put c _).trans (calm_setWriting _ _)

theorem calm_endBody : Calm c c.endBody.2 := (calm_put c _).trans (calm_setWriting _ _)

theorem calm_writeResp (env : EncodeEnv) (m : RespOut) (ev : Bool → Ev) (he : ∀ b, Plain (ev b)) : Calm c (c.writeResp env m ev) := by
  unfold Conn.writeResp
  refine Calm.trans ?_ (calm_setWriting _ _)
  have hk : (c.respMsg m).1 = .idle → c.ka = .idle := by
    intro h
    rcases respMsg_ka c m with h' | h' <;> rw [h] at h'
    · exact h'.symm
    · simp at h'
  exact .of_log _ rfl hk rfl (he _)

theorem calm_writeReq (h : ReqHead) (body : Option BodyLength) (n : Nat) : Calm c (c.writeReq h body n) := by
  unfold Conn.writeReq
  refine Calm.trans ?_ (calm_setWriting _ _)
  have hk : (connReq c.version c.ka h).1 = .idle → c.ka = .idle := by
    intro h'
    rcases connReq_ka c h with h'' | ⟨_, h''⟩ <;> rw [h'] at h'' <;> simp at h''
  exact .of_log (c := c) (.writeHead n _) rfl hk rfl ⟨by simp, by simp⟩

theorem calm_pollFlush (f : FlushIn) (i : NotifyIn) : Calm c (c.pollFlush f i).2 := by
  unfold Conn.pollFlush
  simp only
  split
  · have h : Calm c { c with out := ((c.scripted f).pollFlush bytesBuf f.readBuf).2 } := .of_eq rfl id rfl
    exact h.trans (calm_tryKeepAlive _ i)
  · exact .of_eq rfl id rfl

theorem calm_pollShutdown (f : FlushIn) : Calm c (c.pollShutdown f).2 := .of_eq rfl id rfl

theorem calm_disableKeepAlive (h : c.canReadBody = true → c.ka ≠ .idle) : Calm c c.disableKeepAlive := by
  refine Calm.trans (.of_log (c' := { c with log := c.log ++ [.shutdown] }) .shutdown rfl id rfl ⟨by simp, by simp⟩) ?_
  unfold Conn.disableKeepAlive
  simp only
  split
  · rename_i hk
    refine .of_free ?_ rfl rfl
    cases hc : c.canReadBody
    · exact hc
    · exact absurd hk (h hc)
  · exact .of_eq rfl (by simp) rfl

theorem calm_startTimer (t : Nat) : Calm c (c.startTimer t) := by
  unfold Conn.startTimer
  split
  · exact .refl _
  · split
    · exact .of_eq rfl id rfl
    · exact .refl _

theorem calm_onReadHeadError (env : EncodeEnv) (e : Option ParseErr) (rest h2 : Bool) (hc : c.canReadBody = false) :
    Calm c (c.onReadHeadError env e rest h2).2 := by
  have h1 : Calm c c.closeRead := .of_free hc rfl rfl
  unfold Conn.onReadHeadError
  split
  · unfold Conn.onParseError
    split
    · split
      · exact h1
      · split
        · rename_i st _
          have h := h1.trans (calm_writeResp c.closeRead env (Conn.errorResp st) (fun _ => .errorHead) (fun _ => ⟨by simp, by simp⟩))
          exact h.trans (.of_eq rfl id rfl)
        · exact h1
    · exact h1
  · exact .of_free hc rfl rfl

/-- The decoder says that it has no data only at the end of the body. -/
theorem decodeLoop_data (P : TrailerParser) (fuel : Nat) (c : Chunked) (r : Rd) (bs : Bytes) (c' : Chunked) (r' : Rd)
    (h : c.decodeLoop P fuel r = (.ready (.ok (.data bs)), c', r')) (hb : bs = []) : c'.state = .finished := by
  induction fuel generalizing c r with
  | zero => simp [Chunked.decodeLoop] at h
  | succ fuel ih =>
    rw [Chunked.decodeLoop] at h
    have hs : ∀ x, (c.step r).chunkBuf = some x → x ≠ [] := by
      intro x hx
      unfold Chunked.step at hx
      split at hx
      · simp at hx
      · unfold Chunked.readBody at hx
        split at hx
        · simp at hx
        · simp at hx
        · split at hx
          · simp at hx
          · rename_i hl; simp at hx; subst hx; intro he; subst he; simp at hl
      · unfold Chunked.readByte at hx
        (repeat' split at hx) <;> simp at hx
    generalize c.step r = st at h hs
    obtain ⟨res, ch, buf, rd⟩ := st
    cases res with
    | pending => simp at h
    | ready x =>
      cases x with
      | error e => simp at h
      | ok s =>
        simp only at h hs
        split at h
        · rename_i hs
          cases ht : ch.tbuf with
          | some t =>
            simp only [ht] at h
            split at h <;> simp at h
          | none =>
            simp only [ht] at h
            simp at h
            rw [← h.2.1]; exact hs
        · cases buf with
          | some x =>
            simp at h
            exact absurd (h.1.trans hb) (hs x rfl)
          | none => exact ih _ _ h

theorem decode_data (P : TrailerParser) (d : Decoder) (r : Rd) (h : (d.decode P r).1 = .ready (.ok (.data []))) : (d.decode P r).2.1.isEof = true := by
  unfold Decoder.decode at h ⊢
  cases d with
  | length n =>
    simp only at h ⊢
    split
    · rename_i h0; simp [Decoder.isEof, h0]
    · rename_i h0
      rw [if_neg h0] at h
      generalize r.readMem n = x at h ⊢
      obtain ⟨x, r'⟩ := x
      cases x with
      | pending => simp at h
      | ready x =>
        cases x with
        | error e => simp at h
        | ok buf =>
          simp only at h ⊢
          split
          · simp [Decoder.isEof]
          · rename_i h1
            rw [if_neg h1] at h
            split at h
            · simp at h
            · rename_i h2; simp at h; subst h; simp at h2
  | chunked c =>
    simp only at h ⊢
    generalize hx : c.decodeLoop P (r.size + 1) r = x at h ⊢
    obtain ⟨x, c', r'⟩ := x
    simp only at h ⊢
    subst h
    simp [Decoder.isEof, decodeLoop_data P _ c r [] c' r' hx rfl]
  | eof seen =>
    simp only at h ⊢
    split
    · rename_i h0; simp [Decoder.isEof, h0]
    · rename_i h0
      rw [if_neg h0] at h
      generalize r.readMem 8192 = x at h ⊢
      obtain ⟨x, r'⟩ := x
      cases x with
      | pending => simp at h
      | ready x =>
        cases x with
        | error e => simp at h
        | ok buf =>
          simp at h
          simp [Decoder.isEof, h]

/-- What reading a piece of body does. -/
structure Piece (c : Conn) (o : BodyRes) (c' : Conn) : Prop where
  more : (o = .pending ∨ ∃ bs, o = .data bs false) → ∃ d, c'.reading = .body d
  never : o ≠ .ended false
  cont : ∀ d, c'.reading ≠ .cont d
  ka : c'.canReadBody = true → c'.ka = .idle → c.ka = .idle
  log : ∃ l, c'.log = c.log ++ l ∧ ∀ e ∈ l, Plain e

theorem Calm.not_cont {c c' : Conn} (h : Calm c c') (hc : ∀ d, c.reading ≠ .cont d) (d : Decoder) : c'.reading ≠ .cont d := by
  intro he
  cases hb : c.canReadBody
  · have := h.cont hb; simp [Conn.canReadBody, he] at this
  · rw [h.keep hb] at he; exact hc d he

theorem piece_of_calm {c c1 c' : Conn} {o : BodyRes} (h : Calm c1 c') (h1 : c1.log = c.log) (hk : c1.ka = c.ka) (hc : ∀ d, c1.reading ≠ .cont d)
    (hm : (o = .pending ∨ ∃ bs, o = .data bs false) → False) (hn : o ≠ .ended false) : Piece c o c' := by
  refine ⟨fun hx => (hm hx).elim, hn, h.not_cont hc, ?_, ?_⟩
  · intro hb hi
    rcases h.ka hi with h' | h'
    · rw [← hk]; exact h'
    · rw [hb] at h'; simp at h'
  · rw [← h1]; exact h.log

theorem piece_done {c : Conn} {o : BodyRes} (i : NotifyIn) (hm : (o = .pending ∨ ∃ bs, o = .data bs false) → False) (hn : o ≠ .ended false) :
    Piece c o (c.readDone.tryKeepAlive i) := by
  have h := calm_tryKeepAlive c.readDone i
  refine ⟨fun hx => (hm hx).elim, hn, h.not_cont (by simp [Conn.readDone]), ?_, ?_⟩
  · intro hb hi
    rcases h.ka hi with h' | h'
    · exact h'
    · rw [hb] at h'; simp at h'
  · obtain ⟨l, h1, h2⟩ := h.log
    refine ⟨.readEnd :: l, by rw [h1]; simp [Conn.readDone], ?_⟩
    intro e he
    rcases List.mem_cons.1 he with rfl | he
    · exact ⟨by simp, by simp⟩
    · exact h2 e he

theorem piece_decodeBody (P : TrailerParser) (d : Decoder) (r : Rd) (i : NotifyIn) :
    Piece c (c.decodeBody P d r i).1 (c.decodeBody P d r i).2 := by
  have hlaw := decode_data P d r
  unfold Conn.decodeBody
  have hset : ∀ dd o, (o = BodyRes.pending ∨ ∃ bs, o = .data bs false) → Piece c o { c with reading := .body dd } := by
    intro dd o ho
    refine ⟨fun _ => ⟨dd, rfl⟩, ?_, by simp, fun _ h => h, [], by simp, by simp⟩
    rcases ho with rfl | ⟨bs, rfl⟩ <;> simp
  generalize (d.decode P r).1 = x at hlaw ⊢
  cases x with
  | pending => exact hset _ _ (.inl rfl)
  | ready x =>
    cases x with
    | error e => exact piece_of_calm (calm_tryKeepAlive { c with reading := .closed } i) rfl rfl (by simp) (by simp) (by simp)
    | ok f =>
      cases f with
      | trailers fs => exact piece_done i (by simp) (by simp)
      | data bs =>
        simp only
        split
        · split
          · exact piece_done i (by simp) (by simp)
          · exact piece_done i (by simp) (by simp)
        · rename_i he
          split
          · rename_i hb; subst hb; exact absurd (hlaw rfl) he
          · exact hset _ _ (.inr ⟨bs, rfl⟩)

end conn

/-- The body was asked for before `100 Continue`. -/
def Asked (pre : List Ev) : Ev → Prop
  | .continue100 => ∃ a n p mid, pre = a ++ .readHead n true p :: mid ∧ (∀ e ∈ mid, Plain e) ∧ .wanted n ∈ mid
  | _ => True

theorem asked_append {l l' : List Ev} (h : Each Asked l) (h' : ∀ e ∈ l', e ≠ .continue100) : Each Asked (l ++ l') := by
  induction l' generalizing l with
  | nil => simpa using h
  | cons e es ih =>
    have : l ++ e :: es = (l ++ [e]) ++ es := by simp
    rw [this]
    refine ih (each_snoc h ?_) (fun x hx => h' x (List.mem_cons_of_mem _ hx))
    have := h' e List.mem_cons_self
    cases e <;> first | trivial | exact absurd rfl this

/-- What is true of a body channel at any time. -/
structure ChanOk (ch : Chan) : Prop where
  clean : ch.sender = true → Item.error ∉ ch.items
  ended : ch.sender = false → ch.complete = true ∨ ch.want = .closed ∨ Item.error ∈ ch.items
  shape : ∃ l, Item.error ∉ l ∧ (ch.items = l ∨ ch.items = l ++ [Item.error])

/-- The body channels. -/
structure ChanInv (tx : Option Nat) (cs : List Chan) : Prop where
  ok : ∀ k ch, cs[k]? = some ch → ChanOk ch ∧ (ch.sender = true ↔ tx = some k)
  bound : ∀ k, tx = some k → k < cs.length

theorem ChanInv.upd {tx : Option Nat} {cs : List Chan} (h : ChanInv tx cs) (tx' : Option Nat) (k : Nat) (f : Chan → Chan)
    (hk : ∀ ch, cs[k]? = some ch → ChanOk ch → (ch.sender = true ↔ tx = some k) → ChanOk (f ch) ∧ ((f ch).sender = true ↔ tx' = some k))
    (hj : ∀ j, j ≠ k → (tx = some j ↔ tx' = some j)) (hb : tx' = some k → tx = some k) : ChanInv tx' (updChan cs k f) := by
  constructor
  · intro j ch hc
    rw [updChan, List.getElem?_modify] at hc
    by_cases hjk : k = j
    · subst hjk
      cases hx : cs[k]? with
      | none => simp [hx] at hc
      | some ch0 =>
        simp [hx] at hc
        subst hc
        exact hk ch0 hx (h.ok k ch0 hx).1 (h.ok k ch0 hx).2
    · simp [hjk] at hc
      have := h.ok j ch hc
      exact ⟨this.1, this.2.trans (hj j (fun e => hjk e.symm))⟩
  · intro j hj'
    rw [updChan, List.length_modify]
    by_cases hjk : j = k
    · subst hjk; exact h.bound j (hb hj')
    · exact h.bound j ((hj j hjk).2 hj')

/-- A change of a channel that leaves its sender where it is. -/
theorem ChanInv.map {tx : Option Nat} {cs : List Chan} (h : ChanInv tx cs) (k : Nat) (f : Chan → Chan)
    (hk : ∀ ch, cs[k]? = some ch → ChanOk ch → ChanOk (f ch) ∧ (f ch).sender = ch.sender) : ChanInv tx (updChan cs k f) :=
  h.upd tx k f (fun ch hc ho hs => ⟨(hk ch hc ho).1, by rw [(hk ch hc ho).2]; exact hs⟩) (fun _ _ => Iff.rfl) id

/-- The sender of the current body goes. -/
theorem ChanInv.gone {cs : List Chan} {k : Nat} (h : ChanInv (some k) cs) (f : Chan → Chan)
    (hk : ∀ ch, cs[k]? = some ch → ChanOk ch → ch.sender = true → ChanOk (f ch) ∧ (f ch).sender = false) : ChanInv none (updChan cs k f) :=
  h.upd none k f (fun ch hc ho hs => ⟨(hk ch hc ho (hs.2 rfl)).1, by rw [(hk ch hc ho (hs.2 rfl)).2]; simp⟩)
    (fun j hj => by simp; exact fun e => hj e.symm) (by simp)

/-- The connection and its body channels. -/
structure DInv (d : Disp) : Prop where
  chan : ChanInv d.bodyTx d.chans
  live : d.done = false → ∀ k ch, d.bodyTx = some k → d.chans[k]? = some ch → ch.complete = true ∨ d.conn.canReadBody = true ∨ d.closing = true
  awake : d.done = false → d.conn.canReadBody = true → d.conn.ka ≠ .idle
  asked : d.done = false → ∀ dec, d.conn.reading = .cont dec → ∃ k ch a p mid, d.bodyTx = some k ∧ d.chans[k]? = some ch ∧
    d.conn.log = a ++ .readHead ch.id true p :: mid ∧ (∀ e ∈ mid, Plain e) ∧ (ch.want = .ready → .wanted ch.id ∈ mid)
  first : Each Asked d.conn.log

theorem DInv.calm {d d' : Disp} (h : DInv d) (hc : Calm d.conn d'.conn) (h1 : d'.bodyTx = d.bodyTx) (h2 : d'.chans = d.chans)
    (h3 : d.closing = true → d'.closing = true) (h4 : d'.done = false → d.done = false) : DInv d' := by
  obtain ⟨l, hl, hp⟩ := hc.log
  refine ⟨by rw [h1, h2]; exact h.chan, ?_, ?_, ?_, ?_⟩
  · intro hd k ch hk hch
    rw [h1] at hk; rw [h2] at hch
    rcases h.live (h4 hd) k ch hk hch with h' | h' | h'
    · exact .inl h'
    · refine .inr (.inl ?_)
      have := hc.keep h'
      unfold Conn.canReadBody at *; rw [this]; exact h'
    · exact .inr (.inr (h3 h'))
  · intro hd hb hi
    have hb' : d.conn.canReadBody = true := by
      cases hx : d.conn.canReadBody
      · rw [hc.cont hx] at hb; exact hb
      · rfl
    rcases hc.ka hi with h' | h'
    · exact h.awake (h4 hd) hb' h'
    · rw [hb] at h'; simp at h'
  · intro hd dec hr
    have hr' : d.conn.reading = .cont dec := by
      cases hx : d.conn.canReadBody
      · have := hc.cont hx; simp [Conn.canReadBody, hr] at this
      · rw [← hc.keep hx, hr]
    obtain ⟨k, ch, a, p, mid, g1, g2, g3, g4, g5⟩ := h.asked (h4 hd) dec hr'
    refine ⟨k, ch, a, p, mid ++ l, by rw [h1, g1], by rw [h2, g2], by rw [hl, g3]; simp, ?_, ?_⟩
    · intro e he
      rcases List.mem_append.1 he with he | he
      · exact g4 e he
      · exact hp e he
    · intro hw; exact List.mem_append_left _ (g5 hw)
  · rw [hl]; exact asked_append h.first (fun e he => (hp e he).1)

/-- Where nothing needs the body being read, the connection may change freely, but for starting a body. -/
theorem DInv.free {d d' : Disp} (h : DInv d) (h1 : d'.bodyTx = d.bodyTx) (h2 : d'.chans = d.chans)
    (hf : d'.done = false → ∀ k ch, d.bodyTx = some k → d.chans[k]? = some ch → ch.complete = true ∨ d'.closing = true)
    (hr : ∀ dec, d'.conn.reading ≠ .cont dec) (hk : d'.conn.canReadBody = true → d'.conn.ka ≠ .idle)
    (hl : ∃ l, d'.conn.log = d.conn.log ++ l ∧ ∀ e ∈ l, Plain e) : DInv d' := by
  obtain ⟨l, hl, hp⟩ := hl
  refine ⟨by rw [h1, h2]; exact h.chan, ?_, fun _ => hk, fun _ dec hx => absurd hx (hr dec), ?_⟩
  · intro hd k ch hk' hch
    rw [h1] at hk'; rw [h2] at hch
    rcases hf hd k ch hk' hch with h' | h'
    · exact .inl h'
    · exact .inr (.inr h')
  · rw [hl]; exact asked_append h.first (fun e he => (hp e he).1)

theorem DInv.close {d : Disp} (h : DInv d) : DInv d.close :=
  h.free rfl rfl (fun _ _ _ _ _ => .inr rfl) (by simp [Disp.close, Conn.closeRead, Conn.closeWrite])
    (by simp [Disp.close, Conn.closeRead, Conn.closeWrite, Conn.canReadBody]) ⟨[], by simp [Disp.close, Conn.closeRead, Conn.closeWrite], by simp⟩

theorem chanOk_fail {ch : Chan} (h : ChanOk ch) (hs : ch.sender = true) : ChanOk ch.fail := by
  refine ⟨by simp [Chan.fail], fun _ => .inr (.inr (by simp [Chan.fail])), ch.items, h.clean hs, .inr rfl⟩

theorem failBody_chan {d : Disp} (h : ChanInv d.bodyTx d.chans) : ChanInv d.failBody.bodyTx d.failBody.chans ∧ d.failBody.bodyTx = none := by
  unfold Disp.failBody
  cases ht : d.bodyTx with
  | none => simp only [ht]; rw [ht] at h; exact ⟨h, trivial⟩
  | some k =>
    rw [ht] at h
    exact ⟨h.gone _ (fun ch _ ho hs => ⟨chanOk_fail ho hs, rfl⟩), rfl⟩

/-- Once done, only the channels and the history matter. -/
theorem DInv.of_done {d : Disp} (hd : d.done = true) (h : ChanInv d.bodyTx d.chans) (hf : Each Asked d.conn.log) : DInv d :=
  ⟨h, by simp [hd], by simp [hd], by simp [hd], hf⟩

theorem DInv.fail {d : Disp} (h : ChanInv d.bodyTx d.chans) (hf : Each Asked d.conn.log) : DInv d.fail :=
  .of_done rfl (failBody_chan h).1 (by simpa [Disp.fail, (failBody_fields d).1] using hf)

theorem DInv.drop {d : Disp} (h : ChanInv d.bodyTx d.chans) (hf : Each Asked d.conn.log) : DInv { d.failBody with done := true } :=
  .of_done rfl (failBody_chan h).1 (by simpa [(failBody_fields d).1] using hf)

theorem DInv.recvErr {d : Disp} (h : DInv d) : DInv d.recvErr := by
  unfold Disp.recvErr
  split
  · split
    · have : DInv { d with inFlight := none } := h.calm (.refl _) rfl rfl id id
      exact this.close
    · exact DInv.fail h.chan h.first
  · exact DInv.fail h.chan h.first

/-- A sender goes that has delivered everything, or has no reader. -/
theorem chanOk_drop {ch : Chan} (h : ChanOk ch) (hs : ch.sender = true) (hc : ch.complete = true ∨ ch.want = .closed) : ChanOk ch.dropSender := by
  refine ⟨by simp [Chan.dropSender], fun _ => ?_, ch.items, h.clean hs, .inl rfl⟩
  rcases hc with hc | hc
  · exact .inl hc
  · exact .inr (.inl hc)

/-- A new body. -/
theorem newBody_chan {d : Disp} {m : MsgIn} (h : ChanInv d.bodyTx d.chans) (hz : m.decode ≠ DecodedLength.ZERO)
    (hc : ∀ k ch, d.bodyTx = some k → d.chans[k]? = some ch → ch.complete = true) :
    ChanInv (d.newBody m).bodyTx (d.newBody m).chans ∧ ∃ k ch, (d.newBody m).bodyTx = some k ∧ (d.newBody m).chans[k]? = some ch ∧
      ch.id = d.headId ∧ ch.want = (if m.continues then .pending else .ready) := by
  unfold Disp.newBody
  rw [if_neg hz]
  simp only
  have hcs : ChanInv none d.replaced := by
    unfold Disp.replaced
    cases ht : d.bodyTx with
    | none => rw [ht] at h; exact h
    | some k =>
      rw [ht] at h
      exact h.gone _ (fun ch hch ho hs => ⟨chanOk_drop ho hs (.inl (hc k ch ht hch)), rfl⟩)
  generalize d.replaced = cs at hcs
  refine ⟨⟨?_, ?_⟩, cs.length, { id := d.headId, len := m.decode, want := if m.continues then .pending else .ready }, rfl, by simp, rfl, rfl⟩
  · intro k ch hk
    rw [List.getElem?_append] at hk
    split at hk
    · rename_i hlt
      have := hcs.ok k ch hk
      refine ⟨this.1, this.2.trans ?_⟩
      simp; omega
    · rename_i hge
      cases hx : k - cs.length with
      | zero =>
        rw [hx] at hk
        simp at hk
        subst hk
        refine ⟨⟨by simp, by simp, [], by simp, .inl rfl⟩, ?_⟩
        simp; omega
      | succ j => rw [hx] at hk; simp at hk
  · intro k hk
    simp at hk
    simp; omega

theorem DInv.accept {d : Disp} (h : DInv d) (hd : d.done = false) (hcl : d.closing = false) (hr : d.conn.reading = .init) (m : MsgIn) (i : NotifyIn)
    (t : Nat) : DInv ({ d with conn := (d.conn.startTimer t).acceptHead m d.headId i }.recvHead m) := by
  have ht := startTimer_fields d.conn t
  have hcomp : ∀ k ch, d.bodyTx = some k → d.chans[k]? = some ch → ch.complete = true := by
    intro k ch hk hch
    rcases h.live hd k ch hk hch with h' | h' | h'
    · exact h'
    · simp [Conn.canReadBody, hr] at h'
    · rw [hcl] at h'; simp at h'
  -- the connection after the head
  have hhs : Each Asked ((d.conn.startTimer t).headState m d.headId).log := by
    have : ((d.conn.startTimer t).headState m d.headId).log = d.conn.log ++ [.readHead d.headId m.continues m.keepAlive] := by
      simp [Conn.headState, ht.2.2.2.2]
    rw [this]; exact asked_append h.first (by simp)
  have hka : ((d.conn.startTimer t).headState m d.headId).ka ≠ .idle := by
    simp only [Conn.headState]
    (repeat' split) <;> simp
  -- the dispatcher before the exchange is noted
  have key : DInv ({ d with conn := (d.conn.startTimer t).acceptHead m d.headId i }.newBody m) := by
    by_cases hz : m.decode = DecodedLength.ZERO
    · have hnb : ({ d with conn := (d.conn.startTimer t).acceptHead m d.headId i }.newBody m) = { d with conn := (d.conn.startTimer t).acceptHead m d.headId i } := by
        unfold Disp.newBody; rw [if_pos hz]
      rw [hnb]
      have hcalm : Calm (((d.conn.startTimer t).headState m d.headId).readDone) ((d.conn.startTimer t).acceptHead m d.headId i) := by
        unfold Conn.acceptHead
        rw [if_pos hz]
        split
        · exact calm_tryKeepAlive _ i
        · exact .refl _
      have hfree : ((d.conn.startTimer t).acceptHead m d.headId i).canReadBody = false := hcalm.cont rfl
      obtain ⟨l, hl, hp⟩ := hcalm.log
      refine ⟨h.chan, fun _ k ch hk hch => .inl (hcomp k ch hk hch), fun _ hb => ?_, fun _ dec hx => ?_, ?_⟩
      · rw [hfree] at hb; simp at hb
      · simp only at hx; simp [Conn.canReadBody, hx] at hfree
      · simp only
        rw [hl]
        refine asked_append ?_ (fun e he => (hp e he).1)
        simp only [Conn.readDone]
        exact asked_append hhs (by simp)
    · have hn := newBody_chan (d := { d with conn := (d.conn.startTimer t).acceptHead m d.headId i }) (m := m) h.chan hz hcomp
      have hnf := newBody_fields { d with conn := (d.conn.startTimer t).acceptHead m d.headId i } m
      obtain ⟨hci, k, ch, hk1, hk2, hid, hw⟩ := hn
      have hconn : ({ d with conn := (d.conn.startTimer t).acceptHead m d.headId i }.newBody m).conn = (d.conn.startTimer t).acceptHead m d.headId i := hnf.1
      have hid' : Disp.headId { d with conn := (d.conn.startTimer t).acceptHead m d.headId i } = d.headId := by
        have hc : ((d.conn.startTimer t).acceptHead m d.headId i).client = d.conn.client := by
          unfold Conn.acceptHead
          rw [if_neg hz]
          split <;> exact ht.1
        show (if ((d.conn.startTimer t).acceptHead m d.headId i).client then d.inFlight.getD d.next else d.next) = d.headId
        rw [hc]; rfl
      have hlog : ((d.conn.startTimer t).acceptHead m d.headId i).log = d.conn.log ++ [.readHead d.headId m.continues m.keepAlive] := by
        unfold Conn.acceptHead
        rw [if_neg hz]
        split <;> simp [Conn.headState, ht.2.2.2.2]
      have hk' : ((d.conn.startTimer t).acceptHead m d.headId i).ka ≠ .idle := by
        unfold Conn.acceptHead
        rw [if_neg hz]
        split <;> exact hka
      refine ⟨hci, ?_, ?_, ?_, ?_⟩
      · intro _ _ _ _ _
        refine .inr (.inl ?_)
        rw [hconn]
        unfold Conn.acceptHead
        rw [if_neg hz]
        split <;> rfl
      · intro _ _; rw [hconn]; exact hk'
      · intro _ dec hx
        rw [hconn] at hx
        have hcont : m.continues = true := by
          unfold Conn.acceptHead at hx
          rw [if_neg hz] at hx
          split at hx
          · assumption
          · simp at hx
        refine ⟨k, ch, d.conn.log, m.keepAlive, [], hk1, hk2, ?_, by simp, ?_⟩
        · rw [hconn, hlog, hid, hid', hcont]
        · rw [hw, hcont]; simp
      · rw [hconn, hlog]; exact asked_append h.first (by simp)
  unfold Disp.recvHead
  simp only
  generalize ({ d with conn := (d.conn.startTimer t).acceptHead m d.headId i }.newBody m) = d1 at key
  have key2 : DInv { d1 with conn := { d1.conn with upgrade := d1.conn.upgrade || m.wantsUpgrade } } := key.calm (.of_eq rfl id rfl) rfl rfl id id
  split
  · split
    · exact key2.calm (.refl _) rfl rfl id id
    · exact DInv.fail key2.chan key2.first
  · exact key2.calm (.refl _) rfl rfl id id

theorem DInv.readHeadReady {d : Disp} (h : DInv d) (env : EncodeEnv) (i : ReadIn) (hd : d.done = false) (hcl : d.closing = false) (hr : d.conn.reading = .init) :
    DInv (d.readHeadReady env i) := by
  have ht := startTimer_fields d.conn i.t0
  unfold Disp.readHeadReady
  cases hp : i.parse with
  | pending =>
    simp only [Conn.pollReadHead]
    have h1 : DInv { d with conn := d.conn.startTimer i.t0 } := h.calm (calm_startTimer _ _) rfl rfl id id
    split
    · have h2 : DInv { d with conn := { d.conn.startTimer i.t0 with timing := false } } := h1.calm (.of_eq rfl id rfl) rfl rfl id id
      exact h2.recvErr
    · exact h1
  | error e rest h2 =>
    simp only [Conn.pollReadHead]
    have hc : Calm d.conn ((d.conn.startTimer i.t0).onReadHeadError env e rest h2).2 :=
      (calm_startTimer _ _).trans (calm_onReadHeadError _ env e rest h2 (by simp [Conn.canReadBody, ht.2.1, hr]))
    have h1 : DInv { d with conn := ((d.conn.startTimer i.t0).onReadHeadError env e rest h2).2 } := h.calm hc rfl rfl id id
    have ho := onReadHeadError_out env (d.conn.startTimer i.t0) e rest h2
    generalize ((d.conn.startTimer i.t0).onReadHeadError env e rest h2).1 = o at ho
    unfold Disp.afterHead
    cases o with
    | pending => exact h1
    | eof => simp only; split; exact h1.close; exact h1
    | err => exact h1.recvErr
    | timeout => exact h1.recvErr
    | msg m => exact absurd rfl (ho m)
  | msg m =>
    simp only [Conn.pollReadHead, Disp.afterHead]
    exact h.accept hd hcl hr m i.notify i.t0

theorem DInv.readHead {d : Disp} (h : DInv d) (env : EncodeEnv) (i : ReadIn) (hd : d.done = false) (hcl : d.closing = false) (hr : d.conn.canReadHead = true) :
    DInv (d.readHead env i) := by
  have hrd : d.conn.reading = .init := by
    simp only [Conn.canReadHead, Bool.and_eq_true, beq_iff_eq] at hr; exact hr.1
  have h1 := h.readHeadReady env i hd hcl hrd
  unfold Disp.readHead
  (repeat' split) <;> first | exact h1 | exact h.close | exact h

theorem markComplete_chan {d : Disp} (h : ChanInv d.bodyTx d.chans) (k : Nat) (b : Bool) :
    ChanInv (d.markComplete k b).bodyTx (d.markComplete k b).chans ∧ (d.markComplete k b).bodyTx = d.bodyTx ∧
      (d.markComplete k b).closing = d.closing ∧ (b = true → ∀ ch, (d.markComplete k b).chans[k]? = some ch → ch.complete = true) := by
  unfold Disp.markComplete
  cases b with
  | false => exact ⟨h, rfl, rfl, by simp⟩
  | true =>
    simp only [if_true]
    refine ⟨h.map k _ (fun ch _ ho => ⟨⟨ho.clean, fun _ => .inl rfl, ho.shape⟩, rfl⟩), by simp, by simp, ?_⟩
    intro _ ch hch
    rw [updChan, List.getElem?_modify] at hch
    cases hx : d.chans[k]? with
    | none => simp [hx] at hch
    | some c0 => simp [hx] at hch; rw [← hch]

theorem loseReader_chan {d : Disp} (h : ChanInv d.bodyTx d.chans) (k : Nat) : ChanInv d.bodyTx (d.loseReader k).chans :=
  h.map k _ (fun _ _ ho => ⟨⟨ho.clean, fun _ => .inr (.inl rfl), ho.shape⟩, rfl⟩)

/-- After a piece of body was read: nothing is lost. -/
theorem DInv.afterPiece {d : Disp} {k : Nat} {gone : Bool} {o : BodyRes} (hci : ChanInv d.bodyTx d.chans) (ht : d.bodyTx = some k)
    (hg : gone = true → ∀ ch, d.chans[k]? = some ch → ch.want = .closed)
    (hm : (o = .pending ∨ ∃ bs, o = .data bs false) → d.conn.canReadBody = true) (hn : o ≠ .ended false) (hr : ∀ dec, d.conn.reading ≠ .cont dec)
    (hk : d.conn.canReadBody = true → d.conn.ka ≠ .idle) (hf : Each Asked d.conn.log) : DInv (d.afterPiece k gone o) := by
  -- dropping the sender, or delivering, when this is allowed
  have hdel : ∀ (b : Bool) (f : Chan → Chan), (∀ ch, ChanOk ch → ch.sender = true → ChanOk (f ch) ∧ (f ch).sender = true ∧ (f ch).complete = ch.complete) →
      (b = false → d.conn.canReadBody = true) → DInv ((d.markComplete k b).deliver k gone f) := by
    intro b f hfun hb
    obtain ⟨m1, m2, m3, m4⟩ := markComplete_chan hci k b
    have mf := markComplete_fields d k b
    rw [m2, ht] at m1
    unfold Disp.deliver
    cases hgo : gone with
    | true =>
      simp only [if_true]
      have hcl : ∀ ch, (d.markComplete k b).chans[k]? = some ch → ch.want = .closed := by
        intro ch hch
        unfold Disp.markComplete at hch
        cases b with
        | false => exact hg hgo ch hch
        | true =>
          simp only [if_true, updChan, List.getElem?_modify] at hch
          cases hx : d.chans[k]? with
          | none => simp [hx] at hch
          | some c0 => simp [hx] at hch; rw [← hch]; exact hg hgo c0 hx
      have hdi : ChanInv none (updChan (d.markComplete k b).chans k Chan.dropSender) :=
        m1.gone _ (fun ch hch ho hs => ⟨chanOk_drop ho hs (.inr (hcl ch hch)), rfl⟩)
      split
      · refine ⟨hdi, by simp [Disp.dropBody], by simp [Conn.closeRead, Conn.canReadBody], by simp [Conn.closeRead], ?_⟩
        simpa [Disp.dropBody, Conn.closeRead, mf.1] using hf
      · refine ⟨hdi, by simp [Disp.dropBody], ?_, ?_, ?_⟩
        · intro _; simp only [Disp.dropBody, mf.1]; exact hk
        · intro _ dec; simp only [Disp.dropBody, mf.1]; exact fun hx => absurd hx (hr dec)
        · simpa [Disp.dropBody, mf.1] using hf
    | false =>
      simp only [Bool.false_eq_true, if_false, Disp.sendItem]
      have hcs : ChanInv (some k) (updChan (d.markComplete k b).chans k f) :=
        m1.upd (some k) k f (fun ch hch ho hs => ⟨(hfun ch ho (hs.2 rfl)).1, by simp [(hfun ch ho (hs.2 rfl)).2.1]⟩) (fun _ _ => Iff.rfl) id
      refine ⟨by rw [m2, ht]; exact hcs, ?_, ?_, ?_, ?_⟩
      · intro _ j ch hj hch
        rw [m2, ht] at hj
        simp at hj; subst hj
        cases b with
        | false => exact .inr (.inl (by simpa [mf.1] using hb rfl))
        | true =>
          left
          rw [updChan, List.getElem?_modify] at hch
          cases hx : (d.markComplete k true).chans[k]? with
          | none => simp [hx] at hch
          | some c0 =>
            simp [hx] at hch
            have := m1.ok k c0 hx
            rw [← hch, (hfun c0 this.1 (this.2.2 rfl)).2.2]
            exact m4 rfl c0 hx
      · intro _; rw [mf.1]; exact hk
      · intro _ dec; rw [mf.1]; exact fun hx => absurd hx (hr dec)
      · rw [mf.1]; exact hf
  unfold Disp.afterPiece
  cases o with
  | pending =>
    refine ⟨hci, fun _ _ _ _ _ => .inr (.inl (hm (.inl rfl))), fun _ => hk, fun _ dec hx => absurd hx (hr dec), hf⟩
  | data bs fin =>
    refine hdel fin _ ?_ (by rintro rfl; exact hm (.inr ⟨bs, rfl⟩))
    intro ch ho hs
    have hcl := ho.clean hs
    exact ⟨⟨fun _ => by simp [hcl], fun h' => by simp [hs] at h', ch.items ++ [.data bs], by simp [hcl], .inl rfl⟩, hs, rfl⟩
  | trailers fs =>
    refine hdel true _ ?_ (by simp)
    intro ch ho hs
    exact ⟨⟨ho.clean, fun h' => by simp [hs] at h', ho.shape⟩, hs, rfl⟩
  | ended fin =>
    cases fin with
    | false => exact absurd rfl hn
    | true =>
      obtain ⟨m1, m2, m3, m4⟩ := markComplete_chan hci k true
      have mf := markComplete_fields d k true
      rw [m2, ht] at m1
      refine ⟨m1.gone _ (fun ch hch ho hs => ⟨chanOk_drop ho hs (.inl (m4 rfl ch hch)), rfl⟩), by simp [Disp.dropBody], ?_, ?_, ?_⟩
      · intro _; simp only [Disp.dropBody, mf.1]; exact hk
      · intro _ dec; simp only [Disp.dropBody, mf.1]; exact fun hx => absurd hx (hr dec)
      · simpa [Disp.dropBody, mf.1] using hf
  | err =>
    rw [ht] at hci
    exact ⟨hci.gone _ (fun ch _ ho hs => ⟨chanOk_fail ho hs, rfl⟩), by simp, fun _ => hk, fun _ dec hx => absurd hx (hr dec), hf⟩

/-- What reading a body does to the connection. -/
theorem pollReadBody_piece (c : Conn) (P : TrailerParser) (r : Rd) (i : NotifyIn) (hc : c.canReadBody = true) :
    ∃ c0 : Conn, Piece c0 (c.pollReadBody P r i).1 (c.pollReadBody P r i).2 ∧ c0.ka = c.ka ∧
      (c0.log = c.log ∨ (c0.log = c.log ++ [.continue100] ∧ ∃ d, c.reading = .cont d)) := by
  unfold Conn.pollReadBody
  cases hr : c.reading with
  | body d => exact ⟨c, piece_decodeBody c P d r i, rfl, .inl rfl⟩
  | cont d =>
    refine ⟨c.sendContinue, piece_decodeBody _ P d r i, ?_, ?_⟩
    · unfold Conn.sendContinue; split <;> rfl
    · unfold Conn.sendContinue
      split
      · exact .inr ⟨rfl, d, rfl⟩
      · exact .inl rfl
  | init => simp [Conn.canReadBody, hr] at hc
  | keepAlive => simp [Conn.canReadBody, hr] at hc
  | closed => simp [Conn.canReadBody, hr] at hc

theorem DInv.readPiece {d : Disp} (h : DInv d) (P : TrailerParser) (i : ReadIn) (k : Nat) (hd : d.done = false) (ht : d.bodyTx = some k)
    (hc : d.conn.canReadBody = true) (hw : (d.chans[k]?).map Chan.want = some .ready) : DInv (d.readPiece P i k) := by
  obtain ⟨c0, hp, hka, hl⟩ := pollReadBody_piece d.conn P i.rd i.notify hc
  unfold Disp.readPiece
  have hl' := maybeLose_fields { d with conn := (d.conn.pollReadBody P i.rd i.notify).2 } k i.gone
  have hlc : ChanInv ({ d with conn := (d.conn.pollReadBody P i.rd i.notify).2 }.maybeLose k i.gone).bodyTx
      ({ d with conn := (d.conn.pollReadBody P i.rd i.notify).2 }.maybeLose k i.gone).chans := by
    unfold Disp.maybeLose
    split
    · exact loseReader_chan (d := { d with conn := (d.conn.pollReadBody P i.rd i.notify).2 }) h.chan k
    · exact h.chan
  have hlt : ({ d with conn := (d.conn.pollReadBody P i.rd i.notify).2 }.maybeLose k i.gone).bodyTx = some k := by
    unfold Disp.maybeLose Disp.loseReader
    split <;> exact ht
  refine DInv.afterPiece hlc hlt ?_ ?_ hp.never ?_ ?_ ?_
  · intro hg ch hch
    unfold Disp.maybeLose at hch
    rw [if_pos hg] at hch
    simp only [Disp.loseReader, updChan, List.getElem?_modify] at hch
    cases hx : d.chans[k]? with
    | none => simp [hx] at hch
    | some c0 => simp [hx] at hch; rw [← hch]
  · intro hm
    obtain ⟨dd, hdd⟩ := hp.more hm
    rw [hl'.1]; simp [Conn.canReadBody, hdd]
  · intro dec; rw [hl'.1]; exact hp.cont dec
  · rw [hl'.1]
    intro hb hi
    exact h.awake hd hc (hka ▸ hp.ka hb hi)
  · rw [hl'.1]
    obtain ⟨l, hl1, hl2⟩ := hp.log
    rw [hl1]
    refine asked_append ?_ (fun e he => (hl2 e he).1)
    rcases hl with hl | ⟨hl, dec, hdec⟩
    · rw [hl]; exact h.first
    · rw [hl]
      refine each_snoc h.first ?_
      obtain ⟨k', ch, a, p, mid, g1, g2, g3, g4, g5⟩ := h.asked hd dec hdec
      rw [ht] at g1
      simp at g1; subst g1
      rw [g2] at hw
      simp at hw
      exact ⟨a, ch.id, p, mid, g3, g4, g5 hw⟩

theorem drain_fields (c : Conn) (P : TrailerParser) (r : Rd) (i : NotifyIn) (hc : c.canReadBody = true) :
    (∀ dec, (c.drainOrClose P r i).reading ≠ .cont dec) ∧ (c.drainOrClose P r i).canReadBody = false ∧
      ∃ l, (c.drainOrClose P r i).log = c.log ++ l ∧ ∀ e ∈ l, Plain e := by
  have hs : c.drainStart.canReadBody = true ∧ (∀ d, c.drainStart.reading ≠ .cont d) ∧ c.drainStart.log = c.log := by
    unfold Conn.drainStart
    cases hr : c.reading with
    | cont d => simp [Conn.canReadBody]
    | body d => simp [Conn.canReadBody, hr]
    | init => simp [Conn.canReadBody, hr] at hc
    | keepAlive => simp [Conn.canReadBody, hr] at hc
    | closed => simp [Conn.canReadBody, hr] at hc
  obtain ⟨c0, hp, hka, hl⟩ := pollReadBody_piece c.drainStart P r i hs.1
  have hl0 : c0.log = c.log := by
    rcases hl with hl | ⟨_, d, hd⟩
    · rw [hl, hs.2.2]
    · exact absurd hd (hs.2.1 d)
  obtain ⟨l, h1, h2⟩ := hp.log
  have hcont := hp.cont
  unfold Conn.drainOrClose Conn.drainEnd
  generalize (c.drainStart.pollReadBody P r i).2 = c1 at *
  have he : ∀ c2 : Conn, c2.log = c1.log → ∃ l, c2.log = c.log ++ l ∧ ∀ e ∈ l, Plain e := by
    intro c2 h2'; exact ⟨l, by rw [h2', h1, hl0], h2⟩
  cases hr : c1.reading with
  | init => exact ⟨by simp [hr], by simp [Conn.canReadBody, hr], he _ rfl⟩
  | keepAlive => exact ⟨by simp [hr], by simp [Conn.canReadBody, hr], he _ rfl⟩
  | cont d => exact ⟨by simp [Conn.closeRead], rfl, he _ rfl⟩
  | body d => exact ⟨by simp [Conn.closeRead], rfl, he _ rfl⟩
  | closed => exact ⟨by simp [Conn.closeRead], rfl, he _ rfl⟩

theorem DInv.readBody {d : Disp} (h : DInv d) (P : TrailerParser) (i : ReadIn) (k : Nat) (hd : d.done = false) (hcl : d.closing = false) (ht : d.bodyTx = some k) :
    DInv (d.readBody P i k) := by
  have hci := h.chan
  rw [ht] at hci
  unfold Disp.readBody
  split
  · rename_i hc
    split
    · rename_i hw
      split
      · exact h
      · exact h.readPiece P i k hd ht hc hw
    · exact h
    · rename_i hw1 hw2
      have hclosed : ∀ ch, d.chans[k]? = some ch → ch.want = .closed := by
        intro ch hch
        rw [hch] at hw1 hw2
        cases hw : ch.want with
        | closed => rfl
        | ready => exact absurd (by simp [hw]) hw1
        | pending => exact absurd (by simp [hw]) hw2
      have hdr := drain_fields d.conn P i.rd i.notify hc
      refine ⟨hci.gone _ (fun ch hch ho hs => ⟨chanOk_drop ho hs (.inr (hclosed ch hch)), rfl⟩), by simp [Disp.dropBody], ?_, fun _ dec hx => absurd hx (hdr.1 dec), ?_⟩
      · intro _ hb; rw [hdr.2.1] at hb; simp at hb
      · obtain ⟨l, h1, h2⟩ := hdr.2.2
        simp only
        rw [h1]; exact asked_append h.first (fun e he => (h2 e he).1)
  · rename_i hc
    have hcomp : ∀ ch, d.chans[k]? = some ch → ch.complete = true := by
      intro ch hch
      rcases h.live hd k ch ht hch with h' | h' | h'
      · exact h'
      · exact absurd h' hc
      · rw [hcl] at h'; simp at h'
    refine ⟨hci.gone _ (fun ch hch ho hs => ⟨chanOk_drop ho hs (.inl (hcomp ch hch)), rfl⟩), by simp [Disp.dropBody], h.awake, ?_, h.first⟩
    intro _ dec hx
    simp only [Disp.dropBody] at hx
    simp [Conn.canReadBody, hx] at hc

theorem pollReadKeepAlive_fields (c : Conn) (b : Bool) (i : IoIn) :
    (c.pollReadKeepAlive b i).2 = c ∨ ((c.pollReadKeepAlive b i).2.reading = .closed ∧ (c.pollReadKeepAlive b i).2.log = c.log) := by
  unfold Conn.pollReadKeepAlive Conn.requireEmpty Conn.midMessageEof
  (repeat' split) <;> first | exact .inl rfl | exact .inr ⟨rfl, rfl⟩

theorem DInv.readTurn {d : Disp} (h : DInv d) (env : EncodeEnv) (P : TrailerParser) (i : ReadIn) (hd : d.done = false) : DInv (d.readTurn env P i) := by
  unfold Disp.readTurn
  split
  · exact h
  · rename_i hcl
    simp only [Bool.not_eq_true] at hcl
    split
    · rename_i hr; exact h.readHead env i hd hcl hr
    · split
      · rename_i k ht; exact h.readBody P i k hd hcl ht
      · rename_i ht
        unfold Disp.readIdle
        simp only
        have h1 : DInv { d with conn := (d.conn.pollReadKeepAlive i.bufEmpty i.io).2 } := by
          rcases pollReadKeepAlive_fields d.conn i.bufEmpty i.io with hx | ⟨hx, hy⟩
          · rw [hx]; exact h
          · refine h.free rfl rfl (by intro _ k ch hk; rw [ht] at hk; simp at hk) (by simp [hx]) (by simp [Conn.canReadBody, hx]) ⟨[], by simp [hy], by simp⟩
        split
        · exact DInv.fail h1.chan h1.first
        · exact h1

theorem DInv.writeHead {d : Disp} (h : DInv d) (env : EncodeEnv) (m : MsgOut) : DInv (d.writeHead env m) := by
  unfold Disp.writeHead
  cases m with
  | pending => exact h
  | none => simp only; split; exact h.close; exact h
  | err => simp only; split; exact h; exact DInv.fail h.chan h.first
  | resp m =>
    simp only
    split
    · exact h
    · exact h.calm (calm_writeResp _ env m _ (fun _ => ⟨by simp, by simp⟩)) rfl rfl id id
  | req hd body =>
    simp only
    split
    · exact h.calm (calm_writeReq _ hd body _) rfl rfl id id
    · exact h

theorem DInv.flushTurn {d : Disp} (h : DInv d) (f : FlushIn) (i : NotifyIn) : DInv (d.flushTurn f i) := by
  have h1 : DInv { d with conn := (d.conn.pollFlush f i).2 } := h.calm (calm_pollFlush _ f i) rfl rfl id id
  unfold Disp.flushTurn
  simp only
  split
  · exact h1
  · exact DInv.fail h1.chan h1.first

theorem DInv.endBody {d : Disp} (h : DInv d) : DInv d.endBody := by
  have h1 : DInv { d with conn := d.conn.endBody.2 } := h.calm (calm_endBody _) rfl rfl id id
  unfold Disp.endBody
  simp only
  split
  · exact DInv.fail h1.chan h1.first
  · exact h1

theorem DInv.writeTurn {d : Disp} (h : DInv d) (env : EncodeEnv) (i : WriteIn) : DInv (d.writeTurn env i) := by
  have h0 : DInv { d with bodyRx := false } := h.calm (.refl _) rfl rfl id id
  unfold Disp.writeTurn
  split
  · exact h
  · split
    · exact h.writeHead env i.msg
    · split
      · exact h.flushTurn _ _
      · split
        · split
          · unfold Disp.writeFrame
            split
            · exact h
            · exact h0.endBody
            · split
              · exact h0.endBody
              · exact h0.calm (calm_writeBodyAndEnd _ _) rfl rfl id id
            · split
              · exact h
              · exact h.calm (calm_writeBody _ _) rfl rfl id id
            · exact h0.calm (calm_writeTrailers _ _) rfl rfl id id
            · exact h
            · exact DInv.fail h0.chan h0.first
          · exact h0
        · split
          · exact h.endBody
          · exact h

theorem DInv.complete {d : Disp} (h : DInv d) : DInv d.complete := by
  unfold Disp.complete
  split
  · exact DInv.fail h.chan h.first
  · exact .of_done rfl h.chan h.first

theorem DInv.finishTurn {d : Disp} (h : DInv d) (s : Bool) (f : FlushIn) : DInv (d.finishTurn s f) := by
  unfold Disp.finishTurn
  split
  · exact h
  · split
    · have h1 : DInv { d with conn := { d.conn with upgrade := false } } := h.calm (.of_eq rfl id rfl) rfl rfl id id
      exact h1.complete
    · split
      · have h1 : DInv { d with conn := (d.conn.pollShutdown f).2 } := h.calm (calm_pollShutdown _ f) rfl rfl id id
        simp only
        split
        · exact h1
        · split
          · exact h1.complete
          · exact DInv.fail h1.chan h1.first
      · exact h.complete

theorem DInv.disable {d : Disp} (h : DInv d) (b : Bool) (hd : d.done = false) : DInv (d.disableKeepAlive b) := by
  have h1 : DInv { d with conn := d.conn.disableKeepAlive } := h.calm (calm_disableKeepAlive _ (h.awake hd)) rfl rfl id id
  unfold Disp.disableKeepAlive
  simp only
  split
  · exact h1.close
  · exact h1

/-- Looking at another channel. -/
theorem getElem?_upd (cs : List Chan) (k j : Nat) (f : Chan → Chan) (ch : Chan) (h : (updChan cs k f)[j]? = some ch) :
    ∃ c0, cs[j]? = some c0 ∧ ch = if k = j then f c0 else c0 := by
  rw [updChan, List.getElem?_modify] at h
  cases hx : cs[j]? with
  | none => simp [hx] at h
  | some c0 =>
    refine ⟨c0, rfl, ?_⟩
    rw [hx] at h
    by_cases hkj : k = j
    · simp [hkj] at h; simp [hkj, h]
    · simp [hkj] at h; simp [hkj, h]

theorem DInv.want {d : Disp} (h : DInv d) (k : Nat) : DInv (d.want k) := by
  unfold Disp.want
  split
  · rename_i ch0 hch0
    split
    · rename_i hw0
      refine ⟨?_, ?_, h.awake, ?_, ?_⟩
      · refine h.chan.map k _ (fun ch hch ho => ⟨⟨ho.clean, fun hs => ?_, ho.shape⟩, rfl⟩)
        rcases ho.ended hs with h' | h' | h'
        · exact .inl h'
        · rw [hch0] at hch; simp at hch; subst hch; rw [hw0] at h'; simp at h'
        · exact .inr (.inr h')
      · intro hd j ch hj hch
        obtain ⟨c0, hc0, rfl⟩ := getElem?_upd _ _ _ _ _ hch
        have := h.live hd j c0 hj hc0
        split <;> exact this
      · intro hd dec hx
        obtain ⟨j, ch, a, p, mid, g1, g2, g3, g4, g5⟩ := h.asked hd dec hx
        refine ⟨j, if k = j then { ch with want := .ready } else ch, a, p, mid ++ [.wanted ch0.id], g1, ?_, ?_, ?_, ?_⟩
        · simp only [updChan, List.getElem?_modify, g2]
          by_cases hkj : k = j <;> simp [hkj]
        · simp only [g3]
          by_cases hkj : k = j <;> simp [hkj]
        · intro e he
          rcases List.mem_append.1 he with he | he
          · exact g4 e he
          · simp at he; subst he; exact ⟨by simp, by simp⟩
        · intro hw
          by_cases hkj : k = j
          · subst hkj
            rw [g2] at hch0; simp at hch0; subst hch0
            simp
          · simp [hkj] at hw ⊢
            exact .inl (g5 hw)
      · exact asked_append h.first (by simp)
    · exact h
  · exact h

theorem DInv.loseReader {d : Disp} (h : DInv d) (k : Nat) : DInv (d.loseReader k) := by
  refine ⟨loseReader_chan h.chan k, ?_, h.awake, ?_, h.first⟩
  · intro hd j ch hj hch
    obtain ⟨c0, hc0, rfl⟩ := getElem?_upd _ _ _ _ _ hch
    have := h.live hd j c0 hj hc0
    split <;> exact this
  · intro hd dec hx
    obtain ⟨j, ch, a, p, mid, g1, g2, g3, g4, g5⟩ := h.asked hd dec hx
    refine ⟨j, if k = j then { ch with want := .closed } else ch, a, p, mid, g1, ?_, ?_, g4, ?_⟩
    · simp only [Disp.loseReader, updChan, List.getElem?_modify, g2]
      by_cases hkj : k = j <;> simp [hkj]
    · simp only [Disp.loseReader, g3]
      by_cases hkj : k = j <;> simp [hkj]
    · intro hw
      by_cases hkj : k = j
      · simp [hkj] at hw
      · simp [hkj] at hw ⊢; exact g5 hw

theorem DInv.step {d : Disp} (h : DInv d) (env : EncodeEnv) (P : TrailerParser) (a : Act) : DInv (d.step env P a) := by
  unfold Disp.step
  cases hd : d.done with
  | true =>
    cases a with
    | want k => exact h.want k
    | dropReader k => exact h.loseReader k
    | drop => exact DInv.drop h.chan h.first
    | _ => exact h
  | false =>
    cases a with
    | read i => exact h.readTurn env P i hd
    | write i => exact h.writeTurn env i
    | flush f i => exact h.flushTurn f i
    | readAgain =>
      simp only [Bool.false_eq_true, if_false]
      exact h.calm (.of_eq rfl id rfl) rfl rfl id (by simp [hd])
    | finish s f => exact h.finishTurn s f
    | disable b => exact h.disable b hd
    | want k => exact h.want k
    | dropReader k => exact h.loseReader k
    | drop => exact DInv.drop h.chan h.first

theorem DInv.run {d : Disp} (h : DInv d) (env : EncodeEnv) (P : TrailerParser) (as : List Act) : DInv (d.run env P as) := by
  induction as generalizing d with
  | nil => exact h
  | cons a as ih => exact ih (h.step env P a)

theorem DInv.start {d : Disp} (h : d.Start) : DInv d := by
  refine ⟨⟨by simp [h.chans], by simp [h.bodyTx]⟩, by simp [h.bodyTx], by simp [h.ka], by simp [h.reading], ?_⟩
  rw [h.log]; exact each_nil _

end Hyper
