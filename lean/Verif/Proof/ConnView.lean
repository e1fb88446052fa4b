import Verif.Model.Dispatch

/-!
# The connection's life as a sequence of small moves

`Disp.view` keeps what decides which heads may be read and written.  Every act of `Disp.step` is a sequence of moves of `Prim`
(`step_steps`), so that a statement about all runs needs to be checked for the moves only.
-/

namespace Hyper

/-- `Reading` without its decoder. -/
inductive RTag where
  | init | cont | body | keepAlive | closed
  deriving DecidableEq, Repr

/-- `Writing` without its encoder, but for whether the message is the last one. -/
inductive WTag where
  | init | body (last : Bool) | keepAlive | closed
  deriving DecidableEq, Repr

def Reading.tag : Reading → RTag
  | .init => .init
  | .cont _ => .cont
  | .body _ => .body
  | .keepAlive => .keepAlive
  | .closed => .closed

def Writing.tag : Writing → WTag
  | .init => .init
  | .body e => .body e.isLast
  | .keepAlive => .keepAlive
  | .closed => .closed

structure View where
  client : Bool
  rd : RTag
  wr : WTag
  ka : KA
  log : List Ev
  flight : Option Nat
  next : Nat

/-- The view of a connection with what its dispatcher adds. -/
def Conn.view (c : Conn) (f : Option Nat) (n : Nat) : View := ⟨c.client, c.reading.tag, c.writing.tag, c.ka, c.log, f, n⟩

/-- The view of a dispatcher; one that is done counts as closed. -/
def Disp.view (d : Disp) : View :=
  if d.done then ⟨d.conn.client, .closed, .closed, .disabled, d.conn.log, none, d.next⟩ else d.conn.view d.inFlight d.next

/-- The moves. -/
inductive Prim : View → View → Prop where
  | closeRead (v : View) : Prim v { v with rd := .closed, ka := .disabled }
  | closeWrite (v : View) (h : v.rd = .closed) : Prim v { v with wr := .closed, ka := .disabled }
  | readFail (v : View) (h : v.rd = .body) : Prim v { v with rd := .closed }
  | writeFail (v : View) (l : Bool) (h : v.wr = .body l) : Prim v { v with wr := .closed }
  | idle (v : View) (hr : v.rd = .keepAlive) (hw : v.wr = .keepAlive) (hk : v.ka = .busy) :
      Prim v { v with rd := .init, wr := .init, ka := .idle }
  | skip (v : View) (h : v.rd = .cont) : Prim v { v with rd := .body }
  | continue100 (v : View) (h : v.rd = .cont) (hw : v.wr = .init) : Prim v { v with rd := .body, log := v.log ++ [.continue100] }
  | readEnd (v : View) (h : v.rd = .body) : Prim v { v with rd := .keepAlive, log := v.log ++ [.readEnd] }
  | writeEnd (v : View) (h : v.wr = .body false) : Prim v { v with wr := .keepAlive, log := v.log ++ [.writeEnd] }
  | headOut (v : View) (hs : v.client = false) (hw : v.wr = .init) (n : Nat) (hf : v.flight = some n) (last : Bool) (w : WTag) (k : KA)
      (hk : k = v.ka ∨ k = .disabled) (hw' : w = .closed ∨ ∃ l, w = .body l) (hl : last = true → k = .disabled ∨ w = .body true ∨ w = .closed)
      (hd : v.ka = .disabled → last = true) :
      Prim v { v with wr := w, ka := k, flight := none, log := v.log ++ [.writeHead n last] }
  | reqOut (v : View) (hs : v.client = true) (hw : v.wr = .init) (hr : v.rd ≠ .closed) (hf : v.flight = none) (last : Bool) (w : WTag) (k : KA)
      (hk : k = .disabled ∨ (v.ka ≠ .disabled ∧ k = .busy)) (hw' : w = .closed ∨ ∃ l, w = .body l)
      (hl : last = true → k = .disabled ∨ w = .body true ∨ w = .closed) (hd : v.ka = .disabled → last = true) :
      Prim v { v with wr := w, ka := k, flight := some v.next, next := v.next + 1, log := v.log ++ [.writeHead v.next last] }
  | headIn (v : View) (hs : v.client = false) (hr : v.rd = .init) (hf : v.flight = none) (e p : Bool) (k : KA)
      (hk : k = .disabled ∨ (p = true ∧ v.ka ≠ .disabled ∧ k = .busy)) :
      Prim v { v with rd := if e then .cont else .body, ka := k, flight := some v.next, next := v.next + 1, log := v.log ++ [.readHead v.next e p] }
  | respIn (v : View) (hs : v.client = true) (hr : v.rd = .init) (hw : v.wr ≠ .init) (n : Nat) (hf : v.flight = some n) (e p : Bool) (k : KA)
      (hk : k = .disabled ∨ (p = true ∧ v.ka ≠ .disabled ∧ k = .busy)) :
      Prim v { v with rd := if e then .cont else .body, ka := k, flight := none, log := v.log ++ [.readHead n e p] }
  | errorOut (v : View) (hs : v.client = false) (hr : v.rd = .init) (hw : v.wr = .init) (hf : v.flight = none) (w : WTag)
      (hw' : w = .closed ∨ ∃ l, w = .body l) :
      Prim v { v with rd := .closed, wr := w, ka := .disabled, log := v.log ++ [.errorHead] }
  | abandon (v : View) (hr : v.rd = .closed) (hw : v.wr = .closed) : Prim v { v with flight := none }
  | shutdown (v : View) (h : v.ka ≠ .idle) : Prim v { v with ka := .disabled, log := v.log ++ [.shutdown] }
  | shutdownIdle (v : View) (h : v.ka = .idle) : Prim v { v with rd := .closed, wr := .closed, ka := .disabled, log := v.log ++ [.shutdown] }
  | wanted (v : View) (k : Nat) : Prim v { v with log := v.log ++ [.wanted k] }

/-- Sequences of moves. -/
inductive Steps : View → View → Prop where
  | refl (v : View) : Steps v v
  | tail {v w x : View} : Steps v w → Prim w x → Steps v x

theorem Steps.single {v w : View} (h : Prim v w) : Steps v w := .tail (.refl v) h

theorem Steps.trans {v w x : View} (h : Steps v w) (h' : Steps w x) : Steps v x := by
  induction h' with
  | refl => exact h
  | tail _ p ih => exact .tail ih p

theorem Steps.of_eq {v w : View} (h : v = w) : Steps v w := h ▸ .refl v

/-- A statement kept by every move is kept by every sequence. -/
theorem Steps.keep {I : View → Prop} (hI : ∀ v w, I v → Prim v w → I w) {v w : View} (h : Steps v w) (hv : I v) : I w := by
  induction h with
  | refl => exact hv
  | tail _ p ih => exact hI _ _ ih p

section conn

variable (c : Conn) (f : Option Nat) (n : Nat)

theorem steps_closeRead : Steps (c.view f n) (c.closeRead.view f n) := .single (.closeRead _)

theorem steps_closeWrite (h : c.reading = .closed) : Steps (c.view f n) (c.closeWrite.view f n) :=
  .single (.closeWrite _ (by simp [Conn.view, h, Reading.tag]))

theorem steps_closeAll : Steps (c.view f n) (c.closeAll.view f n) :=
  .tail (.single (.closeRead (c.view f n))) (.closeWrite _ rfl)

theorem steps_stateKeepAlive : Steps (c.view f n) (c.stateKeepAlive.view f n) := by
  have hall := steps_closeAll c f n
  unfold Conn.stateKeepAlive
  cases hr : c.reading with
  | keepAlive =>
    cases hw : c.writing with
    | keepAlive =>
      simp only
      by_cases hk : c.ka = .busy
      · rw [if_pos hk]
        have := Prim.idle (c.view f n) (by simp [Conn.view, hr, Reading.tag]) (by simp [Conn.view, hw, Writing.tag]) hk
        exact .single this
      · rw [if_neg hk]; exact hall
    | closed => exact hall
    | init => exact .refl _
    | body e => exact .refl _
  | closed =>
    cases hw : c.writing with
    | keepAlive => exact hall
    | closed => exact .refl _
    | init => exact .refl _
    | body e => exact .refl _
  | init => exact .refl _
  | cont d => exact .refl _
  | body d => exact .refl _

theorem steps_notifyFrom (i : NotifyIn) : Steps (c.view f n) ((c.notifyFrom i).view f n) := by
  cases i with
  | blocked => exact .refl _
  | pending => exact .refl _
  | bytes => exact .refl _
  | eof => unfold Conn.notifyFrom; simp only; split; exact steps_closeAll c f n; exact steps_closeRead c f n
  | error => exact steps_closeAll c f n

theorem steps_maybeNotify (i : NotifyIn) : Steps (c.view f n) ((c.maybeNotify i).view f n) := by
  have h := steps_notifyFrom c f n i
  unfold Conn.maybeNotify
  cases c.reading <;> simp only <;> try exact .refl _
  cases c.writing <;> simp only <;> first | exact h | exact .refl _

theorem steps_tryKeepAlive (i : NotifyIn) : Steps (c.view f n) ((c.tryKeepAlive i).view f n) :=
  (steps_stateKeepAlive c f n).trans (steps_maybeNotify _ f n i)

theorem steps_put (bs : Bytes) : (c.put bs).view f n = c.view f n := by
  unfold Conn.put; repeat' split
  all_goals rfl

theorem put_writing (bs : Bytes) : (c.put bs).writing = c.writing ∧ (c.put bs).log = c.log ∧ (c.put bs).reading = c.reading ∧ (c.put bs).ka = c.ka ∧
    (c.put bs).client = c.client := by
  unfold Conn.put; repeat' split
  all_goals simp

/-- How writing goes on after a piece of body. -/
def Writing.Goes (l : Bool) (w : Writing) : Prop := w = .closed ∨ (l = false ∧ w = .keepAlive) ∨ ∃ e : Encoder, w = .body e ∧ e.isLast = l

theorem goes_afterBody {e : Encoder} (b : Bool) : Writing.Goes e.isLast (.afterBody (e.isLast || b)) := by
  cases h : e.isLast <;> cases b <;> simp [Writing.Goes, Writing.afterBody]

theorem encode_isLast (e : Encoder) (bs : Bytes) : (e.encode bs).2.isLast = e.isLast := by
  unfold Encoder.encode; cases e.kind <;> simp only <;> (try split) <;> rfl

theorem goes_writeBody (e : Encoder) (bs : Bytes) : Writing.Goes e.isLast ((Writing.body e).writeBody bs).2 := by
  unfold Writing.writeBody
  simp only
  split
  · exact .inr (.inr ⟨_, rfl, encode_isLast e bs⟩)
  · have := goes_afterBody (e := (e.encode bs).2) false
    rw [Bool.or_false, encode_isLast] at this
    rw [encode_isLast]; exact this

theorem encodeAndEnd_last (e : Encoder) (bs : Bytes) : (e.encodeAndEnd bs).2 = true → e.isLast = false := by
  unfold Encoder.encodeAndEnd
  cases e.kind <;> simp only
  · simp
  · (repeat' split) <;> simp
  · simp

theorem goes_writeBodyAndEnd (e : Encoder) (bs : Bytes) : Writing.Goes e.isLast ((Writing.body e).writeBodyAndEnd bs).2 := by
  unfold Writing.writeBodyAndEnd
  simp only
  by_cases h : (e.encodeAndEnd bs).2 = true
  · rw [if_pos h]; exact .inr (.inl ⟨encodeAndEnd_last e bs h, rfl⟩)
  · rw [if_neg h]; exact .inl rfl

theorem goes_writeTrailers (e : Encoder) (a t : Bool) (m : HeaderMap) : Writing.Goes e.isLast ((Writing.body e).writeTrailers a t m).2 := by
  unfold Writing.writeTrailers
  simp only
  split
  · exact .inr (.inr ⟨e, rfl, rfl⟩)
  · split
    · exact goes_afterBody _
    · exact .inr (.inr ⟨e, rfl, rfl⟩)

theorem goes_endBody (e : Encoder) : Writing.Goes e.isLast (Writing.body e).endBody.2.1 := by
  unfold Writing.endBody
  simp only
  split
  · exact goes_afterBody _
  · exact .inl rfl

theorem steps_setWriting (e : Encoder) (he : c.writing = .body e) (w : Writing) (hw : Writing.Goes e.isLast w) :
    Steps (c.view f n) ((c.setWriting w).view f n) := by
  have ht : (c.view f n).wr = .body e.isLast := by simp [Conn.view, he, Writing.tag]
  rcases hw with rfl | ⟨hl, rfl⟩ | ⟨e', rfl, hl⟩
  · exact .single (.writeFail _ _ ht)
  · rw [hl] at ht; exact .single (.writeEnd _ ht)
  · refine .of_eq ?_
    simp only [Conn.view, Conn.setWriting, he, Writing.tag, hl]
    rfl

theorem steps_putSet (e : Encoder) (he : c.writing = .body e) (bs : Bytes) (w : Writing) (hw : Writing.Goes e.isLast w) :
    Steps (c.view f n) (((c.put bs).setWriting w).view f n) := by
  have := steps_setWriting (c.put bs) f n e (by rw [(put_writing c bs).1, he]) w hw
  rwa [steps_put] at this

theorem steps_writeBody (bs : Bytes) (h : c.canWriteBody = true) : Steps (c.view f n) ((c.writeBody bs).view f n) := by
  unfold Conn.canWriteBody at h
  cases hw : c.writing with
  | body e => unfold Conn.writeBody; rw [hw]; exact steps_putSet c f n e hw _ _ (goes_writeBody e bs)
  | init => rw [hw] at h; cases h
  | keepAlive => rw [hw] at h; cases h
  | closed => rw [hw] at h; cases h

theorem steps_writeBodyAndEnd (bs : Bytes) (h : c.canWriteBody = true) : Steps (c.view f n) ((c.writeBodyAndEnd bs).view f n) := by
  unfold Conn.canWriteBody at h
  cases hw : c.writing with
  | body e => unfold Conn.writeBodyAndEnd; rw [hw]; exact steps_putSet c f n e hw _ _ (goes_writeBodyAndEnd e bs)
  | init => rw [hw] at h; cases h
  | keepAlive => rw [hw] at h; cases h
  | closed => rw [hw] at h; cases h

theorem steps_writeTrailers (m : HeaderMap) (h : c.canWriteBody = true) : Steps (c.view f n) ((c.writeTrailers m).view f n) := by
  unfold Conn.canWriteBody at h
  cases hw : c.writing with
  | body e => unfold Conn.writeTrailers; rw [hw]; exact steps_putSet c f n e hw _ _ (goes_writeTrailers e _ _ m)
  | init => rw [hw] at h; cases h
  | keepAlive => rw [hw] at h; cases h
  | closed => rw [hw] at h; cases h

theorem steps_endBody (h : c.canWriteBody = true) : Steps (c.view f n) (c.endBody.2.view f n) := by
  unfold Conn.canWriteBody at h
  cases hw : c.writing with
  | body e => unfold Conn.endBody; rw [hw]; exact steps_putSet c f n e hw _ _ (goes_endBody e)
  | init => rw [hw] at h; cases h
  | keepAlive => rw [hw] at h; cases h
  | closed => rw [hw] at h; cases h

theorem steps_readDone (d : Decoder) (h : c.reading = .body d) : Steps (c.view f n) (c.readDone.view f n) :=
  .single (.readEnd _ (by simp [Conn.view, h, Reading.tag]))

theorem steps_readFail (d : Decoder) (h : c.reading = .body d) : Steps (c.view f n) (Conn.view { c with reading := .closed } f n) :=
  .single (.readFail _ (by simp [Conn.view, h, Reading.tag]))

theorem steps_decodeBody (P : TrailerParser) (d d' : Decoder) (r : Rd) (i : NotifyIn) (h : c.reading = .body d') :
    Steps (c.view f n) ((c.decodeBody P d r i).2.view f n) := by
  have hE := (steps_readDone c f n d' h).trans (steps_tryKeepAlive _ f n i)
  have hF := (steps_readFail c f n d' h).trans (steps_tryKeepAlive _ f n i)
  have hM : ∀ e, Conn.view { c with reading := .body e } f n = c.view f n := by
    intro e; simp [Conn.view, h, Reading.tag]
  unfold Conn.decodeBody
  split
  · rw [hM]; exact .refl _
  · exact hF
  · exact hE
  · split
    · exact hE
    · split
      · exact hF
      · rw [hM]; exact .refl _

/-- `decodeBody` overwrites the read state. -/
theorem decodeBody_reading (P : TrailerParser) (d : Decoder) (r : Rd) (i : NotifyIn) (x : Reading) :
    (c.decodeBody P d r i) = ({ c with reading := x } : Conn).decodeBody P d r i := by
  unfold Conn.decodeBody Conn.readDone; rfl

theorem steps_sendContinue (d : Decoder) (h : c.reading = .cont d) :
    Steps (c.view f n) (({ c.sendContinue with reading := .body d } : Conn).view f n) := by
  have ht : (c.view f n).rd = .cont := by simp [Conn.view, h, Reading.tag]
  unfold Conn.sendContinue
  by_cases hw : c.writing = .init
  · rw [if_pos hw]
    exact .single (.continue100 _ ht (by simp [Conn.view, hw, Writing.tag]))
  · rw [if_neg hw]; exact .single (.skip _ ht)

theorem steps_pollReadBody (P : TrailerParser) (r : Rd) (i : NotifyIn) : Steps (c.view f n) ((c.pollReadBody P r i).2.view f n) := by
  unfold Conn.pollReadBody
  cases hr : c.reading with
  | body d => exact steps_decodeBody c f n P d d r i hr
  | cont d =>
    simp only
    rw [decodeBody_reading c.sendContinue P d r i (.body d)]
    exact (steps_sendContinue c f n d hr).trans (steps_decodeBody _ f n P d d r i rfl)
  | init => exact .refl _
  | keepAlive => exact .refl _
  | closed => exact .refl _

theorem steps_drainOrClose (P : TrailerParser) (r : Rd) (i : NotifyIn) : Steps (c.view f n) ((c.drainOrClose P r i).view f n) := by
  have h1 : Steps (c.view f n) (c.drainStart.view f n) := by
    unfold Conn.drainStart
    cases hr : c.reading with
    | cont d => exact .single (.skip _ (by simp [Conn.view, hr, Reading.tag]))
    | _ => exact .refl _
  have h2 := steps_pollReadBody c.drainStart f n P r i
  have h3 : ∀ c' : Conn, Steps (c'.view f n) (c'.drainEnd.view f n) := by
    intro c'
    unfold Conn.drainEnd
    cases c'.reading <;> first | exact .refl _ | exact steps_closeRead c' f n
  exact (h1.trans h2).trans (h3 _)

theorem steps_pollReadKeepAlive (b : Bool) (i : IoIn) : Steps (c.view f n) ((c.pollReadKeepAlive b i).2.view f n) := by
  have hA := steps_closeAll c f n
  have hR := steps_closeRead c f n
  unfold Conn.pollReadKeepAlive Conn.requireEmpty Conn.midMessageEof
  cases i <;> (repeat' split) <;> first | exact .refl _ | exact hA | exact hR

theorem steps_pollFlush (fl : FlushIn) (i : NotifyIn) : Steps (c.view f n) ((c.pollFlush fl i).2.view f n) := by
  unfold Conn.pollFlush
  simp only
  split
  · exact steps_tryKeepAlive { c with out := ((c.scripted fl).pollFlush bytesBuf fl.readBuf).2 } f n i
  · exact .refl _

theorem steps_disableKeepAlive : Steps (c.view f n) (c.disableKeepAlive.view f n) := by
  unfold Conn.disableKeepAlive
  simp only
  by_cases h : c.ka = .idle
  · rw [if_pos h]; exact .single (.shutdownIdle _ h)
  · rw [if_neg h]; exact .single (.shutdown _ h)

theorem fixKeepAlive_ka (ka : KA) (v : Version) (h : HeaderMap) : (fixKeepAlive ka v h).1 = ka ∨ (fixKeepAlive ka v h).1 = .disabled := by
  unfold fixKeepAlive; simp only; (repeat' split) <;> simp

theorem enforceVersion_ka (p : Version) (ka : KA) (v : Version) (h : HeaderMap) :
    (enforceVersion p ka v h).1 = ka ∨ (enforceVersion p ka v h).1 = .disabled := by
  unfold enforceVersion
  cases p <;> first | exact .inl rfl | exact fixKeepAlive_ka ka v h | (simp only; split <;> exact .inl rfl)

theorem respMsg_ka (m : RespOut) : (c.respMsg m).1 = c.ka ∨ (c.respMsg m).1 = .disabled := by
  unfold Conn.respMsg connMsg; exact enforceVersion_ka _ _ _ _

theorem connReq_ka (h : ReqHead) :
    (connReq c.version c.ka h).1 = .disabled ∨ (c.ka ≠ .disabled ∧ (connReq c.version c.ka h).1 = .busy) := by
  unfold connReq
  simp only
  by_cases hd : c.ka = .disabled
  · left
    rw [if_pos hd]
    rcases enforceVersion_ka c.version (if connectionAnyClose h.headers then KA.disabled else .disabled) h.version h.headers with h' | h'
    · rw [h']; split <;> rfl
    · exact h'
  · rw [if_neg hd]
    by_cases hc : connectionAnyClose h.headers = true
    · rw [if_pos hc]; left
      rcases enforceVersion_ka c.version .disabled h.version h.headers with h' | h' <;> exact h'
    · rw [if_neg hc]
      rcases enforceVersion_ka c.version .busy h.version h.headers with h' | h'
      · exact .inr ⟨hd, h'⟩
      · exact .inl h'

end conn

/-- What the write state is after a head: the message is over, or its body follows. -/
theorem ofHead_cases (r : EncodeRes) :
    (Writing.ofHead r = .closed) ∨ (∃ e, r = .ok e ∧ Writing.ofHead r = .body e) ∨ (∃ e, r = .ok e ∧ e.isLast = false ∧ Writing.ofHead r = .keepAlive) := by
  cases r with
  | ok e =>
    unfold Writing.ofHead Writing.afterBody
    simp only
    split
    · exact .inr (.inl ⟨e, rfl, rfl⟩)
    · split
      · exact .inl rfl
      · rename_i h; exact .inr (.inr ⟨e, rfl, by simpa using h, rfl⟩)
  | _ => exact .inl rfl

section heads

variable (env : EncodeEnv) (c : Conn) (n : Nat)

/-- Writing a response head: the view afterwards, for a head logged under `ev`. -/
theorem writeResp_view (m : RespOut) (ev : Bool → Ev) (f : Option Nat) :
    ∃ (k : KA) (w : WTag) (last : Bool), (k = c.ka ∨ k = .disabled) ∧ (w = .closed ∨ ∃ l, w = .body l) ∧
      (last = true → k = .disabled ∨ w = .body true ∨ w = .closed) ∧ (c.ka = .disabled → last = true) ∧
      Steps { c.view f n with wr := w, ka := k, log := c.log ++ [ev last] } ((c.writeResp env m ev).view f n) := by
  have hk := respMsg_ka c m
  have hoff : c.ka = .disabled → (c.respMsg m).1 = .disabled := fun h => by rcases hk with hk | hk <;> simp [hk, h]
  unfold Conn.writeResp
  simp only
  generalize hr : c.respEnc env m = r
  generalize hkk : (c.respMsg m).1 = k at *
  rcases ofHead_cases r.2 with h | ⟨e, he, h⟩ | ⟨e, he, hl, h⟩
  · rw [h]
    exact ⟨k, .closed, _, hk, .inl rfl, fun _ => .inr (.inr rfl), fun h => by simp [hoff h], .of_eq rfl⟩
  · rw [h]
    refine ⟨k, .body e.isLast, _, hk, .inr ⟨_, rfl⟩, ?_, fun h => by simp [hoff h], .of_eq rfl⟩
    intro hlast
    rw [he] at hlast
    simp only [EncodeRes.isLast, Bool.or_eq_true, beq_iff_eq] at hlast
    rcases hlast with hlast | hlast
    · rw [hlast]; exact .inr (.inl rfl)
    · exact .inl hlast
  · rw [h]
    refine ⟨k, .body false, r.2.isLast || k == .disabled, hk, .inr ⟨_, rfl⟩, ?_, fun h => by simp [hoff h], ?_⟩
    · intro hlast
      rw [he] at hlast
      simp only [EncodeRes.isLast, hl, Bool.false_or, beq_iff_eq] at hlast
      exact .inl hlast
    · exact .single (.writeEnd _ rfl)

theorem writeReq_view (h : ReqHead) (body : Option BodyLength) (j : Nat) (f : Option Nat) :
    ∃ (k : KA) (w : WTag) (last : Bool), (k = .disabled ∨ (c.ka ≠ .disabled ∧ k = .busy)) ∧ (w = .closed ∨ ∃ l, w = .body l) ∧
      (last = true → k = .disabled ∨ w = .body true ∨ w = .closed) ∧ (c.ka = .disabled → last = true) ∧
      Steps { c.view f n with wr := w, ka := k, log := c.log ++ [.writeHead j last] } ((c.writeReq h body j).view f n) := by
  have hk := connReq_ka c h
  have hoff : c.ka = .disabled → (connReq c.version c.ka h).1 = .disabled := fun h => by
    rcases hk with hk | ⟨hk, _⟩
    · exact hk
    · exact absurd h hk
  unfold Conn.writeReq
  simp only
  generalize hr : c.reqEnc h body = r
  generalize hkk : (connReq c.version c.ka h).1 = k at *
  rcases ofHead_cases r.2 with h | ⟨e, he, h⟩ | ⟨e, he, hl, h⟩
  · rw [h]
    exact ⟨k, .closed, _, hk, .inl rfl, fun _ => .inr (.inr rfl), fun h => by simp [hoff h], .of_eq rfl⟩
  · rw [h]
    refine ⟨k, .body e.isLast, _, hk, .inr ⟨_, rfl⟩, ?_, fun h => by simp [hoff h], .of_eq rfl⟩
    intro hlast
    rw [he] at hlast
    simp only [EncodeRes.isLast, Bool.or_eq_true, beq_iff_eq] at hlast
    rcases hlast with hlast | hlast
    · rw [hlast]; exact .inr (.inl rfl)
    · exact .inl hlast
  · rw [h]
    refine ⟨k, .body false, r.2.isLast || k == .disabled, hk, .inr ⟨_, rfl⟩, ?_, fun h => by simp [hoff h], ?_⟩
    · intro hlast
      rw [he] at hlast
      simp only [EncodeRes.isLast, hl, Bool.false_or, beq_iff_eq] at hlast
      exact .inl hlast
    · exact .single (.writeEnd _ rfl)

theorem startTimer_view (t : Nat) (f : Option Nat) : (c.startTimer t).view f n = c.view f n := by
  unfold Conn.startTimer; (repeat' split) <;> rfl

theorem startTimer_fields (t : Nat) : (c.startTimer t).client = c.client ∧ (c.startTimer t).reading = c.reading ∧
    (c.startTimer t).writing = c.writing ∧ (c.startTimer t).ka = c.ka ∧ (c.startTimer t).log = c.log := by
  unfold Conn.startTimer; (repeat' split) <;> simp

/-- Reading a head: the view after it. -/
theorem acceptHead_view (m : MsgIn) (j : Nat) (i : NotifyIn) (f : Option Nat) :
    ∃ (k : KA), (k = .disabled ∨ (m.keepAlive = true ∧ c.ka ≠ .disabled ∧ k = .busy)) ∧
      Steps { c.view f n with rd := if m.continues then .cont else .body, ka := k, log := c.log ++ [.readHead j m.continues m.keepAlive] }
        ((c.acceptHead m j i).view f n) := by
  refine ⟨if m.keepAlive then (if c.ka = .disabled then .disabled else .busy) else .disabled, ?_, ?_⟩
  · cases m.keepAlive
    · exact .inl rfl
    · by_cases h : c.ka = .disabled
      · left; simp [h]
      · right; simp [h]
  · have hv : ∀ r, Conn.view { c.headState m j with reading := r } f n =
        { c.view f n with rd := r.tag, ka := if m.keepAlive then (if c.ka = .disabled then .disabled else .busy) else .disabled,
                          log := c.log ++ [.readHead j m.continues m.keepAlive] } := fun _ => rfl
    have hE : ∀ d, Steps (Conn.view { c.headState m j with reading := .body d } f n) ((c.headState m j).readDone.view f n) :=
      fun d => steps_readDone { c.headState m j with reading := .body d } f n d rfl
    unfold Conn.acceptHead
    by_cases hz : m.decode = DecodedLength.ZERO
    · have hcont : m.continues = false := by simp [MsgIn.continues, hz]
      rw [if_pos hz]
      have h1 := hE (.length 0)
      rw [hv] at h1
      rw [hcont] at h1 ⊢
      cases c.client
      · exact h1
      · exact h1.trans (steps_tryKeepAlive _ f n i)
    · rw [if_neg hz]
      by_cases hcont : m.continues = true
      · rw [if_pos hcont, if_pos hcont, hv]; exact .refl _
      · rw [if_neg hcont, if_neg hcont, hv]; exact .refl _

end heads

section disp

theorem view_live {d : Disp} (h : d.done = false) : d.view = d.conn.view d.inFlight d.next := by simp [Disp.view, h]

/-- Being done counts as closed: nothing in flight. -/
theorem steps_done (c : Conn) (f : Option Nat) (n : Nat) {d : Disp} (hd : d.done = true) (hl : d.conn.log = c.log) (hc : d.conn.client = c.client)
    (hn : d.next = n) : Steps (c.view f n) d.view := by
  simp only [Disp.view, hd, if_true]
  refine (steps_closeAll c f n).trans (Steps.trans (.single (.abandon _ rfl rfl)) (.of_eq ?_))
  simp only [Conn.view, Conn.closeAll, hl, hc, hn]
  rfl

theorem failBody_fields (d : Disp) : d.failBody.conn = d.conn ∧ d.failBody.next = d.next ∧ d.failBody.inFlight = d.inFlight ∧ d.failBody.done = d.done ∧
    d.failBody.closing = d.closing := by
  unfold Disp.failBody; split <;> simp

theorem steps_fail (d : Disp) : Steps (d.conn.view d.inFlight d.next) d.fail.view :=
  steps_done _ _ _ rfl (by simp [Disp.fail, (failBody_fields d).1]) (by simp [Disp.fail, (failBody_fields d).1]) (by simp [Disp.fail, (failBody_fields d).2.1])

theorem steps_close (d : Disp) (h : d.done = false) : Steps (d.conn.view d.inFlight d.next) d.close.view := by
  rw [view_live (d := d.close) h]
  exact (steps_closeRead _ _ _).trans (steps_closeWrite _ _ _ rfl)

theorem newBody_fields (d : Disp) (m : MsgIn) : (d.newBody m).conn = d.conn ∧ (d.newBody m).next = d.next ∧ (d.newBody m).inFlight = d.inFlight ∧
    (d.newBody m).done = d.done := by
  unfold Disp.newBody; split <;> simp

theorem dropBody_fields (d : Disp) (k : Nat) : (d.dropBody k).conn = d.conn ∧ (d.dropBody k).next = d.next ∧ (d.dropBody k).inFlight = d.inFlight ∧
    (d.dropBody k).done = d.done := by simp [Disp.dropBody]

/-- The view after a head has been received. -/
theorem recvHead_view (d : Disp) (m : MsgIn) (hd : d.done = false) :
    (d.recvHead m).view = if d.conn.client then (match d.inFlight with | some _ => d.conn.view none d.next | none => (d.recvHead m).view)
      else d.conn.view (some d.next) (d.next + 1) := by
  have h := newBody_fields d m
  unfold Disp.recvHead
  simp only [h.1, h.2.1, h.2.2.1]
  cases hc : d.conn.client
  · simp only [Bool.false_eq_true, if_false]
    rw [view_live (by simp [h.2.2.2, hd])]
    simp [Conn.view, hc]
  · simp only [if_true]
    cases hf : d.inFlight with
    | none => rfl
    | some j =>
      simp only
      rw [view_live (by simp [h.2.2.2, hd])]
      simp [Conn.view, h.2.1, hc]

theorem recvErr_steps (d : Disp) (hd : d.done = false) : Steps (d.conn.view d.inFlight d.next) d.recvErr.view := by
  unfold Disp.recvErr
  split
  · split
    · rename_i j hf
      rw [view_live (d := Disp.close { d with inFlight := none }) hd]
      refine ((steps_closeRead d.conn d.inFlight d.next).trans (steps_closeWrite _ _ _ rfl)).trans ?_
      exact .single (.abandon _ rfl rfl)
    · exact steps_fail d
  · exact steps_fail d

/-- The parse-error path (server) and the end of the connection. -/
theorem onReadHeadError_steps (env : EncodeEnv) (c : Conn) (e : Option ParseErr) (rest h2 : Bool) (f : Option Nat) (n : Nat)
    (hr : c.reading = .init) (hf : c.client = false → f = none) : Steps (c.view f n) ((c.onReadHeadError env e rest h2).2.view f n) := by
  have hcr := steps_closeRead c f n
  unfold Conn.onReadHeadError
  split
  · unfold Conn.onParseError
    split
    · rename_i hw
      split
      · exact hcr
      · split
        · rename_i status hs
          have hc : c.client = false := by
            cases hcc : c.client with
            | false => rfl
            | true =>
              have : c.closeRead.onError e = none := by simp [Conn.onError, Conn.closeRead, hcc]
              rw [this] at hs; cases hs
          obtain ⟨k, w, last, hk, hw', _, _, hst⟩ := writeResp_view env c.closeRead n (Conn.errorResp status) (fun _ => .errorHead) f
          have hkd : k = .disabled := by rcases hk with h | h <;> exact h
          subst hkd
          have hp : Prim (c.view f n) { c.view f n with rd := .closed, wr := w, ka := .disabled, log := (c.view f n).log ++ [.errorHead] } :=
            .errorOut _ (by simpa [Conn.view] using hc) (by simp [Conn.view, hr, Reading.tag])
              (by have : c.writing = .init := by simpa [Conn.closeRead] using hw
                  simp [Conn.view, this, Writing.tag]) (by simpa [Conn.view] using hf hc) w hw'
          exact (Steps.single hp).trans hst
        · exact hcr
    · exact hcr
  · exact hcr.trans (steps_closeWrite _ _ _ rfl)

/-- What follows reading a head, unless one was read. -/
theorem afterHead_steps (d : Disp) (o : HeadOut) (hd : d.done = false) (ho : ∀ m, o ≠ .msg m) :
    Steps (d.conn.view d.inFlight d.next) (d.afterHead o).view := by
  unfold Disp.afterHead
  cases o with
  | pending => exact .of_eq (view_live hd).symm
  | eof => simp only; split; exact steps_close d hd; exact .of_eq (view_live hd).symm
  | err => exact recvErr_steps d hd
  | timeout => exact recvErr_steps d hd
  | msg m => exact absurd rfl (ho m)

theorem onReadHeadError_out (env : EncodeEnv) (c : Conn) (e : Option ParseErr) (rest h2 : Bool) (m : MsgIn) :
    (c.onReadHeadError env e rest h2).1 ≠ .msg m := by
  unfold Conn.onReadHeadError Conn.onParseError
  (repeat' split) <;> simp

theorem readHeadReady_steps (env : EncodeEnv) (d : Disp) (i : ReadIn) (hd : d.done = false) (hr : d.conn.canReadHead = true)
    (hf : if d.conn.client then ∃ j, d.inFlight = some j else d.inFlight = none) : Steps d.view (d.readHeadReady env i).view := by
  have hrd : d.conn.reading = .init := by
    simp only [Conn.canReadHead, Bool.and_eq_true, beq_iff_eq] at hr; exact hr.1
  have hwr : d.conn.client = true → d.conn.writing ≠ .init := by
    intro hc
    simp only [Conn.canReadHead, Bool.and_eq_true, hc, Bool.not_true, Bool.false_or, bne_iff_ne] at hr
    exact hr.2
  have ht := startTimer_fields d.conn i.t0
  rw [view_live hd]
  unfold Disp.readHeadReady
  cases hp : i.parse with
  | pending =>
    simp only [Conn.pollReadHead]
    split
    · refine Steps.trans (.of_eq ?_) (afterHead_steps { d with conn := { d.conn.startTimer i.t0 with timing := false } } .timeout hd (by simp))
      simp only [Conn.view, ht.1, ht.2.1, ht.2.2.1, ht.2.2.2.1, ht.2.2.2.2]
    · refine Steps.trans (.of_eq ?_) (afterHead_steps { d with conn := d.conn.startTimer i.t0 } .pending hd (by simp))
      exact (startTimer_view d.conn _ i.t0 _).symm
  | error e rest h2 =>
    simp only [Conn.pollReadHead]
    have h1 := onReadHeadError_steps env (d.conn.startTimer i.t0) e rest h2 d.inFlight d.next (by rw [ht.2.1, hrd])
      (by intro hc; rw [ht.1] at hc; rw [hc] at hf; simpa using hf)
    rw [startTimer_view] at h1
    exact h1.trans (afterHead_steps { d with conn := ((d.conn.startTimer i.t0).onReadHeadError env e rest h2).2 } _ hd (onReadHeadError_out env _ e rest h2))
  | msg m =>
    simp only [Conn.pollReadHead, Disp.afterHead]
    have hid : d.headId = if d.conn.client then d.inFlight.getD d.next else d.next := rfl
    cases hc : d.conn.client with
    | false =>
      rw [hc] at hf
      simp only [Bool.false_eq_true, if_false] at hf
      rw [recvHead_view { d with conn := (d.conn.startTimer i.t0).acceptHead m d.headId i.notify } m hd]
      obtain ⟨k, hk, hst⟩ := acceptHead_view (d.conn.startTimer i.t0) (d.next + 1) m d.headId i.notify (some d.next)
      have hcl : ((d.conn.startTimer i.t0).acceptHead m d.headId i.notify).client = false := by
        have : ∀ v w : View, Steps v w → v.client = w.client := by
          intro v w h
          induction h with
          | refl => rfl
          | tail _ p ih => rw [ih]; cases p <;> rfl
        have := this _ _ hst
        simpa [Conn.view, ht.1, hc] using this.symm
      simp only [hcl, Bool.false_eq_true, if_false]
      rw [ht.2.2.2.1] at hk
      have hp' := Prim.headIn (d.conn.view d.inFlight d.next) (by simpa [Conn.view] using hc) (by simp [Conn.view, hrd, Reading.tag])
        (by simpa [Conn.view] using hf) m.continues m.keepAlive k hk
      refine (Steps.single hp').trans (Steps.trans (.of_eq ?_) hst)
      rw [hid, hc]
      simp only [Conn.view, ht.1, ht.2.2.1, ht.2.2.2.2, Bool.false_eq_true, if_false]
    | true =>
      rw [hc] at hf
      simp only [if_true] at hf
      obtain ⟨j, hj⟩ := hf
      rw [recvHead_view { d with conn := (d.conn.startTimer i.t0).acceptHead m d.headId i.notify } m hd]
      obtain ⟨k, hk, hst⟩ := acceptHead_view (d.conn.startTimer i.t0) d.next m d.headId i.notify none
      have hcl : ((d.conn.startTimer i.t0).acceptHead m d.headId i.notify).client = true := by
        have : ∀ v w : View, Steps v w → v.client = w.client := by
          intro v w h
          induction h with
          | refl => rfl
          | tail _ p ih => rw [ih]; cases p <;> rfl
        have := this _ _ hst
        simpa [Conn.view, ht.1, hc] using this.symm
      simp only [hcl, if_true, hj]
      rw [ht.2.2.2.1] at hk
      have hw' : (d.conn.view d.inFlight d.next).wr ≠ .init := by
        have := hwr hc
        simp only [Conn.view]
        cases hwc : d.conn.writing with
        | init => exact absurd hwc this
        | _ => simp [Writing.tag]
      have hp' := Prim.respIn (d.conn.view d.inFlight d.next) (by simpa [Conn.view] using hc) (by simp [Conn.view, hrd, Reading.tag]) hw' j
        (by simpa [Conn.view] using hj) m.continues m.keepAlive k hk
      rw [hj] at hp'
      refine (Steps.single hp').trans (Steps.trans (.of_eq ?_) hst)
      rw [hid, hc, hj]
      simp only [Conn.view, ht.1, ht.2.2.1, ht.2.2.2.2, if_true, Option.getD_some]

theorem readHead_steps (env : EncodeEnv) (d : Disp) (i : ReadIn) (hd : d.done = false) (hr : d.conn.canReadHead = true) :
    Steps d.view (d.readHead env i).view := by
  have hcl := steps_close d hd
  rw [← view_live hd] at hcl
  unfold Disp.readHead
  cases hf : d.inFlight with
  | some j =>
    simp only
    split
    · rename_i hc
      split
      · exact readHeadReady_steps env d i hd hr (by rw [if_pos hc]; exact ⟨j, hf⟩)
      · exact hcl
    · exact .refl _
  | none =>
    simp only
    split
    · exact hcl
    · rename_i hc; exact readHeadReady_steps env d i hd hr (by rw [if_neg hc]; exact hf)

theorem deliver_steps (d : Disp) (k : Nat) (gone : Bool) (g : Chan → Chan) (hd : d.done = false) :
    Steps (d.conn.view d.inFlight d.next) (d.deliver k gone g).view := by
  unfold Disp.deliver
  split
  · simp only
    split
    · rw [view_live (by exact hd)]; exact steps_closeRead _ _ _
    · rw [view_live (by exact hd)]; exact .refl _
  · rw [view_live (by exact hd)]; exact .refl _

theorem markComplete_fields (d : Disp) (k : Nat) (b : Bool) : (d.markComplete k b).conn = d.conn ∧ (d.markComplete k b).next = d.next ∧
    (d.markComplete k b).inFlight = d.inFlight ∧ (d.markComplete k b).done = d.done := by
  unfold Disp.markComplete; split <;> simp

theorem maybeLose_fields (d : Disp) (k : Nat) (b : Bool) : (d.maybeLose k b).conn = d.conn ∧ (d.maybeLose k b).next = d.next ∧
    (d.maybeLose k b).inFlight = d.inFlight ∧ (d.maybeLose k b).done = d.done := by
  unfold Disp.maybeLose Disp.loseReader; split <;> simp

theorem afterPiece_steps (d : Disp) (k : Nat) (gone : Bool) (o : BodyRes) (hd : d.done = false) :
    Steps (d.conn.view d.inFlight d.next) (d.afterPiece k gone o).view := by
  unfold Disp.afterPiece
  have hm := markComplete_fields d k
  cases o with
  | pending => exact .of_eq (view_live hd).symm
  | data bs fin =>
    have := deliver_steps (d.markComplete k fin) k gone (fun ch => { ch with items := ch.items ++ [.data bs] }) (by rw [(hm fin).2.2.2, hd])
    rw [(hm fin).1, (hm fin).2.1, (hm fin).2.2.1] at this; exact this
  | trailers fs =>
    have := deliver_steps (d.markComplete k true) k gone (fun ch => { ch with trailers := some fs }) (by rw [(hm true).2.2.2, hd])
    rw [(hm true).1, (hm true).2.1, (hm true).2.2.1] at this; exact this
  | ended fin =>
    simp only
    rw [view_live (by simp [Disp.dropBody, (hm fin).2.2.2, hd])]
    simp only [Disp.dropBody, (hm fin).1, (hm fin).2.1, (hm fin).2.2.1]
    exact .refl _
  | err =>
    simp only
    rw [view_live (by exact hd)]; exact .refl _

theorem readBody_steps (P : TrailerParser) (d : Disp) (i : ReadIn) (k : Nat) (hd : d.done = false) : Steps d.view (d.readBody P i k).view := by
  rw [view_live hd]
  have hrefl : Steps (d.conn.view d.inFlight d.next) d.view := .of_eq (view_live hd).symm
  unfold Disp.readBody
  split
  · split
    · split
      · exact hrefl
      · unfold Disp.readPiece
        have hl := maybeLose_fields { d with conn := (d.conn.pollReadBody P i.rd i.notify).2 } k i.gone
        have := afterPiece_steps ({ d with conn := (d.conn.pollReadBody P i.rd i.notify).2 }.maybeLose k i.gone) k i.gone
          (d.conn.pollReadBody P i.rd i.notify).1 (by rw [hl.2.2.2, ← hd])
        rw [hl.1, hl.2.1, hl.2.2.1] at this
        exact (steps_pollReadBody d.conn _ _ P i.rd i.notify).trans this
    · exact hrefl
    · rw [view_live (by exact hd)]
      exact steps_drainOrClose d.conn _ _ P i.rd i.notify
  · rw [view_live (by exact hd)]
    exact .refl _

theorem readTurn_steps (env : EncodeEnv) (P : TrailerParser) (d : Disp) (i : ReadIn) (hd : d.done = false) : Steps d.view (d.readTurn env P i).view := by
  unfold Disp.readTurn
  split
  · exact .refl _
  · split
    · rename_i hr; exact readHead_steps env d i hd hr
    · split
      · exact readBody_steps P d i _ hd
      · rw [view_live hd]
        unfold Disp.readIdle
        simp only
        have h := steps_pollReadKeepAlive d.conn d.inFlight d.next i.bufEmpty i.io
        split
        · exact h.trans (steps_fail { d with conn := (d.conn.pollReadKeepAlive i.bufEmpty i.io).2 })
        · rw [view_live (by exact hd)]; exact h

theorem writeHead_steps (env : EncodeEnv) (d : Disp) (m : MsgOut) (hd : d.done = false) (hw : d.conn.canWriteHead = true) (hs : d.shouldPoll = true) :
    Steps d.view (d.writeHead env m).view := by
  have hwi : d.conn.writing = .init := by
    simp only [Conn.canWriteHead, Bool.and_eq_true, beq_iff_eq] at hw; exact hw.2.1
  have hrc : d.conn.client = true → d.conn.reading ≠ .closed := by
    intro hc
    simp only [Conn.canWriteHead, Bool.and_eq_true, hc, Bool.true_and, Bool.not_eq_true', beq_eq_false_iff_ne] at hw
    exact hw.1
  have hrefl : Steps (d.conn.view d.inFlight d.next) d.view := .of_eq (view_live hd).symm
  have hwv : (d.conn.view d.inFlight d.next).wr = .init := by simp [Conn.view, hwi, Writing.tag]
  rw [view_live hd]
  unfold Disp.writeHead
  cases m with
  | pending => exact hrefl
  | none => simp only; split; exact steps_close d hd; exact hrefl
  | err => simp only; split; exact hrefl; exact steps_fail d
  | resp m =>
    simp only
    cases hc : d.conn.client with
    | true => exact hrefl
    | false =>
      simp only [Bool.false_eq_true, if_false]
      have hj : ∃ j, d.inFlight = some j := by
        simp only [Disp.shouldPoll, hc, Bool.false_eq_true, if_false] at hs
        exact Option.isSome_iff_exists.1 hs
      obtain ⟨j, hj⟩ := hj
      rw [view_live (by exact hd), hj]
      obtain ⟨k, w, last, hk, hw', hl, hoff, hst⟩ := writeResp_view env d.conn d.next m (.writeHead j) none
      have hp := Prim.headOut (d.conn.view (some j) d.next) (by simpa [Conn.view] using hc) (by simpa [Conn.view, hj] using hwv) j rfl last w k hk hw' hl hoff
      exact (Steps.single hp).trans hst
  | req h body =>
    simp only
    cases hc : d.conn.client with
    | false => exact hrefl
    | true =>
      simp only [if_true]
      have hj : d.inFlight = none := by
        simp only [Disp.shouldPoll, hc, if_true] at hs
        simpa using hs
      rw [view_live (by exact hd)]
      obtain ⟨k, w, last, hk, hw', hl, hoff, hst⟩ := writeReq_view d.conn (d.next + 1) h body d.next (some d.next)
      have hrv : (d.conn.view d.inFlight d.next).rd ≠ .closed := by
        have := hrc hc
        simp only [Conn.view]
        cases hx : d.conn.reading with
        | closed => exact absurd hx this
        | _ => simp [Reading.tag]
      have hp := Prim.reqOut (d.conn.view d.inFlight d.next) (by simpa [Conn.view] using hc) hwv hrv (by simpa [Conn.view] using hj) last w k hk hw' hl hoff
      exact (Steps.single hp).trans hst

theorem flushTurn_steps (d : Disp) (f : FlushIn) (i : NotifyIn) (hd : d.done = false) : Steps d.view (d.flushTurn f i).view := by
  rw [view_live hd]
  have h := steps_pollFlush d.conn d.inFlight d.next f i
  unfold Disp.flushTurn
  simp only
  split
  · rw [view_live (by exact hd)]; exact h
  · exact h.trans (steps_fail { d with conn := (d.conn.pollFlush f i).2 })

theorem endBody_steps (d : Disp) (hd : d.done = false) (hw : d.conn.canWriteBody = true) : Steps (d.conn.view d.inFlight d.next) d.endBody.view := by
  have h := steps_endBody d.conn d.inFlight d.next hw
  unfold Disp.endBody
  simp only
  split
  · exact h.trans (steps_fail { d with conn := d.conn.endBody.2 })
  · rw [view_live (by exact hd)]; exact h

theorem writeFrame_steps (d : Disp) (f : FrameIn) (hd : d.done = false) (hw : d.conn.canWriteBody = true) : Steps d.view (d.writeFrame f).view := by
  have hrefl : Steps (d.conn.view d.inFlight d.next) d.view := .of_eq (view_live hd).symm
  have hE := endBody_steps { d with bodyRx := false } hd hw
  rw [view_live hd]
  unfold Disp.writeFrame
  split
  · exact hrefl
  · exact hE
  · split
    · exact hE
    · rw [view_live (by exact hd)]; exact steps_writeBodyAndEnd d.conn _ _ _ hw
  · split
    · exact hrefl
    · rw [view_live (by exact hd)]; exact steps_writeBody d.conn _ _ _ hw
  · rw [view_live (by exact hd)]; exact steps_writeTrailers d.conn _ _ _ hw
  · exact hrefl
  · exact steps_fail { d with bodyRx := false }

theorem writeTurn_steps (env : EncodeEnv) (d : Disp) (i : WriteIn) (hd : d.done = false) : Steps d.view (d.writeTurn env i).view := by
  unfold Disp.writeTurn
  split
  · exact .refl _
  · split
    · rename_i h
      simp only [Bool.and_eq_true, Bool.not_eq_true'] at h
      exact writeHead_steps env d i.msg hd h.1.2 h.2
    · split
      · exact flushTurn_steps d i.flush i.notify hd
      · split
        · split
          · rename_i h; exact writeFrame_steps d i.frame hd h
          · rw [view_live hd, view_live (by exact hd)]; exact .refl _
        · split
          · rename_i h; rw [view_live hd]; exact endBody_steps d hd h
          · exact .refl _

theorem complete_steps (d : Disp) (_hd : d.done = false) : Steps (d.conn.view d.inFlight d.next) d.complete.view := by
  unfold Disp.complete
  split
  · exact steps_fail { d with conn := { d.conn with error := false } }
  · exact steps_done _ _ _ rfl rfl rfl rfl

theorem finishTurn_steps (d : Disp) (s : Bool) (f : FlushIn) (hd : d.done = false) : Steps d.view (d.finishTurn s f).view := by
  unfold Disp.finishTurn
  split
  · exact .refl _
  · rw [view_live hd]
    split
    · exact complete_steps { d with conn := { d.conn with upgrade := false } } hd
    · split
      · simp only
        have h : Steps (d.conn.view d.inFlight d.next) ((d.conn.pollShutdown f).2.view d.inFlight d.next) := .of_eq rfl
        split
        · rw [view_live (by exact hd)]; exact h
        · split
          · exact h.trans (complete_steps { d with conn := (d.conn.pollShutdown f).2 } hd)
          · exact h.trans (steps_fail { d with conn := (d.conn.pollShutdown f).2 })
      · exact complete_steps d hd

theorem disable_steps (d : Disp) (b : Bool) (hd : d.done = false) : Steps d.view (d.disableKeepAlive b).view := by
  rw [view_live hd]
  have h := steps_disableKeepAlive d.conn d.inFlight d.next
  unfold Disp.disableKeepAlive
  simp only
  split
  · exact h.trans (steps_close { d with conn := d.conn.disableKeepAlive } hd)
  · rw [view_live (by exact hd)]; exact h

theorem want_steps (d : Disp) (k : Nat) : Steps d.view (d.want k).view := by
  unfold Disp.want
  split
  · rename_i ch _
    split
    · refine .tail (.refl _) ?_
      have := Prim.wanted d.view ch.id
      unfold Disp.view at *
      split
      · rename_i hd; rw [if_pos hd] at this; exact this
      · rename_i hd; rw [if_neg hd] at this; exact this
    · exact .refl _
  · exact .refl _

/-- Every act is a sequence of moves. -/
theorem step_steps (env : EncodeEnv) (P : TrailerParser) (d : Disp) (a : Act) : Steps d.view (d.step env P a).view := by
  unfold Disp.step
  cases hd : d.done with
  | true =>
    cases a <;> simp only [if_true] <;> first | exact .refl _ | exact want_steps d _ | skip
    · have := failBody_fields d
      refine .of_eq ?_; simp [Disp.view, hd, this.1, this.2.1]
  | false =>
    cases a with
    | read i => exact readTurn_steps env P d i hd
    | write i => exact writeTurn_steps env d i hd
    | flush f i => exact flushTurn_steps d f i hd
    | readAgain =>
      refine .of_eq ?_
      simp only [Bool.false_eq_true, if_false]
      simp only [Disp.view, hd, Bool.false_eq_true, if_false, Conn.view]
    | finish s f => exact finishTurn_steps d s f hd
    | disable b => exact disable_steps d b hd
    | want k => exact want_steps d k
    | dropReader k => simp only; rw [view_live hd, view_live (by exact hd)]; exact .refl _
    | drop =>
      simp only
      rw [view_live hd]
      exact steps_done _ _ _ rfl (by simp [(failBody_fields d).1]) (by simp [(failBody_fields d).1]) (by simp [(failBody_fields d).2.1])

theorem run_steps (env : EncodeEnv) (P : TrailerParser) (as : List Act) (d : Disp) : Steps d.view (d.run env P as).view := by
  induction as generalizing d with
  | nil => exact .refl _
  | cons a as ih => exact (step_steps env P d a).trans (ih _)

end disp

end Hyper
