import Verif.Model.Panics
import Verif.Proof.Backlog
import Verif.Proof.DispLen
import Verif.Props.Wire

/-! # No panic is reached -/

namespace Hyper

namespace Panics

open Wire

/-! ## The decoder -/

/-- The buffer of the trailers is there while they are read. -/
def TOk (c : Chunked) : Prop := c.state = .trailer ∨ c.state = .trailerLf → c.tbuf ≠ none

theorem readMem_error {r r' : Rd} {n : Nat} {e : DErr} (h : r.readMem n = (.ready (.error e), r')) : e = .io := by
  unfold Rd.readMem at h
  split at h
  · simp at h
  · unfold Rd.readIo at h
    split at h <;> rename_i hq <;> split at hq <;> (try split at hq) <;> simp_all

theorem putU8_ok (c : Chunked) (t : Bytes) (b : Byte) (s : CState) :
    (c.putU8 t b s).1 ≠ .error .panic ∧ ∀ s', (c.putU8 t b s).1 = .ok s' → TOk { (c.putU8 t b s).2 with state := s' } := by
  unfold Chunked.putU8
  simp only
  split <;> simp [TOk]

theorem pushDigit_ok (c : Chunked) (n : Nat) :
    (c.pushDigit n).1 ≠ .error .panic ∧ ∀ s', (c.pushDigit n).1 = .ok s' → s' = .size := by
  unfold Chunked.pushDigit
  split
  · simp
  · split <;> simp

theorem onByte_ok (c : Chunked) (b : Byte) (h : TOk c) (hs : c.state ≠ .body) :
    (c.onByte b).1 ≠ .error .panic ∧ ∀ s', (c.onByte b).1 = .ok s' → TOk { (c.onByte b).2 with state := s' } := by
  have dig : ∀ n, (c.pushDigit n).1 ≠ .error .panic ∧ ∀ s', (c.pushDigit n).1 = .ok s' → TOk { (c.pushDigit n).2 with state := s' } := by
    intro n
    refine ⟨(pushDigit_ok c n).1, fun s' hx => ?_⟩
    rw [(pushDigit_ok c n).2 s' hx]
    simp [TOk]
  have put := putU8_ok
  cases hst : c.state with
  | start => simp only [Chunked.onByte, hst, Chunked.readStart]; (repeat' split) <;> first | exact dig _ | simp [TOk]
  | size => simp only [Chunked.onByte, hst, Chunked.readSize]; (repeat' split) <;> first | exact dig _ | simp [TOk]
  | sizeLws => simp only [Chunked.onByte, hst, Chunked.readSizeLws]; (repeat' split) <;> simp [TOk]
  | extension => simp only [Chunked.onByte, hst, Chunked.readExtension]; (repeat' split) <;> simp [TOk]
  | sizeLf => simp only [Chunked.onByte, hst, Chunked.readSizeLf]; (repeat' split) <;> simp [TOk]
  | bodyCr => simp only [Chunked.onByte, hst, Chunked.readBodyCr]; (repeat' split) <;> simp [TOk]
  | bodyLf => simp only [Chunked.onByte, hst, Chunked.readBodyLf]; (repeat' split) <;> simp [TOk]
  | trailer =>
    simp only [Chunked.onByte, hst, Chunked.readTrailer]
    split
    · rename_i hn; exact absurd hn (h (.inl hst))
    · exact put _ _ _ _
  | trailerLf =>
    simp only [Chunked.onByte, hst, Chunked.readTrailerLf]
    (repeat' split) <;> first | (rename_i hn; exact absurd hn (h (.inr hst))) | exact put _ _ _ _ | simp [TOk]
  | endCr => simp only [Chunked.onByte, hst, Chunked.readEndCr]; (repeat' split) <;> first | exact put _ _ _ _ | simp [TOk]
  | endLf => simp only [Chunked.onByte, hst, Chunked.readEndLf]; (repeat' split) <;> first | exact put _ _ _ _ | simp [TOk]
  | body => exact absurd hst hs
  | finished => simp [Chunked.onByte, hst, TOk]

theorem step_ok (c : Chunked) (r : Rd) (h : TOk c) : (c.step r).res ≠ .ready (.error .panic) ∧ ((c.step r).res = .pending → TOk (c.step r).ch) ∧
    ∀ s', (c.step r).res = .ready (.ok s') → TOk { (c.step r).ch with state := s' } := by
  have byte : c.state ≠ .body → (c.readByte r).res ≠ .ready (.error .panic) ∧ ((c.readByte r).res = .pending → TOk (c.readByte r).ch) ∧
      ∀ s', (c.readByte r).res = .ready (.ok s') → TOk { (c.readByte r).ch with state := s' } := by
    intro hs
    unfold Chunked.readByte
    split
    · simp [h]
    · rename_i e _ he; rw [readMem_error he]; simp
    · simp
    · rename_i b _ _ _
      have := onByte_ok c b h hs
      exact ⟨by simpa using this.1, by simp, fun s' hx => this.2 s' (by simpa using hx)⟩
  unfold Chunked.step
  split
  · simp [TOk]
  · unfold Chunked.readBody
    split
    · simp [h]
    · rename_i e _ he; rw [readMem_error he]; simp
    · split
      · simp
      · refine ⟨by simp, by simp, fun s' hx => ?_⟩
        simp only [Poll.ready.injEq, Except.ok.injEq] at hx
        subst hx
        unfold TOk
        split <;> simp
  · rename_i h1 h2; exact byte h2

theorem loop_ok (P : TrailerParser) : ∀ (fuel : Nat) (c : Chunked) (r : Rd), TOk c → (c.decodeLoop P fuel r).1 ≠ .ready (.error .panic) ∧
    ((∀ e, (c.decodeLoop P fuel r).1 ≠ .ready (.error e)) → TOk (c.decodeLoop P fuel r).2.1) := by
  intro fuel
  induction fuel with
  | zero => intro c r h; exact ⟨by simp [Chunked.decodeLoop], fun _ => h⟩
  | succ fuel ih =>
    intro c r h
    have hs := step_ok c r h
    unfold Chunked.decodeLoop
    split
    · rename_i c' _ r' he; rw [he] at hs; exact ⟨by simp, fun _ => hs.2.1 rfl⟩
    · rename_i e c' _ r' he; rw [he] at hs; exact ⟨by simpa using hs.1, fun hx => absurd rfl (hx e)⟩
    · rename_i s c' buf r' he
      rw [he] at hs
      have hc := hs.2.2 s rfl
      simp only
      split
      · rename_i hf
        subst hf
        split
        · split
          · exact ⟨by simp, fun _ => by simp [TOk]⟩
          · exact ⟨by simp, fun hx => absurd rfl (hx _)⟩
        · exact ⟨by simp, fun _ => by simp [TOk]⟩
      · split
        · exact ⟨by simp, fun _ => hc⟩
        · exact ih _ _ hc

/-- A decoder that will not panic. -/
def DOk : Decoder → Prop
  | .chunked c => TOk c
  | _ => True

theorem decode_ok (P : TrailerParser) (d : Decoder) (r : Rd) (h : DOk d) : (d.decode P r).1 ≠ .ready (.error .panic) ∧
    ((∀ e, (d.decode P r).1 ≠ .ready (.error e)) → DOk (d.decode P r).2.1) := by
  cases d with
  | length n =>
    simp only [Decoder.decode]
    split
    · simp [DOk]
    · split
      · simp [DOk]
      · rename_i he; rw [readMem_error he]; simp [DOk]
      · split
        · simp [DOk]
        · split <;> simp [DOk]
  | chunked c => exact loop_ok P (r.size + 1) c r h
  | eof b =>
    simp only [Decoder.decode]
    split
    · simp [DOk]
    · split
      · simp [DOk]
      · rename_i he; rw [readMem_error he]; simp [DOk]
      · simp [DOk]

theorem ofLength_ok (n : DecodedLength) (a b : Option Nat) : DOk (Decoder.ofLength n a b) := by
  unfold Decoder.ofLength
  (repeat' split) <;> simp [DOk, TOk, Chunked.new]

/-! ## The decoder of a connection -/

def COk (c : Conn) : Prop := ∀ dec, c.Reads dec → DOk dec

theorem COk.calm {c c' : Conn} (h : COk c) (k : Calm c c') : COk c' := fun dec hd => h dec (k.reads dec hd)

theorem COk.closed {c : Conn} (h : c.canReadBody = false) : COk c := by
  intro dec hd
  rcases hd with hd | hd <;> simp [Conn.canReadBody, hd] at h

theorem COk.same {c c' : Conn} (h : COk c) (k : c'.reading = c.reading) : COk c' := by
  intro dec hd
  unfold Conn.Reads at hd
  rw [k] at hd
  exact h dec hd

theorem COk.closeRead (c : Conn) : COk c.closeRead := .closed rfl

theorem COk.decodeBody (P : TrailerParser) (c : Conn) (d : Decoder) (hd : DOk d) (r : Rd) (i : NotifyIn) : COk (c.decodeBody P d r i).2 := by
  have hk := (decode_ok P d r hd).2
  have body : ∀ e : Decoder, DOk e → COk { c with reading := .body e } := by
    intro e he dec hx
    rcases hx with hx | hx
    · simp only [Reading.body.injEq] at hx; subst hx; exact he
    · cases hx
  have shut : COk ({ c with reading := .closed }.tryKeepAlive i) := COk.calm (.closed rfl) (calm_tryKeepAlive _ i)
  have fin : COk (c.readDone.tryKeepAlive i) := COk.calm (.closed rfl) (calm_tryKeepAlive _ i)
  unfold Conn.decodeBody
  split
  · rename_i hq; exact body _ (hk (fun e he => by rw [hq] at he; cases he))
  · exact shut
  · exact fin
  · rename_i hq
    split
    · exact fin
    · split
      · exact shut
      · exact body _ (hk (fun e he => by rw [hq] at he; cases he))

theorem sendContinue_reading (c : Conn) : c.sendContinue.reading = c.reading := by
  unfold Conn.sendContinue
  split <;> rfl

theorem COk.pollReadBody {c : Conn} (h : COk c) (P : TrailerParser) (r : Rd) (i : NotifyIn) : COk (c.pollReadBody P r i).2 := by
  unfold Conn.pollReadBody
  split
  · rename_i d hd; exact .decodeBody P _ d (h d (.inl hd)) r i
  · rename_i d hd; exact .decodeBody P _ d (h d (.inr hd)) r i
  · exact h

theorem COk.drainStart {c : Conn} (h : COk c) : COk c.drainStart := by
  unfold Conn.drainStart
  split
  · rename_i d hd
    intro dec hx
    rcases hx with hx | hx
    · simp only [Reading.body.injEq] at hx; subst hx; exact h d (.inr hd)
    · cases hx
  · exact h

theorem COk.drain {c : Conn} (h : COk c) (P : TrailerParser) (r : Rd) (i : NotifyIn) : COk (c.drainOrClose P r i) := by
  unfold Conn.drainOrClose Conn.drainEnd
  split
  · exact h.drainStart.pollReadBody P r i
  · exact h.drainStart.pollReadBody P r i
  · exact .closeRead _

theorem COk.acceptHead (c : Conn) (m : MsgIn) (n : Nat) (i : NotifyIn) : COk (c.acceptHead m n i) := by
  unfold Conn.acceptHead
  split
  · split
    · exact COk.calm (.closed rfl) (calm_tryKeepAlive _ i)
    · exact .closed rfl
  · split
    · intro dec hx
      rcases hx with hx | hx
      · cases hx
      · simp only [Reading.cont.injEq] at hx; subst hx; exact ofLength_ok _ _ _
    · intro dec hx
      rcases hx with hx | hx
      · simp only [Reading.body.injEq] at hx; subst hx; exact ofLength_ok _ _ _
      · cases hx

theorem COk.pollReadHead {c : Conn} (h : COk c) (hr : c.reading = .init) (env : EncodeEnv) (t0 t1 : Nat) (p : ParseIn) (nt : NotifyIn) (n : Nat) :
    COk (c.pollReadHead env t0 t1 p nt n).2 := by
  have h1 : COk (c.startTimer t0) := h.calm (calm_startTimer _ _)
  have hr' : (c.startTimer t0).canReadBody = false := by
    simp [Conn.canReadBody, (startTimer_fields c t0).2.1, hr]
  unfold Conn.pollReadHead
  split
  · split
    · exact h1.same rfl
    · exact h1
  · exact h1.calm (calm_onReadHeadError _ env _ _ _ hr')
  · exact .acceptHead _ _ _ _

theorem COk.keepAlive {c : Conn} (h : COk c) (b : Bool) (i : IoIn) : COk (c.pollReadKeepAlive b i).2 := by
  unfold Conn.pollReadKeepAlive Conn.requireEmpty Conn.midMessageEof
  (repeat' split) <;> first | exact h | exact .closed rfl

/-- For the dispatcher. -/
abbrev TI (d : Disp) : Prop := COk d.conn

theorem fail_conn (d : Disp) : d.fail.conn = d.conn := by
  unfold Disp.fail Disp.failBody
  split <;> rfl

theorem TI.fail {d : Disp} (h : TI d) : TI d.fail := by
  show COk d.fail.conn
  rw [fail_conn]
  exact h

theorem TI.close (d : Disp) : TI d.close := .closed rfl

theorem TI.recvErr {d : Disp} (h : TI d) : TI d.recvErr := by
  unfold Disp.recvErr
  (repeat' split) <;> first | exact TI.close _ | exact h.fail

theorem TI.recvHead {d : Disp} (h : TI d) (m : MsgIn) : TI (d.recvHead m) := by
  have hn : (d.newBody m).conn = d.conn := by unfold Disp.newBody; split <;> rfl
  have h1 : TI { d.newBody m with conn := { (d.newBody m).conn with upgrade := (d.newBody m).conn.upgrade || m.wantsUpgrade } } := by
    show COk _
    exact COk.same (c := d.conn) h (by rw [hn])
  unfold Disp.recvHead
  simp only
  split
  · split
    · exact h1
    · exact h1.fail
  · exact h1

theorem TI.afterHead {d : Disp} (h : TI d) (o : HeadOut) : TI (d.afterHead o) := by
  unfold Disp.afterHead
  split
  · exact h
  · exact h.recvHead _
  · exact h.recvErr
  · exact h.recvErr
  · split
    · exact .close _
    · exact h

theorem TI.afterPiece {d : Disp} (h : TI d) (k : Nat) (gone : Bool) (o : BodyRes) : TI (d.afterPiece k gone o) := by
  have hm : ∀ fin, TI (d.markComplete k fin) := by
    intro fin; unfold Disp.markComplete; split <;> exact h
  have hd : ∀ fin f, TI ((d.markComplete k fin).deliver k gone f) := by
    intro fin f
    unfold Disp.deliver
    split
    · simp only
      split
      · exact .closed rfl
      · exact hm fin
    · exact hm fin
  unfold Disp.afterPiece
  split
  · exact h
  · exact hd _ _
  · exact hd _ _
  · exact hm _
  · exact h

theorem TI.readTurn {d : Disp} (h : TI d) (env : EncodeEnv) (P : TrailerParser) (i : ReadIn) : TI (d.readTurn env P i) := by
  unfold Disp.readTurn
  split
  · exact h
  · split
    · rename_i hr
      have hi : d.conn.reading = .init := by simp only [Conn.canReadHead, Bool.and_eq_true, beq_iff_eq] at hr; exact hr.1
      have h1 : TI (d.readHeadReady env i) := TI.afterHead (d := { d with conn := _ }) (h.pollReadHead hi env _ _ _ _ _) _
      unfold Disp.readHead
      (repeat' split) <;> first | exact h1 | exact TI.close _ | exact h
    · split
      · rename_i k _
        unfold Disp.readBody
        split
        · split
          · split
            · exact h
            · unfold Disp.readPiece
              refine TI.afterPiece ?_ _ _ _
              unfold Disp.maybeLose Disp.loseReader
              split <;> exact h.pollReadBody P _ _
          · exact h
          · exact h.drain P _ _
        · exact h
      · unfold Disp.readIdle
        simp only
        split
        · exact TI.fail (d := { d with conn := _ }) (h.keepAlive _ _)
        · exact h.keepAlive _ _

theorem TI.endBody {d : Disp} (h : TI d) : TI d.endBody := by
  have h1 : TI { d with conn := d.conn.endBody.2 } := h.calm (calm_endBody _)
  unfold Disp.endBody
  simp only
  split
  · exact h1.fail
  · exact h1

theorem TI.flushTurn {d : Disp} (h : TI d) (f : FlushIn) (i : NotifyIn) : TI (d.flushTurn f i) := by
  have h1 : TI { d with conn := (d.conn.pollFlush f i).2 } := h.calm (calm_pollFlush _ f i)
  unfold Disp.flushTurn
  simp only
  split
  · exact h1
  · exact h1.fail

theorem TI.writeTurn {d : Disp} (h : TI d) (env : EncodeEnv) (i : WriteIn) : TI (d.writeTurn env i) := by
  have h0 : TI { d with bodyRx := false } := h
  unfold Disp.writeTurn
  split
  · exact h
  · split
    · unfold Disp.writeHead
      split
      · exact h
      · split
        · exact .close _
        · exact h
      · split
        · exact h
        · exact h.fail
      · split
        · exact h
        · exact h.calm (calm_writeResp _ env _ _ (fun _ => ⟨by simp, by simp⟩))
      · split
        · exact h.calm (calm_writeReq _ _ _ _)
        · exact h
    · split
      · exact h.flushTurn _ _
      · split
        · split
          · unfold Disp.writeFrame
            split
            · exact h
            · exact h0.endBody
            · split
              · exact h0.endBody
              · exact h.calm (calm_writeBodyAndEnd _ _)
            · split
              · exact h
              · exact h.calm (calm_writeBody _ _)
            · exact h.calm (calm_writeTrailers _ _)
            · exact h
            · exact h0.fail
          · exact h0
        · split
          · exact h.endBody
          · exact h

theorem TI.complete {d : Disp} (h : TI d) : TI d.complete := by
  unfold Disp.complete
  split
  · exact TI.fail (d := { d with conn := _ }) (COk.same (c := d.conn) h rfl)
  · exact h

theorem TI.step {d : Disp} (h : TI d) (env : EncodeEnv) (P : TrailerParser) (a : Act) : TI (d.step env P a) := by
  have hf : d.failBody.conn = d.conn := by unfold Disp.failBody; split <;> rfl
  unfold Disp.step
  cases a with
  | read i => simp only; split; exact h; exact h.readTurn env P i
  | write i => simp only; split; exact h; exact h.writeTurn env i
  | flush f i => simp only; split; exact h; exact h.flushTurn f i
  | readAgain => simp only; split; exact h; exact COk.same (c := d.conn) h rfl
  | finish s f =>
    simp only
    split
    · exact h
    · unfold Disp.finishTurn
      split
      · exact h
      · split
        · exact TI.complete (d := { d with conn := _ }) (COk.same (c := d.conn) h rfl)
        · split
          · have h1 : TI { d with conn := (d.conn.pollShutdown f).2 } := h.calm (calm_pollShutdown _ f)
            simp only
            split
            · exact h1
            · split
              · exact h1.complete
              · exact h1.fail
          · exact h.complete
  | disable b =>
    simp only
    split
    · exact h
    · have h1 : COk d.conn.disableKeepAlive := by
        unfold Conn.disableKeepAlive
        simp only
        split
        · exact .closed rfl
        · exact COk.same (c := d.conn) h rfl
      unfold Disp.disableKeepAlive
      simp only
      split
      · exact .close _
      · exact h1
  | want k =>
    show COk (d.want k).conn
    unfold Disp.want
    (repeat' split) <;> first | exact h | exact COk.same (c := d.conn) h rfl
  | dropReader k => exact h
  | drop => show COk d.failBody.conn; rw [hf]; exact h

/-! ## The buffer -/

theorem bufOk_step (env : EncodeEnv) (P : TrailerParser) {d : Disp} (vi : Poll.VI d.view) (ok : BufOk d.conn) (a : Act) : BufOk (d.step env P a).conn := by
  cases Backlog.step_does env P d vi a with
  | quiet g => exact g.ok ok
  | head ev evs g hl ho hs => exact g.ok ok
  | piece g hb => exact g.ok ok

/-! ## Nothing panics -/

/-- Versions an HTTP/1 message can be written with. -/
def VOk (v : Version) : Prop := v = .h10 ∨ v = .h11 ∨ v = .h2

/-- The message of a turn has such a version. -/
def MOk : MsgOut → Prop
  | .resp m => VOk m.head.version
  | .req h _ => VOk h.version
  | _ => True

theorem putX_eq {c : Conn} (h : BufOk c) (bs : Bytes) : c.putX bs = .ok (c.put bs) := by
  unfold Conn.putX Conn.put
  split
  · rfl
  · rename_i e
    obtain ⟨w', h1, _⟩ := buffer_spec bytesBuf_stands h true bs trivial e
    rw [h1]

theorem filter_some (allowed : List Bytes) : ∀ (l : List (Option Bytes × Bytes)) (n : Bytes) (acc : HeaderMap), filterTrailers allowed (some n) acc l ≠ none := by
  intro l
  induction l with
  | nil => intro n acc; simp [filterTrailers]
  | cons x l ih =>
    intro n acc
    obtain ⟨o, v⟩ := x
    cases o with
    | none => simpa only [filterTrailers, Option.or] using ih _ _
    | some m => simpa only [filterTrailers, Option.or] using ih _ _

theorem filter_drain (allowed : List Bytes) : ∀ (m : HeaderMap) (acc : HeaderMap), filterTrailers allowed none acc (HeaderMap.drain m) ≠ none := by
  intro m
  induction m with
  | nil => intro acc; simp [HeaderMap.drain, filterTrailers]
  | cons g m ih =>
    intro acc
    obtain ⟨n, vs⟩ := g
    cases vs with
    | nil => simpa only [HeaderMap.drain, List.flatMap_cons, List.nil_append] using ih acc
    | cons v vs =>
      simp only [HeaderMap.drain, List.flatMap_cons, List.cons_append, filterTrailers, Option.or]
      exact filter_some _ _ _ _

theorem trailersPanic_eq (e : Encoder) (m : HeaderMap) : e.trailersPanic m = false := by
  unfold Encoder.trailersPanic
  split
  · have := filter_drain ‹_› m []
    cases hq : filterTrailers ‹_› none [] m.drain <;> simp_all
  · rfl

theorem enforce_version (peer : Version) (ka : KA) {v : Version} (hs : HeaderMap) (h : VOk v) : VOk (enforceVersion peer ka v hs).2.1 := by
  unfold enforceVersion
  (repeat' split) <;> first | exact h | exact .inl rfl

theorem serverEncode_noPanic (env : EncodeEnv) (m : EncodeMsg) (dst : Bytes) (h : VOk m.head.version) : (serverEncode env m dst).2 ≠ .panic := by
  have hp : VOk (encodePrep m).1.head.version := by
    unfold encodePrep
    (repeat' split) <;> first | exact h | exact .inr (.inl rfl)
  unfold serverEncode
  simp only
  split
  · rename_i hq
    exfalso
    unfold statusLine at hq
    split at hq
    · simp at hq
    · rcases hp with e | e | e <;> simp [e] at hq
  · split
    · split <;> simp
    · rename_i hne he
      intro hx
      simp only at hx
      subst hx
      unfold encodeHeaders at he
      split at he
      · simp at he
      · rename_i hh; exact hrun_no_panic _ _ _ hh
      · simp at he

theorem writeRespX_eq (env : EncodeEnv) (c : Conn) (m : RespOut) (ev : Bool → Ev) (h : VOk m.head.version) : c.writeRespX env m ev = .ok (c.writeResp env m ev) := by
  have : (c.respEnc env m).2 ≠ .panic := serverEncode_noPanic _ _ _ (enforce_version _ _ _ h)
  unfold Conn.writeRespX
  split
  · rename_i e; exact absurd e this
  · rfl

theorem writeReqX_eq (c : Conn) (q : ReqHead) (body : Option BodyLength) (n : Nat) (h : VOk q.version) : c.writeReqX q body n = .ok (c.writeReq q body n) := by
  have hv : VOk (connReq c.version c.ka q).2.version := enforce_version _ _ _ h
  have : (c.reqEnc q body).2 ≠ .panic := by
    unfold Conn.reqEnc
    split
    · simp
    · rename_i e
      exfalso
      unfold clientEncode at e
      rcases hv with k | k | k <;> simp [k, versionText] at e
  unfold Conn.writeReqX
  split
  · rename_i e; exact absurd e this
  · rfl

theorem onReadHeadErrorX_eq (env : EncodeEnv) (c : Conn) (e : Option ParseErr) (rest h2 : Bool) : c.onReadHeadErrorX env e rest h2 = .ok (c.onReadHeadError env e rest h2) := by
  have : ∀ c : Conn, c.onParseErrorX env e h2 = .ok (c.onParseError env e h2) := by
    intro c
    unfold Conn.onParseErrorX Conn.onParseError
    split
    · split
      · rfl
      · cases c.onError e with
        | some st => simp only; rw [writeRespX_eq env c _ _ (.inr (.inl rfl))]; rfl
        | none => rfl
    · rfl
  unfold Conn.onReadHeadErrorX Conn.onReadHeadError
  split
  · exact this _
  · rfl

theorem pollReadHeadX_eq (env : EncodeEnv) (c : Conn) (t0 t1 : Nat) (i : ParseIn) (nt : NotifyIn) (n : Nat) :
    c.pollReadHeadX env t0 t1 i nt n = .ok (c.pollReadHead env t0 t1 i nt n) := by
  unfold Conn.pollReadHeadX
  split
  · rw [onReadHeadErrorX_eq]; rfl
  · rfl

theorem decodeBodyX_eq (P : TrailerParser) (c : Conn) (d : Decoder) (r : Rd) (i : NotifyIn) (h : DOk d) : c.decodeBodyX P d r i = .ok (c.decodeBody P d r i) := by
  unfold Conn.decodeBodyX
  split
  · rename_i e; exact absurd e (decode_ok P d r h).1
  · rfl

theorem pollReadBodyX_eq (P : TrailerParser) {c : Conn} (r : Rd) (i : NotifyIn) (h : COk c) (hb : c.canReadBody = true) :
    c.pollReadBodyX P r i = .ok (c.pollReadBody P r i) := by
  unfold Conn.pollReadBodyX Conn.pollReadBody
  unfold Conn.canReadBody at hb
  cases hd : c.reading with
  | body d => exact decodeBodyX_eq P _ d r i (h d (.inl hd))
  | cont d => exact decodeBodyX_eq P _ d r i (h d (.inr hd))
  | init => simp [hd] at hb
  | keepAlive => simp [hd] at hb
  | closed => simp [hd] at hb

theorem drainOrCloseX_eq (P : TrailerParser) {c : Conn} (r : Rd) (i : NotifyIn) (h : COk c) (hb : c.canReadBody = true) :
    c.drainOrCloseX P r i = .ok (c.drainOrClose P r i) := by
  have : c.drainStart.canReadBody = true := by
    unfold Conn.drainStart
    split
    · rfl
    · exact hb
  unfold Conn.drainOrCloseX
  rw [pollReadBodyX_eq P r i h.drainStart this]
  rfl

theorem pollFlushX_eq {c : Conn} (h : BufOk c) (f : FlushIn) (i : NotifyIn) : c.pollFlushX f i = .ok (c.pollFlush f i) := by
  unfold Conn.pollFlushX
  rw [if_neg (pollFlush_ok bytesBuf_stands (c.scripted f) h f.readBuf).1.noPanic]

theorem pollShutdownX_eq {c : Conn} (h : BufOk c) (f : FlushIn) : c.pollShutdownX f = .ok (c.pollShutdown f) := by
  have h1 := (pollFlush_ok bytesBuf_stands (c.scripted f) h f.readBuf).1.noPanic
  have : ((c.scripted f).pollShutdown bytesBuf f.readBuf).1 ≠ .panic := by
    unfold WriteSide.pollShutdown
    split
    · exact (sinkFlush_spec _).2.2.1
    · exact h1
  unfold Conn.pollShutdownX
  rw [if_neg this]

theorem readTurnX_eq (env : EncodeEnv) (P : TrailerParser) {d : Disp} (h : TI d) (i : ReadIn) : d.readTurnX env P i = .ok (d.readTurn env P i) := by
  have hr : d.readHeadReadyX env i = .ok (d.readHeadReady env i) := by
    unfold Disp.readHeadReadyX
    rw [pollReadHeadX_eq]
    rfl
  unfold Disp.readTurnX Disp.readTurn
  split
  · rfl
  · split
    · unfold Disp.readHeadX Disp.readHead
      rw [hr]
      cases d.inFlight with
      | some n => cases d.conn.client <;> cases i.ready <;> rfl
      | none => cases d.conn.client <;> rfl
    · cases d.bodyTx with
      | some k =>
        simp only
        unfold Disp.readBodyX Disp.readBody
        cases hb : d.conn.canReadBody with
        | true =>
          simp only [if_true]
          have hp : d.readPieceX P i k = .ok (d.readPiece P i k) := by
            unfold Disp.readPieceX Disp.readPiece
            rw [pollReadBodyX_eq P _ _ h hb]; rfl
          rw [hp, drainOrCloseX_eq P _ _ h hb]
          cases (d.chans[k]?).map Chan.want with
          | none => rfl
          | some w =>
            cases w with
            | ready => cases i.full <;> rfl
            | pending => rfl
            | closed => rfl
        | false => rfl
      | none => rfl

theorem flushTurnX_eq {d : Disp} (h : BufOk d.conn) (f : FlushIn) (i : NotifyIn) : d.flushTurnX f i = .ok (d.flushTurn f i) := by
  unfold Disp.flushTurnX
  rw [pollFlushX_eq h]
  rfl

theorem endBodyX_eq {d : Disp} (h : BufOk d.conn) : d.endBodyX = .ok d.endBody := by
  unfold Disp.endBodyX Conn.endBodyX
  rw [putX_eq h]
  rfl

theorem writeFrameX_eq {d : Disp} (h : BufOk d.conn) (hb : d.conn.canWriteBody = true) (f : FrameIn) : d.writeFrameX f = .ok (d.writeFrame f) := by
  obtain ⟨e, he⟩ : ∃ e, d.conn.writing = .body e := by
    unfold Conn.canWriteBody at hb
    split at hb
    · exact ⟨_, ‹_›⟩
    · cases hb
  have h0 : ({ d with bodyRx := false } : Disp).endBodyX = .ok ({ d with bodyRx := false } : Disp).endBody := endBodyX_eq h
  unfold Disp.writeFrameX Disp.writeFrame
  split
  · rfl
  · exact h0
  · rename_i bs
    by_cases hn : bs = []
    · simp only [hn, if_true]; exact h0
    · simp only [hn, if_false]
      unfold Conn.writeBodyAndEndX
      simp only [he]
      rw [putX_eq h]
      unfold Conn.writeBodyAndEnd
      rw [he]; rfl
  · rename_i bs
    by_cases hn : bs = []
    · simp only [hn, if_true]
    · simp only [hn, if_false]
      unfold Conn.writeBodyX
      simp only [he]
      rw [putX_eq h]
      unfold Conn.writeBody
      rw [he]; rfl
  · unfold Conn.writeTrailersX
    split
    · rfl
    · simp only [he, trailersPanic_eq, Bool.false_eq_true, if_false]
      rw [putX_eq h]
      unfold Conn.writeTrailers
      rw [he]; rfl
  · rfl
  · rfl

theorem writeTurnX_eq (env : EncodeEnv) {d : Disp} (h : BufOk d.conn) (i : WriteIn) (hm : MOk i.msg) : d.writeTurnX env i = .ok (d.writeTurn env i) := by
  unfold Disp.writeTurnX Disp.writeTurn
  split
  · rfl
  · split
    · rename_i hp
      have hi : (!d.conn.client && d.inFlight.isNone) = false := by
        simp only [Bool.and_eq_true] at hp
        have := hp.2
        unfold Disp.shouldPoll at this
        split at this
        · simp [*]
        · cases hq : d.inFlight <;> simp_all
      unfold Disp.writeHeadX
      rw [hi, if_neg (by decide)]
      cases hq : i.msg with
      | resp m =>
        rw [hq] at hm
        simp only [Disp.writeHead]
        split
        · rfl
        · rw [writeRespX_eq env _ _ _ hm]; rfl
      | req q b =>
        rw [hq] at hm
        simp only [Disp.writeHead]
        split
        · rw [writeReqX_eq _ _ _ _ hm]; rfl
        · rfl
      | pending => rfl
      | none => rfl
      | err => rfl
    · split
      · exact flushTurnX_eq h _ _
      · split
        · split
          · rename_i hb; exact writeFrameX_eq h hb _
          · rfl
        · split
          · exact endBodyX_eq h
          · rfl

theorem finishTurnX_eq {d : Disp} (h : BufOk d.conn) (s : Bool) (f : FlushIn) : d.finishTurnX s f = .ok (d.finishTurn s f) := by
  unfold Disp.finishTurnX Disp.finishTurn
  rw [pollShutdownX_eq h]
  (repeat' split) <;> first | rfl | simp_all [Except.map]

/-- The message of an act has such a version. -/
def AOk : Act → Prop
  | .write i => MOk i.msg
  | _ => True

theorem stepX_eq (env : EncodeEnv) (P : TrailerParser) {d : Disp} (ti : TI d) (h : BufOk d.conn) (a : Act) (ha : AOk a) : d.stepX env P a = .ok (d.step env P a) := by
  cases a with
  | read i => simp only [Disp.stepX, Disp.step]; split; rfl; exact readTurnX_eq env P ti i
  | write i => simp only [Disp.stepX, Disp.step]; split; rfl; exact writeTurnX_eq env h i ha
  | flush f i => simp only [Disp.stepX, Disp.step]; split; rfl; exact flushTurnX_eq h f i
  | finish s f => simp only [Disp.stepX, Disp.step]; split; rfl; exact finishTurnX_eq h s f
  | readAgain => rfl
  | disable b => rfl
  | want k => rfl
  | dropReader k => rfl
  | drop => rfl

theorem runX_eq (env : EncodeEnv) (P : TrailerParser) : ∀ (as : List Act) {d : Disp}, TI d → BufOk d.conn → Poll.VI d.view → (∀ a ∈ as, AOk a) →
    d.runX env P as = .ok (d.run env P as) := by
  intro as
  induction as with
  | nil => intro d _ _ _ _; rfl
  | cons a as ih =>
    intro d ti h vi ha
    unfold Disp.runX
    rw [stepX_eq env P ti h a (ha a (by simp))]
    exact ih (ti.step env P a) (bufOk_step env P vi h a) (Poll.vi_run env P [a] vi) (fun x hx => ha x (by simp [hx]))

end Panics

end Hyper
