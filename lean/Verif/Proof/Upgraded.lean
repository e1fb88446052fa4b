import Verif.Proof.Input
import Verif.Proof.ConnOrder
import Verif.Props.H1Upgrade
import Verif.Spec.Upgraded

/-! # Where a connection stops reading when it ends with a message -/

namespace Hyper.Input

open Hyper.Spec

/-! ## What decoding leaves -/

theorem readIo_suffix (r : Rd) : match r.readIo with
    | (.ready (.ok bs), r') => ∃ p, r'.buf = r.buf ∧ segBytes r.net = p ++ (bs ++ segBytes r'.net)
    | (_, r') => r'.buf = r.buf ∧ segBytes r'.net = segBytes r.net := by
  unfold Rd.readIo
  rcases hn : r.net with _ | ⟨s, net⟩
  · cases h : r.fin <;> simp [hn, segBytes]
  · cases s <;> simp [segBytes]

theorem readMem_suffix (r : Rd) (n : Nat) : (r.readMem n).2.stream <:+ r.stream := by
  have h := readIo_suffix r
  unfold Rd.readMem
  by_cases hb : r.buf ≠ []
  · rw [if_pos hb]
    exact ⟨r.buf.take (min n r.buf.length), by simp only [Rd.stream]; rw [← List.append_assoc, List.take_append_drop]⟩
  · rw [if_neg hb]
    have hb' : r.buf = [] := by simpa using hb
    split <;> rename_i e <;> rw [e] at h
    · exact ⟨[], by simp only [Rd.stream, h.1, h.2, List.nil_append]⟩
    · exact ⟨[], by simp only [Rd.stream, h.1, h.2, List.nil_append]⟩
    · rename_i bs r'
      obtain ⟨p, _, h2⟩ := h
      exact ⟨p ++ bs.take (min n bs.length), by
        simp only [Rd.stream, hb', h2, List.nil_append, List.append_assoc]
        rw [← List.append_assoc (bs.take _), List.take_append_drop]⟩

theorem step_suffix (c : Chunked) (r : Rd) : (c.step r).rd.stream <:+ r.stream := by
  have h1 := readMem_suffix r c.len
  have h2 := readMem_suffix r 1
  have hb : (c.readBody r).rd.stream <:+ r.stream := by
    unfold Chunked.readBody
    split <;> rename_i e <;> rw [e] at h1
    · exact h1
    · exact h1
    · split <;> exact h1
  have hy : (c.readByte r).rd.stream <:+ r.stream := by
    unfold Chunked.readByte
    split <;> rename_i e <;> rw [e] at h2 <;> exact h2
  unfold Chunked.step
  split
  · exact List.suffix_refl _
  · exact hb
  · exact hy

theorem loop_suffix (P : TrailerParser) (fuel : Nat) : ∀ (c : Chunked) (r : Rd), (c.decodeLoop P fuel r).2.2.stream <:+ r.stream := by
  induction fuel with
  | zero => intro c r; exact List.suffix_refl _
  | succ fuel ih =>
    intro c r
    have hf := step_suffix c r
    unfold Chunked.decodeLoop
    split
    · rename_i e; rw [e] at hf; exact hf
    · rename_i e; rw [e] at hf; exact hf
    · rename_i s c' b r' e
      rw [e] at hf
      by_cases hs : s = .finished
      · subst hs
        simp only [if_true]
        split
        · split <;> exact hf
        · exact hf
      · simp only [hs, if_false]
        split
        · exact hf
        · exact (ih _ _).trans hf

theorem decode_suffix (P : TrailerParser) (d : Decoder) (r : Rd) : (d.decode P r).2.2.stream <:+ r.stream := by
  cases d with
  | length n =>
    have h := readMem_suffix r n
    simp only [Decoder.decode]
    repeat' split
    all_goals first
      | exact List.suffix_refl _
      | (rename_i e; rw [e] at h; exact h)
      | (rename_i e _; rw [e] at h; exact h)
      | (rename_i e _ _; rw [e] at h; exact h)
  | eof b =>
    have h := readMem_suffix r 8192
    simp only [Decoder.decode]
    split
    · exact List.suffix_refl _
    · split <;> rename_i e <;> rw [e] at h <;> exact h
  | chunked c =>
    have h := loop_suffix P (r.size + 1) c r
    simpa [Decoder.decode] using h

/-! ## No further head -/

/-- The connection ends with the message it is in, or after: it reads no further head. -/
def Ends (c : Conn) : Prop := c.ka = .disabled ∧ c.reading ≠ .init

theorem e_closeAll (c : Conn) : Ends c.closeAll := ⟨rfl, by simp [Conn.closeAll]⟩
theorem e_closeRead (c : Conn) : Ends c.closeRead := ⟨rfl, by simp [Conn.closeRead]⟩

theorem e_tryKeepAlive {c : Conn} (h : Ends c) (i : NotifyIn) : Ends (c.tryKeepAlive i) := by
  obtain ⟨h1, h2⟩ := h
  have hs : Ends c.stateKeepAlive := by
    unfold Conn.stateKeepAlive
    (repeat' split) <;> first | exact ⟨h1, h2⟩ | exact e_closeAll c | simp_all
  unfold Conn.tryKeepAlive Conn.maybeNotify
  split
  · rename_i e; exact absurd e hs.2
  · exact hs

theorem e_put {c : Conn} (h : Ends c) (bs : Bytes) (w : Writing) : Ends ((c.put bs).setWriting w) := by
  unfold Conn.put Conn.setWriting
  repeat' split
  all_goals exact h

theorem enforce_off (v w : Version) (hs : HeaderMap) : (enforceVersion v .disabled w hs).1 = .disabled := by
  rcases enforceVersion_ka v .disabled w hs with e | e <;> exact e

theorem connMsg_ka (v : Version) (m : EncodeMsg) : (connMsg v .disabled m).1 = .disabled := by
  exact enforce_off _ _ _

theorem e_failBody {d : Disp} (h : Ends d.conn) : Ends d.failBody.conn := by
  unfold Disp.failBody; split <;> exact h

theorem e_fail {d : Disp} (h : Ends d.conn) : Ends d.fail.conn := e_failBody h

theorem e_close (d : Disp) : Ends d.close.conn := ⟨rfl, by simp [Disp.close, Conn.closeRead, Conn.closeWrite]⟩

theorem e_flush {d : Disp} (h : Ends d.conn) (f : FlushIn) (i : NotifyIn) : Ends (d.flushTurn f i).conn := by
  have e : Ends (d.conn.pollFlush f i).2 := by
    unfold Conn.pollFlush
    simp only
    split
    · exact e_tryKeepAlive (c := { d.conn with out := ((d.conn.scripted f).pollFlush bytesBuf f.readBuf).2 }) h i
    · exact h
  unfold Disp.flushTurn
  simp only
  split
  · exact e
  · exact e_fail e

theorem e_endBody {d : Disp} (h : Ends d.conn) : Ends d.endBody.conn := by
  unfold Disp.endBody
  simp only
  split
  · exact e_fail (d := { d with conn := d.conn.endBody.2 }) (e_put h _ _)
  · exact e_put h _ _

theorem e_writeHead (env : EncodeEnv) {d : Disp} (h : Ends d.conn) (m : MsgOut) : Ends (d.writeHead env m).conn := by
  unfold Disp.writeHead
  cases m with
  | pending => exact h
  | none => dsimp only; split; exact e_close d; exact h
  | err => dsimp only; split; exact h; exact e_fail h
  | resp m =>
    dsimp only
    split
    · exact h
    · refine ⟨?_, h.2⟩
      simp only [Conn.writeResp, Conn.setWriting, Conn.putHeaders, Conn.respMsg, h.1]
      exact connMsg_ka _ _
  | req x b =>
    dsimp only
    split
    · refine ⟨?_, h.2⟩
      simp only [Conn.writeReq, Conn.setWriting, Conn.putHeaders, h.1]
      unfold connReq
      (repeat' split) <;> simp_all [enforce_off]
    · exact h

theorem e_writeFrame {d : Disp} (h : Ends d.conn) (f : FrameIn) : Ends (d.writeFrame f).conn := by
  unfold Disp.writeFrame
  repeat' split
  all_goals first
    | exact h
    | exact e_fail h
    | exact e_endBody (d := { d with bodyRx := false }) h
    | exact e_put h _ _

theorem e_write (env : EncodeEnv) {d : Disp} (h : Ends d.conn) (i : WriteIn) : Ends (d.writeTurn env i).conn := by
  unfold Disp.writeTurn
  repeat' split
  all_goals first
    | exact h
    | exact e_writeHead env h _
    | exact e_flush h _ _
    | exact e_writeFrame h _
    | exact e_endBody h

theorem e_complete {d : Disp} (h : Ends d.conn) : Ends d.complete.conn := by
  unfold Disp.complete; split
  · exact e_fail h
  · exact h

theorem e_finish {d : Disp} (h : Ends d.conn) (s : Bool) (f : FlushIn) : Ends (d.finishTurn s f).conn := by
  unfold Disp.finishTurn
  split
  · exact h
  · split
    · exact e_complete h
    · split
      · dsimp only
        split
        · exact h
        · split
          · exact e_complete h
          · exact e_fail h
      · exact e_complete h

theorem e_disable {d : Disp} (h : Ends d.conn) (b : Bool) : Ends (d.disableKeepAlive b).conn := by
  have e : Ends d.conn.disableKeepAlive := by
    unfold Conn.disableKeepAlive
    simp only
    split
    · exact e_closeAll _
    · exact ⟨rfl, h.2⟩
  unfold Disp.disableKeepAlive
  simp only
  split
  · exact e_close _
  · exact e

theorem e_decodeBody (P : TrailerParser) {c : Conn} (h : c.ka = .disabled) (dec : Decoder) (r : Rd) (i : NotifyIn) :
    Ends (c.decodeBody P dec r i).2 := by
  have k1 : Ends (c.readDone.tryKeepAlive i) := e_tryKeepAlive (c := c.readDone) ⟨h, by simp [Conn.readDone]⟩ i
  have k2 : Ends ({ c with reading := .closed }.tryKeepAlive i) := e_tryKeepAlive (c := { c with reading := .closed }) ⟨h, by simp⟩ i
  unfold Conn.decodeBody
  repeat' split
  all_goals first
    | exact k1
    | exact k2
    | exact ⟨h, by simp⟩

theorem e_pollReadBody (P : TrailerParser) {c : Conn} (h : Ends c) (r : Rd) (i : NotifyIn) : Ends (c.pollReadBody P r i).2 := by
  unfold Conn.pollReadBody
  split
  · exact e_decodeBody P h.1 _ _ _
  · refine e_decodeBody P ?_ _ _ _
    unfold Conn.sendContinue; split <;> exact h.1
  · exact h

theorem e_drain (P : TrailerParser) {c : Conn} (h : Ends c) (r : Rd) (i : NotifyIn) : Ends (c.drainOrClose P r i) := by
  have h1 : Ends c.drainStart := by
    unfold Conn.drainStart
    split
    · exact ⟨h.1, by simp⟩
    · exact h
  have h2 := e_pollReadBody P h1 r i
  unfold Conn.drainOrClose Conn.drainEnd
  split
  · exact h2
  · exact h2
  · exact e_closeRead _

theorem e_readBody (P : TrailerParser) {d : Disp} (h : Ends d.conn) (i : ReadIn) (k : Nat) : Ends (d.readBody P i k).conn := by
  unfold Disp.readBody
  split
  · split
    · split
      · exact h
      · have e := e_pollReadBody P h i.rd i.notify
        unfold Disp.readPiece
        have h1 : ∀ (x : Disp) (g : Bool) (f : Chan → Chan), Ends x.conn → Ends (x.deliver k g f).conn := by
          intro x g f hx; unfold Disp.deliver Disp.dropBody Disp.sendItem; simp only; (repeat' split) <;> first | exact hx | exact e_closeRead _
        have h2 : ∀ (x : Disp) (g : Bool), Ends x.conn → Ends (x.markComplete k g).conn := by
          intro x g hx; unfold Disp.markComplete; split <;> exact hx
        have h3 : ∀ (x : Disp) (g : Bool), Ends x.conn → Ends (x.maybeLose k g).conn := by
          intro x g hx; unfold Disp.maybeLose; split <;> exact hx
        have h4 : ∀ (x : Disp) (g : Bool) (o : BodyRes), Ends x.conn → Ends (x.afterPiece k g o).conn := by
          intro x g o hx
          unfold Disp.afterPiece
          split
          · exact hx
          · exact h1 _ _ _ (h2 _ _ hx)
          · exact h1 _ _ _ (h2 _ _ hx)
          · exact h2 _ _ hx
          · exact hx
        exact h4 _ _ _ (h3 _ _ e)
    · exact h
    · exact e_drain P h _ _
  · exact h

theorem e_read (env : EncodeEnv) (P : TrailerParser) {d : Disp} (h : Ends d.conn) (i : ReadIn) : Ends (d.readTurn env P i).conn := by
  unfold Disp.readTurn
  split
  · exact h
  · split
    · rename_i hc
      simp only [Conn.canReadHead, Bool.and_eq_true, beq_iff_eq] at hc
      exact absurd hc.1 h.2
    · split
      · exact e_readBody P h _ _
      · unfold Disp.readIdle Conn.pollReadKeepAlive Conn.requireEmpty Conn.midMessageEof
        simp only
        repeat' split
        all_goals first
          | exact h
          | exact e_fail h
          | exact e_fail (e_closeAll _)
          | exact e_fail (e_closeRead _)
          | exact e_closeRead _
          | exact e_closeAll _

theorem e_step (env : EncodeEnv) (P : TrailerParser) {d : Disp} (h : Ends d.conn) (a : Act) : Ends (d.step env P a).conn := by
  cases a with
  | read i => simp only [Disp.step]; split; exact h; exact e_read env P h i
  | write i => simp only [Disp.step]; split; exact h; exact e_write env h i
  | flush f i => simp only [Disp.step]; split; exact h; exact e_flush h f i
  | readAgain => simp only [Disp.step]; split <;> exact h
  | finish s f => simp only [Disp.step]; split; exact h; exact e_finish h s f
  | disable b => simp only [Disp.step]; split; exact h; exact e_disable h b
  | want k =>
    simp only [Disp.step, Disp.want]
    repeat' split
    all_goals exact h
  | dropReader k => exact h
  | drop => exact e_failBody h

/-- A head after which the connection ends. -/
theorem e_head (env : EncodeEnv) (d : Disp) (j : ReadIn) (m : MsgIn) (hp : j.parse = .msg m) (hm : m.keepAlive = false) :
    Ends (d.readHeadReady env j).conn := by
  have ha : Ends ((d.conn.startTimer j.t0).acceptHead m d.headId j.notify) := by
    have hs : ((d.conn.startTimer j.t0).headState m d.headId).ka = .disabled := by simp [Conn.headState, hm]
    unfold Conn.acceptHead
    split
    · split
      · exact e_tryKeepAlive (c := ((d.conn.startTimer j.t0).headState m d.headId).readDone) ⟨hs, by simp [Conn.readDone]⟩ _
      · exact ⟨hs, by simp [Conn.readDone]⟩
    · split <;> exact ⟨hs, by simp⟩
  unfold Disp.readHeadReady Conn.pollReadHead
  simp only [hp, Disp.afterHead, Disp.recvHead]
  have en : ∀ x : Disp, (x.newBody m).conn = x.conn := by intro x; unfold Disp.newBody; split <;> rfl
  repeat' split
  all_goals first
    | (refine e_fail ?_; simp only [en]; exact ha)
    | (simp only [en]; exact ha)

/-! ## Where reading stops -/

section
variable {α : Type} (H : HeadFn α) (P : TrailerParser) (mh : Option Nat) (fin : NetEnd) (S : Bytes)

/-- Once a message says that the connection ends with it. -/
def Final (f : Fed α) : Prop :=
  ∀ ws (r : Received α), f.got = ws ++ [r] → (H.view r.method r.head).keepAlive = false →
    Ends f.disp.conn ∧ Stops H P mh fin S ws r f.inlet.rd.stream

end

section
variable {α : Type} {H : HeadFn α} {P : TrailerParser} {mh : Option Nat} {fin : NetEnd} {S : Bytes}

theorem final_quiet {f : Fed α} (h : Final H P mh fin S f) {d : Disp} {x : Inlet} (hd : Ends f.disp.conn → Ends d.conn)
    (hs : x.rd.stream = f.inlet.rd.stream) : Final H P mh fin S { disp := d, inlet := x, got := f.got } := by
  intro ws r hg hk
  obtain ⟨h1, h2⟩ := h ws r hg hk
  exact ⟨hd h1, by dsimp only; rw [hs]; exact h2⟩

/-- A parsed head leaves the bytes after it. -/
theorem stops_begin {t x : Bytes} {ws : List (Received α)} {n : Nat} {m : Option Bytes} {a : α} (hr : Reads H P mh fin S ws t)
    (hp : H.parse m t = (.ok (some a), x)) (hs : x <:+ t) :
    Stops H P mh fin S ws { id := n, method := m, head := a, whole := (H.view m a).decode == DecodedLength.ZERO } x := by
  refine ⟨t, x, hr, hp, hs, ?_⟩
  by_cases hz : (H.view m a).decode = DecodedLength.ZERO
  · left
    refine ⟨by simp [hz], ?_⟩
    have := Body.length (P := P) (mh := mh) (fin := fin) (len := DecodedLength.ZERO) [] x (by decide) (by decide) rfl
    simpa [hz] using this
  · exact .inr ⟨by simp [hz], hz, List.suffix_refl _⟩

theorem final_parse (hS : Stable H) (env : EncodeEnv) {f : Fed α} (hi : FI H P mh fin S f) (h : Final H P mh fin S f) (i : ReadIn)
    (hp : f.disp.parses i = true) : Final H P mh fin S (f.read env P H i) := by
  obtain ⟨hstep, hinit⟩ := step_parses env P f.disp i (f.readIn H i) rfl hp
  obtain ⟨t, hreads, hnear⟩ := pos_init hi.pos hinit
  have hpf := (parse_facts hS f.disp.conn.method (f.inlet.rd.net.length + 1) f.inlet).2
  unfold Fed.read
  rw [if_pos hp, hstep]
  have hno : ∀ ws (r : Received α), f.got = ws ++ [r] → (H.view r.method r.head).keepAlive = false → False :=
    fun ws r e1 e2 => (h ws r e1 e2).1.2 hinit
  intro ws r hg hk
  have hj : (f.readIn H i).parse = Inlet.seen (H.view f.disp.conn.method) (f.inlet.parse (H.parse f.disp.conn.method)).1
    (f.inlet.parse (H.parse f.disp.conn.method)).2.rd.buf := rfl
  change match (f.inlet.parse (H.parse f.disp.conn.method)).1 with
    | .msg a => f.inlet.rd.stream ≠ [] ∧ H.parse f.disp.conn.method f.inlet.rd.stream = (.ok (some a), (f.inlet.parse (H.parse f.disp.conn.method)).2.rd.stream) ∧
        (f.inlet.parse (H.parse f.disp.conn.method)).2.rd.stream <:+ f.inlet.rd.stream
    | .pending => Near H f.inlet.rd.stream (f.inlet.parse (H.parse f.disp.conn.method)).2.rd.stream
    | .error _ => True at hpf
  dsimp only at hg ⊢
  generalize f.inlet.parse (H.parse f.disp.conn.method) = ox at *
  obtain ⟨o, x⟩ := ox
  dsimp only at hpf hg hj ⊢
  cases o with
  | pending => exact (hno ws r hg hk).elim
  | error e => exact (hno ws r hg hk).elim
  | msg a =>
    obtain ⟨hne, hparse, hsuf⟩ := hpf
    have hparse' : H.parse f.disp.conn.method t = (.ok (some a), x.rd.stream) := (hnear.parse hne _).trans hparse
    have hsuf' : x.rd.stream <:+ t := hsuf.trans hnear.1
    simp only [Fed.begin] at hg
    obtain ⟨rfl, e⟩ := List.append_inj' hg rfl
    simp only [List.cons.injEq, and_true] at e
    subst e
    exact ⟨e_head env f.disp _ _ hj hk, stops_begin hreads hparse' hsuf'⟩

theorem decodes_rk {d : Disp} {i : ReadIn} {dec : Decoder} (hd : d.decodes i = some dec) : rk d.conn.reading = .dec dec := by
  unfold Disp.decodes at hd
  split at hd
  · cases hd
  · split at hd
    · cases hd
    · split at hd
      · split at hd
        · cases hd
        · exact (decoder_rk d dec).1 hd
      · cases hd
      · exact (decoder_rk d dec).1 hd

/-- A call of the decoder leaves the bytes after the message, if that is its end. -/
theorem stops_decode {f : Fed α} (hi : FI H P mh fin S f) {dec : Decoder} (hk : rk f.disp.conn.reading = .dec dec) {ws' : List (Received α)}
    {r' : Received α} (hg' : onLast (fun r => r.add (dec.decode P f.inlet.rd).1 (dec.decode P f.inlet.rd).2.1.isEof) f.got = ws' ++ [r'])
    (h : ∀ ws (r : Received α), f.got = ws ++ [r] → r'.method = r.method → r'.head = r.head → Stops H P mh fin S ws r f.inlet.rd.stream) :
    Stops H P mh fin S ws' r' (dec.decode P f.inlet.rd).2.2.stream := by
  cases hi.pos with
  | between _ _ _ hno => exact absurd hk (hno dec)
  | stopped _ _ _ _ _ _ hk' => rw [hk] at hk'; cases hk'
  | within ws r t body dec0 hg hr hw htr hpa hs hb hk0 hdo ho =>
    have : dec0 = dec := by rw [hk] at hk0; injection hk0 with e; exact e.symm
    subst this
    rw [hg, onLast_snoc] at hg'
    obtain ⟨rfl, e⟩ := List.append_inj' hg' rfl
    simp only [List.cons.injEq, and_true] at e
    subst e
    obtain ⟨k1, k2, k3⟩ := add_keep r (dec0.decode P f.inlet.rd).1 (dec0.decode P f.inlet.rd).2.1.isEof
    obtain ⟨t', body', g2, g3, g4, g5⟩ := h ws r hg k2 k3
    have hleft : (H.view r.method r.head).decode ≠ DecodedLength.ZERO ∧ f.inlet.rd.stream <:+ body' := by
      rcases g5 with ⟨g5, _⟩ | ⟨_, g5⟩
      · rw [hw] at g5; cases g5
      · exact g5
    have hsuf := decode_suffix P dec0 f.inlet.rd
    have hstep := outc_step P dec0 hdo f.inlet.rd r.data
    have hbody : ∀ data tr rest, outc P dec0 f.inlet.rd r.data = .complete data tr rest →
        Body P mh fin (H.view r.method r.head).decode body data tr rest := by
      intro data tr rest e
      rw [ho] at e
      have := body_of_complete P mh (H.view r.method r.head).decode ⟨body, [], fin⟩ data tr rest e
      simpa [Rd.stream, segBytes] using this
    have hopen : (r.add (dec0.decode P f.inlet.rd).1 (dec0.decode P f.inlet.rd).2.1.isEof).whole = false →
        Stops H P mh fin S ws (r.add (dec0.decode P f.inlet.rd).1 (dec0.decode P f.inlet.rd).2.1.isEof) (dec0.decode P f.inlet.rd).2.2.stream := by
      intro e
      exact ⟨t', body', g2, by rw [k2, k3]; exact g3, g4, .inr ⟨e, by rw [k2, k3]; exact hleft.1, hsuf.trans hleft.2⟩⟩
    have hshut : (r.add (dec0.decode P f.inlet.rd).1 (dec0.decode P f.inlet.rd).2.1.isEof).whole = true →
        Body P mh fin (H.view r.method r.head).decode body (r.add (dec0.decode P f.inlet.rd).1 (dec0.decode P f.inlet.rd).2.1.isEof).data
          (r.add (dec0.decode P f.inlet.rd).1 (dec0.decode P f.inlet.rd).2.1.isEof).trailers (dec0.decode P f.inlet.rd).2.2.stream →
        Stops H P mh fin S ws (r.add (dec0.decode P f.inlet.rd).1 (dec0.decode P f.inlet.rd).2.1.isEof) (dec0.decode P f.inlet.rd).2.2.stream := by
      intro e hb
      exact ⟨t, body, hr, by rw [k2, k3]; exact hpa, hs, .inl ⟨e, by rw [k2, k3]; exact hb⟩⟩
    rcases hD : (dec0.decode P f.inlet.rd).1 with _ | ⟨e | ⟨bs⟩ | ⟨fs⟩⟩
    · rw [hD] at hopen; exact hopen hw
    · rw [hD] at hopen; exact hopen hw
    · rw [hD] at hopen hshut hstep
      dsimp only at hstep
      by_cases he : (dec0.decode P f.inlet.rd).2.1.isEof = true
      · rw [if_pos he] at hstep
        refine hshut he ?_
        have := hbody _ _ _ hstep
        rw [← htr] at this
        exact this
      · exact hopen (by simpa [Received.add] using he)
    · rw [hD] at hshut hstep
      exact hshut rfl (hbody _ _ _ hstep)

theorem onLast_last {ws' : List (Received α)} {r' : Received α} {got : List (Received α)} {o : Poll (Except DErr Frame)} {b : Bool}
    (h : onLast (fun r => r.add o b) got = ws' ++ [r']) : ∃ r, got = ws' ++ [r] ∧ r'.method = r.method ∧ r'.head = r.head := by
  rcases List.eq_nil_or_concat got with rfl | ⟨ws, r, rfl⟩
  · simp [onLast] at h
  · rw [List.concat_eq_append, onLast_snoc] at h
    obtain ⟨rfl, e⟩ := List.append_inj' h rfl
    simp only [List.cons.injEq, and_true] at e
    subst e
    obtain ⟨_, k2, k3⟩ := add_keep r o b
    exact ⟨r, by rw [List.concat_eq_append], k2, k3⟩

theorem onLast_length {β : Type} (g : β → β) (l : List β) : (onLast g l).length = l.length := by
  rcases List.eq_nil_or_concat l with rfl | ⟨ws, r, rfl⟩
  · rfl
  · rw [List.concat_eq_append, onLast_snoc]; simp

theorem final_body (env : EncodeEnv) {f : Fed α} (hi : FI H P mh fin S f) (h : Final H P mh fin S f) (i : ReadIn) (dec : Decoder)
    (hp : f.disp.parses i = false) (hd : f.disp.decodes i = some dec) : Final H P mh fin S (f.read env P H i) := by
  have hk := decodes_rk hd
  unfold Fed.read
  rw [if_neg (by simp [hp]), hd]
  intro ws' r' hg' hka
  dsimp only at hg' ⊢
  obtain ⟨r, hg, k2, k3⟩ := onLast_last hg'
  rw [k2, k3] at hka
  refine ⟨e_step env P (h ws' r hg hka).1 _, stops_decode hi hk hg' ?_⟩
  intro ws r0 hg0 e1 e2
  exact (h ws r0 hg0 (by rw [← e1, ← e2, k2, k3]; exact hka)).2

theorem final_step (hS : Stable H) (env : EncodeEnv) {f : Fed α} (hi : FI H P mh fin S f) (h : Final H P mh fin S f) (a : FAct) :
    Final H P mh fin S (f.step env P H a) := by
  cases a with
  | pull => exact final_quiet h id (peek_facts f.inlet).1
  | act a =>
    by_cases hr : ∃ i, a = .read i
    · obtain ⟨i, rfl⟩ := hr
      change Final H P mh fin S (f.read env P H i)
      by_cases hp : f.disp.parses i = true
      · exact final_parse hS env hi h i hp
      · have hp' : f.disp.parses i = false := by simpa using hp
        cases hd : f.disp.decodes i with
        | some dec => exact final_body env hi h i dec hp' hd
        | none =>
          unfold Fed.read
          rw [if_neg hp, hd]
          exact final_quiet h (fun e => e_step env P e _) rfl
    · have : f.step env P H (.act a) = { f with disp := f.disp.step env P a } := by
        cases a with
        | read i => exact absurd ⟨i, rfl⟩ hr
        | _ => rfl
      rw [this]
      exact final_quiet h (fun e => e_step env P e _) rfl

theorem final_run (hS : Stable H) (env : EncodeEnv) (as : List FAct) : ∀ {f : Fed α}, FI H P mh fin S f → Final H P mh fin S f →
    Final H P mh fin S (f.run env P H as) := by
  induction as with
  | nil => intro f _ h; exact h
  | cons a as ih => intro f hi h; exact ih (fi_step hS env hi a) (final_step hS env hi h a)

/-! ## The message that asks for an upgrade -/

/-- While the connection is to be upgraded, its last message is the one that asked. -/
def Asked (H : HeadFn α) (f : Fed α) : Prop :=
  f.disp.done = true ∨ f.disp.conn.upgrade = false ∨
    ∃ ws r, f.got = ws ++ [r] ∧ (H.view r.method r.head).wantsUpgrade = true ∧ (H.view r.method r.head).keepAlive = false

/-- A turn of `poll_read` that does not get to the parser. -/
theorem up_idle (env : EncodeEnv) (P : TrailerParser) (d : Disp) (i j : ReadIn) (hr : j.ready = i.ready) (hp : d.parses i = false) :
    (d.step env P (.read j)).done = true ∨ (d.step env P (.read j)).conn.upgrade = d.conn.upgrade := by
  simp only [Disp.step]
  by_cases hd : d.done = true
  · rw [if_pos hd]; exact .inl hd
  · rw [if_neg hd]
    right
    unfold Disp.readTurn
    by_cases hc : d.closing = true
    · rw [if_pos hc]
    · rw [if_neg hc]
      by_cases hh : d.conn.canReadHead = true
      · rw [if_pos hh]
        unfold Disp.readHead
        simp only [Disp.parses, hd, hc, hh] at hp
        cases hfl : d.inFlight with
        | some n =>
          dsimp only
          by_cases hcl : d.conn.client = true
          · rw [if_pos hcl]
            simp [hcl, hfl] at hp
            rw [hr, hp]
            rfl
          · rw [if_neg hcl]
        | none =>
          dsimp only
          by_cases hcl : d.conn.client = true
          · rw [if_pos hcl]; rfl
          · simp [hcl, hfl] at hp
      · rw [if_neg hh]
        cases htx : d.bodyTx with
        | none =>
          dsimp only
          unfold Disp.readIdle Conn.pollReadKeepAlive Conn.requireEmpty Conn.midMessageEof
          simp only
          repeat' split
          all_goals first | rfl | exact HandOver.up_fail _
        | some k => exact HandOver.up_readBody P d j k

theorem asked_keep {f f' : Fed α} (h : Asked H f) (hd : f.disp.done = true → f'.disp.done = true)
    (hu : f'.disp.done = true ∨ f'.disp.conn.upgrade = f.disp.conn.upgrade)
    (hg : ∀ ws r, f.got = ws ++ [r] → ∃ r', f'.got = ws ++ [r'] ∧ r'.method = r.method ∧ r'.head = r.head) : Asked H f' := by
  rcases h with h | h | ⟨ws, r, h1, h2, h3⟩
  · exact .inl (hd h)
  · rcases hu with e | e
    · exact .inl e
    · exact .inr (.inl (e.trans h))
  · obtain ⟨r', g1, g2, g3⟩ := hg ws r h1
    exact .inr (.inr ⟨ws, r', g1, by rw [g2, g3]; exact h2, by rw [g2, g3]; exact h3⟩)

theorem asked_step (hS : Stable H) (hN : NoReuse H) (env : EncodeEnv) {f : Fed α} (hf : Final H P mh fin S f) (h : Asked H f) (a : FAct) :
    Asked H (f.step env P H a) := by
  have same : ∀ {f' : Fed α}, f'.got = f.got → ∀ ws r, f.got = ws ++ [r] → ∃ r', f'.got = ws ++ [r'] ∧ r'.method = r.method ∧ r'.head = r.head :=
    fun e ws r h => ⟨r, e.trans h, rfl, rfl⟩
  cases a with
  | pull => exact asked_keep h id (.inr rfl) (same rfl)
  | act a =>
    by_cases hr : ∃ i, a = .read i
    · obtain ⟨i, rfl⟩ := hr
      change Asked H (f.read env P H i)
      by_cases hp : f.disp.parses i = true
      · obtain ⟨hstep, hinit⟩ := step_parses env P f.disp i (f.readIn H i) rfl hp
        have hu : f.disp.conn.upgrade = false := by
          rcases h with h | h | ⟨ws, r, h1, _, h3⟩
          · simp [Disp.parses, h] at hp
          · exact h
          · exact absurd hinit (hf ws r h1 h3).1.2
        have hpf := (parse_facts hS f.disp.conn.method (f.inlet.rd.net.length + 1) f.inlet).2
        have hj : (f.readIn H i).parse = Inlet.seen (H.view f.disp.conn.method) (f.inlet.parse (H.parse f.disp.conn.method)).1
          (f.inlet.parse (H.parse f.disp.conn.method)).2.rd.buf := rfl
        change match (f.inlet.parse (H.parse f.disp.conn.method)).1 with
          | .msg a => f.inlet.rd.stream ≠ [] ∧ H.parse f.disp.conn.method f.inlet.rd.stream = (.ok (some a), (f.inlet.parse (H.parse f.disp.conn.method)).2.rd.stream) ∧
              (f.inlet.parse (H.parse f.disp.conn.method)).2.rd.stream <:+ f.inlet.rd.stream
          | .pending => Near H f.inlet.rd.stream (f.inlet.parse (H.parse f.disp.conn.method)).2.rd.stream
          | .error _ => True at hpf
        unfold Fed.read
        rw [if_pos hp, hstep]
        by_cases hm : ∀ m, (f.readIn H i).parse = .msg m → m.wantsUpgrade = false
        · exact .inr (.inl ((HandOver.up_readHead env f.disp _ hm).trans hu))
        · obtain ⟨m, hm⟩ := Classical.not_forall.1 hm
          obtain ⟨hpm, hwu⟩ := Classical.not_imp.1 hm
          have hwu : m.wantsUpgrade = true := by simpa using hwu
          rw [hj] at hpm
          generalize f.inlet.parse (H.parse f.disp.conn.method) = ox at *
          obtain ⟨o, x⟩ := ox
          cases o with
          | pending => cases hpm
          | error e => cases hpm
          | msg a =>
            simp only [Inlet.seen, ParseIn.msg.injEq] at hpm
            subst hpm
            exact .inr (.inr ⟨f.got, _, rfl, hwu, hN hpf.2.1 hwu⟩)
      · have hp' : f.disp.parses i = false := by simpa using hp
        have hu := up_idle env P f.disp i (f.readIn H i) rfl hp'
        unfold Fed.read
        rw [if_neg hp]
        cases hd : f.disp.decodes i with
        | some dec =>
          refine asked_keep h (fun e => HandOver.done_step env P _ e) hu ?_
          intro ws r hg
          obtain ⟨k1, k2, k3⟩ := add_keep r (dec.decode P f.inlet.rd).1 (dec.decode P f.inlet.rd).2.1.isEof
          refine ⟨_, ?_, k2, k3⟩
          dsimp only
          rw [hg, onLast_snoc]
        | none => exact asked_keep h (fun e => HandOver.done_step env P _ e) hu (same rfl)
    · have : f.step env P H (.act a) = { f with disp := f.disp.step env P a } := by
        cases a with
        | read i => exact absurd ⟨i, rfl⟩ hr
        | _ => rfl
      rw [this]
      refine asked_keep h (fun e => HandOver.done_step env P _ e) ?_ (same rfl)
      cases hd : (f.disp.step env P a).done with
      | true => exact .inl rfl
      | false =>
        refine .inr (HandOver.up_step env P a ?_ hd)
        cases a with
        | read i => exact absurd ⟨i, rfl⟩ hr
        | _ => rfl

theorem asked_run (hS : Stable H) (hN : NoReuse H) (env : EncodeEnv) (as : List FAct) : ∀ {f : Fed α}, FI H P mh fin S f → Final H P mh fin S f → Asked H f →
    Asked H (f.run env P H as) := by
  induction as with
  | nil => intro f _ _ h; exact h
  | cons a as ih => intro f hi hf h; exact ih (fi_step hS env hi a) (final_step hS env hi hf a) (asked_step hS hN env hf h a)

/-! ## A server's last message -/

/-- Whatever was in flight has been answered, with more to come. -/
def Served (v : View) : Prop := (v.rd = .init ∨ v.rd = .closed) ∧ v.flight = none ∧ ownLast v.log = false

set_option maxHeartbeats 2000000 in
theorem served_prim {v w : View} (hi : SInv v) (p : Prim v w) (he : readHeads w.log = readHeads v.log) :
    (Served v → Served w) ∧ (v.rd ≠ .init → w.rd ≠ .init ∨ Served w) := by
  have hl := hi.last
  have hin := hi.init
  have hs := hi.server
  have hwr := hi.wrest
  cases p with
  | closeRead => (simp only [Served, ownLast_snoc]; grind)
  | closeWrite hr => (simp only [Served, ownLast_snoc]; grind)
  | readFail hr => (simp only [Served, ownLast_snoc]; grind)
  | writeFail l hw => (simp only [Served, ownLast_snoc]; grind)
  | idle hr hw hk => (simp only [Served, ownLast_snoc]; grind)
  | skip hr => (simp only [Served, ownLast_snoc]; grind)
  | continue100 hr hw => (simp only [Served, ownLast_snoc]; grind)
  | readEnd hr => (simp only [Served, ownLast_snoc]; grind)
  | writeEnd hw => (simp only [Served, ownLast_snoc]; grind)
  | headOut hs hw n hf l w k hk hw' hl => (simp only [Served, ownLast_snoc]; grind)
  | reqOut hs => simp_all
  | headIn hs hr hf e p k hk => rw [readHeads_snoc] at he; simp at he
  | respIn hs => simp_all
  | errorOut hs hr hw hf w hw' => (simp only [Served, ownLast_snoc]; grind)
  | abandon hr hw => (simp only [Served, ownLast_snoc]; grind)
  | shutdown hk => (simp only [Served, ownLast_snoc]; grind)
  | shutdownIdle hk => (simp only [Served, ownLast_snoc]; grind)
  | wanted k => (simp only [Served, ownLast_snoc]; grind)

theorem heads_prim {v w : View} (p : Prim v w) : readHeads v.log ≤ readHeads w.log := by
  cases p <;> simp only [readHeads_snoc] <;> omega

theorem heads_steps {v w : View} (p : Steps v w) : readHeads v.log ≤ readHeads w.log := by
  induction p with
  | refl => exact Nat.le_refl _
  | tail _ p ih => exact Nat.le_trans ih (heads_prim p)

theorem served_steps {v w : View} (hi : SInv v) (p : Steps v w) (he : readHeads w.log = readHeads v.log) :
    (Served v → Served w) ∧ (v.rd ≠ .init → w.rd ≠ .init ∨ Served w) := by
  induction p with
  | refl => exact ⟨id, .inl⟩
  | tail q p ih =>
    have h1 := heads_steps q
    have h2 := heads_prim p
    obtain ⟨i1, i2⟩ := ih (by omega)
    obtain ⟨j1, j2⟩ := served_prim (q.keep (fun _ _ => SInv.prim) hi) p (by omega)
    refine ⟨fun h => j1 (i1 h), fun h => ?_⟩
    rcases i2 h with h | h
    · exact j2 h
    · exact .inr (j1 h)

/-- A server's connection stands after its last message, or has answered it and can be used again. -/
def Standing (H : HeadFn α) (P : TrailerParser) (mh : Option Nat) (fin : NetEnd) (S : Bytes) (f : Fed α) : Prop :=
  SInv f.disp.view ∧ ∀ ws (r : Received α), f.got = ws ++ [r] →
    (f.disp.view.rd ≠ .init ∧ Stops H P mh fin S ws r f.inlet.rd.stream) ∨ Served f.disp.view

theorem heads_len {f : Fed α} (hi : FI H P mh fin S f) : readHeads f.disp.view.log = f.got.length := by
  rw [view_log]
  have h := congrArg List.length hi.heads
  rw [List.length_map, ← List.countP_eq_length_filter] at h
  rw [← h]
  unfold readHeads
  congr 1

theorem stands_quiet {f g : Fed α} (h : Standing H P mh fin S f) (hi : FI H P mh fin S f) (hi' : FI H P mh fin S g)
    (hp : Steps f.disp.view g.disp.view) (hl : g.got.length = f.got.length)
    (hs : ∀ ws (r : Received α), g.got = ws ++ [r] → ∃ ws0 r0, f.got = ws0 ++ [r0] ∧
      (Stops H P mh fin S ws0 r0 f.inlet.rd.stream → Stops H P mh fin S ws r g.inlet.rd.stream)) : Standing H P mh fin S g := by
  obtain ⟨h1, h2⟩ := h
  refine ⟨hp.keep (fun _ _ => SInv.prim) h1, fun ws r hg => ?_⟩
  obtain ⟨ws0, r0, e, hst⟩ := hs ws r hg
  obtain ⟨j1, j2⟩ := served_steps h1 hp (by rw [heads_len hi, heads_len hi', hl])
  rcases h2 ws0 r0 e with ⟨g1, g2⟩ | g
  · rcases j2 g1 with g1 | g1
    · exact .inl ⟨g1, hst g2⟩
    · exact .inr g1
  · exact .inr (j1 g)

theorem r_head (env : EncodeEnv) (d : Disp) (j : ReadIn) (m : MsgIn) (hc : d.conn.client = false) (hp : j.parse = .msg m) :
    (d.readHeadReady env j).done = true ∨ (d.readHeadReady env j).inFlight ≠ none := by
  unfold Disp.readHeadReady Conn.pollReadHead
  simp only [hp, Disp.afterHead, Disp.recvHead]
  have hcl : ((d.conn.startTimer j.t0).acceptHead m d.headId j.notify).client = false := by
    rw [(acceptHead_facts (d.conn.startTimer j.t0) m d.headId j.notify).1, startTimer_client]; exact hc
  have en : ∀ x : Disp, (x.newBody m).conn = x.conn := by intro x; unfold Disp.newBody; split <;> rfl
  rw [if_neg (by simp only [en]; rw [hcl]; simp)]
  exact .inr (by simp)

theorem standing_parse (hS : Stable H) (env : EncodeEnv) {f : Fed α} (hi : FI H P mh fin S f) (h : Standing H P mh fin S f) (i : ReadIn)
    (hi' : FI H P mh fin S (f.read env P H i)) (hp : f.disp.parses i = true) : Standing H P mh fin S (f.read env P H i) := by
  obtain ⟨hstep, hinit⟩ := step_parses env P f.disp i (f.readIn H i) rfl hp
  obtain ⟨t, hreads, hnear⟩ := pos_init hi.pos hinit
  have hpf := (parse_facts hS f.disp.conn.method (f.inlet.rd.net.length + 1) f.inlet).2
  have hlive : f.disp.done = false := by
    cases hd : f.disp.done with
    | false => rfl
    | true => simp [Disp.parses, hd] at hp
  have hcli : f.disp.conn.client = false := by
    have := h.1.server
    rw [view_live hlive] at this
    exact this
  have hvi : f.disp.view.rd = .init := by
    rw [view_live hlive]
    simp [Conn.view, hinit, Reading.tag]
  have hsv : ∀ ws (r : Received α), f.got = ws ++ [r] → Served f.disp.view := by
    intro ws r e
    rcases h.2 ws r e with ⟨g, _⟩ | g
    · exact absurd hvi g
    · exact g
  have hsteps := step_steps env P f.disp (.read (f.readIn H i))
  have hj : (f.readIn H i).parse = Inlet.seen (H.view f.disp.conn.method) (f.inlet.parse (H.parse f.disp.conn.method)).1
    (f.inlet.parse (H.parse f.disp.conn.method)).2.rd.buf := rfl
  change match (f.inlet.parse (H.parse f.disp.conn.method)).1 with
    | .msg a => f.inlet.rd.stream ≠ [] ∧ H.parse f.disp.conn.method f.inlet.rd.stream = (.ok (some a), (f.inlet.parse (H.parse f.disp.conn.method)).2.rd.stream) ∧
        (f.inlet.parse (H.parse f.disp.conn.method)).2.rd.stream <:+ f.inlet.rd.stream
    | .pending => Near H f.inlet.rd.stream (f.inlet.parse (H.parse f.disp.conn.method)).2.rd.stream
    | .error _ => True at hpf
  have hlen := heads_len hi'
  unfold Fed.read at hlen ⊢
  rw [if_pos hp] at hlen ⊢
  have hquiet : (f.begin H (f.inlet.parse (H.parse f.disp.conn.method)).1) = f.got →
      ∀ ws (r : Received α), f.got = ws ++ [r] → Served (f.disp.step env P (.read (f.readIn H i))).view := by
    intro e ws r hg
    refine (served_steps h.1 hsteps ?_).1 (hsv ws r hg)
    dsimp only at hlen
    rw [hlen, e, heads_len hi]
  refine ⟨hsteps.keep (fun _ _ => SInv.prim) h.1, ?_⟩
  have hsi := hsteps.keep (fun _ _ => SInv.prim) h.1
  dsimp only
  intro ws r hg
  generalize f.inlet.parse (H.parse f.disp.conn.method) = ox at *
  obtain ⟨o, x⟩ := ox
  dsimp only at hpf hg hj hquiet ⊢
  cases o with
  | pending => exact .inr (hquiet rfl ws r hg)
  | error e => exact .inr (hquiet rfl ws r hg)
  | msg a =>
    obtain ⟨hne, hparse, hsuf⟩ := hpf
    simp only [Fed.begin] at hg
    obtain ⟨rfl, e⟩ := List.append_inj' hg rfl
    simp only [List.cons.injEq, and_true] at e
    subst e
    refine .inl ⟨fun hrd => ?_, stops_begin hreads ((hnear.parse hne _).trans hparse) (hsuf.trans hnear.1)⟩
    rw [hstep] at hsi hrd
    have hfl := (hsi.init hrd).2.1
    rcases r_head env f.disp _ _ hcli hj with hd | hd
    · simp [Disp.view, hd] at hrd
    · unfold Disp.view at hfl hrd
      split at hfl
      · rename_i hdn; rw [if_pos hdn] at hrd; cases hrd
      · exact hd hfl

theorem standing_step (hS : Stable H) (env : EncodeEnv) {f : Fed α} (hi : FI H P mh fin S f) (h : Standing H P mh fin S f) (a : FAct) :
    Standing H P mh fin S (f.step env P H a) := by
  have hi' := fi_step hS env hi a
  cases a with
  | pull =>
    refine stands_quiet h hi hi' (.refl _) rfl (fun ws r hg => ⟨ws, r, hg, fun hs => ?_⟩)
    change Stops H P mh fin S ws r f.inlet.peek.rd.stream
    rw [(peek_facts f.inlet).1]
    exact hs
  | act a =>
    by_cases hr : ∃ i, a = .read i
    · obtain ⟨i, rfl⟩ := hr
      change Standing H P mh fin S (f.read env P H i)
      replace hi' : FI H P mh fin S (f.read env P H i) := hi'
      by_cases hp : f.disp.parses i = true
      · exact standing_parse hS env hi h i hi' hp
      · have hsteps := step_steps env P f.disp (.read (f.readIn H i))
        unfold Fed.read at hi' ⊢
        rw [if_neg hp] at hi' ⊢
        cases hd : f.disp.decodes i with
        | some dec =>
          rw [hd] at hi'
          refine stands_quiet h hi hi' hsteps (onLast_length _ _) (fun ws r hg => ?_)
          dsimp only at hg ⊢
          obtain ⟨r0, hg0, k2, k3⟩ := onLast_last hg
          refine ⟨ws, r0, hg0, fun hs => stops_decode hi (decodes_rk hd) hg ?_⟩
          intro ws1 r1 e _ _
          rw [hg0] at e
          obtain ⟨e1, e⟩ := List.append_inj' e rfl
          injection e with e2
          subst e1 e2
          exact hs
        | none =>
          rw [hd] at hi'
          exact stands_quiet h hi hi' hsteps rfl (fun ws r hg => ⟨ws, r, hg, id⟩)
    · have : f.step env P H (.act a) = { f with disp := f.disp.step env P a } := by
        cases a with
        | read i => exact absurd ⟨i, rfl⟩ hr
        | _ => rfl
      rw [this] at hi' ⊢
      exact stands_quiet h hi hi' (step_steps env P f.disp a) rfl (fun ws r hg => ⟨ws, r, hg, id⟩)

theorem standing_run (hS : Stable H) (env : EncodeEnv) (as : List FAct) : ∀ {f : Fed α}, FI H P mh fin S f → Standing H P mh fin S f →
    Standing H P mh fin S (f.run env P H as) := by
  induction as with
  | nil => intro f _ h; exact h
  | cons a as ih => intro f hi h; exact ih (fi_step hS env hi a) (standing_step hS env hi h a)

theorem ownLast_of_mem {l : List Ev} {n : Nat} (h : Ev.writeHead n true ∈ l) : ownLast l = true := by
  unfold ownLast
  exact List.any_eq_true.2 ⟨_, h, rfl⟩

/-! ## Some message asks for an upgrade -/

/-- A connection that is to be upgraded has been asked for it. -/
def Wanted (H : HeadFn α) (f : Fed α) : Prop :=
  f.disp.done = true ∨ f.disp.conn.upgrade = false ∨ ∃ r ∈ f.got, (H.view r.method r.head).wantsUpgrade = true

theorem wanted_keep {f f' : Fed α} (h : Wanted H f) (hd : f.disp.done = true → f'.disp.done = true)
    (hu : f'.disp.done = true ∨ f'.disp.conn.upgrade = f.disp.conn.upgrade ∨ ∃ r ∈ f'.got, (H.view r.method r.head).wantsUpgrade = true)
    (hg : ∀ r ∈ f.got, ∃ r' ∈ f'.got, r'.method = r.method ∧ r'.head = r.head) : Wanted H f' := by
  rcases h with h | h | ⟨r, h1, h2⟩
  · exact .inl (hd h)
  · rcases hu with e | e | e
    · exact .inl e
    · exact .inr (.inl (e.trans h))
    · exact .inr (.inr e)
  · obtain ⟨r', g1, g2, g3⟩ := hg r h1
    exact .inr (.inr ⟨r', g1, by rw [g2, g3]; exact h2⟩)

theorem wanted_step (env : EncodeEnv) {f : Fed α} (h : Wanted H f) (a : FAct) : Wanted H (f.step env P H a) := by
  have same : ∀ {f' : Fed α}, f'.got = f.got → ∀ r ∈ f.got, ∃ r' ∈ f'.got, r'.method = r.method ∧ r'.head = r.head :=
    fun e r h => ⟨r, e ▸ h, rfl, rfl⟩
  cases a with
  | pull => exact wanted_keep h id (.inr (.inl rfl)) (same rfl)
  | act a =>
    by_cases hr : ∃ i, a = .read i
    · obtain ⟨i, rfl⟩ := hr
      change Wanted H (f.read env P H i)
      by_cases hp : f.disp.parses i = true
      · obtain ⟨hstep, hinit⟩ := step_parses env P f.disp i (f.readIn H i) rfl hp
        have hj : (f.readIn H i).parse = Inlet.seen (H.view f.disp.conn.method) (f.inlet.parse (H.parse f.disp.conn.method)).1
          (f.inlet.parse (H.parse f.disp.conn.method)).2.rd.buf := rfl
        unfold Fed.read
        rw [if_pos hp]
        refine wanted_keep h (fun e => HandOver.done_step env P _ e) ?_ ?_
        · dsimp only
          rw [hstep]
          by_cases hm : ∀ m, (f.readIn H i).parse = .msg m → m.wantsUpgrade = false
          · exact .inr (.inl (HandOver.up_readHead env f.disp _ hm))
          · obtain ⟨m, hm⟩ := Classical.not_forall.1 hm
            obtain ⟨hpm, hwu⟩ := Classical.not_imp.1 hm
            have hwu : m.wantsUpgrade = true := by simpa using hwu
            rw [hj] at hpm
            generalize f.inlet.parse (H.parse f.disp.conn.method) = ox at *
            obtain ⟨o, x⟩ := ox
            cases o with
            | pending => cases hpm
            | error e => cases hpm
            | msg a =>
              simp only [Inlet.seen, ParseIn.msg.injEq] at hpm
              subst hpm
              exact .inr (.inr ⟨_, by simp only [Fed.begin]; exact List.mem_append_right _ (List.mem_singleton.2 rfl), hwu⟩)
        · intro r hr
          refine ⟨r, ?_, rfl, rfl⟩
          dsimp only
          cases (f.inlet.parse (H.parse f.disp.conn.method)).1 with
          | pending => exact hr
          | error e => exact hr
          | msg a => exact List.mem_append_left _ hr
      · have hp' : f.disp.parses i = false := by simpa using hp
        have hu := up_idle env P f.disp i (f.readIn H i) rfl hp'
        have hu' : ∀ {X : Prop}, (f.disp.step env P (.read (f.readIn H i))).done = true ∨
            (f.disp.step env P (.read (f.readIn H i))).conn.upgrade = f.disp.conn.upgrade ∨ X := by
          intro X
          rcases hu with e | e
          · exact .inl e
          · exact .inr (.inl e)
        unfold Fed.read
        rw [if_neg hp]
        cases hd : f.disp.decodes i with
        | some dec =>
          refine wanted_keep h (fun e => HandOver.done_step env P _ e) hu' ?_
          intro r hr
          dsimp only
          rcases List.eq_nil_or_concat f.got with e | ⟨ws, r0, e⟩
          · rw [e] at hr; cases hr
          · rw [List.concat_eq_append] at e
            rw [e] at hr ⊢
            rw [onLast_snoc]
            rcases List.mem_append.1 hr with hr | hr
            · exact ⟨r, List.mem_append_left _ hr, rfl, rfl⟩
            · rw [List.mem_singleton] at hr
              subst hr
              obtain ⟨_, k2, k3⟩ := add_keep r (dec.decode P f.inlet.rd).1 (dec.decode P f.inlet.rd).2.1.isEof
              exact ⟨_, List.mem_append_right _ (List.mem_singleton.2 rfl), k2, k3⟩
        | none => exact wanted_keep h (fun e => HandOver.done_step env P _ e) hu' (same rfl)
    · have : f.step env P H (.act a) = { f with disp := f.disp.step env P a } := by
        cases a with
        | read i => exact absurd ⟨i, rfl⟩ hr
        | _ => rfl
      rw [this]
      refine wanted_keep h (fun e => HandOver.done_step env P _ e) ?_ (same rfl)
      cases hd : (f.disp.step env P a).done with
      | true => exact .inl rfl
      | false =>
        refine .inr (.inl (HandOver.up_step env P a ?_ hd))
        cases a with
        | read i => exact absurd ⟨i, rfl⟩ hr
        | _ => rfl

theorem wanted_run (env : EncodeEnv) (as : List FAct) : ∀ {f : Fed α}, Wanted H f → Wanted H (f.run env P H as) := by
  induction as with
  | nil => intro f h; exact h
  | cons a as ih => intro f h; exact ih (wanted_step env h a)

end

end Hyper.Input
