import Verif.Proof.DispBody

/-!
# No byte of a body is passed on before the `100 Continue` its sender waits for
-/

namespace Hyper

open Spec

namespace Owed

/-- Nothing of the body has been passed on. -/
def Blank (ch : Chan) : Prop := (∀ bs, Item.data bs ∉ ch.items) ∧ ch.trailers = none

/-- No request head. -/
def NoHead (e : Ev) : Prop := ∀ m x q, e ≠ .readHead m x q

theorem noHead_of_plain {e : Ev} (h : Plain e) : NoHead e := h.2

theorem noHead_of_quiet {e : Ev} (h : Quiet e) : NoHead e := by
  intro m x q he; rw [he] at h; exact h

/-- Induction from the end. -/
theorem snocInd {α : Type} {p : List α → Prop} (h0 : p []) (hs : ∀ l a, p l → p (l ++ [a])) (l : List α) : p l := by
  have : ∀ r : List α, p r.reverse := by
    intro r
    induction r with
    | nil => exact h0
    | cons a r ih => rw [List.reverse_cons]; exact hs _ _ ih
  have := this l.reverse
  rwa [List.reverse_reverse] at this

/-- The last head lies in the old part of a history to which no head was added. -/
theorem split_old {log l a mid : List Ev} {n : Nat} {x p : Bool} (hl : ∀ e ∈ l, NoHead e)
    (h : log ++ l = a ++ .readHead n x p :: mid) : ∃ m0, log = a ++ .readHead n x p :: m0 ∧ mid = m0 ++ l := by
  rcases List.append_eq_append_iff.1 h with ⟨b, h1, h2⟩ | ⟨b, h1, h2⟩
  · exact absurd rfl (hl (.readHead n x p) (by rw [h2]; simp) n x p)
  · cases b with
    | nil =>
      simp at h2
      exact absurd rfl (hl (.readHead n x p) (by rw [← h2]; simp) n x p)
    | cons y ys =>
      simp at h2
      exact ⟨ys, by rw [h1, h2.1], h2.2⟩

/-- A step that passes nothing on and leaves `Reading::Continue` only by giving up on the body. -/
structure Still (d d' : Disp) : Prop where
  log : ∃ l, d'.conn.log = d.conn.log ++ l ∧ ∀ e ∈ l, NoHead e
  chans : ∀ ch' ∈ d'.chans, ∃ ch ∈ d.chans, ch'.id = ch.id ∧ (Blank ch → Blank ch')
  next : d.next ≤ d'.next
  rd : d'.bodyTx ≠ none → d'.conn.canReadBody = true →
    d.bodyTx ≠ none ∧ d.conn.canReadBody = true ∧ (∀ dec, d.conn.reading = .cont dec → ∃ dec', d'.conn.reading = .cont dec')

theorem Still.refl (d : Disp) : Still d d :=
  ⟨⟨[], by simp, by simp⟩, fun ch h => ⟨ch, h, rfl, id⟩, Nat.le_refl _, fun h h' => ⟨h, h', fun dec hd => ⟨dec, hd⟩⟩⟩

theorem Still.trans {d d' d'' : Disp} (h : Still d d') (h' : Still d' d'') : Still d d'' := by
  refine ⟨?_, ?_, Nat.le_trans h.next h'.next, ?_⟩
  · obtain ⟨l, h1, h2⟩ := h.log
    obtain ⟨l', h3, h4⟩ := h'.log
    refine ⟨l ++ l', by rw [h3, h1]; simp, ?_⟩
    intro e he
    rcases List.mem_append.1 he with he | he
    · exact h2 e he
    · exact h4 e he
  · intro ch hc
    obtain ⟨c1, hc1, e1, b1⟩ := h'.chans ch hc
    obtain ⟨c2, hc2, e2, b2⟩ := h.chans c1 hc1
    exact ⟨c2, hc2, e1.trans e2, fun hb => b1 (b2 hb)⟩
  · intro hb hr
    obtain ⟨g1, g2, g3⟩ := h'.rd hb hr
    obtain ⟨f1, f2, f3⟩ := h.rd g1 g2
    refine ⟨f1, f2, fun dec hd => ?_⟩
    obtain ⟨dec', hd'⟩ := f3 dec hd
    exact g3 dec' hd'

/-- A calm change of the connection. -/
theorem Still.calm {d d' : Disp} (hc : Calm d.conn d'.conn) (h1 : d'.bodyTx = d.bodyTx) (h2 : d'.chans = d.chans) (h3 : d.next ≤ d'.next) :
    Still d d' := by
  refine ⟨?_, by rw [h2]; exact fun ch h => ⟨ch, h, rfl, id⟩, h3, ?_⟩
  · obtain ⟨l, g1, g2⟩ := hc.log
    exact ⟨l, g1, fun e he => noHead_of_plain (g2 e he)⟩
  · rw [h1]
    intro hb hr
    have hr0 : d.conn.canReadBody = true := by
      cases hx : d.conn.canReadBody
      · rw [hc.cont hx] at hr; exact hr
      · rfl
    refine ⟨hb, hr0, fun dec hd => ⟨dec, ?_⟩⟩
    rw [hc.keep hr0, hd]

/-- A change of a channel. -/
theorem upd_chans {cs : List Chan} {k : Nat} {f : Chan → Chan} (hf : ∀ ch, (f ch).id = ch.id ∧ (Blank ch → Blank (f ch))) :
    ∀ ch' ∈ updChan cs k f, ∃ ch ∈ cs, ch'.id = ch.id ∧ (Blank ch → Blank ch') := by
  intro ch' h
  obtain ⟨j, hj⟩ := List.mem_iff_getElem?.1 h
  obtain ⟨c0, hc0, rfl⟩ := getElem?_upd _ _ _ _ _ hj
  refine ⟨c0, List.mem_of_getElem? hc0, ?_⟩
  split
  · exact hf c0
  · exact ⟨rfl, id⟩

theorem upd_ids {cs : List Chan} {k : Nat} {f : Chan → Chan} (hf : ∀ ch, (f ch).id = ch.id) :
    ∀ ch' ∈ updChan cs k f, ∃ ch ∈ cs, ch'.id = ch.id := by
  intro ch' h
  obtain ⟨j, hj⟩ := List.mem_iff_getElem?.1 h
  obtain ⟨c0, hc0, rfl⟩ := getElem?_upd _ _ _ _ _ hj
  refine ⟨c0, List.mem_of_getElem? hc0, ?_⟩
  split
  · exact hf c0
  · rfl

theorem blank_fail (ch : Chan) : ch.fail.id = ch.id ∧ (Blank ch → Blank ch.fail) := by
  refine ⟨rfl, fun h => ⟨?_, h.2⟩⟩
  intro bs hb
  simp only [Chan.fail, List.mem_append, List.mem_cons, List.not_mem_nil, or_false, reduceCtorEq] at hb
  exact h.1 bs hb

theorem blank_drop (ch : Chan) : ch.dropSender.id = ch.id ∧ (Blank ch → Blank ch.dropSender) := ⟨rfl, id⟩

theorem still_close (d : Disp) : Still d d.close :=
  ⟨⟨[], by simp [Disp.close, Conn.closeRead, Conn.closeWrite], by simp⟩, fun ch h => ⟨ch, h, rfl, id⟩, Nat.le_refl _,
    fun _ h => by simp [Disp.close, Conn.closeRead, Conn.closeWrite, Conn.canReadBody] at h⟩

theorem still_failBody (d : Disp) : Still d d.failBody ∧ d.failBody.bodyTx = none := by
  unfold Disp.failBody
  cases ht : d.bodyTx with
  | none => simp only; exact ⟨.refl d, ht⟩
  | some k =>
    exact ⟨⟨⟨[], by simp, by simp⟩, upd_chans blank_fail, Nat.le_refl _, fun h => absurd rfl h⟩, rfl⟩

theorem still_fail (d : Disp) : Still d d.fail := by
  obtain ⟨h1, h2⟩ := still_failBody d
  exact h1.trans ⟨⟨[], by simp [Disp.fail], by simp⟩, fun ch h => ⟨ch, h, rfl, id⟩, Nat.le_refl _, fun h => absurd h2 h⟩

theorem still_recvErr (d : Disp) : Still d d.recvErr := by
  unfold Disp.recvErr
  split
  · split
    · exact (Still.calm (d := d) (d' := { d with inFlight := none }) (.refl _) rfl rfl (Nat.le_refl _)).trans (still_close _)
    · exact still_fail d
  · exact still_fail d

theorem still_dropBody (d : Disp) (k : Nat) : Still d (d.dropBody k) :=
  ⟨⟨[], by simp [Disp.dropBody], by simp⟩, upd_chans blank_drop, Nat.le_refl _, fun h => absurd rfl h⟩

theorem still_writeHead (env : EncodeEnv) (d : Disp) (m : MsgOut) : Still d (d.writeHead env m) := by
  unfold Disp.writeHead
  cases m with
  | pending => exact .refl d
  | none => simp only; split; exact still_close d; exact .refl d
  | err => simp only; split; exact .refl d; exact still_fail d
  | resp m =>
    simp only
    split
    · exact .refl d
    · exact .calm (calm_writeResp _ env m _ (fun _ => ⟨by simp, by simp⟩)) rfl rfl (Nat.le_refl _)
  | req hd body =>
    simp only
    split
    · exact .calm (calm_writeReq _ hd body _) rfl rfl (Nat.le_succ _)
    · exact .refl d

theorem still_flushTurn (d : Disp) (f : FlushIn) (i : NotifyIn) : Still d (d.flushTurn f i) := by
  have h1 : Still d { d with conn := (d.conn.pollFlush f i).2 } := .calm (calm_pollFlush _ f i) rfl rfl (Nat.le_refl _)
  unfold Disp.flushTurn
  simp only
  split
  · exact h1
  · exact h1.trans (still_fail _)

theorem still_endBody (d : Disp) : Still d d.endBody := by
  have h1 : Still d { d with conn := d.conn.endBody.2 } := .calm (calm_endBody _) rfl rfl (Nat.le_refl _)
  unfold Disp.endBody
  simp only
  split
  · exact h1.trans (still_fail _)
  · exact h1

theorem still_writeTurn (d : Disp) (env : EncodeEnv) (i : WriteIn) : Still d (d.writeTurn env i) := by
  have h0 : Still d { d with bodyRx := false } := .calm (.refl _) rfl rfl (Nat.le_refl _)
  unfold Disp.writeTurn
  split
  · exact .refl d
  · split
    · exact still_writeHead env d i.msg
    · split
      · exact still_flushTurn d _ _
      · split
        · split
          · unfold Disp.writeFrame
            split
            · exact .refl d
            · exact h0.trans (still_endBody _)
            · split
              · exact h0.trans (still_endBody _)
              · exact .calm (calm_writeBodyAndEnd _ _) rfl rfl (Nat.le_refl _)
            · split
              · exact .refl d
              · exact .calm (calm_writeBody _ _) rfl rfl (Nat.le_refl _)
            · exact .calm (calm_writeTrailers _ _) rfl rfl (Nat.le_refl _)
            · exact .refl d
            · exact h0.trans (still_fail _)
          · exact h0
        · split
          · exact still_endBody d
          · exact .refl d

theorem still_complete (d : Disp) : Still d d.complete := by
  unfold Disp.complete
  split
  · exact (Still.calm (d := d) (d' := { d with conn := { d.conn with error := false } }) (.of_eq rfl id rfl) rfl rfl (Nat.le_refl _)).trans (still_fail _)
  · exact .calm (.refl _) rfl rfl (Nat.le_refl _)

theorem still_finishTurn (d : Disp) (s : Bool) (f : FlushIn) : Still d (d.finishTurn s f) := by
  unfold Disp.finishTurn
  split
  · exact .refl d
  · split
    · exact (Still.calm (d := d) (d' := { d with conn := { d.conn with upgrade := false } }) (.of_eq rfl id rfl) rfl rfl (Nat.le_refl _)).trans (still_complete _)
    · split
      · have h1 : Still d { d with conn := (d.conn.pollShutdown f).2 } := .calm (calm_pollShutdown _ f) rfl rfl (Nat.le_refl _)
        simp only
        split
        · exact h1
        · split
          · exact h1.trans (still_complete _)
          · exact h1.trans (still_fail _)
      · exact still_complete d

theorem still_disable {d : Disp} (h : DInv d) (hd : d.done = false) (b : Bool) : Still d (d.disableKeepAlive b) := by
  have h1 : Still d { d with conn := d.conn.disableKeepAlive } := .calm (calm_disableKeepAlive _ (h.awake hd)) rfl rfl (Nat.le_refl _)
  unfold Disp.disableKeepAlive
  simp only
  split
  · exact h1.trans (still_close _)
  · exact h1

theorem still_want (d : Disp) (k : Nat) : Still d (d.want k) := by
  unfold Disp.want
  split
  · split
    · exact ⟨⟨_, rfl, by simp [NoHead]⟩, upd_chans (fun ch => ⟨rfl, id⟩), Nat.le_refl _, fun h h' => ⟨h, h', fun dec hd => ⟨dec, hd⟩⟩⟩
    · exact .refl d
  · exact .refl d

theorem still_loseReader (d : Disp) (k : Nat) : Still d (d.loseReader k) :=
  ⟨⟨[], by simp [Disp.loseReader], by simp⟩, upd_chans (fun ch => ⟨rfl, id⟩), Nat.le_refl _, fun h h' => ⟨h, h', fun dec hd => ⟨dec, hd⟩⟩⟩

theorem still_readIdle (d : Disp) (i : ReadIn) (ht : d.bodyTx = none) : Still d (d.readIdle i) := by
  have h1 : Still d { d with conn := (d.conn.pollReadKeepAlive i.bufEmpty i.io).2 } := by
    refine ⟨?_, fun ch h => ⟨ch, h, rfl, id⟩, Nat.le_refl _, fun h => absurd ht h⟩
    rcases pollReadKeepAlive_fields d.conn i.bufEmpty i.io with hx | ⟨_, hy⟩
    · exact ⟨[], by simp [hx], by simp⟩
    · exact ⟨[], by simp [hy], by simp⟩
  unfold Disp.readIdle
  simp only
  split
  · exact h1.trans (still_fail _)
  · exact h1

/-- The claim, with what it needs to be kept. -/
structure Inv (d : Disp) : Prop where
  ids : ∀ ch ∈ d.chans, ch.id < d.next
  cont : ∀ a n p mid, d.conn.log = a ++ .readHead n true p :: mid → (∀ e ∈ mid, Quiet e) → d.bodyTx ≠ none → d.conn.canReadBody = true →
    ∃ dec, d.conn.reading = .cont dec
  empty : ∀ a n p mid, d.conn.log = a ++ .readHead n true p :: mid → (∀ e ∈ mid, Quiet e) → ∀ ch ∈ d.chans, ch.id = n → Blank ch

theorem Inv.still {d d' : Disp} (h : Inv d) (hs : Still d d') : Inv d' := by
  obtain ⟨l, hl, hp⟩ := hs.log
  refine ⟨?_, ?_, ?_⟩
  · intro ch hch
    obtain ⟨c0, hc0, e, _⟩ := hs.chans ch hch
    rw [e]
    exact Nat.lt_of_lt_of_le (h.ids c0 hc0) hs.next
  · intro a n p mid hlog hq hb hr
    rw [hl] at hlog
    obtain ⟨m0, g1, g2⟩ := split_old hp hlog
    obtain ⟨f1, f2, f3⟩ := hs.rd hb hr
    obtain ⟨dec, hd⟩ := h.cont a n p m0 g1 (fun e he => hq e (by rw [g2]; simp [he])) f1 f2
    exact f3 dec hd
  · intro a n p mid hlog hq ch hch hid
    rw [hl] at hlog
    obtain ⟨m0, g1, g2⟩ := split_old hp hlog
    obtain ⟨c0, hc0, e, hb⟩ := hs.chans ch hch
    exact hb (h.empty a n p m0 g1 (fun e he => hq e (by rw [g2]; simp [he])) c0 hc0 (e.symm.trans hid))

/-- While the server still reads and has begun to write, the response to the last request has begun. -/
def Begun (v : View) : Prop := v.rd ≠ .closed → v.wr ≠ .init → writeHeads v.log = v.next

theorem Begun.prim {v w : View} (h : Begun v) (hi : SInv v) (p : Prim v w) : Begun w := by
  have hs := hi.server
  cases p with
  | closeRead => intro h'; simp at h'
  | closeWrite hr => intro h'; simp [hr] at h'
  | readFail hr => intro h'; simp at h'
  | writeFail l hw => intro h1 _; exact h h1 (by simp [hw])
  | idle hr hw hk => intro _ h'; simp at h'
  | skip hr => intro _ h2; exact h (by simp [hr]) h2
  | continue100 hr hw => intro _ h2; exact absurd hw h2
  | readEnd hr => intro _ h2; simpa [writeHeads_snoc] using h (by simp [hr]) h2
  | writeEnd hw => intro h1 _; simpa [writeHeads_snoc] using h h1 (by simp [hw])
  | headOut hs hw n hf l w k hk hw' hl =>
    intro h1 _
    have := hi.flight n hw hf
    simp [writeHeads_snoc]; omega
  | reqOut hs' => exact absurd hs' (by simp [hs])
  | headIn hs hr hf e p k hk =>
    intro _ h2
    exact absurd (hi.init hr).1 h2
  | respIn hs' => exact absurd hs' (by simp [hs])
  | errorOut hs hr hw hf w hw' => intro h'; simp at h'
  | abandon hr hw => intro h'; simp [hr] at h'
  | shutdown hk => intro h1 h2; simpa [writeHeads_snoc] using h h1 h2
  | shutdownIdle hk => intro h'; simp at h'
  | wanted k => intro h1 h2; simpa [writeHeads_snoc] using h h1 h2

/-- What is known of a connection on which a request waits for `100 Continue`: it has not begun to answer. -/
theorem not_begun {d : Disp} (hd : d.done = false) (hi : SInv d.view) (ho : Each ServerOrder d.view.log) (hb : Begun d.view) {a mid : List Ev}
    {n : Nat} {p : Bool} (hl : d.conn.log = a ++ .readHead n true p :: mid) (hq : ∀ e ∈ mid, Quiet e) (hr : d.conn.canReadBody = true) :
    d.conn.writing = .init := by
  rw [view_live hd] at hi ho hb
  have h1 : readHeads d.conn.log = d.next := hi.heads
  have h2 := ho a (.readHead n true p) mid hl
  simp only [ServerOrder] at h2
  have h3 : ∀ (m : List Ev), (∀ e ∈ m, Quiet e) → readHeads (a ++ .readHead n true p :: m) = readHeads a + 1 ∧
      writeHeads (a ++ .readHead n true p :: m) = writeHeads a := by
    intro m
    induction m using snocInd with
    | h0 => intro _; simp
    | hs m e ih =>
      intro hm
      have he := hm e (by simp)
      have := ih (fun e he => hm e (by simp [he]))
      rw [show a ++ Ev.readHead n true p :: (m ++ [e]) = (a ++ .readHead n true p :: m) ++ [e] by simp]
      rw [readHeads_snoc, writeHeads_snoc, this.1, this.2]
      cases e <;> first | exact ⟨rfl, rfl⟩ | exact absurd he (by simp [Quiet])
  have h4 := h3 mid hq
  rw [← hl] at h4
  apply Classical.byContradiction
  intro hw
  have h5 : writeHeads d.conn.log = d.next := by
    refine hb ?_ ?_
    · simp only [Conn.view]
      cases hx : d.conn.reading <;> simp [Conn.canReadBody, hx, Reading.tag] at hr ⊢
    · simp only [Conn.view]
      cases hx : d.conn.writing <;> simp [hx, Writing.tag] at hw ⊢
  omega

theorem afterPiece_ids (d : Disp) (k : Nat) (gone : Bool) (o : BodyRes) :
    (∀ ch' ∈ (d.afterPiece k gone o).chans, ∃ ch ∈ d.chans, ch'.id = ch.id) ∧ (d.afterPiece k gone o).next = d.next ∧
      (d.afterPiece k gone o).conn.client = d.conn.client ∧ (d.afterPiece k gone o).conn.log = d.conn.log := by
  have hm : ∀ b, ∀ ch' ∈ (d.markComplete k b).chans, ∃ ch ∈ d.chans, ch'.id = ch.id := by
    intro b
    unfold Disp.markComplete
    cases b
    · exact fun ch h => ⟨ch, h, rfl⟩
    · exact upd_ids (fun _ => rfl)
  have hcomp : ∀ b (f : Chan → Chan), (∀ ch, (f ch).id = ch.id) → ∀ ch' ∈ updChan (d.markComplete k b).chans k f, ∃ ch ∈ d.chans, ch'.id = ch.id := by
    intro b f hf ch' h
    obtain ⟨c0, hc0, e0⟩ := upd_ids hf ch' h
    obtain ⟨c1, hc1, e1⟩ := hm b c0 hc0
    exact ⟨c1, hc1, e0.trans e1⟩
  have hdel : ∀ b (f : Chan → Chan), (∀ ch, (f ch).id = ch.id) →
      (∀ ch' ∈ ((d.markComplete k b).deliver k gone f).chans, ∃ ch ∈ d.chans, ch'.id = ch.id) ∧ ((d.markComplete k b).deliver k gone f).next = d.next ∧
      ((d.markComplete k b).deliver k gone f).conn.client = d.conn.client ∧ ((d.markComplete k b).deliver k gone f).conn.log = d.conn.log := by
    intro b f hf
    have mf := markComplete_fields d k b
    unfold Disp.deliver
    split
    · simp only
      split
      · exact ⟨hcomp b _ (fun _ => rfl), mf.2.1, by simp [Disp.dropBody, Conn.closeRead, mf.1], by simp [Disp.dropBody, Conn.closeRead, mf.1]⟩
      · exact ⟨hcomp b _ (fun _ => rfl), mf.2.1, by simp [Disp.dropBody, mf.1], by simp [Disp.dropBody, mf.1]⟩
    · exact ⟨hcomp b f hf, mf.2.1, by simp [Disp.sendItem, mf.1], by simp [Disp.sendItem, mf.1]⟩
  unfold Disp.afterPiece
  cases o with
  | pending => exact ⟨fun ch h => ⟨ch, h, rfl⟩, rfl, rfl, rfl⟩
  | data bs fin => exact hdel fin _ (fun _ => rfl)
  | trailers fs => exact hdel true _ (fun _ => rfl)
  | ended fin =>
    have mf := markComplete_fields d k fin
    exact ⟨hcomp fin _ (fun _ => rfl), mf.2.1, by simp [Disp.dropBody, mf.1], by simp [Disp.dropBody, mf.1]⟩
  | err => exact ⟨upd_ids (fun _ => rfl), rfl, rfl, rfl⟩

/-- Reading a piece of a body that was waited for sends `100 Continue`. -/
theorem pollReadBody_continue {c : Conn} {dec : Decoder} (P : TrailerParser) (r : Rd) (i : NotifyIn) (hr : c.reading = .cont dec)
    (hw : c.writing = .init) : ∃ l, (c.pollReadBody P r i).2.log = c.log ++ .continue100 :: l ∧ ∀ e ∈ l, Plain e := by
  unfold Conn.pollReadBody
  rw [hr]
  obtain ⟨l, h1, h2⟩ := (piece_decodeBody c.sendContinue P dec r i).log
  refine ⟨l, ?_, h2⟩
  simp only
  rw [h1]
  unfold Conn.sendContinue
  rw [if_pos hw]
  simp

theorem inv_readPiece {d : Disp} (h : Inv d) (hd : d.done = false) (hi : SInv d.view) (ho : Each ServerOrder d.view.log) (hb : Begun d.view)
    (P : TrailerParser) (i : ReadIn) (k : Nat) (ht : d.bodyTx = some k) (hc : d.conn.canReadBody = true) :
    Inv (d.readPiece P i k) := by
  unfold Disp.readPiece
  obtain ⟨g1, g2, g3, g4⟩ := afterPiece_ids ({ d with conn := (d.conn.pollReadBody P i.rd i.notify).2 }.maybeLose k i.gone) k i.gone
    (d.conn.pollReadBody P i.rd i.notify).1
  have hl' := maybeLose_fields { d with conn := (d.conn.pollReadBody P i.rd i.notify).2 } k i.gone
  have hlc : ∀ ch' ∈ ({ d with conn := (d.conn.pollReadBody P i.rd i.notify).2 }.maybeLose k i.gone).chans, ∃ ch ∈ d.chans, ch'.id = ch.id := by
    unfold Disp.maybeLose
    split
    · exact upd_ids (fun _ => rfl)
    · exact fun ch h => ⟨ch, h, rfl⟩
  -- no request waits any more
  have hno : ∀ a n p mid, (d.conn.pollReadBody P i.rd i.notify).2.log = a ++ .readHead n true p :: mid → (∀ e ∈ mid, Quiet e) → False := by
    intro a n p mid hlog hq
    obtain ⟨c0, hp, _, hl⟩ := pollReadBody_piece d.conn P i.rd i.notify hc
    obtain ⟨l, h1, h2⟩ := hp.log
    have hold : ∃ m0, d.conn.log = a ++ .readHead n true p :: m0 ∧ ∀ e ∈ m0, Quiet e := by
      rw [hlog] at h1
      obtain ⟨m0, f1, f2⟩ := split_old (fun e he => noHead_of_plain (h2 e he)) h1.symm
      rcases hl with hl | ⟨hl, _⟩
      · exact ⟨m0, by rw [← hl]; exact f1, fun e he => hq e (by rw [f2]; simp [he])⟩
      · rw [hl] at f1
        obtain ⟨m1, e1, e2⟩ := split_old (by simp [NoHead]) f1
        exact ⟨m1, e1, fun e he => hq e (by rw [f2, e2]; simp [he])⟩
    obtain ⟨m0, f1, f2⟩ := hold
    obtain ⟨dec, hdec⟩ := h.cont a n p m0 f1 f2 (by simp [ht]) hc
    have hw := not_begun hd hi ho hb f1 f2 hc
    obtain ⟨l, e1, e2⟩ := pollReadBody_continue P i.rd i.notify hdec hw
    rw [hlog, f1] at e1
    have : mid = m0 ++ .continue100 :: l := by
      have h5 := e1.trans (List.append_assoc a (.readHead n true p :: m0) (.continue100 :: l))
      have h6 := List.append_cancel_left h5
      simpa using h6
    exact (hq .continue100 (by rw [this]; simp)).elim
  refine ⟨?_, ?_, ?_⟩
  · intro ch hch
    obtain ⟨c1, hc1, e1⟩ := g1 ch hch
    obtain ⟨c2, hc2, e2⟩ := hlc c1 hc1
    rw [g2, hl'.2.1, e1, e2]
    exact h.ids c2 hc2
  · intro a n p mid hlog hq
    rw [g4, hl'.1] at hlog
    exact (hno a n p mid hlog hq).elim
  · intro a n p mid hlog hq
    rw [g4, hl'.1] at hlog
    exact (hno a n p mid hlog hq).elim

theorem inv_accept {d : Disp} (h : Inv d) (hserver : d.conn.client = false) (m : MsgIn) (i : NotifyIn) (t : Nat) :
    Inv ({ d with conn := (d.conn.startTimer t).acceptHead m d.headId i }.recvHead m) := by
  have ht := startTimer_fields d.conn t
  have hs : (d.conn.startTimer t).client = false := ht.1.trans hserver
  have hid : d.headId = d.next := by simp [Disp.headId, hserver]
  have hcl : ((d.conn.startTimer t).acceptHead m d.headId i).client = false := by
    unfold Conn.acceptHead
    simp only [hs, Bool.false_eq_true, if_false]
    (repeat' split) <;> exact hs
  have hch : ∀ ch ∈ ({ d with conn := (d.conn.startTimer t).acceptHead m d.headId i }.newBody m).chans,
      (∃ c0 ∈ d.chans, ch.id = c0.id) ∨ (ch.id = d.next ∧ Blank ch) := by
    intro ch hc
    unfold Disp.newBody at hc
    split at hc
    · exact .inl ⟨ch, hc, rfl⟩
    · rcases List.mem_append.1 hc with hc | hc
      · left
        unfold Disp.replaced at hc
        cases htx : d.bodyTx with
        | none => simp only [htx] at hc; exact ⟨ch, hc, rfl⟩
        | some k => simp only [htx] at hc; exact upd_ids (f := Chan.dropSender) (fun _ => rfl) ch hc
      · right
        simp only [List.mem_cons, List.not_mem_nil, or_false] at hc
        rw [hc]
        refine ⟨?_, by simp, rfl⟩
        show (if ((d.conn.startTimer t).acceptHead m d.headId i).client then d.inFlight.getD d.next else d.next) = d.next
        rw [hcl]
        rfl
  have hlog : ∃ l, ((d.conn.startTimer t).acceptHead m d.headId i).log = d.conn.log ++ .readHead d.next m.continues m.keepAlive :: l ∧ (∀ e ∈ l, NoHead e) := by
    unfold Conn.acceptHead
    rw [hs, hid]
    by_cases hz : m.decode = DecodedLength.ZERO
    · simp only [hz, if_true]
      exact ⟨[.readEnd], by simp [Conn.readDone, Conn.headState, ht.2.2.2.2], by simp [NoHead]⟩
    · simp only [hz, if_false]
      split <;> exact ⟨[], by simp [Conn.headState, ht.2.2.2.2], by simp⟩
  have hcont : m.continues = true → ∃ dec, ((d.conn.startTimer t).acceptHead m d.headId i).reading = .cont dec := by
    intro hm
    have hz : m.decode ≠ DecodedLength.ZERO := by
      intro hz; simp [MsgIn.continues, hz] at hm
    unfold Conn.acceptHead
    simp only [hz, hm, if_false, if_true]
    exact ⟨_, rfl⟩
  obtain ⟨l, hl, hp⟩ := hlog
  have hu : ∀ a n p mid, d.conn.log ++ .readHead d.next m.continues m.keepAlive :: l = a ++ .readHead n true p :: mid → (∀ e ∈ mid, Quiet e) →
      n = d.next ∧ m.continues = true := by
    intro a n p mid he hq
    have he' : (d.conn.log ++ [.readHead d.next m.continues m.keepAlive]) ++ l = a ++ .readHead n true p :: mid := by rw [← he]; simp
    obtain ⟨m0, f1, f2⟩ := split_old hp he'
    rcases List.eq_nil_or_concat m0 with hm0 | ⟨m1, e, hm0⟩
    · rw [hm0] at f1
      have := (List.append_inj' f1 rfl).2
      simp only [List.cons.injEq, Ev.readHead.injEq, and_true] at this
      exact ⟨this.1.symm, this.2.1⟩
    · rw [hm0] at f1
      have h5 : d.conn.log ++ [Ev.readHead d.next m.continues m.keepAlive] = (a ++ .readHead n true p :: m1) ++ [e] := by rw [f1]; simp
      have := (List.append_inj' h5 rfl).2
      simp only [List.cons.injEq, and_true] at this
      have hqe := hq e (by rw [f2, hm0]; simp)
      rw [← this] at hqe
      exact hqe.elim
  have hnf := newBody_fields { d with conn := (d.conn.startTimer t).acceptHead m d.headId i } m
  have hfin : ({ d with conn := (d.conn.startTimer t).acceptHead m d.headId i }.recvHead m) =
      { ({ d with conn := (d.conn.startTimer t).acceptHead m d.headId i }.newBody m) with
        conn := { (d.conn.startTimer t).acceptHead m d.headId i with upgrade := ((d.conn.startTimer t).acceptHead m d.headId i).upgrade || m.wantsUpgrade },
        inFlight := some d.next, next := d.next + 1 } := by
    unfold Disp.recvHead
    simp only [hnf.1, hnf.2.1, hcl, Bool.false_eq_true, if_false]
  rw [hfin]
  refine ⟨?_, ?_, ?_⟩
  · intro ch hc
    rcases hch ch hc with ⟨c0, hc0, e⟩ | ⟨e, _⟩
    · have := h.ids c0 hc0
      simp only; omega
    · simp only; omega
  · intro a n p mid he hq _ _
    simp only [hl] at he
    obtain ⟨_, hm⟩ := hu a n p mid he hq
    exact hcont hm
  · intro a n p mid he hq ch hc hn
    simp only [hl] at he
    obtain ⟨hn', _⟩ := hu a n p mid he hq
    rcases hch ch hc with ⟨c0, hc0, e⟩ | ⟨_, hb⟩
    · have := h.ids c0 hc0
      omega
    · exact hb

theorem inv_readHeadReady {d : Disp} (h : Inv d) (hs : d.conn.client = false) (env : EncodeEnv) (i : ReadIn) (hr : d.conn.reading = .init) :
    Inv (d.readHeadReady env i) := by
  have ht := startTimer_fields d.conn i.t0
  unfold Disp.readHeadReady
  cases hp : i.parse with
  | pending =>
    simp only [Conn.pollReadHead]
    have h1 : Inv { d with conn := d.conn.startTimer i.t0 } := h.still (.calm (calm_startTimer _ _) rfl rfl (Nat.le_refl _))
    split
    · have h2 : Inv { d with conn := { d.conn.startTimer i.t0 with timing := false } } :=
        h1.still (.calm (.of_eq rfl id rfl) rfl rfl (Nat.le_refl _))
      exact h2.still (still_recvErr _)
    · exact h1
  | error e rest h2 =>
    simp only [Conn.pollReadHead]
    have hc : Calm d.conn ((d.conn.startTimer i.t0).onReadHeadError env e rest h2).2 :=
      (calm_startTimer _ _).trans (calm_onReadHeadError _ env e rest h2 (by simp [Conn.canReadBody, ht.2.1, hr]))
    have h1 : Inv { d with conn := ((d.conn.startTimer i.t0).onReadHeadError env e rest h2).2 } := h.still (.calm hc rfl rfl (Nat.le_refl _))
    have ho := onReadHeadError_out env (d.conn.startTimer i.t0) e rest h2
    generalize ((d.conn.startTimer i.t0).onReadHeadError env e rest h2).1 = o at ho
    unfold Disp.afterHead
    cases o with
    | pending => exact h1
    | eof => simp only; split; exact h1.still (still_close _); exact h1
    | err => exact h1.still (still_recvErr _)
    | timeout => exact h1.still (still_recvErr _)
    | msg m => exact absurd rfl (ho m)
  | msg m =>
    simp only [Conn.pollReadHead, Disp.afterHead]
    exact inv_accept h hs m i.notify i.t0

theorem inv_readTurn {d : Disp} (h : Inv d) (hs : d.conn.client = false) (hd : d.done = false) (hi : SInv d.view)
    (ho : Each ServerOrder d.view.log) (hb : Begun d.view) (env : EncodeEnv) (P : TrailerParser) (i : ReadIn) : Inv (d.readTurn env P i) := by
  unfold Disp.readTurn
  split
  · exact h
  · split
    · rename_i hr
      have hrd : d.conn.reading = .init := by
        simp only [Conn.canReadHead, Bool.and_eq_true, beq_iff_eq] at hr; exact hr.1
      have h1 := inv_readHeadReady h hs env i hrd
      unfold Disp.readHead
      (repeat' split) <;> first | exact h1 | exact h.still (still_close d) | exact h
    · split
      · rename_i k ht
        unfold Disp.readBody
        split
        · rename_i hc
          split
          · split
            · exact h
            · exact inv_readPiece h hd hi ho hb P i k ht hc
          · exact h
          · have hdr := drain_fields d.conn P i.rd i.notify hc
            refine h.still ⟨?_, upd_chans blank_drop, Nat.le_refl _, fun h => absurd rfl h⟩
            obtain ⟨l, h1, h2⟩ := hdr.2.2
            exact ⟨l, h1, fun e he => noHead_of_plain (h2 e he)⟩
        · exact h.still (still_dropBody d k)
      · rename_i ht
        exact h.still (still_readIdle d i ht)

theorem inv_step {d : Disp} (h : Inv d) (hs : d.conn.client = false) (hD : DInv d) (hi : SInv d.view) (ho : Each ServerOrder d.view.log)
    (hb : Begun d.view) (env : EncodeEnv) (P : TrailerParser) (a : Act) : Inv (d.step env P a) := by
  have hdrop : Inv { d.failBody with done := true } :=
    (h.still (still_failBody d).1).still (.calm (.refl _) rfl rfl (Nat.le_refl _))
  unfold Disp.step
  cases hd : d.done with
  | true =>
    cases a with
    | want k => exact h.still (still_want d k)
    | dropReader k => exact h.still (still_loseReader d k)
    | drop => exact hdrop
    | _ => exact h
  | false =>
    cases a with
    | read i => exact inv_readTurn h hs hd hi ho hb env P i
    | write i => exact h.still (still_writeTurn d env i)
    | flush f i => exact h.still (still_flushTurn d f i)
    | readAgain =>
      simp only [Bool.false_eq_true, if_false]
      exact h.still (.calm (.of_eq rfl id rfl) rfl rfl (Nat.le_refl _))
    | finish s f => exact h.still (still_finishTurn d s f)
    | disable b => exact h.still (still_disable hD hd b)
    | want k => exact h.still (still_want d k)
    | dropReader k => exact h.still (still_loseReader d k)
    | drop => exact hdrop

theorem inv_run (env : EncodeEnv) (P : TrailerParser) (d : Disp) (h : d.Start) (hs : d.conn.client = false) (as : List Act) :
    Inv (d.run env P as) ∧ Begun (d.run env P as).view := by
  have hrun : ∀ bs, SHist (d.run env P bs).view := fun bs => server_hist env P bs d h hs
  have hb : ∀ bs, Begun (d.run env P bs).view := by
    intro bs
    have := (run_steps env P bs d).keep (I := fun v => SInv v ∧ Begun v) (fun v w hv p => ⟨hv.1.prim p, hv.2.prim hv.1 p⟩)
      ⟨start_sinv d h hs, by rw [start_view d h]; intro _ h'; simp at h'⟩
    exact this.2
  refine ⟨?_, hb as⟩
  induction as using snocInd with
  | h0 =>
    refine ⟨by simp [Disp.run, h.chans], ?_, ?_⟩
    · intro a n p mid hl; simp [Disp.run, h.log] at hl
    · intro a n p mid hl; simp [Disp.run, h.log] at hl
  | hs as a ih =>
    have e : d.run env P (as ++ [a]) = (d.run env P as).step env P a := by simp [Disp.run]
    rw [e]
    have hc := (hrun as).inv.server
    have hc' : (d.run env P as).conn.client = false := by
      unfold Disp.view at hc
      split at hc <;> exact hc
    exact inv_step ih hc' ((DInv.start h).run env P as) (hrun as).inv (hrun as).order (hb as) env P a

end Owed

end Hyper
