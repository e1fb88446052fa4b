import Verif.Spec.ClosedLoop
import Verif.Proof.EndToEnd

/-! # Facts about two connections that talk to each other -/

namespace Hyper.Wire

open Hyper.Spec Hyper.Input

/-! ## The method a connection remembers -/

/-- Going on without a new message: the method stays, or both halves of an exchange were over and it is forgotten. -/
structure Mr (c c' : Conn) : Prop where
  meth : (c'.method = c.method ∧ (c'.reading = .init → c.reading = .init)) ∨
    (c.writing = .keepAlive ∧ c.reading ≠ .init ∧ c.reading ≠ .closed ∧ c'.method = none)
  wr : c'.writing = .keepAlive → c.writing = .keepAlive
  rd : c.reading = .init ∨ c.reading = .closed → c'.reading = .init ∨ c'.reading = .closed

theorem Mr.refl (c : Conn) : Mr c c := ⟨.inl ⟨rfl, id⟩, id, id⟩

theorem Mr.trans {a b c : Conn} (h : Mr a b) (k : Mr b c) : Mr a c := by
  refine ⟨?_, fun x => h.wr (k.wr x), fun x => k.rd (h.rd x)⟩
  rcases k.meth with ⟨k1, k2⟩ | ⟨k1, k2, k3, k4⟩
  · rcases h.meth with ⟨h1, h2⟩ | ⟨h1, h2, h3, h4⟩
    · exact .inl ⟨k1.trans h1, fun x => h2 (k2 x)⟩
    · exact .inr ⟨h1, h2, h3, k1.trans h4⟩
  · refine .inr ⟨h.wr k1, ?_, ?_, k4⟩
    · intro e; rcases h.rd (.inl e) with e | e
      · exact k2 e
      · exact k3 e
    · intro e; rcases h.rd (.inr e) with e | e
      · exact k2 e
      · exact k3 e

/-- Nothing but other fields changes. -/
theorem Mr.same {c c' : Conn} (h1 : c'.method = c.method) (h2 : c'.reading = c.reading) (h3 : c'.writing = c.writing) : Mr c c' :=
  ⟨.inl ⟨h1, by rw [h2]; exact id⟩, by rw [h3]; exact id, by rw [h2]; exact id⟩

theorem mr_closeAll (c : Conn) : Mr c c.closeAll := ⟨.inl ⟨rfl, (by intro h; cases h)⟩, (by intro h; cases h), fun _ => .inr rfl⟩
theorem mr_closeRead (c : Conn) : Mr c c.closeRead := ⟨.inl ⟨rfl, by intro h; cases h⟩, id, fun _ => .inr rfl⟩
theorem mr_closeWrite (c : Conn) : Mr c c.closeWrite := ⟨.inl ⟨rfl, id⟩, by (intro h; cases h), id⟩

theorem mr_stateKeepAlive (c : Conn) : Mr c c.stateKeepAlive := by
  unfold Conn.stateKeepAlive
  split
  · rename_i hr
    split
    · rename_i hw
      split
      · exact ⟨.inr ⟨hw, by rw [hr]; simp, by rw [hr]; simp, rfl⟩, by (intro h; cases h), fun _ => .inl rfl⟩
      · exact mr_closeAll c
    · exact mr_closeAll c
    · exact .refl c
  · split
    · exact mr_closeAll c
    · exact .refl c
  · exact .refl c

theorem mr_maybeNotify (c : Conn) (i : NotifyIn) : Mr c (c.maybeNotify i) := by
  have hx : Mr c (c.notifyFrom i) := by
    unfold Conn.notifyFrom
    cases i with
    | blocked => exact .refl c
    | pending => exact .refl c
    | bytes => exact .same rfl rfl rfl
    | eof => dsimp only; split; exact mr_closeAll c; exact mr_closeRead c
    | error => exact (mr_closeAll c).trans (.same rfl rfl rfl)
  unfold Conn.maybeNotify
  repeat' split
  all_goals first | exact hx | exact .refl c

theorem mr_tryKeepAlive (c : Conn) (i : NotifyIn) : Mr c (c.tryKeepAlive i) := (mr_stateKeepAlive c).trans (mr_maybeNotify _ i)

/-- While a body is read, the read state may change to anything but waiting for a head. -/
theorem Mr.body {c c' : Conn} (hr : c.reading ≠ .init ∧ c.reading ≠ .closed) (h1 : c'.method = c.method) (h2 : c'.reading ≠ .init) (h3 : c'.writing = c.writing) :
    Mr c c' :=
  ⟨.inl ⟨h1, fun h => absurd h h2⟩, by rw [h3]; exact id, fun h => absurd h (by rintro (h | h); exact hr.1 h; exact hr.2 h)⟩

theorem mr_decodeBody (P : TrailerParser) (c : Conn) (d : Decoder) (r : Rd) (i : NotifyIn) (hr : c.reading ≠ .init ∧ c.reading ≠ .closed) :
    Mr c (c.decodeBody P d r i).2 := by
  have b : ∀ d', Mr c { c with reading := .body d' } := fun d' => .body hr rfl (by simp) rfl
  have k : Mr c (c.readDone.tryKeepAlive i) := (Mr.body (c := c) (c' := c.readDone) hr rfl (by simp [Conn.readDone]) rfl).trans (mr_tryKeepAlive _ i)
  have z : Mr c ({ c with reading := .closed }.tryKeepAlive i) :=
    (Mr.body (c' := { c with reading := .closed }) hr rfl (by simp) rfl).trans (mr_tryKeepAlive _ i)
  unfold Conn.decodeBody
  repeat' split
  all_goals first | exact b _ | exact k | exact z

theorem mr_pollReadBody (P : TrailerParser) (c : Conn) (r : Rd) (i : NotifyIn) : Mr c (c.pollReadBody P r i).2 := by
  unfold Conn.pollReadBody
  split
  · rename_i d hr
    exact mr_decodeBody P c d r i (by rw [hr]; simp)
  · rename_i d hr
    have h : Mr c c.sendContinue := by
      unfold Conn.sendContinue; split <;> exact .same rfl rfl rfl
    refine h.trans (mr_decodeBody P _ d r i ?_)
    have : c.sendContinue.reading = c.reading := by unfold Conn.sendContinue; split <;> rfl
    rw [this, hr]; simp
  · exact .refl c

theorem mr_drain (P : TrailerParser) (c : Conn) (r : Rd) (i : NotifyIn) : Mr c (c.drainOrClose P r i) := by
  have h1 : Mr c c.drainStart := by
    unfold Conn.drainStart
    split
    · rename_i d hr
      exact .body (by rw [hr]; simp) rfl (by simp) rfl
    · exact .refl c
  have h2 : ∀ c : Conn, Mr c c.drainEnd := by
    intro c
    unfold Conn.drainEnd
    repeat' split
    all_goals first | exact .refl c | exact mr_closeRead c
  exact (h1.trans (mr_pollReadBody P _ r i)).trans (h2 _)

theorem mr_keepAlive (c : Conn) (b : Bool) (i : IoIn) : Mr c (c.pollReadKeepAlive b i).2 := by
  unfold Conn.pollReadKeepAlive Conn.requireEmpty Conn.midMessageEof
  repeat' split
  all_goals first | exact .refl c | exact mr_closeAll c | exact mr_closeRead c

theorem mr_pollFlush (c : Conn) (f : FlushIn) (i : NotifyIn) : Mr c (c.pollFlush f i).2 := by
  unfold Conn.pollFlush
  dsimp only
  split
  · exact (Mr.same (c := c) (c' := { c with out := ((c.scripted f).pollFlush bytesBuf f.readBuf).2 }) rfl rfl rfl).trans (mr_tryKeepAlive _ i)
  · exact .same rfl rfl rfl

/-- What the dispatcher adds: nothing is done about which exchange is in flight, but that it may be given up. -/
structure Mrd (d d' : Disp) : Prop where
  conn : (d'.conn.method = d.conn.method ∧ (d'.conn.reading = .init → d.conn.reading = .init)) ∨
    (d.conn.writing = .keepAlive ∧ d.conn.reading ≠ .init ∧ d.conn.reading ≠ .closed ∧ d'.conn.method = none)
  flight : d'.inFlight = d.inFlight ∨ d'.inFlight = none ∨ d'.done = true
  next : d'.next = d.next

theorem Mrd.refl (d : Disp) : Mrd d d := ⟨(Mr.refl _).meth, .inl rfl, rfl⟩

theorem Mrd.only {d d' : Disp} (h : Mr d.conn d'.conn) (k : d'.inFlight = d.inFlight) (n : d'.next = d.next) : Mrd d d' := ⟨h.meth, .inl k, n⟩

theorem Mrd.fail {d d' : Disp} (h : Mr d.conn d'.conn) (n : d'.next = d.next) : Mrd d d'.fail := by
  have e : d'.fail.conn = d'.conn := (failBody_fields d').1
  have e' : d'.fail.next = d'.next := (failBody_fields d').2.1
  exact ⟨by rw [e]; exact h.meth, .inr (.inr rfl), by rw [e']; exact n⟩

theorem mr_close (c : Conn) : Mr c c.closeRead.closeWrite := (mr_closeRead c).trans (mr_closeWrite _)

/-- Every act but one that reads a head or writes something. -/
theorem mrd_readBody (P : TrailerParser) (d : Disp) (i : ReadIn) (k : Nat) : Mrd d (d.readBody P i k) := by
  have hdrop : ∀ (d : Disp) (k : Nat), (d.dropBody k).conn = d.conn ∧ (d.dropBody k).next = d.next ∧ (d.dropBody k).inFlight = d.inFlight :=
    fun d k => ⟨rfl, rfl, rfl⟩
  unfold Disp.readBody
  split
  · split
    · split
      · exact .refl d
      · unfold Disp.readPiece
        generalize hc : d.conn.pollReadBody P i.rd i.notify = oc
        obtain ⟨o, c⟩ := oc
        have hm : Mr d.conn c := by have := mr_pollReadBody P d.conn i.rd i.notify; rw [hc] at this; exact this
        dsimp only
        generalize hd' : (Disp.maybeLose { d with conn := c } k i.gone) = d'
        have e1 : d'.conn = c := by rw [← hd']; unfold Disp.maybeLose; split <;> rfl
        have e2 : d'.inFlight = d.inFlight := by rw [← hd']; unfold Disp.maybeLose; split <;> rfl
        have e3 : d'.next = d.next := by rw [← hd']; unfold Disp.maybeLose; split <;> rfl
        have hmark : ∀ b, (d'.markComplete k b).conn = c ∧ (d'.markComplete k b).inFlight = d.inFlight ∧ (d'.markComplete k b).next = d.next := by
          intro b; unfold Disp.markComplete; split <;> exact ⟨e1, e2, e3⟩
        have hdel : ∀ (d'' : Disp) g, d''.conn = c ∧ d''.inFlight = d.inFlight ∧ d''.next = d.next → Mrd d (d''.deliver k i.gone g) := by
          rintro d'' g ⟨a1, a2, a3⟩
          unfold Disp.deliver
          split
          · dsimp only
            split
            · refine .only ?_ a2 a3
              show Mr d.conn d''.conn.closeRead
              rw [a1]; exact hm.trans (mr_closeRead c)
            · exact .only (by show Mr d.conn d''.conn; rw [a1]; exact hm) a2 a3
          · exact .only (by show Mr d.conn d''.conn; rw [a1]; exact hm) a2 a3
        unfold Disp.afterPiece
        split
        · exact .only (by rw [e1]; exact hm) e2 e3
        · exact hdel _ _ (hmark _)
        · exact hdel _ _ (hmark _)
        · rename_i fin
          obtain ⟨a1, a2, a3⟩ := hmark fin
          exact .only (by show Mr d.conn (d'.markComplete k fin).conn; rw [a1]; exact hm) a2 a3
        · exact .only (by show Mr d.conn d'.conn; rw [e1]; exact hm) e2 e3
    · exact .refl d
    · exact .only (mr_drain P d.conn i.rd i.notify) rfl rfl
  · exact .only (.refl _) rfl rfl

theorem mrd_flushTurn (d : Disp) (f : FlushIn) (i : NotifyIn) : Mrd d (d.flushTurn f i) := by
  unfold Disp.flushTurn
  dsimp only
  split
  · exact .only (mr_pollFlush d.conn f i) rfl rfl
  · exact .fail (d' := { d with conn := (d.conn.pollFlush f i).2 }) (mr_pollFlush d.conn f i) rfl

theorem mrd_complete {d d' : Disp} (h : Mr d.conn d'.conn) (n : d'.next = d.next) : Mrd d d'.complete := by
  unfold Disp.complete
  split
  · exact .fail (d' := { d' with conn := { d'.conn with error := false } }) (h.trans (.same rfl rfl rfl)) n
  · exact ⟨h.meth, .inr (.inr rfl), n⟩

theorem mrd_other (env : EncodeEnv) (P : TrailerParser) (d : Disp) (a : Act) (hr : ∀ i, a ≠ .read i) (hw : ∀ i, a ≠ .write i) : Mrd d (d.step env P a) := by
  cases a with
  | read i => exact absurd rfl (hr i)
  | write i => exact absurd rfl (hw i)
  | flush f i =>
    simp only [Disp.step]
    split
    · exact .refl d
    · exact mrd_flushTurn d f i
  | readAgain =>
    simp only [Disp.step]
    split
    · exact .refl d
    · exact .only (.same rfl rfl rfl) rfl rfl
  | finish s f =>
    simp only [Disp.step]
    split
    · exact .refl d
    · unfold Disp.finishTurn
      have hs : Mr d.conn (d.conn.pollShutdown f).2 := by unfold Conn.pollShutdown; exact .same rfl rfl rfl
      split
      · exact .refl d
      · split
        · exact mrd_complete (d' := { d with conn := { d.conn with upgrade := false } }) (.same rfl rfl rfl) rfl
        · split
          · dsimp only
            split
            · exact .only hs rfl rfl
            · split
              · exact mrd_complete (d' := { d with conn := (d.conn.pollShutdown f).2 }) hs rfl
              · exact .fail (d' := { d with conn := (d.conn.pollShutdown f).2 }) hs rfl
          · exact mrd_complete (.refl _) rfl
  | disable b =>
    simp only [Disp.step]
    split
    · exact .refl d
    · unfold Disp.disableKeepAlive
      dsimp only
      have hk : Mr d.conn d.conn.disableKeepAlive := by
        unfold Conn.disableKeepAlive
        dsimp only
        split
        · exact (Mr.same (c := d.conn) (c' := { d.conn with log := d.conn.log ++ [Ev.shutdown] }) rfl rfl rfl).trans (mr_closeAll _)
        · exact .same rfl rfl rfl
      split
      · exact .only (hk.trans (mr_close _)) rfl rfl
      · exact .only hk rfl rfl
  | want k =>
    simp only [Disp.step, Disp.want]
    repeat' split
    all_goals exact .only (.same rfl rfl rfl) rfl rfl
  | dropReader k => exact .only (.refl _) rfl rfl
  | drop =>
    have e := failBody_fields d
    exact ⟨by rw [show (Disp.step env P d .drop).conn = d.conn from e.1]; exact (Mr.refl _).meth, .inr (.inr rfl), e.2.1⟩

/-- A turn of reading that accepts a head. -/
structure Accepts (d : Disp) (i : ReadIn) (d' : Disp) (m : MsgIn) : Prop where
  parse : i.parse = .msg m
  parses : d.parses i = true
  server : d.conn.client = false → d'.conn.method = m.method ∧ d'.conn.reading ≠ .init ∧ d'.inFlight = some d.next ∧ d'.next = d.next + 1
  client : d.conn.client = true → d'.inFlight = none ∧ d'.next = d.next

theorem mrd_read (env : EncodeEnv) (P : TrailerParser) {d : Disp} (hd : d.done = false) (i : ReadIn) :
    (Mrd d (d.readTurn env P i) ∧ ¬ (d.parses i = true ∧ ∃ m, i.parse = .msg m)) ∨ ∃ m, Accepts d i (d.readTurn env P i) m := by
  by_cases hp : d.parses i = true
  · have hs := step_parses env P d i i rfl hp
    have he : d.readTurn env P i = d.readHeadReady env i := by
      rw [← hs.1]; simp [Disp.step, hd]
    rw [he]
    have htm : Mr d.conn (d.conn.startTimer i.t0) := by
      unfold Conn.startTimer; repeat' split
      all_goals exact .same rfl rfl rfl
    unfold Disp.readHeadReady
    have hwith : ∀ c : Conn, ({ d with conn := c } : Disp).next = d.next := fun _ => rfl
    have herr : ∀ c : Conn, Mr d.conn c → Mrd d (Disp.recvErr { d with conn := c }) := by
      intro c hc
      unfold Disp.recvErr
      repeat' split
      · exact ⟨(hc.trans (mr_close c)).meth, .inr (.inl rfl), rfl⟩
      · exact .fail (d' := { d with conn := c }) hc rfl
      · exact .fail (d' := { d with conn := c }) hc rfl
    cases hpi : i.parse with
    | pending =>
      left
      refine ⟨?_, by rintro ⟨_, m, hm⟩; cases hm⟩
      simp only [Conn.pollReadHead]
      split
      · exact herr _ (htm.trans (.same rfl rfl rfl))
      · exact .only htm rfl rfl
    | error e rest h2 =>
      left
      refine ⟨?_, by rintro ⟨_, m, hm⟩; cases hm⟩
      simp only [Conn.pollReadHead, Conn.onReadHeadError]
      split
      · unfold Conn.onParseError
        have hc := htm.trans (mr_closeRead _)
        repeat' split
        · exact herr _ hc
        · rename_i status _
          refine ⟨?_, .inl rfl, rfl⟩
          refine .inl ⟨?_, ?_⟩
          · show (d.conn.startTimer i.t0).method = d.conn.method
            unfold Conn.startTimer; repeat' split
            all_goals rfl
          · intro h; cases h
        · exact herr _ hc
        · exact herr _ hc
      · have hc := htm.trans (mr_close _)
        simp only [Disp.afterHead]
        split
        · exact ⟨(hc.trans (mr_close _)).meth, .inl rfl, rfl⟩
        · exact .only hc rfl rfl
    | msg m =>
      right
      refine ⟨m, hpi, hp, ?_, ?_⟩
      · intro hc
        have hc' : (d.conn.startTimer i.t0).client = false := by rw [(startTimer_fields d.conn i.t0).1, hc]
        simp only [Conn.pollReadHead, Disp.afterHead, Disp.recvHead]
        have hcl : ((d.conn.startTimer i.t0).acceptHead m d.headId i.notify).client = false := by
          unfold Conn.acceptHead
          rw [hc']
          repeat' split
          all_goals first | exact hc' | (rename_i h; cases h)
        have hnb := newBody_fields { d with conn := (d.conn.startTimer i.t0).acceptHead m d.headId i.notify } m
        simp only [hnb.1, hcl, Bool.false_eq_true, if_false]
        refine ⟨?_, ?_, by rw [hnb.2.1], by rw [hnb.2.1]⟩
        · unfold Conn.acceptHead
          rw [hc']
          simp only [Bool.false_eq_true, if_false]
          repeat' split
          all_goals rfl
        · unfold Conn.acceptHead
          rw [hc']
          simp only [Bool.false_eq_true, if_false]
          repeat' split
          all_goals (intro h; cases h)
      · intro hc
        have hnb := newBody_fields { d with conn := (d.conn.startTimer i.t0).acceptHead m d.headId i.notify } m
        have hcl : ((d.conn.startTimer i.t0).acceptHead m d.headId i.notify).client = true := by
          rw [(acceptHead_facts (d.conn.startTimer i.t0) m d.headId i.notify).1, (startTimer_fields d.conn i.t0).1, hc]
        simp only [Conn.pollReadHead, Disp.afterHead, Disp.recvHead]
        simp only [hnb.1, hcl, if_true]
        split
        · exact ⟨rfl, hnb.2.1⟩
        · constructor
          · simp [Disp.fail, hcl]
          · exact (failBody_fields _).2.1.trans hnb.2.1
  · left
    refine ⟨?_, fun h => hp h.1⟩
    unfold Disp.readTurn
    split
    · exact .refl d
    · rename_i hcl
      split
      · rename_i hr
        simp only [Disp.parses, hd, hcl, hr, Bool.not_false, Bool.true_and] at hp
        unfold Disp.readHead
        repeat' split
        all_goals first
          | exact .refl d
          | exact .only (mr_close _) rfl rfl
          | (exfalso; apply hp; simp_all)
      · split
        · exact mrd_readBody P d i _
        · unfold Disp.readIdle
          dsimp only
          split
          · exact .fail (d' := { d with conn := (d.conn.pollReadKeepAlive i.bufEmpty i.io).2 }) (mr_keepAlive ..) rfl
          · exact .only (mr_keepAlive ..) rfl rfl

/-- A turn of writing: it takes a request, or the method stays. -/
theorem mrd_write (env : EncodeEnv) {d : Disp} (hd : d.done = false) (i : WriteIn) :
    (Mrd d (d.writeTurn env i) ∧ asked d (.write i) = none) ∨
    ∃ h body, asked d (.write i) = some (h, body) ∧ (d.writeTurn env i).conn.method = some h.method ∧ (d.writeTurn env i).next = d.next + 1 ∧
      (d.writeTurn env i).inFlight = some d.next := by
  have keep : ∀ {d' : Disp}, d'.conn.method = d.conn.method → d'.conn.reading = d.conn.reading → d'.inFlight = d.inFlight → d'.next = d.next → Mrd d d' :=
    fun h1 h2 h3 h4 => ⟨.inl ⟨h1, by rw [h2]; exact id⟩, .inl h3, h4⟩
  have keepFail : ∀ {d' : Disp}, d'.conn.method = d.conn.method → d'.conn.reading = d.conn.reading → d'.next = d.next → Mrd d d'.fail := by
    intro d' h1 h2 h4
    have e := failBody_fields d'
    refine ⟨.inl ⟨?_, ?_⟩, .inr (.inr rfl), ?_⟩
    · rw [show d'.fail.conn = d'.conn from e.1]; exact h1
    · rw [show d'.fail.conn = d'.conn from e.1, h2]; exact id
    · exact e.2.1.trans h4
  have hput : ∀ (c : Conn) bs w, ((c.put bs).setWriting w).method = c.method ∧ ((c.put bs).setWriting w).reading = c.reading := by
    intro c bs w
    unfold Conn.setWriting Conn.put
    repeat' split
    all_goals exact ⟨rfl, rfl⟩
  have hend : ∀ {d' : Disp}, d'.conn = d.conn → d'.inFlight = d.inFlight → d'.next = d.next → Mrd d d'.endBody := by
    intro d' h1 h2 h3
    unfold Disp.endBody
    have hp := hput d.conn d.conn.writing.endBody.1 d.conn.writing.endBody.2.1
    dsimp only
    rw [h1]
    split
    · exact keepFail (d' := { d' with conn := d.conn.endBody.2 }) hp.1 hp.2 h3
    · exact keep (d' := { d' with conn := d.conn.endBody.2 }) hp.1 hp.2 h2 h3
  have hnt : takes d = false → asked d (.write i) = none := by
    intro ht
    rcases i with ⟨m, fr, fl, nt⟩
    cases m <;> simp [asked, ht]
  unfold Disp.writeTurn
  cases hcl : d.closing with
  | true => exact .inl ⟨.refl d, hnt (by simp [takes, hcl])⟩
  | false =>
    simp only [Bool.false_eq_true, if_false]
    by_cases hh : (!d.bodyRx && d.conn.canWriteHead && d.shouldPoll) = true
    · rw [if_pos hh]
      have htk : takes d = true := by
        simp only [Bool.and_eq_true] at hh
        simp [takes, hd, hcl, hh.1.1, hh.1.2, hh.2]
      rcases i with ⟨m, fr, fl, nt⟩
      cases m with
      | pending => exact .inl ⟨.refl d, rfl⟩
      | none =>
        refine .inl ⟨?_, rfl⟩
        simp only [Disp.writeHead]
        split
        · exact .only (mr_close _) rfl rfl
        · exact .refl d
      | err =>
        refine .inl ⟨?_, rfl⟩
        simp only [Disp.writeHead]
        split
        · exact .refl d
        · exact .fail (.refl _) rfl
      | resp m =>
        refine .inl ⟨?_, rfl⟩
        simp only [Disp.writeHead]
        split
        · exact .refl d
        · exact ⟨.inl ⟨rfl, id⟩, .inr (.inl rfl), rfl⟩
      | req h body =>
        simp only [Disp.writeHead]
        split
        · rename_i hc
          exact .inr ⟨h, body, by simp [asked, htk, hc], rfl, rfl, rfl⟩
        · rename_i hc
          exact .inl ⟨.refl d, by simp [asked, hc]⟩
    · rw [if_neg hh]
      have ht : takes d = false := by
        simp only [takes, hd, hcl]
        simpa using hh
      refine .inl ⟨?_, hnt ht⟩
      split
      · exact mrd_flushTurn d _ _
      · split
        · split
          · rcases i with ⟨m, fr, fl, nt⟩
            cases fr with
            | pending => exact .refl d
            | eof => exact hend (d' := { d with bodyRx := false }) rfl rfl rfl
            | frame f =>
              cases f with
              | data bs e =>
                cases e with
                | true =>
                  simp only [Disp.writeFrame]
                  split
                  · exact hend (d' := { d with bodyRx := false }) rfl rfl rfl
                  · exact keep (hput _ _ _).1 (hput _ _ _).2 rfl rfl
                | false =>
                  simp only [Disp.writeFrame]
                  split
                  · exact .refl d
                  · exact keep (hput _ _ _).1 (hput _ _ _).2 rfl rfl
              | trailers m => exact keep (hput _ _ _).1 (hput _ _ _).2 rfl rfl
              | unknown => exact .refl d
              | error => exact keepFail (d' := { d with bodyRx := false }) rfl rfl rfl
          · exact .only (.refl _) rfl rfl
        · split
          · exact hend rfl rfl rfl
          · exact .refl d

theorem done_step (env : EncodeEnv) (P : TrailerParser) {d : Disp} (a : Act) (h : (d.step env P a).done = false) : d.done = false := by
  cases hd : d.done with
  | false => rfl
  | true =>
    exfalso
    cases a with
    | want k =>
      simp only [Disp.step, Disp.want] at h
      revert h
      repeat' split
      all_goals (intro h; rw [show d.done = false from h] at hd; cases hd)
    | dropReader k =>
      simp only [Disp.step] at h
      unfold Disp.loseReader at h
      rw [show d.done = false from h] at hd; cases hd
    | drop => simp [Disp.step] at h
    | _ => simp [Disp.step, hd] at h

/-- What an act does to the method, the message in flight and the count. -/
inductive Move (d : Disp) (a : Act) (d' : Disp) : Prop where
  | stay : Mrd d d' → asked d a = none → (∀ i, a = .read i → ¬ (d.parses i = true ∧ ∃ m, i.parse = .msg m)) → Move d a d'
  | ask (h : ReqHead) (body : Option BodyLength) : asked d a = some (h, body) → (∀ i, a ≠ .read i) → d'.conn.method = some h.method → d'.next = d.next + 1 →
      d'.inFlight = some d.next → Move d a d'
  | accept (i : ReadIn) (m : MsgIn) : a = .read i → Accepts d i d' m → Move d a d'

theorem move (env : EncodeEnv) (P : TrailerParser) (d : Disp) (a : Act) : Move d a (d.step env P a) := by
  cases a with
  | read i =>
    cases hd : d.done with
    | true =>
      refine .stay (by simp only [Disp.step, hd, if_true]; exact .refl d) rfl ?_
      intro j hj; cases hj
      simp [Disp.parses, hd]
    | false =>
      have hs : d.step env P (.read i) = d.readTurn env P i := by simp [Disp.step, hd]
      rw [hs]
      rcases mrd_read env P hd i with ⟨h1, h2⟩ | ⟨m, hm⟩
      · exact .stay h1 rfl (by intro j hj; cases hj; exact h2)
      · exact .accept i m rfl hm
  | write i =>
    cases hd : d.done with
    | true =>
      refine .stay (by simp only [Disp.step, hd, if_true]; exact .refl d) ?_ (by intro j hj; cases hj)
      rcases i with ⟨m, fr, fl, nt⟩
      cases m <;> simp [asked, takes, hd]
    | false =>
      have hs : d.step env P (.write i) = d.writeTurn env i := by simp [Disp.step, hd]
      rw [hs]
      rcases mrd_write env hd i with ⟨h1, h2⟩ | ⟨h, body, h1, h2, h3, h4⟩
      · exact .stay h1 h2 (by intro j hj; cases hj)
      · exact .ask h body h1 (by intro j hj; cases hj) h2 h3 h4
  | _ => exact .stay (mrd_other env P d _ (by intro i h; cases h) (by intro i h; cases h)) rfl (by intro i h; cases h)

/-! ## Runs -/

section

variable {α : Type} {H : HeadFn α} {P : TrailerParser} {env : EncodeEnv}

theorem step_underlying (f : Fed α) (a : FAct) : (f.step env P H a).disp = f.disp.run env P (underlying H f a).toList := by
  cases a with
  | pull => rfl
  | act a =>
    cases a with
    | read i =>
      simp only [Fed.step, Fed.read, underlying, Option.toList, Disp.run, List.foldl]
      repeat' split
      all_goals rfl
    | _ => rfl

theorem run_acts (as : List FAct) : ∀ f : Fed α, (f.run env P H as).disp = f.disp.run env P (acts env P H f as) := by
  induction as with
  | nil => intro f; rfl
  | cons a as ih =>
    intro f
    have : f.run env P H (a :: as) = (f.step env P H a).run env P H as := rfl
    rw [this, ih, step_underlying]
    simp only [acts, Disp.run, List.foldl_append]

theorem fed_snoc (f : Fed α) (as : List FAct) (a : FAct) : f.run env P H (as ++ [a]) = (f.run env P H as).step env P H a := by
  simp [Fed.run, List.foldl_append]

theorem acts_snoc (as : List FAct) (a : FAct) : ∀ f : Fed α, acts env P H f (as ++ [a]) = acts env P H f as ++ (underlying H (f.run env P H as) a).toList := by
  induction as with
  | nil => intro f; simp [acts, Fed.run]
  | cons b as ih => intro f; simp only [List.cons_append, acts, ih, List.append_assoc]; rfl

end

theorem requests_append (env : EncodeEnv) (P : TrailerParser) (bs : List Act) : ∀ (as : List Act) (d : Disp),
    requests env P d (as ++ bs) = requests env P d as ++ requests env P (d.run env P as) bs := by
  intro as
  induction as with
  | nil => intro d; rfl
  | cons a as ih => intro d; simp only [List.cons_append, requests, ih, List.append_assoc]; rfl

theorem answers_append (env : EncodeEnv) (P : TrailerParser) (bs : List Act) : ∀ (as : List Act) (d : Disp),
    answers env P d (as ++ bs) = answers env P d as ++ answers env P (d.run env P as) bs := by
  intro as
  induction as with
  | nil => intro d; rfl
  | cons a as ih => intro d; simp only [List.cons_append, answers, ih, List.append_assoc]; rfl

theorem story_append (env : EncodeEnv) (P : TrailerParser) (bs : List Act) : ∀ (as : List Act) (d : Disp) (st : List Piece),
    story env P d st (as ++ bs) = story env P (d.run env P as) (story env P d st as) bs := by
  intro as
  induction as with
  | nil => intro d st; rfl
  | cons a as ih => intro d st; simp only [List.cons_append, story, ih]; rfl

theorem gated_append (env : EncodeEnv) (P : TrailerParser) (bs : List Act) : ∀ (as : List Act) (d : Disp), Gated env P d (as ++ bs) → Gated env P d as := by
  intro as
  induction as with
  | nil => intro d _; trivial
  | cons a as ih => intro d h; exact ⟨h.1, ih _ h.2⟩

theorem snoc_induction {α : Type} {p : List α → Prop} (h0 : p []) (h1 : ∀ as a, p as → p (as ++ [a])) (as : List α) : p as := by
  have : ∀ as : List α, p as.reverse := by
    intro as
    induction as with
    | nil => exact h0
    | cons a as ih => rw [List.reverse_cons]; exact h1 _ _ ih
  rw [← List.reverse_reverse as]; exact this _

/-! ## What is read -/

/-- What an act adds to what was read. -/
inductive Grow {α : Type} (H : HeadFn α) (f : Fed α) (a : FAct) (got' : List (Received α)) : Prop where
  | same (g : Received α → Received α) : (∀ r, (g r).method = r.method ∧ (g r).head = r.head) → got' = onLast g f.got →
      (∀ i, underlying H f a = some (.read i) → ¬ (f.disp.parses i = true ∧ ∃ m, i.parse = .msg m)) → Grow H f a got'
  | next (i : ReadIn) (r : Received α) : underlying H f a = some (.read i) → f.disp.parses i = true → i.parse = .msg (H.view f.disp.conn.method r.head) →
      r.method = f.disp.conn.method → got' = f.got ++ [r] → Grow H f a got'

theorem onLast_id {β : Type} : ∀ l : List β, onLast (fun r => r) l = l
  | [] => rfl
  | [_] => rfl
  | a :: b :: t => by rw [onLast, onLast_id (b :: t)]

theorem onLast_map {β γ : Type} (g : β → β) (φ : β → γ) (h : ∀ b, φ (g b) = φ b) : ∀ l : List β, (onLast g l).map φ = l.map φ
  | [] => rfl
  | [a] => by simp [onLast, h]
  | a :: b :: t => by simp only [onLast, List.map_cons, onLast_map g φ h (b :: t)]

theorem grow {α : Type} (env : EncodeEnv) (P : TrailerParser) (H : HeadFn α) (f : Fed α) (a : FAct) : Grow H f a (f.step env P H a).got := by
  cases a with
  | pull => exact .same (fun r => r) (fun _ => ⟨rfl, rfl⟩) (onLast_id _).symm (by intro i h; cases h)
  | act a =>
    cases a with
    | read i =>
      have hpe : ∀ d : Disp, d.parses (f.readIn H i) = d.parses i := fun d => rfl
      simp only [Fed.step, Fed.read]
      split
      · rename_i hp
        cases ho : (f.inlet.parse (H.parse f.disp.conn.method)).1 with
        | msg m =>
          refine .next (f.readIn H i) ⟨f.disp.headId, f.disp.conn.method, m, [], none, (H.view f.disp.conn.method m).decode == DecodedLength.ZERO⟩ rfl ?_ ?_ rfl ?_
          · rw [hpe]; exact hp
          · simp [Fed.readIn, ho, Inlet.seen]
          · simp [Fed.begin]
        | pending =>
          refine .same (fun r => r) (fun _ => ⟨rfl, rfl⟩) (by simp [Fed.begin, onLast_id]) ?_
          intro j hj
          simp only [underlying, Option.some.injEq, Act.read.injEq] at hj
          subst hj
          simp [Fed.readIn, ho, Inlet.seen]
        | error e =>
          refine .same (fun r => r) (fun _ => ⟨rfl, rfl⟩) (by simp [Fed.begin, onLast_id]) ?_
          intro j hj
          simp only [underlying, Option.some.injEq, Act.read.injEq] at hj
          subst hj
          simp [Fed.readIn, ho, Inlet.seen]
      · rename_i hp
        have hno : ∀ j, underlying H f (.act (.read i)) = some (.read j) → ¬ (f.disp.parses j = true ∧ ∃ m, j.parse = .msg m) := by
          intro j hj
          simp only [underlying, Option.some.injEq, Act.read.injEq] at hj
          subst hj
          rw [hpe]
          exact fun h => hp h.1
        split
        · refine .same _ ?_ rfl hno
          intro r
          unfold Received.add
          repeat' split
          all_goals exact ⟨rfl, rfl⟩
        · exact .same (fun r => r) (fun _ => ⟨rfl, rfl⟩) (onLast_id _).symm hno
    | _ => exact .same (fun r => r) (fun _ => ⟨rfl, rfl⟩) (onLast_id _).symm (by intro i h; simp [underlying] at h)

/-! ## The client's side -/

/-- How many heads were read, by the log. -/
theorem readHeads_filter (l : List Ev) : readHeads l = (l.filter isHead).length := by
  rw [← List.countP_eq_length_filter]; rfl

theorem writeHeads_filter (l : List Ev) : writeHeads (l.filter isOut) = writeHeads l := by
  induction l with
  | nil => rfl
  | cons e l ih =>
    unfold writeHeads at ih ⊢
    rw [List.filter_cons]
    cases e <;> simp [isOut, List.countP_cons, ih]

/-- A response is read with the method of the request in its place. -/
structure Knows {α : Type} (f : Fed α) (qs : List (ReqHead × Option BodyLength)) : Prop where
  next : qs.length = f.disp.next
  flight : f.disp.done = false → f.disp.inFlight ≠ none → (qs.getLast?).map (fun q => q.1.method) = f.disp.conn.method ∧ qs ≠ []
  got : f.got.map (·.method) <+: qs.map (fun q => some q.1.method)

theorem client_methods {α : Type} (env : EncodeEnv) (P : TrailerParser) (H : HeadFn α) (hS : Stable H) (f : Fed α) (hf : f.disp.Start) (hc : f.disp.conn.client = true)
    (hg : f.got = []) (as : List FAct) : Knows (f.run env P H as) (requests env P f.disp (acts env P H f as)) := by
  induction as using snoc_induction with
  | h0 => exact ⟨hf.next.symm, fun _ h => absurd hf.inFlight h, by rw [show (f.run env P H []).got = [] from hg]; exact List.nil_prefix⟩
  | h1 as a ih =>
    have hist := client_hist env P (acts env P H f as) f.disp hf hc
    rw [← run_acts] at hist
    have heads := (C66_messages env P H hS f hf hg as).2.1
    rw [fed_snoc, acts_snoc, requests_append, ← run_acts]
    generalize requests env P f.disp (acts env P H f as) = qs at ih ⊢
    generalize f.run env P H as = x at ih hist heads ⊢
    obtain ⟨k1, k2, k3⟩ := ih
    have hcl : x.disp.conn.client = true := by
      have := hist.inv.client
      unfold Disp.view at this
      split at this <;> exact this
    have hgr := grow env P H x a
    have hdisp := step_underlying (env := env) (P := P) (H := H) x a
    generalize x.step env P H a = y at hgr hdisp ⊢
    cases hu : underlying H x a with
    | none =>
      rw [hu] at hdisp
      have hd : y.disp = x.disp := hdisp
      cases hgr with
      | same g g1 g2 g3 =>
        refine ⟨by simp only [Option.toList, requests, List.append_nil, hd]; exact k1, by simp only [Option.toList, requests, List.append_nil, hd]; exact k2, ?_⟩
        rw [g2, onLast_map g _ (fun b => (g1 b).1)]
        simpa [requests] using k3
      | next i r g1 => rw [hu] at g1; cases g1
    | some b =>
      rw [hu] at hdisp
      have hd : y.disp = x.disp.step env P b := hdisp
      simp only [Option.toList, requests, List.append_nil]
      have hmv := move env P x.disp b
      have hdone := done_step env P (d := x.disp) b
      rw [← hd] at hmv hdone
      cases hmv with
      | stay m1 m2 m3 =>
        rw [m2]
        simp only [List.append_nil]
        refine ⟨k1.trans m1.next.symm, ?_, ?_⟩
        · intro hyd hfl
          have hxd := hdone hyd
          have hxf : x.disp.inFlight ≠ none := by
            rcases m1.flight with e | e | e
            · rw [← e]; exact hfl
            · exact absurd e hfl
            · rw [e] at hyd; cases hyd
          rcases m1.conn with ⟨e1, _⟩ | ⟨e1, e2, e3, _⟩
          · rw [e1]; exact k2 hxd hxf
          · exfalso
            have hv := hist.inv
            rw [view_live hxd] at hv
            cases hr : x.disp.conn.reading with
            | init => exact e2 hr
            | closed => exact e3 hr
            | cont dd => exact hxf (hv.body (.inl (by simp [Conn.view, hr, Reading.tag]))).2.2.2
            | body dd => exact hxf (hv.body (.inr (by simp [Conn.view, hr, Reading.tag]))).2.2.2
            | keepAlive => exact hxf (hv.rest (by simp [Conn.view, hr, Reading.tag])).2.2.2
        · cases hgr with
          | same g g1 g2 g3 => rw [g2, onLast_map g _ (fun b => (g1 b).1)]; exact k3
          | next i r g1 g2 g3 g4 g5 =>
            rw [hu] at g1
            cases g1
            exact absurd ⟨g2, _, g3⟩ (m3 i rfl)
      | ask h body m1 m2 m3 m4 m5 =>
        rw [m1]
        refine ⟨by simp [k1, m4], fun _ _ => ⟨by simp [m3], by simp⟩, ?_⟩
        cases hgr with
        | same g g1 g2 g3 =>
          rw [g2, onLast_map g _ (fun b => (g1 b).1), List.map_append]
          exact k3.trans (List.prefix_append _ _)
        | next i r g1 => rw [hu] at g1; cases g1; exact absurd rfl (m2 i)
      | accept i m m1 m2 =>
        subst m1
        simp only [asked, List.append_nil]
        obtain ⟨c1, c2⟩ := m2.client hcl
        refine ⟨k1.trans c2.symm, fun _ h => absurd c1 h, ?_⟩
        cases hgr with
        | same g g1 g2 g3 => exact absurd ⟨m2.parses, m, m2.parse⟩ (g3 i hu)
        | next j r g1 g2 g3 g4 g5 =>
          have hp := m2.parses
          simp only [Disp.parses, Bool.and_eq_true, Bool.not_eq_true'] at hp
          obtain ⟨⟨⟨p1, p2⟩, p3⟩, p4⟩ := hp
          have hfl : x.disp.inFlight ≠ none := by
            rw [hcl] at p4
            intro e; rw [e] at p4; simp at p4
          obtain ⟨q1, q2⟩ := k2 p1 hfl
          have hv := hist.inv
          rw [view_live p1] at hv
          have hrd : x.disp.conn.reading = .init := by
            simp only [Conn.canReadHead, Bool.and_eq_true, beq_iff_eq] at p3; exact p3.1
          obtain ⟨_, i2, i3⟩ := hv.init (by simp [Conn.view, hrd, Reading.tag])
          have hlen : x.got.length + 1 = qs.length := by
            rw [k1]
            by_cases hw : (x.disp.conn.view x.disp.inFlight x.disp.next).wr = .init
            · exact absurd (i2 hw).2 hfl
            · have := (i3 hw).1
              rw [readHeads_filter] at this
              rw [show (x.disp.conn.view x.disp.inFlight x.disp.next).log = x.disp.conn.log from rfl, heads, List.length_map] at this
              exact this
          rw [g5, List.map_append]
          obtain ⟨qs', q, rfl⟩ : ∃ qs' q, qs = qs' ++ [q] := ⟨qs.dropLast, qs.getLast q2, (List.dropLast_concat_getLast q2).symm⟩
          simp only [List.getLast?_append, List.getLast?_singleton, Option.some_or, Option.map_some] at q1
          rw [List.map_append] at k3 ⊢
          simp only [List.length_append, List.length_singleton, Nat.add_right_cancel_iff] at hlen
          have : x.got.map (·.method) = qs'.map (fun q => some q.1.method) := by
            have hp : x.got.map (·.method) <+: qs'.map (fun q => some q.1.method) := by
              refine List.prefix_of_prefix_length_le k3 (List.prefix_append _ _) ?_
              simp [hlen]
            exact hp.eq_of_length (by simp [hlen])
          rw [this]
          simp only [List.map_cons, List.map_nil, g4, ← q1]
          exact List.prefix_refl _

/-! ## The server's side -/

/-- The pieces are the messages made of these responses to requests with these methods, in order, and `100 Continue`s; at the end, if so marked, an answer to
bytes that are no request. -/
inductive Replies (env : EncodeEnv) : Bool → List Piece → List RespOut → List Bytes → Prop where
  | nil : Replies env false [] [] []
  | interim {ps : List Piece} {as : List RespOut} {μs : List Bytes} : Replies env false ps as μs → Replies env false (ps ++ [.interim]) as μs
  | answer {ps : List Piece} {as : List RespOut} {μs : List Bytes} {m : Message} {a : RespOut} {μ : Bytes} {n : Nat} {l : Bool} : Replies env false ps as μs →
      m.OfResponse env a μ → m.ev = .writeHead n l → Replies env false (ps ++ [.message m]) (as ++ [a]) (μs ++ [μ])
  | error {ps : List Piece} {as : List RespOut} {μs : List Bytes} {m : Message} {status : Nat} : Replies env false ps as μs → m.OfError env status →
      Replies env true (ps ++ [.message m]) as μs

theorem addFrame_interim (f : UserFrame) : ∀ pre : List Piece, addFrame f (pre ++ [.interim]) = pre ++ [.interim] := by
  intro pre
  induction pre with
  | nil => rfl
  | cons p ps ih =>
    cases ps with
    | nil => cases p <;> rfl
    | cons q qs => rw [List.cons_append, addFrame]; exact congrArg (List.cons p) ih; intro m' hm; simp

theorem Replies.frame {env : EncodeEnv} {b : Bool} {ps : List Piece} {as : List RespOut} {μs : List Bytes} (h : Replies env b ps as μs) (f : UserFrame) :
    Replies env b (addFrame f ps) as μs := by
  cases h with
  | nil => exact .nil
  | interim h => rw [addFrame_interim]; exact .interim h
  | answer h hm he =>
    rw [addFrame_last]
    obtain ⟨c, ev, frames, hc, hmt, rfl⟩ := hm
    exact .answer h ⟨c, ev, _, hc, hmt, rfl⟩ he
  | error h hm =>
    rw [addFrame_last]
    obtain ⟨hs, c, frames, hc, hmt, rfl⟩ := hm
    exact .error h ⟨hs, c, _, hc, hmt, rfl⟩

theorem writeHeads_append (a b : List Ev) : writeHeads (a ++ b) = writeHeads a + writeHeads b := by simp [writeHeads]

theorem Replies.count {env : EncodeEnv} {b : Bool} {ps : List Piece} {as : List RespOut} {μs : List Bytes} (h : Replies env b ps as μs) :
    as.length = μs.length ∧ (b = false → writeHeads (ps.map Piece.ev) = as.length) ∧ (b = true → Ev.errorHead ∈ ps.map Piece.ev) := by
  induction h with
  | nil => exact ⟨rfl, fun _ => rfl, by simp⟩
  | interim h ih =>
    refine ⟨ih.1, fun _ => ?_, by simp⟩
    rw [List.map_append, writeHeads_append, ih.2.1 rfl]; rfl
  | @answer _ _ _ m _ _ n l h hm he ih =>
    refine ⟨by simp [ih.1], fun _ => ?_, by simp⟩
    rw [List.map_append, writeHeads_append, ih.2.1 rfl]
    simp [Piece.ev, he, writeHeads]
  | @error _ _ _ m _ h hm ih =>
    refine ⟨ih.1, by simp, fun _ => ?_⟩
    obtain ⟨hs, c, frames, hc, hmt, rfl⟩ := hm
    simp [Piece.ev, respMessage]

/-- A server's connection answers the requests it has read, in order, knowing their methods. -/
structure Serves (env : EncodeEnv) (f : Fed RequestMsg) (st : List Piece) (as : List RespOut) : Prop where
  idle : f.disp.done = false → f.disp.conn.reading = .init → f.disp.conn.method = none
  flight : f.disp.done = false → f.disp.inFlight ≠ none → (f.got.getLast?).map (fun r => r.head.method) = f.disp.conn.method ∧ f.got ≠ []
  said : ∃ b μs, Replies env b st as μs ∧ μs <+: f.got.map (fun r => r.head.method)

theorem wasBad_mem {l : List Ev} (h : Ev.errorHead ∈ l) : wasBad l = true := by
  unfold wasBad
  simp only [List.any_eq_true]
  exact ⟨_, h, rfl⟩

theorem server_answers (env : EncodeEnv) (P : TrailerParser) (H : HeadFn RequestMsg) (hS : Stable H) (hview : ∀ μ m, (H.view μ m).method = some m.method)
    (f : Fed RequestMsg) (hf : Fresh f.disp) (hm0 : f.disp.conn.method = none) (hc : f.disp.conn.client = false) (hg : f.got = []) (as : List FAct)
    (hgate : Wire.Gated env P f.disp (acts env P H f as)) :
    Serves env (f.run env P H as) (story env P f.disp [] (acts env P H f as)) (answers env P f.disp (acts env P H f as)) := by
  induction as using snoc_induction with
  | h0 => exact ⟨fun _ _ => hm0, fun _ h => absurd hf.start.inFlight h, false, [], .nil, List.nil_prefix⟩
  | h1 as a ih =>
    rw [acts_snoc] at hgate
    have hgate := gated_append env P _ _ _ hgate
    have ih := ih hgate
    have hist := server_hist env P (acts env P H f as) f.disp hf.start hc
    have heads := (C66_messages env P H hS f hf.start hg as).2.1
    have hlog := (C65_wire_partial env P f.disp hf _ hgate).1
    have hvi := Poll.vi_run env P (acts env P H f as) (Poll.vi_start hf.start)
    rw [← run_acts] at hist hlog hvi
    rw [fed_snoc, acts_snoc, answers_append, story_append, ← run_acts]
    generalize answers env P f.disp (acts env P H f as) = xs at ih ⊢
    generalize story env P f.disp [] (acts env P H f as) = st at ih hlog ⊢
    generalize f.run env P H as = x at ih hist heads hlog hvi ⊢
    obtain ⟨k1, k2, b, μs, k3, k4⟩ := ih
    have hcl : x.disp.conn.client = false := by
      have := hist.inv.server
      unfold Disp.view at this
      split at this <;> exact this
    have hgr := grow env P H x a
    have hdisp := step_underlying (env := env) (P := P) (H := H) x a
    generalize x.step env P H a = y at hgr hdisp ⊢
    cases hu : underlying H x a with
    | none =>
      rw [hu] at hdisp
      have hd : y.disp = x.disp := hdisp
      cases hgr with
      | same g g1 g2 g3 =>
        simp only [Option.toList, answers, story, List.append_nil]
        have hmap := onLast_map g (fun r : Received RequestMsg => r.head.method) (fun b => by rw [(g1 b).2]) x.got
        rw [← g2] at hmap
        refine ⟨by rw [hd]; exact k1, ?_, b, μs, k3, by rw [hmap]; exact k4⟩
        rw [hd]
        intro h1 h2
        obtain ⟨e1, e2⟩ := k2 h1 h2
        refine ⟨?_, ?_⟩
        · rw [← List.getLast?_map, hmap, List.getLast?_map]; exact e1
        · intro e; rw [e] at hmap; exact e2 (by simpa using hmap.symm)
      | next i r g1 => rw [hu] at g1; cases g1
    | some c =>
      rw [hu] at hdisp
      have hd : y.disp = x.disp.step env P c := hdisp
      simp only [Option.toList, answers, story, List.append_nil]
      have hmv := move env P x.disp c
      have hdone := done_step env P (d := x.disp) c
      -- the replies
      have hlive : x.disp.done = false → SInv (x.disp.conn.view x.disp.inFlight x.disp.next) := by
        intro h; have := hist.inv; rwa [view_live h] at this
      have hbad : x.disp.done = false → x.disp.conn.reading ≠ .closed ∨ x.disp.conn.writing = .init → b = false := by
        intro h1 h2
        cases hb : b with
        | false => rfl
        | true =>
          exfalso
          have := k3.count.2.2 hb
          rw [hlog] at this
          have hb' := (hlive h1).bad (wasBad_mem (List.mem_filter.1 this).1)
          rcases h2 with h2 | h2
          · exact h2 (Poll.rtag_closed.1 hb'.2)
          · exact hb'.1 (Poll.wtag_init.2 h2)
      have hgot : x.got.map (fun r => r.head.method) <+: y.got.map (fun r => r.head.method) := by
        cases hgr with
        | same g g1 g2 g3 => rw [g2, onLast_map g (fun r : Received RequestMsg => r.head.method) (fun b => by rw [(g1 b).2])]; exact List.prefix_refl _
        | next i r g1 g2 g3 g4 g5 => rw [g5, List.map_append]; exact List.prefix_append _ _
      have hsaid : ∃ b μs, Replies env b (record env P x.disp c st) (xs ++ (answered x.disp c).toList) μs ∧ μs <+: y.got.map (fun r => r.head.method) := by
        have same : ∀ st', Replies env b st' xs μs → answered x.disp c = none → st' = record env P x.disp c st →
            ∃ b μs, Replies env b (record env P x.disp c st) (xs ++ (answered x.disp c).toList) μs ∧ μs <+: y.got.map (fun r => r.head.method) := by
          intro st' h1 h2 h3
          rw [h2, ← h3]
          exact ⟨b, μs, by simpa using h1, k4.trans hgot⟩
        have quiet : answered x.disp c = none → frameOf x.disp c = none → News x.disp.conn (x.disp.step env P c).conn [] →
            ∃ b μs, Replies env b (record env P x.disp c st) (xs ++ (answered x.disp c).toList) μs ∧ μs <+: y.got.map (fun r => r.head.method) := by
          intro h1 h2 h3
          exact same st k3 h1 (by rw [h3.record h2]; simp)
        cases c with
        | read i =>
          cases hxd : x.disp.done with
          | true => exact quiet rfl rfl (by simp only [Disp.step, hxd, if_true]; exact .quiet (.refl _))
          | false =>
            have hs : x.disp.step env P (.read i) = x.disp.readTurn env P i := by simp [Disp.step, hxd]
            obtain ⟨out, h1, h2⟩ := read_news env P (Poll.ci_of_view hxd hvi) i
            rw [← hs] at h2
            cases h1 with
            | quiet => exact quiet rfl rfl h2
            | interim hr hw =>
              have hbf := hbad hxd (.inr hw)
              subst hbf
              refine ⟨false, μs, ?_, k4.trans hgot⟩
              rw [h2.record rfl]
              simpa [pieceOf, answered] using Replies.interim k3
            | @error e rest h2' status h3 h4 h5 h6 =>
              have hbf := hbad hxd (.inl (by rw [h6]; simp))
              subst hbf
              refine ⟨true, μs, ?_, k4.trans hgot⟩
              rw [h2.record rfl]
              have hst : status ∈ [400, 414, 431] := by
                revert h5; unfold serverOnError; repeat' split
                all_goals (intro h5; cases h5; try decide)
              have : Replies env true (st ++ [.message (respMessage env x.disp.conn.closeRead (Conn.errorResp status) .errorHead)]) xs μs :=
                .error k3 ⟨hst, x.disp.conn.closeRead, [], hcl, k1 hxd h6, rfl⟩
              simpa [pieceOf, errMessage, h4, h5, answered] using this
        | write i =>
          cases hfr : frameOf x.disp (.write i) with
          | some fr =>
            have hr : record env P x.disp (.write i) st = addFrame fr st := by simp only [Wire.record, hfr]
            refine same _ (k3.frame fr) ?_ hr.symm
            have hp : polls x.disp = true := by
              rcases i with ⟨m, fr, fl, nt⟩
              cases fr with
              | frame f' => simp only [frameOf] at hfr; split at hfr; assumption; cases hfr
              | _ => simp [frameOf] at hfr
            rcases i with ⟨m, fr, fl, nt⟩
            cases m with
            | resp h => simp [answered, takes, (polls_iff.1 hp).2.2.1]
            | _ => rfl
          | none =>
            rcases write_news env P x.disp i hfr with ⟨h1, h2⟩ | ⟨n, l, h1, h2, h3⟩
            · refine quiet ?_ hfr h1
              rcases i with ⟨m, fr, fl, nt⟩
              cases m with
              | resp q =>
                have : takes x.disp = false := by
                  cases ht : takes x.disp with
                  | false => rfl
                  | true => exact absurd ⟨ht, .inr ⟨q, rfl, hcl⟩⟩ h2
                simp [answered, this]
              | _ => rfl
            · rcases h3 with ⟨q, body, _, hcc⟩ | ⟨m, hm, _⟩
              · rw [hcl] at hcc; cases hcc
              · have ht := h2
                simp only [takes, Bool.and_eq_true, Bool.not_eq_true'] at ht
                obtain ⟨⟨⟨⟨t1, t2⟩, t3⟩, t4⟩, t5⟩ := ht
                have hw : x.disp.conn.writing = .init := by
                  simp only [Conn.canWriteHead, Bool.and_eq_true, beq_iff_eq] at t4
                  exact t4.2.1
                have hfl : x.disp.inFlight ≠ none := by
                  unfold Disp.shouldPoll at t5
                  rw [hcl] at t5
                  intro e; rw [e] at t5; simp at t5
                have hbf := hbad t1 (.inr hw)
                subst hbf
                obtain ⟨e1, e2⟩ := k2 t1 hfl
                have hv := hlive t1
                obtain ⟨nn, hnn⟩ := Option.ne_none_iff_exists'.1 hfl
                obtain ⟨v1, v2⟩ := hv.flight nn (Poll.wtag_init.2 hw) hnn
                have v3 := hv.heads
                rw [readHeads_filter] at v3
                rw [show (x.disp.conn.view x.disp.inFlight x.disp.next).log = x.disp.conn.log from rfl] at v2 v3
                rw [heads, List.length_map] at v3
                rw [← writeHeads_filter, ← hlog] at v2
                obtain ⟨c1, c2, _⟩ := k3.count
                have hlen : μs.length + 1 = x.got.length := by
                  have := c2 rfl
                  omega
                obtain ⟨gs, r, hgs⟩ : ∃ gs r, x.got = gs ++ [r] := ⟨x.got.dropLast, x.got.getLast e2, (List.dropLast_concat_getLast e2).symm⟩
                rw [hgs] at e1 hlen
                simp only [List.getLast?_append, List.getLast?_singleton, Option.some_or, Option.map_some] at e1
                simp only [List.length_append, List.length_singleton, Nat.add_right_cancel_iff] at hlen
                have hμ : μs = gs.map (fun r => r.head.method) := by
                  have hp : μs <+: gs.map (fun r => r.head.method) := by
                    rw [hgs, List.map_append] at k4
                    exact List.prefix_of_prefix_length_le k4 (List.prefix_append _ _) (by simp [hlen])
                  exact hp.eq_of_length (by simp [hlen])
                have hq : answered x.disp (.write i) = some m := by
                  rcases i with ⟨m', fr, fl, nt⟩
                  simp only at hm; subst hm
                  simp [answered, h2, hcl]
                have hpc : pieceOf env x.disp.conn (.write i) (.writeHead n l) = .message (respMessage env x.disp.conn m (.writeHead n l)) := by
                  rcases i with ⟨m', fr, fl, nt⟩
                  simp only at hm; subst hm
                  rfl
                refine ⟨false, μs ++ [r.head.method], ?_, ?_⟩
                · rw [h1.record hfr, hq]
                  simp only [List.map_cons, List.map_nil, hpc, Option.toList]
                  exact .answer k3 ⟨x.disp.conn, .writeHead n l, [], hcl, e1.symm, rfl⟩ rfl
                · refine List.IsPrefix.trans ?_ hgot
                  rw [hgs, hμ, List.map_append]
                  exact List.prefix_refl _
        | _ =>
          exact quiet rfl rfl (.quiet (qd_other env P x.disp _ (by intro i h; cases h) (by intro i h; cases h)).conn)
      -- the method
      rw [← hd] at hmv hdone
      cases hmv with
      | stay m1 m2 m3 =>
        have hsame : ∃ g : Received RequestMsg → Received RequestMsg, (∀ r, (g r).method = r.method ∧ (g r).head = r.head) ∧ y.got = onLast g x.got := by
          cases hgr with
          | same g g1 g2 g3 => exact ⟨g, g1, g2⟩
          | next i r g1 g2 g3 g4 g5 =>
            rw [hu] at g1
            cases g1
            exact absurd ⟨g2, _, g3⟩ (m3 i rfl)
        obtain ⟨g, g1, g2⟩ := hsame
        have hmap := onLast_map g (fun r : Received RequestMsg => r.head.method) (fun b => by rw [(g1 b).2]) x.got
        rw [← g2] at hmap
        refine ⟨?_, ?_, hsaid⟩
        · intro h1 h2
          rcases m1.conn with ⟨e1, e2⟩ | ⟨_, _, _, e⟩
          · rw [e1]; exact k1 (hdone h1) (e2 h2)
          · exact e
        · intro hyd hfl
          have hxd := hdone hyd
          have hxf : x.disp.inFlight ≠ none := by
            rcases m1.flight with e | e | e
            · rw [← e]; exact hfl
            · exact absurd e hfl
            · rw [e] at hyd; cases hyd
          rcases m1.conn with ⟨e1, _⟩ | ⟨e1, _⟩
          · obtain ⟨q1, q2⟩ := k2 hxd hxf
            refine ⟨?_, ?_⟩
            · rw [e1, ← List.getLast?_map, hmap, List.getLast?_map]; exact q1
            · intro e; rw [e] at hmap; exact q2 (by simpa using hmap.symm)
          · exact absurd ((hlive hxd).wrest (by simp [Conn.view, e1, Writing.tag])).2 hxf
      | ask h body m1 m2 m3 m4 m5 =>
        exfalso
        cases c with
        | write i =>
          rcases i with ⟨m, fr, fl, nt⟩
          cases m <;> simp [asked, hcl] at m1
        | _ => cases m1
      | accept i m m1 m2 =>
        subst m1
        obtain ⟨c1, c2, c3, c4⟩ := m2.server hcl
        cases hgr with
        | same g g1 g2 g3 => exact absurd ⟨m2.parses, m, m2.parse⟩ (g3 i hu)
        | next j r g1 g2 g3 g4 g5 =>
          rw [hu] at g1
          cases g1
          have hm : m = H.view x.disp.conn.method r.head := by
            have := m2.parse.symm.trans g3
            cases this; rfl
          refine ⟨fun _ h => absurd h c2, fun _ _ => ⟨?_, by rw [g5]; simp⟩, hsaid⟩
          rw [g5, c1, hm, hview]
          simp

/-! ## Heads of responses -/

theorem client_nothing {cfg : ClientCfg} (h09 : cfg.h09 = false) {Q : Bytes → RespParse} (hst : PrefixStable Q) (m : Option Bytes) (x : ResponseMsg) (b : Bytes) :
    (clientHeads cfg Q).parse m [] ≠ (.ok (some x), b) := by
  intro h
  simp only [clientHeads, clientParse, List.length_nil, Nat.zero_add, Prod.mk.injEq] at h
  cases hq : Q [] with
  | incomplete => rw [hq] at h; simp at h
  | err e => rw [hq] at h; simp at h
  | versionErr => rw [hq] at h; simp [h09] at h
  | complete len r =>
    obtain ⟨h1, h2, _⟩ := hst _ _ _ hq
    simp only [List.length_nil] at h2
    omega

theorem decimal_100 : decimal 100 = ascii "100" := by
  rw [decimal, decimal, decimal]; decide

theorem client_passes {cfg : ClientCfg} {Q : Bytes → RespParse} {max : Nat} (hst : PrefixStable Q) (hQ : ReadsResponses max Q) : Passes (clientHeads cfg Q) := by
  intro m rest x b h
  have hq := hQ true 100 (ascii "Continue") [] [] rest (by omega) (by omega) (by decide +kernel) .nil (by simp) (by simp)
  simp only [decimal_100, show ¬ ∃ b ∈ ascii "Continue", (128 : Byte) ≤ b from by decide +kernel, if_false] at hq
  rw [show ascii "HTTP/1." ++ (if True then ascii "1" else ascii "0") ++ ascii " " ++ ascii "100" ++ ascii " " ++ ascii "Continue" ++ CRLF ++ [] ++ CRLF =
    Conn.continueLine from by decide +kernel] at hq
  simp only [clientHeads, Prod.mk.injEq] at h ⊢
  obtain ⟨h1, h2⟩ := h
  simp only [clientParse, hq, List.drop_left] at h1 h2
  have hh : ∃ hd ka, clientHead cfg ⟨100, true, ascii "Continue", []⟩ = .ok (hd, ka) ∧ hd.status = 100 := by
    have hu : cfg.unfold [] = [] := by unfold ClientCfg.unfold; split <;> rfl
    simp only [clientHead, namesTooLong, hu, respLoop]
    exact ⟨_, _, rfl, rfl⟩
  obtain ⟨hd, ka, hh, hs⟩ := hh
  have hdec : clientDecoder hd m = .ok none := by simp [clientDecoder, hs]
  simp only [List.map_nil] at h1 h2
  rw [hh] at h1 h2
  simp only [hdec] at h1 h2
  by_cases hr : rest = []
  · rw [if_pos hr] at h1; simp at h1
  · rw [if_neg hr] at h1 h2
    have hlen : (Conn.continueLine ++ rest).length = 25 + rest.length := by rw [List.length_append]; rfl
    obtain ⟨f1, f2⟩ := client_fuel (cfg := cfg) hst m (rest.length + 1) (Conn.continueLine ++ rest).length (rest.length + 1) rest
      (if isInformational hd.status = true then [] ++ [hd] else []) [] (by omega) (by omega) (by omega)
    exact ⟨f1.symm.trans h1, f2.symm.trans h2⟩

/-- How a response's head is read does not depend on the method when the status is that of an error and there is no body. -/
theorem method_indep {cfg : ClientCfg} (h09 : cfg.h09 = false) {Q : Bytes → RespParse} (μ : Option Bytes) : ∀ (fuel : Nat) (buf : Bytes) (inf : List RespHead) (x : ResponseMsg),
    (clientParse cfg Q none fuel buf inf).res = .ok (some x) → x.decode = DecodedLength.ZERO → 400 ≤ x.head.status →
    (clientParse cfg Q μ fuel buf inf).res = .ok (some x) ∧ (clientParse cfg Q μ fuel buf inf).buf = (clientParse cfg Q none fuel buf inf).buf := by
  intro fuel
  induction fuel with
  | zero => intro buf inf x h; simp [clientParse] at h
  | succ fuel ih =>
    intro buf inf x h hz hs
    simp only [clientParse] at h ⊢
    cases hq : Q buf with
    | incomplete => rw [hq] at h; simp at h
    | err e => rw [hq] at h; simp at h
    | versionErr => rw [hq] at h; simp [h09] at h
    | complete len r =>
      rw [hq] at h
      simp only at h ⊢
      cases hc : clientHead cfg r with
      | error e => rw [hc] at h; simp at h
      | ok p =>
        obtain ⟨hd, ka⟩ := p
        rw [hc] at h
        simp only at h ⊢
        cases hd0 : clientDecoder hd none with
        | error e => rw [hd0] at h; simp at h
        | ok o =>
          cases o with
          | none =>
            have : clientDecoder hd μ = .ok none := by
              simp only [clientDecoder] at hd0 ⊢
              revert hd0
              repeat' split
              all_goals first
                | (intro h; cases h; done)
                | (intro _; rfl)
                | (intro h; simp_all; done)
            rw [hd0] at h
            rw [this]
            simp only at h ⊢
            split at h
            · simp at h
            · rename_i hne
              rw [if_neg hne, if_neg hne]
              exact ih _ _ x h hz hs
          | some du =>
            obtain ⟨dd, up⟩ := du
            rw [hd0] at h
            simp only [Except.ok.injEq, Option.some.injEq] at h
            subst h
            simp only at hz hs
            subst hz
            have hup : up = false ∧ clientDecoder hd μ = .ok (some (DecodedLength.ZERO, false)) := by
              have e1 : hd.status ≠ 101 := by omega
              have e2 : ¬ (hd.status = 100 ∨ 102 ≤ hd.status ∧ hd.status ≤ 199) := by omega
              have e3 : ¬ (hd.status = 204 ∨ hd.status = 304) := by omega
              have e4 : ¬ (μ = some mCONNECT ∧ 200 ≤ hd.status ∧ hd.status ≤ 299) := by rintro ⟨_, h1, h2⟩; omega
              simp only [clientDecoder, e1, e2, e3, e4, if_false] at hd0 ⊢
              simp only [reduceCtorEq, false_and, if_false] at hd0
              have hupf : up = false := by
                revert hd0
                repeat' split
                all_goals (intro h; cases h; try rfl)
              subst hupf
              refine ⟨rfl, ?_⟩
              split
              · rfl
              · exact hd0
            obtain ⟨rfl, hdμ⟩ := hup
            rw [hdμ]
            exact ⟨rfl, rfl⟩

theorem respMsg_facts (c : Conn) (a : RespOut) (hm : MapOk a.head.headers) (hn : ShortNames a.head.headers) :
    MapOk (c.respMsg a).2.head.headers ∧ ShortNames (c.respMsg a).2.head.headers ∧
      (∀ k, k ≠ hCONN → (c.respMsg a).2.head.headers.getAll k = a.head.headers.getAll k) := by
  have hhead : (c.respMsg a).2.head.headers = a.head.headers ∨ ∃ w, (w = ascii "keep-alive" ∨ w = ascii "close") ∧ (c.respMsg a).2.head.headers = a.head.headers.insert hCONN w :=
    enforceVersion_headers c.version c.ka a.head.version a.head.headers
  rcases hhead with e | ⟨w, hw, e⟩
  · rw [e]; exact ⟨hm, hn, fun _ _ => rfl⟩
  · rw [e]
    refine ⟨hm.insert lowerName_hCONN (by rcases hw with rfl | rfl <;> decide +kernel), ?_, ?_⟩
    · intro f hf
      rcases mem_fields_insert _ _ _ f hf with rfl | hf
      · show hCONN.length < 2 ^ 16
        decide
      · exact hn f hf
    · intro k hk
      rw [getAll_insert, if_neg hk]

theorem encode_mute {env : EncodeEnv} {m : EncodeMsg} {out : Bytes} {r : EncodeRes} (h : serverEncode env m [] = (out, r)) (hst : isInformational m.head.status = false ∨ m.head.status = 101) :
    (∃ e, r = .ok e) ∨ (out = [] ∧ Writing.ofHead r = .closed) := by
  cases r with
  | ok e => exact .inl ⟨e, rfl⟩
  | userHeader => exact .inr ⟨C21_failed_head_writes_nothing env m [] out h, rfl⟩
  | panic =>
    refine .inr ⟨?_, rfl⟩
    unfold serverEncode at h
    simp only at h
    split at h
    · simp only [Prod.mk.injEq, and_true] at h; exact h.symm
    · exfalso
      split at h
      · simp only [Prod.mk.injEq] at h
        have := h.2
        split at this <;> simp at this
      · rename_i hne he
        simp only [Prod.mk.injEq] at h
        obtain ⟨rfl, rfl⟩ := h
        unfold encodeHeaders at he
        split at he
        · simp at he
        · rename_i hh; exact hrun_no_panic _ _ _ hh
        · simp at he
  | unsupportedStatus =>
    exfalso
    have hb := serverEncode_unsupported h
    unfold encodePrep at hb
    split at hb
    · simp at hb
    · rename_i a1
      split at hb
      · simp at hb
      · split at hb
        · rename_i a3
          rcases hst with e | e
          · rw [e] at a3; cases a3
          · exact a1 e
        · simp at hb

/-- The head of a response's message, and how its body is read. -/
theorem response_read {cfg : ClientCfg} (h09 : cfg.h09 = false) {Q : Bytes → RespParse} {max : Nat} (hS : PrefixStable Q) (hQ : ReadsResponses max Q)
    (P : TrailerParser) (hP : ReadsBlocks P) (mh : Option Nat) {env : EncodeEnv} (henv : EnvOk env) {m : Message} {a : RespOut} {μ : Bytes} (hm : m.OfResponse env a μ)
    (hok : ResponseOk env μ a) (fair : m.Fair max mh) :
    Mute m ∨ ∃ x : ResponseMsg, Readable (clientHeads cfg Q) P mh (some μ) m x ∧ x.head.status = a.head.status ∧
      (∀ k, k ∉ [hCL, hTE, hCONN, hTRAILER, hDATE] → x.head.headers.getAll k = (a.head.headers.getAll k).map trimBlanks) := by
  obtain ⟨c, ev, frames, hc, hμ, rfl⟩ := hm
  obtain ⟨f1, f2, f3⟩ := respMsg_facts c a hok.headers hok.names
  have hreq : (c.respMsg a).2.reqMethod = some μ := hμ
  have hsta : (c.respMsg a).2.head.status = a.head.status := rfl
  have hbody : (c.respMsg a).2.body = a.body := rfl
  have hwf : ResponseWf (c.respMsg a).2 := ⟨f1.fields, hok.spelling, hok.length⟩
  have huser : UserFramingOk (c.respMsg a).2 := by
    constructor
    · intro v hv k hk hn
      rw [f1.values, f3 hCL (by decide)] at hv
      rw [hreq, hsta] at hn
      exact hok.contentLength v hv k hk hn
    · intro v hv hn
      rw [f1.values, f3 hTE (by decide)] at hv
      rw [hreq, hsta] at hn
      exact hok.coding v hv hn
  have hst : isInformational (c.respMsg a).2.head.status = false ∨ (c.respMsg a).2.head.status = 101 := by
    rw [hsta]
    rcases hok.status with h | h
    · left; simp only [isInformational, Bool.and_eq_false_iff, decide_eq_false_iff_not]; omega
    · exact .inr h
  cases hs : serverEncode env (c.respMsg a).2 [] with
  | mk out r =>
    rcases encode_mute hs hst with ⟨e, rfl⟩ | ⟨ho, hr⟩
    · right
      have hmsg : ({ respMessage env c a ev with frames := frames } : Message) =
          { ev := ev, head := out, framing := Writing.ofHead (.ok e), trailers := c.client || c.allowTrailers, titleCase := c.titleCase, frames := frames } := by
        simp only [respMessage, hs]
      rw [hmsg] at fair ⊢
      have hmax : ∀ n, e.kind = .length n → n ≤ 2 ^ 64 - 3 := by
        intro n hn
        cases n with
        | zero => omega
        | succ n => exact fair.length e (n + 1) (by simp [Writing.ofHead, Encoder.isEof, hn]) hn
      obtain ⟨msg, k1, k2, k3, k4, k5⟩ := C25_server_to_client_partial max Q hQ cfg env (c.respMsg a).2 out.length out [] e hwf henv.1 ⟨hok.reason, henv.2⟩ f2 huser hok.status hs
        fair.fields hmax
      rw [hreq, List.append_nil] at k1 k3
      have hhead : ∀ rest, (clientHeads cfg Q).parse (some μ) (out ++ rest) = (.ok (some msg), rest) := by
        intro rest
        have hp : (clientHeads cfg Q).parse (some μ) out = (.ok (some msg), []) := by simp only [clientHeads, k1, k3]
        simpa using ((C66_client_stable cfg h09 Q hS).msg hp).2 rest
      have hb := readable_body P hP mh ⟨ev, out, Writing.ofHead (.ok e), c.client || c.allowTrailers, c.titleCase, frames⟩ e rfl fair msg.decode (k4 mh none)
      refine ⟨msg, ⟨hhead, hb.1, hb.2.1, hb.2.2⟩, k2, ?_⟩
      intro k hk
      rw [k5 k hk, f1.values, f3 k (by intro h; subst h; simp at hk)]
    · left
      refine ⟨?_, ?_⟩
      · show (serverEncode env (c.respMsg a).2 []).1 = []
        rw [hs]; exact ho
      · show Writing.ofHead (serverEncode env (c.respMsg a).2 []).2 = .closed
        rw [hs]; exact hr

/-- An answer to bytes that are no request has no body. -/
theorem error_kind {env : EncodeEnv} {c : Conn} {status : Nat} (hs : status ∈ [400, 414, 431]) {out : Bytes} {e : Encoder}
    (h : serverEncode env (c.respMsg (Conn.errorResp status)).2 [] = (out, .ok e)) : e.kind = .length 0 := by
  have hhead : (c.respMsg (Conn.errorResp status)).2.head.headers = [] ∨ ∃ w, (c.respMsg (Conn.errorResp status)).2.head.headers = [(hCONN, [w])] := by
    rcases enforceVersion_headers c.version c.ka .h11 [] with e | ⟨w, _, e⟩
    · exact .inl e
    · exact .inr ⟨w, e⟩
  have hprep : ∃ l, encodePrep (c.respMsg (Conn.errorResp status)).2 = ((c.respMsg (Conn.errorResp status)).2, false, l, false) := by
    have h1 : (c.respMsg (Conn.errorResp status)).2.head.status = status := rfl
    unfold encodePrep
    rw [h1]
    have e1 : status ≠ 101 := by rintro rfl; simp at hs
    have e2 : isInformational status = false := by
      simp only [List.mem_cons, List.not_mem_nil, or_false] at hs
      rcases hs with rfl | rfl | rfl <;> rfl
    have e3 : isSuccess status = false := by
      simp only [List.mem_cons, List.not_mem_nil, or_false] at hs
      rcases hs with rfl | rfl | rfl <;> rfl
    rw [if_neg e1, if_neg (by simp [e3]), if_neg (by simp [e2])]
    exact ⟨_, rfl⟩
  obtain ⟨l, hprep⟩ := hprep
  have hbody : (c.respMsg (Conn.errorResp status)).2.body = none := rfl
  generalize (c.respMsg (Conn.errorResp status)).2 = m at h hhead hprep hbody
  unfold serverEncode at h
  rw [hprep] at h
  simp only at h
  split at h
  · simp at h
  · split at h
    · rename_i out' e' he
      simp only [Bool.false_eq_true, if_false, Prod.mk.injEq, EncodeRes.ok.injEq] at h
      obtain ⟨rfl, rfl⟩ := h
      unfold encodeHeaders at he
      split at he
      · simp at he
      · simp at he
      · rename_i s hrun'
        simp only [Prod.mk.injEq, EncodeRes.ok.injEq] at he
        have hwl : s.handle.wroteLen = false := by
          have : s.wroteLen = false := by
            rcases hhead with e | ⟨w, e⟩
            · rw [e] at hrun'
              simp only [HeaderMap.drain, List.flatMap_nil, hrun, Except.ok.injEq] at hrun'
              rw [← hrun']
            · rw [e] at hrun'
              have hd : HeaderMap.drain [(hCONN, [w])] = [(some hCONN, w)] := rfl
              have hca : ∀ t : HSt, (connArm t w).wroteLen = t.wroteLen := by
                intro t
                unfold connArm HSt.joinLine HSt.openLine
                simp only
                repeat' split
                all_goals rfl
              have ha : ∀ t, harm m t hCONN w = .ok (connArm t w) := by
                intro t
                unfold harm
                rw [if_neg (by decide), if_neg (by decide), if_pos rfl]
              rw [hd] at hrun'
              simp only [hrun, hstep, HSt.enter, HSt.handle, Bool.false_eq_true, if_false, ha, Except.ok.injEq] at hrun'
              rw [← hrun', hca]
          unfold HSt.handle; split <;> exact this
        rw [← he.2]
        have himp : (implicitLen m s.handle).encoder = Encoder.length 0 := by
          unfold implicitLen
          rw [hwl, hbody]
          simp only [Bool.false_eq_true, if_false]
          split <;> rfl
        have hfb : (forceBody m (implicitLen m s.handle)).encoder = Encoder.length 0 := by
          unfold forceBody; split
          · rfl
          · exact himp
        have hda : (dateAndEnd env m (forceBody m (implicitLen m s.handle))).encoder = Encoder.length 0 := by
          unfold dateAndEnd; split
          · exact hfb
          · exact hfb
        unfold finalEncoder
        rw [hda]
        rfl
    · rename_i hne he
      simp only [Prod.mk.injEq] at h
      obtain ⟨rfl, rfl⟩ := h
      exact absurd rfl (hne _)

theorem error_read {cfg : ClientCfg} (h09 : cfg.h09 = false) {Q : Bytes → RespParse} {max : Nat} (hS : PrefixStable Q) (hQ : ReadsResponses max Q)
    (P : TrailerParser) (hP : ReadsBlocks P) (mh : Option Nat) {env : EncodeEnv} (henv : EnvOk env) {m : Message} {status : Nat} (hm : m.OfError env status)
    (fair : m.Fair max mh) (μ : Option Bytes) :
    Mute m ∨ ∃ x : ResponseMsg, Readable (clientHeads cfg Q) P mh μ m x ∧ x.head.status = status ∧ m.data = [] := by
  obtain ⟨hst, c, frames, hc, hμ, rfl⟩ := hm
  obtain ⟨f1, f2, f3⟩ := respMsg_facts c (Conn.errorResp status) ⟨⟨by simp [Conn.errorResp], by simp [Conn.errorResp]⟩, by simp [Conn.errorResp, HeaderMap.fields]⟩
    (by intro f hf; simp [Conn.errorResp, HeaderMap.fields] at hf)
  have hreq : (c.respMsg (Conn.errorResp status)).2.reqMethod = none := hμ
  have hsta : (c.respMsg (Conn.errorResp status)).2.head.status = status := rfl
  have h400 : 400 ≤ status ∧ status ≤ 999 := by
    simp only [List.mem_cons, List.not_mem_nil, or_false] at hst
    omega
  have hwf : ResponseWf (c.respMsg (Conn.errorResp status)).2 := ⟨f1.fields, (by intro map h; cases h), (by intro n h; cases h)⟩
  have huser : UserFramingOk (c.respMsg (Conn.errorResp status)).2 := by
    constructor
    · intro v hv k hk; cases hk
    · intro v hv
      rw [f1.values, f3 hTE (by decide)] at hv
      cases hv
  have hst' : isInformational (c.respMsg (Conn.errorResp status)).2.head.status = false ∨ (c.respMsg (Conn.errorResp status)).2.head.status = 101 := by
    rw [hsta]
    left; simp only [isInformational, Bool.and_eq_false_iff, decide_eq_false_iff_not]; omega
  cases hs : serverEncode env (c.respMsg (Conn.errorResp status)).2 [] with
  | mk out r =>
    rcases encode_mute hs hst' with ⟨e, rfl⟩ | ⟨ho, hr⟩
    · right
      have hk0 := error_kind hst hs
      have hmsg : ({ respMessage env c (Conn.errorResp status) .errorHead with frames := frames } : Message) =
          { ev := .errorHead, head := out, framing := Writing.ofHead (.ok e), trailers := c.client || c.allowTrailers, titleCase := c.titleCase, frames := frames } := by
        simp only [respMessage, hs]
      rw [hmsg] at fair ⊢
      obtain ⟨msg, k1, k2, k3, k4, _⟩ := C25_server_to_client_partial max Q hQ cfg env (c.respMsg (Conn.errorResp status)).2 out.length out [] e hwf henv.1
        ⟨by (intro r h; cases h), henv.2⟩ f2 huser (.inl ⟨by rw [hsta]; omega, by rw [hsta]; omega⟩) hs fair.fields (by intro n hn; rw [hk0] at hn; cases hn; omega)
      rw [hreq, List.append_nil] at k1 k3
      have hz : msg.decode = DecodedLength.ZERO := by
        have := k4 none none
        rw [hk0] at this
        simp only [framingOf, readerFor, Decoder.ofLength] at this
        split at this
        · cases this
        · split at this
          · cases this
          · simp only [Decoder.length.injEq] at this
            exact (DecodedLength.mk.injEq _ _).mpr this
      obtain ⟨j1, j2⟩ := method_indep h09 μ _ _ _ _ k1 hz (by rw [k2, hsta]; omega)
      have hhead : ∀ rest, (clientHeads cfg Q).parse μ (out ++ rest) = (.ok (some msg), rest) := by
        intro rest
        have hp : (clientHeads cfg Q).parse μ out = (.ok (some msg), []) := by simp only [clientHeads, j1, j2, k3]
        simpa using ((C66_client_stable cfg h09 Q hS).msg hp).2 rest
      have hb := readable_body P hP mh ⟨.errorHead, out, Writing.ofHead (.ok e), c.client || c.allowTrailers, c.titleCase, frames⟩ e rfl fair msg.decode (k4 mh none)
      refine ⟨msg, ⟨hhead, hb.1, hb.2.1, hb.2.2⟩, k2.trans hsta, ?_⟩
      have : e.isEof = true := by unfold Encoder.isEof; rw [hk0]; rfl
      simp only [Message.data, Writing.ofHead, this, if_true]
      unfold Writing.afterBody
      cases e.isLast <;> rfl
    · left
      refine ⟨?_, ?_⟩
      · show (serverEncode env (c.respMsg (Conn.errorResp status)).2 []).1 = []
        rw [hs]; exact ho
      · show Writing.ofHead (serverEncode env (c.respMsg (Conn.errorResp status)).2 []).2 = .closed
        rw [hs]; exact hr

/-- The messages of a server's story, one by one. -/
theorem Replies.at {env : EncodeEnv} {b : Bool} {ps : List Piece} {as : List RespOut} {μs : List Bytes} (h : Replies env b ps as μs) (k : Nat) (m : Message)
    (hk : (Wire.messages ps)[k]? = some m) :
    (∃ a μ, as[k]? = some a ∧ μs[k]? = some μ ∧ m.OfResponse env a μ) ∨ (k = as.length ∧ ∃ status, m.OfError env status) := by
  have hlen : (Wire.messages ps).length = as.length + (if b then 1 else 0) := by
    clear hk
    induction h with
    | nil => rfl
    | interim h ih => rw [messages_append]; simpa [Wire.messages] using ih
    | answer h hm he ih => rw [messages_append, List.length_append, ih]; simp [Wire.messages]
    | error h hm ih => rw [messages_append, List.length_append, ih]; simp [Wire.messages]
  induction h with
  | nil => simp [Wire.messages] at hk
  | interim h ih =>
    rw [messages_append] at hk hlen
    simp only [Wire.messages, List.filterMap_cons, List.filterMap_nil, List.append_nil] at hk hlen
    exact ih hk hlen
  | @answer ps as μs m' a μ n l h hm he ih =>
    have hc := h.count.1
    have hl : (Wire.messages ps).length = as.length := by
      rw [messages_append, List.length_append] at hlen
      simp [Wire.messages] at hlen ⊢
      exact hlen
    rw [messages_append, show Wire.messages [.message m'] = [m'] from rfl] at hk
    by_cases hlt : k < (Wire.messages ps).length
    · rw [List.getElem?_append_left hlt] at hk
      rcases ih hk (by simp [hl]) with ⟨a', μ', g1, g2, g3⟩ | ⟨g1, _⟩
      · exact .inl ⟨a', μ', by rw [List.getElem?_append_left (by omega)]; exact g1, by rw [List.getElem?_append_left (by omega)]; exact g2, g3⟩
      · omega
    · rw [List.getElem?_append_right (by omega)] at hk
      have hk0 : k - (Wire.messages ps).length = 0 := by
        have := (List.getElem?_eq_some_iff.1 hk).1
        simp only [List.length_singleton] at this; omega
      rw [hk0] at hk
      simp only [List.getElem?_cons_zero, Option.some.injEq] at hk
      subst hk
      have : k = as.length := by omega
      subst this
      exact .inl ⟨a, μ, by simp, by simp [hc], hm⟩
  | @error ps as μs m' status h hm ih =>
    have hl : (Wire.messages ps).length = as.length := by
      rw [messages_append, List.length_append] at hlen
      simp [Wire.messages] at hlen ⊢
      exact hlen
    rw [messages_append, show Wire.messages [.message m'] = [m'] from rfl] at hk
    by_cases hlt : k < (Wire.messages ps).length
    · rw [List.getElem?_append_left hlt] at hk
      rcases ih hk (by simp [hl]) with g | ⟨g1, _⟩
      · exact .inl g
      · omega
    · rw [List.getElem?_append_right (by omega)] at hk
      have hk0 : k - (Wire.messages ps).length = 0 := by
        have := (List.getElem?_eq_some_iff.1 hk).1
        simp only [List.length_singleton] at this; omega
      rw [hk0] at hk
      simp only [List.getElem?_cons_zero, Option.some.injEq] at hk
      subst hk
      exact .inr ⟨by omega, status, hm⟩

end Hyper.Wire
