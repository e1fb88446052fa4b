import Verif.Proof.DispBody

/-!
# Received bodies never exceed their announced length
-/

namespace Hyper

/-- The bytes among what was sent on a body channel. -/
def got : List Item → Nat
  | [] => 0
  | .data bs :: l => bs.length + got l
  | .error :: l => got l

theorem got_append (a b : List Item) : got (a ++ b) = got a + got b := by
  induction a with
  | nil => simp [got]
  | cons x a ih => cases x <;> simp [got, ih, Nat.add_assoc]

/-- A channel of a body of known length. -/
def LenOk (ch : Chan) : Prop :=
  ∀ n, ch.len.intoOpt = some n → got ch.items ≤ n ∧ (ch.complete = true → ch.want ≠ .closed → got ch.items = n)

/-- What the decoder still expects. -/
def LeftOk (dec : Decoder) (ch : Chan) : Prop :=
  match dec with
  | .length rem => ∃ n, ch.len.intoOpt = some n ∧ got ch.items + rem = n
  | _ => ch.len.intoOpt = none

/-- The decoder of a body being read. -/
def Conn.Reads (c : Conn) (dec : Decoder) : Prop := c.reading = .body dec ∨ c.reading = .cont dec

structure LenInv (d : Disp) : Prop where
  all : ∀ (k : Nat) (ch : Chan), d.chans[k]? = some ch → LenOk ch
  cur : ∀ (k : Nat) (ch : Chan) (dec : Decoder), d.bodyTx = some k → d.chans[k]? = some ch → d.conn.Reads dec → LeftOk dec ch

/-- Channels that hold the same bytes. -/
def Alike (cs cs' : List Chan) : Prop :=
  ∀ (k : Nat) (ch' : Chan), cs'[k]? = some ch' → ∃ ch, cs[k]? = some ch ∧ ch'.len = ch.len ∧ got ch'.items = got ch.items ∧
    (ch'.complete = true → ch.complete = true) ∧ (ch.want = .closed → ch'.want = .closed)

theorem Alike.refl (cs : List Chan) : Alike cs cs := fun _ ch h => ⟨ch, h, rfl, rfl, id, id⟩

theorem Alike.upd (cs : List Chan) (k : Nat) (f : Chan → Chan)
    (hf : ∀ ch, cs[k]? = some ch → (f ch).len = ch.len ∧ got (f ch).items = got ch.items ∧ ((f ch).complete = true → ch.complete = true) ∧
      (ch.want = .closed → (f ch).want = .closed)) : Alike cs (updChan cs k f) := by
  intro j ch' hj
  obtain ⟨c0, hc0, rfl⟩ := getElem?_upd _ _ _ _ _ hj
  refine ⟨c0, hc0, ?_⟩
  split
  · rename_i hk
    subst hk
    exact hf c0 hc0
  · exact ⟨rfl, rfl, id, id⟩

theorem Alike.dropSender (cs : List Chan) (k : Nat) : Alike cs (updChan cs k Chan.dropSender) := .upd _ _ _ fun _ _ => ⟨rfl, rfl, id, id⟩
theorem Alike.fail (cs : List Chan) (k : Nat) : Alike cs (updChan cs k Chan.fail) :=
  .upd _ _ _ fun _ _ => ⟨rfl, by simp [Chan.fail, got_append, got], id, id⟩

theorem LenInv.mono {d d' : Disp} (h : LenInv d) (hr : ∀ dec, d'.conn.Reads dec → d'.bodyTx ≠ none → d.conn.Reads dec)
    (ht : d'.bodyTx = d.bodyTx ∨ d'.bodyTx = none) (hs : Alike d.chans d'.chans) : LenInv d' := by
  refine ⟨fun k ch hk n hn => ?_, fun k ch dec hk hc hd => ?_⟩
  · obtain ⟨c0, h1, h2, h3, h4, h5⟩ := hs k ch hk
    have := h.all k c0 h1 n (h2 ▸ hn)
    rw [h3]
    exact ⟨this.1, fun hc hw => this.2 (h4 hc) (fun hx => hw (h5 hx))⟩
  · obtain ⟨c0, h1, h2, h3, h4, h5⟩ := hs k ch hc
    have hd' := hr dec hd (by simp [hk])
    rcases ht with ht | ht
    · have := h.cur k c0 dec (ht ▸ hk) h1 hd'
      unfold LeftOk at this ⊢
      rw [h2, h3]
      exact this
    · rw [ht] at hk
      cases hk

theorem Calm.reads {c c' : Conn} (h : Calm c c') (dec : Decoder) (hd : c'.Reads dec) : c.Reads dec := by
  have hb' : c'.canReadBody = true := by rcases hd with hd | hd <;> simp [Conn.canReadBody, hd]
  cases hb : c.canReadBody with
  | false =>
    rw [h.cont hb] at hb'
    cases hb'
  | true =>
    have := h.keep hb
    unfold Conn.Reads at *
    rw [← this]
    exact hd

theorem LenInv.calm {d d' : Disp} (h : LenInv d) (hc : Calm d.conn d'.conn) (ht : d'.bodyTx = d.bodyTx) (hs : d'.chans = d.chans) : LenInv d' :=
  h.mono (fun dec hd _ => hc.reads dec hd) (.inl ht) (hs ▸ .refl _)

/-- Only other parts change. -/
theorem LenInv.same {d d' : Disp} (h : LenInv d) (hc : d'.conn.reading = d.conn.reading) (ht : d'.bodyTx = d.bodyTx) (hs : d'.chans = d.chans) : LenInv d' :=
  h.mono (fun dec hd _ => by unfold Conn.Reads at *; rw [← hc]; exact hd) (.inl ht) (hs ▸ .refl _)

theorem LenInv.close {d : Disp} (h : LenInv d) : LenInv d.close :=
  h.mono (fun dec hd _ => by simp [Conn.Reads, Disp.close, Conn.closeRead, Conn.closeWrite] at hd) (.inl rfl) (.refl _)

theorem LenInv.failBody {d : Disp} (h : LenInv d) : LenInv d.failBody := by
  unfold Disp.failBody
  split
  · exact h.mono (by simp) (.inr rfl) (.fail _ _)
  · exact h

theorem LenInv.fail {d : Disp} (h : LenInv d) : LenInv d.fail := h.failBody.same rfl rfl rfl

theorem LenInv.recvErr {d : Disp} (h : LenInv d) : LenInv d.recvErr := by
  unfold Disp.recvErr
  split
  · split
    · exact LenInv.close (h.same (d' := { d with inFlight := none }) rfl rfl rfl)
    · exact h.fail
  · exact h.fail

theorem LenInv.dropBody {d : Disp} (h : LenInv d) (k : Nat) : LenInv (d.dropBody k) :=
  h.mono (by simp [Disp.dropBody]) (.inr rfl) (.dropSender _ _)

theorem Alike.replaced (d : Disp) : Alike d.chans d.replaced := by
  unfold Disp.replaced
  split
  · exact .dropSender _ _
  · exact .refl _

theorem ofLength_left (len : DecodedLength) (a b : Option Nat) (ch : Chan) (h1 : ch.len = len) (h2 : ch.items = []) :
    LeftOk (Decoder.ofLength len a b) ch := by
  unfold Decoder.ofLength
  split
  · rename_i h
    simp [LeftOk, h1, h, DecodedLength.intoOpt]
  · split
    · rename_i h
      simp [LeftOk, h1, h, DecodedLength.intoOpt]
    · rename_i h h'
      simp [LeftOk, h1, h2, h, h', DecodedLength.intoOpt, got]

theorem LenInv.accept {d : Disp} (h : LenInv d) (hr : d.conn.reading = .init) (m : MsgIn) (i : NotifyIn) (t : Nat) :
    LenInv ({ d with conn := (d.conn.startTimer t).acceptHead m d.headId i }.recvHead m) := by
  have key : LenInv ({ d with conn := (d.conn.startTimer t).acceptHead m d.headId i }.newBody m) := by
    by_cases hz : m.decode = DecodedLength.ZERO
    · have hnb : ({ d with conn := (d.conn.startTimer t).acceptHead m d.headId i }.newBody m) = { d with conn := (d.conn.startTimer t).acceptHead m d.headId i } := by
        unfold Disp.newBody; rw [if_pos hz]
      rw [hnb]
      have hcalm : Calm (((d.conn.startTimer t).headState m d.headId).readDone) ((d.conn.startTimer t).acceptHead m d.headId i) := by
        unfold Conn.acceptHead
        rw [if_pos hz]
        split
        · exact calm_tryKeepAlive _ i
        · exact .refl _
      refine h.mono (fun dec hd _ => ?_) (.inl rfl) (.refl _)
      have := hcalm.reads dec hd
      simp [Conn.Reads, Conn.readDone] at this
    · unfold Disp.newBody
      rw [if_neg hz]
      have hal := Alike.replaced { d with conn := (d.conn.startTimer t).acceptHead m d.headId i }
      generalize Disp.replaced { d with conn := (d.conn.startTimer t).acceptHead m d.headId i } = cs at hal
      have hall : LenInv { d with chans := cs, bodyTx := none } := h.mono (by simp) (.inr rfl) hal
      refine ⟨fun k ch hk => ?_, fun k ch dec hk hc hd => ?_⟩
      · rw [List.getElem?_append] at hk
        split at hk
        · exact hall.all k ch hk
        · cases hx : k - cs.length with
          | zero =>
            rw [hx] at hk
            simp only [List.getElem?_cons_zero, Option.some.injEq] at hk
            subst hk
            exact fun n _ => ⟨by simp [got], by simp⟩
          | succ j => rw [hx] at hk; simp at hk
      · simp only [Option.some.injEq] at hk
        subst hk
        simp only [List.length_append, List.length_singleton, List.getElem?_append_right (Nat.le_refl _), Nat.sub_self, List.getElem?_cons_zero,
          Option.some.injEq] at hc
        have hdec : dec = Decoder.ofLength m.decode (d.conn.startTimer t).maxHeaders none := by
          unfold Conn.Reads Conn.acceptHead at hd
          simp only [if_neg hz] at hd
          split at hd
          · rcases hd with hd | hd
            · simp at hd
            · simp only [Reading.cont.injEq] at hd; exact hd.symm
          · rcases hd with hd | hd
            · simp only [Reading.body.injEq] at hd; exact hd.symm
            · simp at hd
        rw [hdec]
        exact ofLength_left _ _ _ _ (by rw [← hc]) (by rw [← hc])
  unfold Disp.recvHead
  simp only
  generalize ({ d with conn := (d.conn.startTimer t).acceptHead m d.headId i }.newBody m) = d1 at key
  have key2 : LenInv { d1 with conn := { d1.conn with upgrade := d1.conn.upgrade || m.wantsUpgrade } } := key.same rfl rfl rfl
  split
  · split
    · exact key2.same rfl rfl rfl
    · exact key2.fail
  · exact key2.same rfl rfl rfl

theorem LenInv.readHeadReady {d : Disp} (h : LenInv d) (env : EncodeEnv) (i : ReadIn) (hr : d.conn.reading = .init) :
    LenInv (d.readHeadReady env i) := by
  have ht := startTimer_fields d.conn i.t0
  unfold Disp.readHeadReady
  cases hp : i.parse with
  | pending =>
    simp only [Conn.pollReadHead]
    have h1 : LenInv { d with conn := d.conn.startTimer i.t0 } := h.calm (calm_startTimer _ _) rfl rfl
    split
    · have h2 : LenInv { d with conn := { d.conn.startTimer i.t0 with timing := false } } := h1.same rfl rfl rfl
      exact h2.recvErr
    · exact h1
  | error e rest h2 =>
    simp only [Conn.pollReadHead]
    have hc : Calm d.conn ((d.conn.startTimer i.t0).onReadHeadError env e rest h2).2 :=
      (calm_startTimer _ _).trans (calm_onReadHeadError _ env e rest h2 (by simp [Conn.canReadBody, ht.2.1, hr]))
    have h1 : LenInv { d with conn := ((d.conn.startTimer i.t0).onReadHeadError env e rest h2).2 } := h.calm hc rfl rfl
    have ho := onReadHeadError_out env (d.conn.startTimer i.t0) e rest h2
    generalize ((d.conn.startTimer i.t0).onReadHeadError env e rest h2).1 = o at ho
    unfold Disp.afterHead
    cases o with
    | pending => exact h1
    | eof => simp only; split; exact h1.close; exact h1
    | err => exact h1.recvErr
    | timeout => exact h1.recvErr
    | msg m => exact absurd rfl (ho m)
  | msg m =>
    simp only [Conn.pollReadHead, Disp.afterHead]
    exact h.accept hr m i.notify i.t0

theorem LenInv.readHead {d : Disp} (h : LenInv d) (env : EncodeEnv) (i : ReadIn) (hr : d.conn.canReadHead = true) :
    LenInv (d.readHead env i) := by
  have hrd : d.conn.reading = .init := by
    simp only [Conn.canReadHead, Bool.and_eq_true, beq_iff_eq] at hr; exact hr.1
  have h1 := h.readHeadReady env i hrd
  unfold Disp.readHead
  (repeat' split) <;> first | exact h1 | exact h.close | exact h

theorem Rd.readMem_le (r : Rd) (len : Nat) (bs : Bytes) (h : (r.readMem len).1 = .ready (.ok bs)) : bs.length ≤ len := by
  unfold Rd.readMem at h
  split at h
  · simp only [Poll.ready.injEq, Except.ok.injEq] at h
    subst h
    simp
    omega
  · split at h
    · simp at h
    · simp at h
    · simp only [Poll.ready.injEq, Except.ok.injEq] at h
      subst h
      simp
      omega

/-- One call of the decoder takes from what is left. -/
theorem decode_left (P : TrailerParser) (dec : Decoder) (r : Rd) (ch : Chan) (h : LeftOk dec ch) (bs : Bytes)
    (hb : (dec.decode P r).1 = .ready (.ok (.data bs))) : LeftOk (dec.decode P r).2.1 { ch with items := ch.items ++ [.data bs] } := by
  cases dec with
  | length rem =>
    obtain ⟨n, h1, h2⟩ := h
    simp only [Decoder.decode] at hb ⊢
    split at hb
    · rename_i hz
      rw [if_pos hz]
      simp only [Poll.ready.injEq, Except.ok.injEq, Frame.data.injEq] at hb
      subst hb
      exact ⟨n, h1, by simp [got_append, got, h2]⟩
    · rename_i hz
      rw [if_neg hz]
      split at hb
      · simp at hb
      · simp at hb
      · rename_i buf r' hx
        try simp only [hx] at hb ⊢
        have hle : buf.length ≤ rem := by
          exact Rd.readMem_le r rem buf (by rw [hx])
        rw [if_neg (by omega)] at hb ⊢
        split at hb
        · simp at hb
        · rename_i hn
          rw [if_neg hn]
          simp only [Poll.ready.injEq, Except.ok.injEq, Frame.data.injEq] at hb
          subst hb
          exact ⟨n, h1, by simp [got_append, got]; omega⟩
  | chunked c => exact h
  | eof b =>
    simp only [Decoder.decode]
    split
    · exact h
    · split <;> exact h

theorem decode_left_pending (P : TrailerParser) (dec : Decoder) (r : Rd) (ch : Chan) (h : LeftOk dec ch)
    (hb : (dec.decode P r).1 = .pending) : LeftOk (dec.decode P r).2.1 ch := by
  cases dec with
  | length rem =>
    simp only [Decoder.decode] at hb ⊢
    split at hb
    · simp at hb
    · rename_i hz
      rw [if_neg hz]
      split at hb
      · rename_i hx
        simp only [hx]
        exact h
      · simp at hb
      · split at hb
        · simp at hb
        · split at hb <;> simp at hb
  | chunked c => exact h
  | eof b =>
    simp only [Decoder.decode]
    split
    · exact h
    · split <;> exact h

theorem decode_left_trailers (P : TrailerParser) (rem : Nat) (r : Rd) (fs : Fields) :
    ((Decoder.length rem).decode P r).1 ≠ .ready (.ok (.trailers fs)) := by
  simp only [Decoder.decode]
  split
  · simp
  · split
    · simp
    · simp
    · split
      · simp
      · split <;> simp

/-- What a piece of body does to the account. -/
structure Taken (ch : Chan) (o : BodyRes) (c : Conn) : Prop where
  pending : o = .pending → ∀ dec, c.Reads dec → LeftOk dec ch
  more : ∀ bs fin, o = .data bs fin → (∀ dec, c.Reads dec → LeftOk dec { ch with items := ch.items ++ [.data bs] }) ∧
    ∀ n, ch.len.intoOpt = some n → got ch.items + bs.length ≤ n ∧ (fin = true → got ch.items + bs.length = n)
  trailers : ∀ fs, o = .trailers fs → ch.len.intoOpt = none ∧ ∀ dec, ¬ c.Reads dec
  ended : ∀ fin, o = .ended fin → fin = true → ∀ n, ch.len.intoOpt = some n → got ch.items = n

theorem readDone_reads (c : Conn) (i : NotifyIn) (dec : Decoder) : ¬ (c.readDone.tryKeepAlive i).Reads dec := fun h => by
  have := (calm_tryKeepAlive c.readDone i).reads dec h
  simp [Conn.Reads, Conn.readDone] at this

theorem LeftOk.le {dec : Decoder} {ch : Chan} (h : LeftOk dec ch) (n : Nat) (hn : ch.len.intoOpt = some n) :
    got ch.items ≤ n ∧ (dec.isEof = true → got ch.items = n) := by
  cases dec with
  | length rem =>
    obtain ⟨m, h1, h2⟩ := h
    rw [h1] at hn
    simp only [Option.some.injEq] at hn
    subst hn
    simp only [Decoder.isEof, beq_iff_eq]
    omega
  | chunked c => simp only [LeftOk] at h; rw [h] at hn; cases hn
  | eof b => simp only [LeftOk] at h; rw [h] at hn; cases hn

theorem taken_decodeBody (P : TrailerParser) (c : Conn) (dec : Decoder) (r : Rd) (i : NotifyIn) (ch : Chan) (h : LeftOk dec ch) :
    Taken ch (c.decodeBody P dec r i).1 (c.decodeBody P dec r i).2 := by
  have hdata := decode_left P dec r ch h
  have hpend := decode_left_pending P dec r ch h
  unfold Conn.decodeBody
  cases hr : (dec.decode P r).1 with
  | pending =>
    refine ⟨fun _ d' hd' => ?_, by simp, by simp, by simp⟩
    simp only [Conn.Reads, Reading.body.injEq, reduceCtorEq, or_false] at hd'
    rw [← hd']
    exact hpend hr
  | ready x =>
    cases x with
    | error e => exact ⟨by simp, by simp, by simp, by simp⟩
    | ok f =>
      cases f with
      | trailers fs =>
        refine ⟨by simp, by simp, fun _ _ => ⟨?_, readDone_reads c i⟩, by simp⟩
        cases dec with
        | length rem => exact absurd hr (decode_left_trailers P rem r fs)
        | chunked c => exact h
        | eof b => exact h
      | data bs =>
        have hl := hdata bs hr
        have hle : ∀ n, ch.len.intoOpt = some n → got ch.items + bs.length ≤ n ∧
            ((dec.decode P r).2.1.isEof = true → got ch.items + bs.length = n) := fun n hn => by
          have := hl.le n hn
          simpa [got_append, got] using this
        simp only
        split
        · rename_i heof
          split
          · rename_i hb
            refine ⟨by simp, by simp, by simp, fun fin hf _ n hn => ?_⟩
            have := (hle n hn).2 heof
            simpa [hb] using this
          · refine ⟨by simp, fun bs' fin hf => ?_, by simp, by simp⟩
            simp only [BodyRes.data.injEq] at hf
            obtain ⟨rfl, rfl⟩ := hf
            exact ⟨fun d' hd' => absurd hd' (readDone_reads c i d'), fun n hn => ⟨(hle n hn).1, fun _ => (hle n hn).2 heof⟩⟩
        · split
          · exact ⟨by simp, by simp, by simp, fun fin hf h' => by simp only [BodyRes.ended.injEq] at hf; rw [← hf] at h'; cases h'⟩
          · refine ⟨by simp, fun bs' fin hf => ?_, by simp, by simp⟩
            simp only [BodyRes.data.injEq] at hf
            obtain ⟨rfl, rfl⟩ := hf
            refine ⟨fun d' hd' => ?_, fun n hn => ⟨(hle n hn).1, by simp⟩⟩
            simp only [Conn.Reads, Reading.body.injEq, reduceCtorEq, or_false] at hd'
            rw [← hd']
            exact hl

theorem taken_pollReadBody (P : TrailerParser) (c : Conn) (r : Rd) (i : NotifyIn) (ch : Chan) (h : ∀ dec, c.Reads dec → LeftOk dec ch) :
    Taken ch (c.pollReadBody P r i).1 (c.pollReadBody P r i).2 := by
  unfold Conn.pollReadBody
  cases hr : c.reading with
  | body d => exact taken_decodeBody P c d r i ch (h d (.inl hr))
  | cont d => exact taken_decodeBody P _ d r i ch (h d (.inr hr))
  | init => exact ⟨fun _ => h, by simp, by simp, by simp⟩
  | keepAlive => exact ⟨fun _ => h, by simp, by simp, by simp⟩
  | closed => exact ⟨fun _ => h, by simp, by simp, by simp⟩

/-- A piece that was taken is delivered, or the reader is gone. -/
theorem LenInv.afterPiece {d : Disp} {k : Nat} {gone : Bool} {o : BodyRes} (ha : ∀ (j : Nat) (ch : Chan), d.chans[j]? = some ch → LenOk ch)
    (ht : d.bodyTx = some k) (hg : gone = true → ∀ ch, d.chans[k]? = some ch → ch.want = .closed)
    (hk : ∀ ch, d.chans[k]? = some ch → Taken ch o d.conn) : LenInv (d.afterPiece k gone o) := by
  -- with no sender left, only the lengths count
  have hnone : ∀ d' : Disp, d'.bodyTx = none → (∀ (j : Nat) (ch : Chan), d'.chans[j]? = some ch → LenOk ch) → LenInv d' := fun d' h1 h2 =>
    ⟨h2, fun j ch dec hj => by rw [h1] at hj; cases hj⟩
  -- one channel changes
  have hupd : ∀ (cs : List Chan) (f : Chan → Chan), (∀ (j : Nat) (ch : Chan), cs[j]? = some ch → j ≠ k → LenOk ch) →
      (∀ ch, cs[k]? = some ch → LenOk (f ch)) → ∀ (j : Nat) (ch : Chan), (updChan cs k f)[j]? = some ch → LenOk ch := by
    intro cs f h1 h2 j ch hj
    obtain ⟨c0, hc0, rfl⟩ := getElem?_upd _ _ _ _ _ hj
    split
    · rename_i hjk
      subst hjk
      exact h2 c0 hc0
    · rename_i hjk
      exact h1 j c0 hc0 (fun e => hjk e.symm)
  have hmark : ∀ b, (d.markComplete k b).bodyTx = some k ∧ (d.markComplete k b).conn = d.conn ∧
      ∀ (j : Nat) (ch : Chan), (d.markComplete k b).chans[j]? = some ch → ∃ c0, d.chans[j]? = some c0 ∧
        ch = { c0 with complete := if j = k ∧ b = true then true else c0.complete } := by
    intro b
    cases b with
    | false => exact ⟨ht, rfl, fun j ch hj => ⟨ch, hj, by simp⟩⟩
    | true =>
      refine ⟨ht, rfl, fun j ch hj => ?_⟩
      obtain ⟨c0, hc0, rfl⟩ := getElem?_upd _ _ _ _ _ hj
      refine ⟨c0, hc0, ?_⟩
      by_cases hjk : k = j
      · simp [hjk]
      · have : j ≠ k := fun e => hjk e.symm
        simp [hjk, this]
  -- a delivery
  have hdel : ∀ (b : Bool) (f : Chan → Chan),
      (∀ ch, d.chans[k]? = some ch → LenOk (f { ch with complete := if b = true then true else ch.complete })) →
      (∀ ch, d.chans[k]? = some ch → ∀ dec, d.conn.Reads dec → LeftOk dec (f { ch with complete := if b = true then true else ch.complete })) →
      LenInv ((d.markComplete k b).deliver k gone f) := by
    intro b f h1 h2
    obtain ⟨m1, m2, m3⟩ := hmark b
    unfold Disp.deliver
    cases hgo : gone with
    | true =>
      have hcl : ∀ (j : Nat) (ch : Chan), (updChan (d.markComplete k b).chans k Chan.dropSender)[j]? = some ch → LenOk ch := by
        refine hupd _ _ (fun j ch hj hne => ?_) (fun ch hj => ?_)
        · obtain ⟨c0, hc0, rfl⟩ := m3 j ch hj
          have := ha j c0 hc0
          simpa [LenOk, hne] using this
        · obtain ⟨c0, hc0, rfl⟩ := m3 k ch hj
          intro n hn
          exact ⟨(ha k c0 hc0 n hn).1, fun _ hw => absurd (hg hgo c0 hc0) hw⟩
      simp only [if_true]
      split
      · exact hnone _ rfl hcl
      · exact hnone _ rfl hcl
    | false =>
      simp only [Bool.false_eq_true, if_false, Disp.sendItem]
      refine ⟨hupd _ _ (fun j ch hj hne => ?_) (fun ch hj => ?_), fun j ch dec hj hch hdec => ?_⟩
      · obtain ⟨c0, hc0, rfl⟩ := m3 j ch hj
        have := ha j c0 hc0
        simpa [LenOk, hne] using this
      · obtain ⟨c0, hc0, rfl⟩ := m3 k ch hj
        simpa using h1 c0 hc0
      · rw [m1] at hj
        simp only [Option.some.injEq] at hj
        subst hj
        obtain ⟨c1, hc1, rfl⟩ := getElem?_upd _ _ _ _ _ hch
        obtain ⟨c0, hc0, rfl⟩ := m3 _ c1 hc1
        rw [m2] at hdec
        simpa using h2 c0 hc0 dec hdec
  unfold Disp.afterPiece
  cases o with
  | pending =>
    exact ⟨ha, fun j ch dec hj hch hdec => by rw [ht] at hj; simp at hj; subst hj; exact (hk ch hch).pending rfl dec hdec⟩
  | data bs fin =>
    refine hdel fin _ (fun ch hch n hn => ?_) (fun ch hch dec hdec => ?_)
    · have h1 := ((hk ch hch).more bs fin rfl).2 n hn
      simp only [got_append, got, Nat.add_zero]
      refine ⟨h1.1, fun hc hw => ?_⟩
      cases fin with
      | true => exact h1.2 rfl
      | false =>
        have := (ha k ch hch n hn).2 (by simpa using hc) hw
        omega
    · have := ((hk ch hch).more bs fin rfl).1 dec hdec
      exact this
  | trailers fs =>
    refine hdel true _ (fun ch hch n hn => ?_) (fun ch hch dec hdec => absurd hdec (((hk ch hch).trailers fs rfl).2 dec))
    have := ((hk ch hch).trailers fs rfl).1
    simp only at hn
    rw [this] at hn
    cases hn
  | ended fin =>
    obtain ⟨m1, m2, m3⟩ := hmark fin
    refine hnone _ rfl (hupd _ _ (fun j ch hj hne => ?_) (fun ch hj => ?_))
    · obtain ⟨c0, hc0, rfl⟩ := m3 j ch hj
      have := ha j c0 hc0
      simpa [LenOk, hne] using this
    · obtain ⟨c0, hc0, rfl⟩ := m3 k ch hj
      intro n hn
      have h1 := ha k c0 hc0 n hn
      refine ⟨h1.1, fun hc hw => ?_⟩
      cases fin with
      | true => exact (hk c0 hc0).ended true rfl rfl n hn
      | false => exact h1.2 (by simpa [Chan.dropSender] using hc) hw
  | err =>
    refine hnone _ rfl (hupd _ _ (fun j ch hj _ => ha j ch hj) (fun ch hj n hn => ?_))
    have := ha k ch hj n hn
    simpa [Chan.fail, got_append, got] using this

theorem LenInv.loseReader {d : Disp} (h : LenInv d) (k : Nat) : LenInv (d.loseReader k) :=
  h.mono (fun _ hd _ => hd) (.inl rfl) (.upd _ _ _ fun _ _ => ⟨rfl, rfl, id, fun _ => rfl⟩)

theorem LenInv.readPiece {d : Disp} (h : LenInv d) (P : TrailerParser) (i : ReadIn) (k : Nat) (ht : d.bodyTx = some k) :
    LenInv (d.readPiece P i k) := by
  have hall : LenInv (d.maybeLose k i.gone) := by
    unfold Disp.maybeLose
    split
    · exact h.loseReader k
    · exact h
  have hch : ({ d with conn := (d.conn.pollReadBody P i.rd i.notify).2 }.maybeLose k i.gone).chans = (d.maybeLose k i.gone).chans := by
    unfold Disp.maybeLose Disp.loseReader
    split <;> rfl
  have hconn : ({ d with conn := (d.conn.pollReadBody P i.rd i.notify).2 }.maybeLose k i.gone).conn = (d.conn.pollReadBody P i.rd i.notify).2 := by
    unfold Disp.maybeLose Disp.loseReader
    split <;> rfl
  have htx : (d.maybeLose k i.gone).bodyTx = some k := by
    unfold Disp.maybeLose Disp.loseReader
    split <;> exact ht
  have hco : (d.maybeLose k i.gone).conn = d.conn := by
    unfold Disp.maybeLose Disp.loseReader
    split <;> rfl
  unfold Disp.readPiece
  refine LenInv.afterPiece (fun j ch hj => hall.all j ch (hch ▸ hj)) ?_ ?_ ?_
  · unfold Disp.maybeLose Disp.loseReader
    split <;> exact ht
  · intro hg ch hj
    rw [hch] at hj
    unfold Disp.maybeLose at hj
    rw [if_pos hg] at hj
    obtain ⟨c0, hc0, rfl⟩ := getElem?_upd _ _ _ _ _ hj
    simp
  · intro ch hj
    rw [hch] at hj
    rw [hconn]
    exact taken_pollReadBody P d.conn i.rd i.notify ch (fun dec hdec => hall.cur k ch dec htx hj (hco ▸ hdec))

theorem LenInv.readBody {d : Disp} (h : LenInv d) (P : TrailerParser) (i : ReadIn) (k : Nat) (ht : d.bodyTx = some k) :
    LenInv (d.readBody P i k) := by
  unfold Disp.readBody
  split
  · split
    · split
      · exact h
      · exact h.readPiece P i k ht
    · exact h
    · exact h.mono (by simp [Disp.dropBody]) (.inr rfl) (.dropSender _ _)
  · exact h.dropBody k

theorem LenInv.readTurn {d : Disp} (h : LenInv d) (env : EncodeEnv) (P : TrailerParser) (i : ReadIn) : LenInv (d.readTurn env P i) := by
  unfold Disp.readTurn
  split
  · exact h
  · split
    · rename_i hr; exact h.readHead env i hr
    · split
      · rename_i k ht; exact h.readBody P i k ht
      · rename_i ht
        unfold Disp.readIdle
        simp only
        have h1 : LenInv { d with conn := (d.conn.pollReadKeepAlive i.bufEmpty i.io).2 } :=
          h.mono (by simp [ht]) (.inl rfl) (.refl _)
        split
        · exact h1.fail
        · exact h1

theorem LenInv.writeHead {d : Disp} (h : LenInv d) (env : EncodeEnv) (m : MsgOut) : LenInv (d.writeHead env m) := by
  unfold Disp.writeHead
  cases m with
  | pending => exact h
  | none => simp only; split; exact h.close; exact h
  | err => simp only; split; exact h; exact h.fail
  | resp m =>
    simp only
    split
    · exact h
    · exact h.calm (calm_writeResp _ env m _ (fun _ => ⟨by simp, by simp⟩)) rfl rfl
  | req hd body =>
    simp only
    split
    · exact h.calm (calm_writeReq _ hd body _) rfl rfl
    · exact h

theorem LenInv.flushTurn {d : Disp} (h : LenInv d) (f : FlushIn) (i : NotifyIn) : LenInv (d.flushTurn f i) := by
  have h1 : LenInv { d with conn := (d.conn.pollFlush f i).2 } := h.calm (calm_pollFlush _ f i) rfl rfl
  unfold Disp.flushTurn
  simp only
  split
  · exact h1
  · exact h1.fail

theorem LenInv.endBody {d : Disp} (h : LenInv d) : LenInv d.endBody := by
  have h1 : LenInv { d with conn := d.conn.endBody.2 } := h.calm (calm_endBody _) rfl rfl
  unfold Disp.endBody
  simp only
  split
  · exact h1.fail
  · exact h1

theorem LenInv.writeTurn {d : Disp} (h : LenInv d) (env : EncodeEnv) (i : WriteIn) : LenInv (d.writeTurn env i) := by
  have h0 : LenInv { d with bodyRx := false } := h.same rfl rfl rfl
  unfold Disp.writeTurn
  split
  · exact h
  · split
    · exact h.writeHead env i.msg
    · split
      · exact h.flushTurn _ _
      · split
        · split
          · unfold Disp.writeFrame
            split
            · exact h
            · exact h0.endBody
            · split
              · exact h0.endBody
              · exact h0.calm (calm_writeBodyAndEnd _ _) rfl rfl
            · split
              · exact h
              · exact h.calm (calm_writeBody _ _) rfl rfl
            · exact h0.calm (calm_writeTrailers _ _) rfl rfl
            · exact h
            · exact h0.fail
          · exact h0
        · split
          · exact h.endBody
          · exact h

theorem LenInv.complete {d : Disp} (h : LenInv d) : LenInv d.complete := by
  unfold Disp.complete
  split
  · exact LenInv.fail (h.same (d' := { d with conn := { d.conn with error := false } }) rfl rfl rfl)
  · exact h.same rfl rfl rfl

theorem LenInv.finishTurn {d : Disp} (h : LenInv d) (s : Bool) (f : FlushIn) : LenInv (d.finishTurn s f) := by
  unfold Disp.finishTurn
  split
  · exact h
  · split
    · have h1 : LenInv { d with conn := { d.conn with upgrade := false } } := h.same rfl rfl rfl
      exact h1.complete
    · split
      · have h1 : LenInv { d with conn := (d.conn.pollShutdown f).2 } := h.calm (calm_pollShutdown _ f) rfl rfl
        simp only
        split
        · exact h1
        · split
          · exact h1.complete
          · exact h1.fail
      · exact h.complete

theorem LenInv.disable {d : Disp} (h : LenInv d) (hi : DInv d) (b : Bool) (hd : d.done = false) : LenInv (d.disableKeepAlive b) := by
  have h1 : LenInv { d with conn := d.conn.disableKeepAlive } := h.calm (calm_disableKeepAlive _ (hi.awake hd)) rfl rfl
  unfold Disp.disableKeepAlive
  simp only
  split
  · exact h1.close
  · exact h1

theorem LenInv.want {d : Disp} (h : LenInv d) (k : Nat) : LenInv (d.want k) := by
  unfold Disp.want
  split
  · rename_i ch0 hch0
    split
    · rename_i hw0
      refine h.mono (fun _ hd _ => hd) (.inl rfl) (.upd _ _ _ fun ch hc => ⟨rfl, rfl, id, fun hx => ?_⟩)
      rw [hch0] at hc
      simp only [Option.some.injEq] at hc
      subst hc
      rw [hw0] at hx
      cases hx
    · exact h
  · exact h

theorem LenInv.step {d : Disp} (h : LenInv d) (hi : DInv d) (env : EncodeEnv) (P : TrailerParser) (a : Act) : LenInv (d.step env P a) := by
  unfold Disp.step
  cases hd : d.done with
  | true =>
    cases a with
    | want k => exact h.want k
    | dropReader k => exact h.loseReader k
    | drop => exact h.failBody.same rfl rfl rfl
    | _ => exact h
  | false =>
    cases a with
    | read i => exact h.readTurn env P i
    | write i => exact h.writeTurn env i
    | flush f i => exact h.flushTurn f i
    | readAgain =>
      simp only [Bool.false_eq_true, if_false]
      exact h.same rfl rfl rfl
    | finish s f => exact h.finishTurn s f
    | disable b => exact h.disable hi b hd
    | want k => exact h.want k
    | dropReader k => exact h.loseReader k
    | drop => exact h.failBody.same rfl rfl rfl

theorem LenInv.run {d : Disp} (h : LenInv d) (hi : DInv d) (env : EncodeEnv) (P : TrailerParser) (as : List Act) : LenInv (d.run env P as) := by
  induction as generalizing d with
  | nil => exact h
  | cons a as ih => exact ih (h.step hi env P a) (hi.step env P a)

theorem LenInv.start {d : Disp} (h : d.Start) : LenInv d := ⟨by simp [h.chans], by simp [h.bodyTx]⟩

end Hyper
