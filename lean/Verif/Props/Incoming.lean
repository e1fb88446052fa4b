import Verif.Model.Incoming
import Verif.Proof.DispGrow
import Verif.Props.Conn

/-!
# C41: size hints of received bodies
-/

namespace Hyper

/-- The bytes a reader got. -/
def received : List FrameOut → Nat
  | [] => 0
  | .data bs :: l => bs.length + received l
  | _ :: l => received l

theorem received_append (a b : List FrameOut) : received (a ++ b) = received a + received b := by
  induction a with
  | nil => simp [received]
  | cons x a ih => cases x <;> simp [received, ih, Nat.add_assoc]

/-- A `u64`. -/
def DecodedLength.Fits (len : DecodedLength) : Prop := len.val ≤ u64Max

theorem intoOpt_sub (len : DecodedLength) (hf : len.Fits) (n k : Nat) (h : len.intoOpt = some n) :
    n = len.val ∧ (DecodedLength.mk (n - k)).intoOpt = some (n - k) ∧
      ∀ a, DecodedLength.subIf ⟨n - k⟩ a = if a ≤ n - k then some ⟨n - k - a⟩ else none := by
  unfold DecodedLength.intoOpt at h ⊢
  split at h
  · cases h
  · rename_i hx
    simp only [Option.some.injEq] at h
    subst h
    have hx1 : len.val ≠ u64Max - 1 := fun e => hx (.inl (by cases len; simp only at e; rw [e]; rfl))
    have hx2 : len.val ≠ u64Max := fun e => hx (.inr (by cases len; simp only at e; rw [e]; rfl))
    unfold DecodedLength.Fits at hf
    have hlt : len.val < u64Max - 1 := by omega
    have hne : ¬ ((DecodedLength.mk (len.val - k)) = DecodedLength.CHUNKED ∨ (DecodedLength.mk (len.val - k)) = DecodedLength.CLOSE_DELIMITED) := by
      simp only [DecodedLength.CHUNKED, DecodedLength.CLOSE_DELIMITED, DecodedLength.mk.injEq]
      omega
    refine ⟨rfl, by rw [if_neg hne], fun a => ?_⟩
    unfold DecodedLength.subIf
    rw [if_neg hne]

/-- What the reader's half is after `k` bytes of a body that started with `len`. -/
def LenAfter (len : DecodedLength) (k : Nat) (now : DecodedLength) : Prop :=
  match len.intoOpt with
  | some n => k ≤ n ∧ now = ⟨n - k⟩
  | none => now = len

/-- The reader's account agrees with the channel. -/
structure Agrees (k : Nat) (len : DecodedLength) (w : Watched) : Prop where
  inv : DInv w.disp ∧ LenInv w.disp
  chan : ∃ ch, w.disp.chans[k]? = some ch ∧ ch.len = len ∧ w.body.pos ≤ ch.items.length ∧
    got (ch.items.take w.body.pos) = received w.outs
  len : LenAfter len (received w.outs) w.body.len
  calm : FrameOut.panic ∉ w.outs

theorem got_take_le (l : List Item) (i : Nat) : got (l.take i) ≤ got l := by
  have := got_append (l.take i) (l.drop i)
  rw [List.take_append_drop] at this
  omega

theorem Agrees.conn {k : Nat} {len : DecodedLength} {w : Watched} (h : Agrees k len w) (env : EncodeEnv) (P : TrailerParser) (a : Act) :
    Agrees k len (w.step env P k (.conn a)) := by
  refine ⟨⟨h.inv.1.step env P a, h.inv.2.step h.inv.1 env P a⟩, ?_, h.len, h.calm⟩
  obtain ⟨ch, h1, h2, h3, h4⟩ := h.chan
  obtain ⟨ch', l, e1, _, e3, e4⟩ := ext_step env P w.disp a k ch h1
  refine ⟨ch', e1, e3.trans h2, ?_, ?_⟩
  · rw [e4]
    simp only [Watched.step, List.length_append]
    omega
  · simp only [Watched.step]
    rw [e4, List.take_append_of_le_length h3]
    exact h4

theorem Agrees.poll {k : Nat} {len : DecodedLength} (hf : len.Fits) {w : Watched} (h : Agrees k len w) (env : EncodeEnv) (P : TrailerParser) :
    Agrees k len (w.step env P k .poll) := by
  obtain ⟨ch, h1, h2, h3, h4⟩ := h.chan
  have hok := h.inv.2.all k ch h1
  have hlen := h.len
  simp only [Watched.step, h1]
  unfold ChanBody.poll
  cases hi : ch.items[w.body.pos]? with
  | none =>
    have hkeep : ∀ o, received [o] = 0 → o ≠ .panic → ∀ b : ChanBody, b.pos = w.body.pos → b.len = w.body.len →
        Agrees k len { w with body := b, outs := w.outs ++ [o] } := fun o ho hp b hb hl =>
      ⟨h.inv, ⟨ch, h1, h2, by rw [hb]; exact h3, by simp only [hb, received_append, ho]; exact h4⟩, by
        simp only [received_append, ho, hl]; exact hlen, by simp [h.calm, Ne.symm hp]⟩
    simp only
    split
    · exact hkeep _ rfl (by simp) _ rfl rfl
    · split
      · exact hkeep _ rfl (by simp) _ rfl rfl
      · split
        · exact hkeep _ rfl (by simp) _ rfl rfl
        · exact hkeep _ rfl (by simp) _ rfl rfl
  | some it =>
    obtain ⟨hlt, hit⟩ := List.getElem?_eq_some_iff.1 hi
    have htake : ch.items.take (w.body.pos + 1) = ch.items.take w.body.pos ++ [it] := by
      rw [List.take_add_one, hi]
      rfl
    cases it with
    | error =>
      refine ⟨h.inv, ⟨ch, h1, h2, hlt, ?_⟩, ?_, by simp [h.calm]⟩
      · simp only [htake, got_append, received_append, h4]
        rfl
      · simp only [received_append]
        exact hlen
    | data bs =>
      simp only
      have hgot : got (ch.items.take (w.body.pos + 1)) = received w.outs + bs.length := by
        rw [htake, got_append, h4]
        simp [got]
      unfold LenAfter at hlen
      cases hn : len.intoOpt with
      | none =>
        rw [hn] at hlen
        simp only at hlen
        have hsub : w.body.len.subIf bs.length = some w.body.len := by
          rw [hlen]
          unfold DecodedLength.intoOpt at hn
          split at hn
          · rename_i hx
            unfold DecodedLength.subIf
            rw [if_pos hx]
          · cases hn
        simp only [hsub]
        refine ⟨h.inv, ⟨ch, h1, h2, hlt, ?_⟩, ?_, by simp [h.calm]⟩
        · simp only [hgot, received_append]
          rfl
        · simp only [LenAfter, hn]
          exact hlen
      | some n =>
        rw [hn] at hlen
        simp only at hlen
        have hle := (hok n (h2 ▸ hn)).1
        have hle2 := got_take_le ch.items (w.body.pos + 1)
        obtain ⟨s1, s2, s3⟩ := intoOpt_sub len hf n (received w.outs) hn
        rw [hlen.2, s3, if_pos (by omega)]
        simp only
        refine ⟨h.inv, ⟨ch, h1, h2, hlt, ?_⟩, ?_, by simp [h.calm]⟩
        · simp only [hgot, received_append]
          rfl
        · simp only [LenAfter, hn, received_append]
          show received w.outs + bs.length ≤ n ∧ _
          refine ⟨by omega, ?_⟩
          rw [Nat.sub_sub]
          rfl

theorem Agrees.run {k : Nat} {len : DecodedLength} (hf : len.Fits) (env : EncodeEnv) (P : TrailerParser) (as : List WAct) {w : Watched}
    (h : Agrees k len w) : Agrees k len (w.run env P k as) := by
  induction as generalizing w with
  | nil => exact h
  | cons a as ih =>
    refine ih ?_
    cases a with
    | conn a => exact h.conn env P a
    | poll => exact h.poll hf env P

/-- A body of a connection, its reader fresh. -/
theorem agrees_new {d : Disp} (hs : d.Start) (env : EncodeEnv) (P : TrailerParser) (as : List Act) (k : Nat) (ch : Chan)
    (hk : (d.run env P as).chans[k]? = some ch) : Agrees k ch.len ⟨d.run env P as, ChanBody.new ch, []⟩ := by
  refine ⟨⟨(DInv.start hs).run env P as, (LenInv.start hs).run (DInv.start hs) env P as⟩, ⟨ch, hk, rfl, by simp [ChanBody.new], ?_⟩, ?_, by simp⟩
  · simp [ChanBody.new, got, received]
  · unfold LenAfter
    split
    · rename_i n hn
      unfold DecodedLength.intoOpt at hn
      split at hn
      · cases hn
      · simp only [Option.some.injEq] at hn
        subst hn
        exact ⟨by simp [received], rfl⟩
    · rfl

/-- C41: at every moment of every history of a connection and of the reader of one of its bodies: if the body has a known length
`n`, at most `n` bytes have been delivered, the size hint is exactly the rest, and the end is reported exactly when all has been
delivered; otherwise the hint is unknown and no end is reported.  The subtraction never underflows. -/
theorem C41_http1 {d : Disp} (hs : d.Start) (env : EncodeEnv) (P : TrailerParser) (as : List Act) (k : Nat) (ch : Chan)
    (hk : (d.run env P as).chans[k]? = some ch) (hf : ch.len.Fits) (bs : List WAct) :
    let w := Watched.run env P k ⟨d.run env P as, ChanBody.new ch, []⟩ bs
    FrameOut.panic ∉ w.outs ∧
      match ch.len.intoOpt with
      | some n => received w.outs ≤ n ∧ w.body.sizeHint = .exact (n - received w.outs) ∧ (w.body.isEndStream = true ↔ received w.outs = n)
      | none => w.body.sizeHint = .unknown ∧ w.body.isEndStream = false := by
  have h := (agrees_new hs env P as k ch hk).run hf env P bs
  refine ⟨h.calm, ?_⟩
  have hl := h.len
  unfold LenAfter at hl
  cases hn : ch.len.intoOpt with
  | none =>
    rw [hn] at hl
    simp only at hl ⊢
    unfold ChanBody.sizeHint ChanBody.isEndStream optLen
    rw [hl, hn]
    refine ⟨rfl, ?_⟩
    unfold DecodedLength.intoOpt at hn
    split at hn
    · rename_i hx
      rcases hx with hx | hx <;> rw [hx] <;> decide
    · cases hn
  | some n =>
    rw [hn] at hl
    simp only at hl ⊢
    obtain ⟨s1, s2, s3⟩ := intoOpt_sub ch.len hf n (received (Watched.run env P k ⟨d.run env P as, ChanBody.new ch, []⟩ bs).outs) hn
    unfold ChanBody.sizeHint ChanBody.isEndStream optLen
    rw [hl.2, s2]
    refine ⟨hl.1, rfl, ?_⟩
    simp only [DecodedLength.ZERO, beq_iff_eq, DecodedLength.mk.injEq]
    omega

/-- C41: a body that was received completely and whose reader is still there holds exactly the announced bytes. -/
theorem C41_complete {d : Disp} (hs : d.Start) (env : EncodeEnv) (P : TrailerParser) (as : List Act) (k : Nat) (ch : Chan)
    (hk : (d.run env P as).chans[k]? = some ch) (n : Nat) (hn : ch.len.intoOpt = some n) (hc : ch.complete = true) (hw : ch.want ≠ .closed) :
    got ch.items = n :=
  ((LenInv.start hs).run (DInv.start hs) env P as).all k ch hk n hn |>.2 hc hw

/-- C54, the reader's side: from a channel that holds no error the reader never gets one; and when it has taken everything and
the sender is gone, it gets the trailers, once, and then the end. -/
theorem C54_reader (b : ChanBody) (ch : Chan) (h : Item.error ∉ ch.items) :
    (b.poll ch).1 ≠ .error ∧
      (ch.items.length ≤ b.pos → ch.sender = false →
        (b.poll ch).1 = (match ch.trailers with | some fs => if b.taken then .none else .trailers fs | none => .none) ∧
          ((b.poll ch).2.poll ch).1 = .none) := by
  refine ⟨?_, fun hp hs => ?_⟩
  · unfold ChanBody.poll
    cases hi : ch.items[b.pos]? with
    | none => simp only; repeat' split
              all_goals simp
    | some it =>
      cases it with
      | error => exact absurd (List.mem_of_getElem? hi) h
      | data bs => simp only; split <;> simp
  · have hi : ch.items[b.pos]? = none := List.getElem?_eq_none hp
    unfold ChanBody.poll
    rw [hi, hs]
    cases ht : ch.trailers <;> cases hb : b.taken <;> simp [hi, hb]

/-- Three bytes of five, polled twice. -/
def exBody : Watched :=
  Watched.run exEnv exP 0 ⟨(exDisp false).run exEnv exP [exRead (.msg (exIn 5 false true)) exNo], ChanBody.new ⟨0, ⟨5⟩, .ready, [], none, true, false⟩, []⟩
    [.conn (exRead .pending ⟨ascii "abc", [], .silent⟩), .poll, .poll]

example : ((exDisp false).run exEnv exP [exRead (.msg (exIn 5 false true)) exNo]).chans[0]? = some ⟨0, ⟨5⟩, .ready, [], none, true, false⟩ := by
  decide +kernel
example : exBody.outs = [.data (ascii "abc"), .pending] ∧ exBody.body.sizeHint = .exact 2 ∧ exBody.body.isEndStream = false := by decide +kernel

/-- C41, HTTP/2: a length that was announced is the hint at the start; without one the hint is unknown, unless the stream has
already ended, which makes it zero. -/
theorem C41_http2_start (len : DecodedLength) (hf : len.Fits) (eos : Bool) :
    (H2Body.new len eos).sizeHint =
      match len.intoOpt with
      | some n => .exact n
      | none => if eos then .exact 0 else .unknown := by
  unfold H2Body.new H2Body.sizeHint optLen
  by_cases h : len = DecodedLength.CLOSE_DELIMITED
  · subst h; cases eos <;> decide
  by_cases h2 : len = DecodedLength.CHUNKED
  · subst h2; cases eos <;> decide
  have hx : len.isExact = true := by
    rcases len with ⟨v⟩
    simp only [DecodedLength.Fits, DecodedLength.CLOSE_DELIMITED, DecodedLength.CHUNKED, DecodedLength.isExact, DecodedLength.MAX_LEN, u64Max,
      DecodedLength.mk.injEq] at *
    exact decide_eq_true (by omega)
  simp only [hx, Bool.not_true, Bool.false_and, Bool.false_eq_true, if_false]
  cases hn : len.intoOpt with
  | some n => rfl
  | none => simp_all [DecodedLength.intoOpt]

/-- The bytes the crate `h2` hands over. -/
def h2Given : List (H2Data × H2Trailers) → Nat
  | [] => 0
  | (.data bs, _) :: l => bs.length + h2Given l
  | _ :: l => h2Given l

theorem h2_run_snoc (b : H2Body) (xs : List (H2Data × H2Trailers)) (x : H2Data × H2Trailers) :
    b.run (xs ++ [x]) = ((b.run xs).1 ++ [((b.run xs).2.poll x.1 x.2).1], ((b.run xs).2.poll x.1 x.2).2) := by
  simp [H2Body.run, List.foldl_append]

theorem pollTrailers_same (b : H2Body) (t : H2Trailers) :
    (b.pollTrailers t).2 = b ∧ received [(b.pollTrailers t).1] = 0 ∧ (b.pollTrailers t).1 ≠ .panic := by
  unfold H2Body.pollTrailers
  cases t with
  | pending => exact ⟨rfl, rfl, by simp⟩
  | ok fs => cases fs <;> exact ⟨rfl, rfl, by simp⟩
  | error b => cases b <;> exact ⟨rfl, rfl, by simp⟩

/-- C41, HTTP/2: if the crate `h2` does not hand over more than the announced length, the size hint is exact at every moment; for
other bodies it stays unknown. -/
theorem C41_http2 (len : DecodedLength) (hf : len.Fits) (eos : Bool) (xs : List (H2Data × H2Trailers))
    (hx : ∀ n, (H2Body.new len eos).len.intoOpt = some n → h2Given xs ≤ n) :
    FrameOut.panic ∉ ((H2Body.new len eos).run xs).1 ∧
      match (H2Body.new len eos).len.intoOpt with
      | some n => received ((H2Body.new len eos).run xs).1 ≤ n ∧
          ((H2Body.new len eos).run xs).2.sizeHint = .exact (n - received ((H2Body.new len eos).run xs).1)
      | none => ((H2Body.new len eos).run xs).2.sizeHint = .unknown := by
  have hf' : (H2Body.new len eos).len.Fits := by
    unfold H2Body.new
    simp only
    split
    · simp [DecodedLength.Fits, DecodedLength.ZERO]
    · exact hf
  generalize H2Body.new len eos = b at hx hf'
  -- everything follows from the account
  suffices hacc : FrameOut.panic ∉ (b.run xs).1 ∧ LenAfter b.len (received (b.run xs).1) (b.run xs).2.len by
    refine ⟨hacc.1, ?_⟩
    have hl := hacc.2
    unfold LenAfter at hl
    cases hn : b.len.intoOpt with
    | none =>
      rw [hn] at hl
      simp only at hl ⊢
      unfold H2Body.sizeHint optLen
      rw [hl, hn]
    | some n =>
      rw [hn] at hl
      simp only at hl ⊢
      unfold H2Body.sizeHint optLen
      rw [hl.2, (intoOpt_sub b.len hf' n _ hn).2.1]
      exact ⟨hl.1, rfl⟩
  have hstrong : ∀ (ys zs : List (H2Data × H2Trailers)), ys ++ zs = xs →
      FrameOut.panic ∉ (b.run ys).1 ∧ LenAfter b.len (received (b.run ys).1) (b.run ys).2.len ∧ received (b.run ys).1 ≤ h2Given ys := by
    have happ : ∀ a c : List (H2Data × H2Trailers), h2Given (a ++ c) = h2Given a + h2Given c := by
      intro a c
      induction a with
      | nil => simp [h2Given]
      | cons x a ih => rcases x with ⟨_ | _ | _ | _, _⟩ <;> simp [h2Given, ih, Nat.add_assoc]
    intro ys
    induction hm : ys.length generalizing ys with
    | zero =>
      intro zs _
      have : ys = [] := List.length_eq_zero_iff.1 hm
      subst this
      refine ⟨by simp [H2Body.run], ?_, by simp [H2Body.run, received]⟩
      simp only [H2Body.run, List.foldl_nil, received, LenAfter]
      split
      · rename_i n hn
        have := (intoOpt_sub b.len hf' n 0 hn).1
        exact ⟨by omega, by rw [this]; rfl⟩
      · trivial
    | succ m ih =>
      intro zs hz
      have hne : ys ≠ [] := by
        rintro rfl
        simp at hm
      obtain ⟨ys', x, rfl⟩ : ∃ ys' x, ys = ys' ++ [x] := ⟨ys.dropLast, ys.getLast hne, (List.dropLast_concat_getLast hne).symm⟩
      have hlen : ys'.length = m := by simpa using hm
      obtain ⟨i1, i2, i3⟩ := ih ys' hlen (x :: zs) (by rw [← hz]; simp)
      rw [h2_run_snoc]
      generalize b.run ys' = s at i1 i2 i3
      rcases s with ⟨outs, c⟩
      simp only at i1 i2 i3 ⊢
      rw [happ, received_append]
      have hkeep : ∀ (o : FrameOut) (c' : H2Body), received [o] = 0 → o ≠ .panic → c'.len = c.len →
          FrameOut.panic ∉ outs ++ [o] ∧ LenAfter b.len (received outs + received [o]) c'.len ∧ received outs + received [o] ≤ h2Given ys' + h2Given [x] :=
        fun o c' h1 h2 h3 => by
          rw [h1, h3]
          exact ⟨by simp [i1, Ne.symm h2], i2, by omega⟩
      have htr : ∀ c' : H2Body, c'.len = c.len →
          FrameOut.panic ∉ outs ++ [(c'.pollTrailers x.2).1] ∧
            LenAfter b.len (received outs + received [(c'.pollTrailers x.2).1]) (c'.pollTrailers x.2).2.len ∧
            received outs + received [(c'.pollTrailers x.2).1] ≤ h2Given ys' + h2Given [x] := fun c' hc => by
        obtain ⟨p1, p2, p3⟩ := pollTrailers_same c' x.2
        exact hkeep _ _ p2 p3 (by rw [p1]; exact hc)
      unfold H2Body.poll
      split
      · exact htr c rfl
      · rcases x with ⟨x1, x2⟩
        cases x1 with
        | pending => exact hkeep _ _ rfl (by simp) rfl
        | none => exact htr { c with dataDone := true } rfl
        | error e => cases e <;> exact hkeep _ _ rfl (by simp) rfl
        | data bs =>
          simp only
          have hall : h2Given ys' + bs.length ≤ h2Given xs := by
            rw [← hz, happ, happ]
            simp [h2Given]
          unfold LenAfter at i2
          cases hn : b.len.intoOpt with
          | none =>
            rw [hn] at i2
            simp only at i2
            have hsub : c.len.subIf bs.length = some c.len := by
              rw [i2]
              unfold DecodedLength.intoOpt at hn
              split at hn
              · rename_i hx
                unfold DecodedLength.subIf
                rw [if_pos hx]
              · cases hn
            simp only [hsub]
            refine ⟨by simp [i1], by simp only [LenAfter, hn]; exact i2, ?_⟩
            simp only [received, h2Given]
            omega
          | some n =>
            rw [hn] at i2
            simp only at i2
            have := hx n hn
            obtain ⟨s1, s2, s3⟩ := intoOpt_sub b.len hf' n (received outs) hn
            rw [i2.2, s3, if_pos (by omega)]
            simp only
            refine ⟨by simp [i1], ?_, by simp only [received, h2Given]; omega⟩
            simp only [LenAfter, hn, received, Nat.add_zero]
            exact ⟨by omega, by rw [Nat.sub_sub]⟩
  exact ⟨(hstrong xs [] (by simp)).1, (hstrong xs [] (by simp)).2.1⟩

example : ((H2Body.new ⟨5⟩ false).run [(.data (ascii "ab"), .pending), (.data (ascii "cde"), .pending), (.none, .ok none)]) =
    ([.data (ascii "ab"), .data (ascii "cde"), .none], ⟨⟨0⟩, true⟩) := by decide +kernel

end Hyper
