import Verif.Spec.Prompt
import Verif.Props.Input
import Verif.Props.Buffered
import Verif.Props.ClosedLoop

/-! # C69: what has arrived is not left lying -/

namespace Hyper

open Spec Input

namespace Input

variable {α : Type} {H : HeadFn α}

/-- The bytes seen by the last fruitless parse hold no head. -/
def Seen (H : HeadFn α) (x : Inlet) : Prop := ∀ n, x.partialLen = some n → n ≤ x.rd.buf.length ∧ NoHead H (x.rd.buf.take n)

theorem noHead_nil (hE : Ending H) : NoHead H [] := by
  intro m x b' h
  obtain ⟨_, pre, t, ht, e⟩ := hE.ends h
  simp only [List.take_nil] at e
  rcases ht with rfl | rfl <;> simp at e

theorem attempt_none (hS : Stable H) (hE : Ending H) (m : Option Bytes) (x : Inlet) (hx : Seen H x) {b : Bytes} (h : x.attempt (H.parse m) = (.ok none, b)) : NoHead H b := by
  have hparse : x.rd.buf ≠ [] → H.parse m x.rd.buf = (.ok none, b) → NoHead H b := by
    intro hne hp
    by_cases hb : b = []
    · rw [hb]; exact noHead_nil hE
    · intro m' y b' hy
      have := (hS.skip hne hp).2 m' [] (by simpa using hb)
      rw [List.append_nil, List.append_nil] at this
      exact hE.blind hp m' y b' (this.trans hy)
  unfold Inlet.attempt at h
  by_cases hb : x.rd.buf = []
  · rw [if_pos hb] at h
    cases h
    exact noHead_nil hE
  · rw [if_neg hb] at h
    cases hpl : x.partialLen with
    | none => rw [hpl] at h; exact hparse hb h
    | some n =>
      rw [hpl] at h
      dsimp only at h
      by_cases hq : isCompleteFast x.rd.buf n = some true
      · rw [if_pos hq] at h; exact hparse hb h
      · rw [if_neg hq] at h
        cases h
        obtain ⟨h1, h2⟩ := hx n hpl
        intro m' y b' hy
        rcases Nat.lt_or_ge n (x.rd.buf.length - b'.length) with hlt | hge
        · cases hf : isCompleteFast x.rd.buf n with
          | none => unfold isCompleteFast at hf; rw [if_pos (by omega)] at hf; cases hf
          | some c =>
            cases c with
            | true => exact hq hf
            | false => exact C30_no_terminator_missed _ _ _ hf hlt (hE.ends hy)
        · obtain ⟨x', b'', g⟩ := hE.soon hy n hge
          exact h2 _ _ _ g

theorem seen_pull {x : Inlet} (h : Seen H x) : Seen H x.pull := by
  have hp : x.pull.partialLen = x.partialLen := by unfold Inlet.pull; split <;> rfl
  have hb : ∃ bs, x.pull.rd.buf = x.rd.buf ++ bs := by
    unfold Inlet.pull
    split
    · exact ⟨_, rfl⟩
    · exact ⟨[], by simp⟩
  obtain ⟨bs, hb⟩ := hb
  intro n hn
  rw [hp] at hn
  obtain ⟨h1, h2⟩ := h n hn
  rw [hb, List.take_append_of_le_length h1, List.length_append]
  exact ⟨by omega, h2⟩

theorem seen_setPartial {x : Inlet} (h : NoHead H x.rd.buf) : Seen H x.setPartial := by
  intro n hn
  simp only [Inlet.setPartial] at hn ⊢
  split at hn
  · cases hn
  · cases hn
    rw [List.take_length]
    exact ⟨Nat.le_refl _, h⟩

theorem pull_pending (x : Inlet) (h : x.rd.readIo.1 = .pending) : x.pull.rd.buf = x.rd.buf ∧ Waited x.rd x.pull.rd := by
  obtain ⟨⟨buf, net, fin⟩, pl, mx⟩ := x
  unfold Inlet.pull Rd.readIo at *
  rcases net with _ | ⟨s, net⟩
  · cases fin
    · exact ⟨rfl, [], by simp, .inr ⟨rfl, rfl, rfl⟩⟩
    · cases h
    · cases h
  · cases s with
    | pending => exact ⟨rfl, [], by simp, .inl rfl⟩
    | data b bs => cases h

theorem pull_data (x : Inlet) {b : Byte} {bs : Bytes} (h : x.rd.readIo.1 = .ready (.ok (b :: bs))) :
    x.rd.net = Seg.data b bs :: x.pull.rd.net ∧ x.pull.rd.fin = x.rd.fin := by
  obtain ⟨⟨buf, net, fin⟩, pl, mx⟩ := x
  unfold Inlet.pull Rd.readIo at *
  rcases net with _ | ⟨s, net⟩
  · cases fin <;> cases h
  · cases s with
    | pending => cases h
    | data b bs => cases h; exact ⟨rfl, rfl⟩

theorem Waited.cons {r r1 r' : Rd} {b : Byte} {bs : Bytes} (h : r.net = Seg.data b bs :: r1.net) (hf : r1.fin = r.fin) (hw : Waited r1 r') : Waited r r' := by
  obtain ⟨pre, h1, h2⟩ := hw
  refine ⟨.data b bs :: pre, ?_, ?_⟩
  · intro s hs
    rcases List.mem_cons.1 hs with rfl | hs
    · exact fun e => by cases e
    · exact h1 s hs
  · rcases h2 with h2 | ⟨h2, h3, h4⟩
    · exact .inl (by rw [h, h2]; rfl)
    · exact .inr ⟨by rw [h, h2], h3, by rw [← hf]; exact h4⟩

/-- One call of `Buffered::parse`. -/
theorem parse_prompt (hS : Stable H) (hE : Ending H) (m : Option Bytes) : ∀ (fuel : Nat) (x : Inlet), Seen H x → x.rd.net.length < fuel →
    match (x.parseLoop (H.parse m) fuel).1 with
    | .pending => Seen H (x.parseLoop (H.parse m) fuel).2 ∧ NoHead H (x.parseLoop (H.parse m) fuel).2.rd.buf ∧ Waited x.rd (x.parseLoop (H.parse m) fuel).2.rd
    | .msg _ => (x.parseLoop (H.parse m) fuel).2.partialLen = none
    | .error _ => True := by
  intro fuel
  induction fuel with
  | zero => intro x _ h; omega
  | succ fuel ih =>
    intro x hx hlen
    unfold Inlet.parseLoop
    rcases ha : x.attempt (H.parse m) with ⟨o, b⟩
    cases o with
    | error e => trivial
    | ok o =>
      cases o with
      | some a => rfl
      | none =>
        have hn := attempt_none hS hE m x hx ha
        dsimp only
        by_cases hmx : x.max ≤ b.length
        · rw [if_pos hmx]; trivial
        · rw [if_neg hmx]
          have hs : Seen H (x.leave b).setPartial := seen_setPartial hn
          rcases hr : (x.leave b).rd.readIo.1 with _ | ⟨_ | ⟨_ | ⟨c, cs⟩⟩⟩
          · dsimp only
            obtain ⟨p1, p2⟩ := pull_pending (x.leave b).setPartial hr
            exact ⟨seen_pull hs, by rw [p1]; exact hn, p2⟩
          · trivial
          · trivial
          · dsimp only
            obtain ⟨p1, p2⟩ := pull_data (x.leave b).setPartial hr
            have p1' : x.rd.net = Seg.data c cs :: (x.leave b).setPartial.pull.rd.net := p1
            have := ih (x.leave b).setPartial.pull (seen_pull hs) (by rw [p1'] at hlen; simp only [List.length_cons] at hlen; omega)
            revert this
            cases ((x.leave b).setPartial.pull.parseLoop (H.parse m) fuel).1 with
            | pending => exact fun ⟨g1, g2, g3⟩ => ⟨g1, g2, g3.cons p1' p2⟩
            | msg a => exact fun h => h
            | error e => exact fun _ => trivial

/-- What is known of the quick check's memory while the connection runs. -/
def Watch (H : HeadFn α) (f : Fed α) : Prop :=
  f.inlet.partialLen ≠ none → rk f.disp.conn.reading = .closed ∨ ((∀ dec, rk f.disp.conn.reading ≠ .dec dec) ∧ Seen H f.inlet)

theorem watch_quiet {f : Fed α} (h : Watch H f) {d : Disp} (hq : QD f.disp d) : Watch H { f with disp := d } := by
  intro hn
  rcases h hn with h | ⟨h1, h2⟩
  · exact .inl (closed_stays hq.conn h)
  · exact .inr ⟨fun dec hd => h1 dec (hq.conn.dec hd), h2⟩

theorem watch_step (hS : Stable H) (hE : Ending H) (env : EncodeEnv) (P : TrailerParser) {f : Fed α} (h : Watch H f) (a : FAct) : Watch H (f.step env P H a) := by
  cases a with
  | pull =>
    intro hn
    have hp : f.inlet.peek.partialLen = f.inlet.partialLen := by
      unfold Inlet.peek Inlet.pull; (repeat' split) <;> rfl
    rcases h (by rw [← hp]; exact hn) with h | ⟨h1, h2⟩
    · exact .inl h
    · refine .inr ⟨h1, ?_⟩
      show Seen H f.inlet.peek
      unfold Inlet.peek
      split
      · exact seen_pull h2
      · exact h2
  | act a =>
    by_cases hr : ∃ i, a = .read i
    · obtain ⟨i, rfl⟩ := hr
      change Watch H (f.read env P H i)
      by_cases hp : f.disp.parses i = true
      · obtain ⟨hstep, hinit⟩ := step_parses env P f.disp i (f.readIn H i) rfl hp
        unfold Fed.read
        rw [if_pos hp, hstep]
        have hx : Seen H f.inlet := by
          intro n hn
          rcases h (by rw [hn]; simp) with g | g
          · rw [hinit] at g; cases g
          · exact g.2 n hn
        have hpp := parse_prompt hS hE f.disp.conn.method (f.inlet.rd.net.length + 1) f.inlet hx (by omega)
        change match (f.inlet.parse (H.parse f.disp.conn.method)).1 with
          | .pending => Seen H (f.inlet.parse (H.parse f.disp.conn.method)).2 ∧ _ ∧ _
          | .msg _ => (f.inlet.parse (H.parse f.disp.conn.method)).2.partialLen = none
          | .error _ => True at hpp
        have hj : (f.readIn H i).parse = Inlet.seen (H.view f.disp.conn.method) (f.inlet.parse (H.parse f.disp.conn.method)).1 (f.inlet.parse (H.parse f.disp.conn.method)).2.rd.buf := rfl
        generalize f.inlet.parse (H.parse f.disp.conn.method) = ox at *
        obtain ⟨o, x⟩ := ox
        generalize f.readIn H i = j at *
        intro hn
        unfold Disp.readHeadReady
        cases o with
        | msg a => exact absurd hpp hn
        | pending =>
          simp only [hj, Inlet.seen, Conn.pollReadHead]
          have hq := q_startTimer f.disp.conn j.t0
          have nodec : ∀ {d : Disp}, QD f.disp d → ∀ dec, rk d.conn.reading ≠ .dec dec := by
            intro d hq dec hd
            have := hq.conn.dec hd
            rw [hinit] at this; cases this
          right
          refine ⟨?_, hpp.1⟩
          split
          · exact nodec (QD.trans (qd_conn f.disp { f.disp.conn.startTimer j.t0 with timing := false } (hq.trans (.of rfl rfl rfl))) (qd_recvErr _))
          · exact nodec (qd_conn f.disp _ hq)
        | error e =>
          left
          simp only [hj, Inlet.seen, Conn.pollReadHead]
          obtain ⟨hq, hk⟩ := q_onReadHeadError env (f.disp.conn.startTimer j.t0) e (!(Inlet.skipLines x.rd.buf).isEmpty) (Inlet.isH2 (Inlet.skipLines x.rd.buf))
          have hno := onReadHeadError_no env (f.disp.conn.startTimer j.t0) e (!(Inlet.skipLines x.rd.buf).isEmpty) (Inlet.isH2 (Inlet.skipLines x.rd.buf))
          generalize (f.disp.conn.startTimer j.t0).onReadHeadError env e (!(Inlet.skipLines x.rd.buf).isEmpty) (Inlet.isH2 (Inlet.skipLines x.rd.buf)) = oc at *
          unfold Disp.afterHead
          split
          · exact hk
          · rename_i m hm
            exact absurd hm (hno m)
          · exact closed_stays (qd_recvErr { f.disp with conn := oc.2 }).conn hk
          · exact closed_stays (qd_recvErr { f.disp with conn := oc.2 }).conn hk
          · split
            · exact closed_stays (qd_close { f.disp with conn := oc.2 }).conn hk
            · exact hk
      · have hp' : f.disp.parses i = false := by simpa using hp
        cases hd : f.disp.decodes i with
        | some dec =>
          have hk : rk f.disp.conn.reading = .dec dec := by
            unfold Disp.decodes at hd
            rw [← decoder_rk]
            repeat' split at hd
            all_goals first | exact hd | cases hd
          unfold Fed.read
          rw [if_neg hp, hd]
          intro hn
          rcases h hn with g | ⟨g, _⟩
          · rw [hk] at g; cases g
          · exact absurd hk (g dec)
        | none =>
          unfold Fed.read
          rw [if_neg hp, hd]
          exact watch_quiet h (qd_idle env P f.disp i (f.readIn H i) rfl rfl hp' hd)
    · have hq := qd_step env P f.disp a (fun i e => hr ⟨i, e⟩)
      have : f.step env P H (.act a) = { f with disp := f.disp.step env P a } := by
        cases a with
        | read i => exact absurd ⟨i, rfl⟩ hr
        | _ => rfl
      rw [this]
      exact watch_quiet h hq

theorem watch_run (hS : Stable H) (hE : Ending H) (env : EncodeEnv) (P : TrailerParser) (as : List FAct) : ∀ {f : Fed α}, Watch H f → Watch H (f.run env P H as) := by
  induction as with
  | nil => intro f h; exact h
  | cons a as ih => intro f h; exact ih (watch_step hS hE env P h a)

/-! ## Bodies -/

/-- From `r` to `r'` only data was taken. -/
def Pulled (r r' : Rd) : Prop := r'.fin = r.fin ∧ ∃ pre, (∀ s ∈ pre, s ≠ Seg.pending) ∧ r.net = pre ++ r'.net

theorem Pulled.waited {a b c : Rd} (h : Pulled a b) (hw : Waited b c) : Waited a c := by
  obtain ⟨hf, p, h1, h2⟩ := h
  obtain ⟨q, h3, h4⟩ := hw
  refine ⟨p ++ q, ?_, ?_⟩
  · intro s hs
    rcases List.mem_append.1 hs with hs | hs
    · exact h1 s hs
    · exact h3 s hs
  · rcases h4 with h4 | ⟨h4, h5, h6⟩
    · exact .inl (by rw [h2, h4, List.append_assoc])
    · exact .inr ⟨by rw [h2, h4], h5, by rw [← hf]; exact h6⟩

theorem readMem_pending {r r' : Rd} {n : Nat} (h : r.readMem n = (.pending, r')) : r'.buf = [] ∧ Waited r r' := by
  obtain ⟨buf, net, fin⟩ := r
  unfold Rd.readMem Rd.readIo at h
  by_cases hb : buf = []
  · subst hb
    rcases net with _ | ⟨s, net⟩
    · cases fin
      · simp at h; subst h; exact ⟨rfl, [], by simp, .inr ⟨rfl, rfl, rfl⟩⟩
      · simp at h
      · simp at h
    · cases s with
      | pending => simp at h; subst h; exact ⟨rfl, [], by simp, .inl rfl⟩
      | data b bs => simp at h
  · simp [hb] at h

theorem readMem_byte {r r' : Rd} {b : Byte} {bs : Bytes} (h : r.readMem 1 = (.ready (.ok (b :: bs)), r')) : r'.size < r.size ∧ Pulled r r' := by
  obtain ⟨buf, net, fin⟩ := r
  unfold Rd.readMem Rd.readIo at h
  by_cases hb : buf = []
  · subst hb
    rcases net with _ | ⟨s, net⟩
    · cases fin <;> simp at h
    · cases s with
      | pending => simp at h
      | data c cs =>
        simp at h
        obtain ⟨_, rfl⟩ := h
        refine ⟨?_, rfl, [.data c cs], by simp, rfl⟩
        simp [Rd.size, Rd.stream, segBytes]
        omega
  · obtain ⟨c, cs, rfl⟩ := List.exists_cons_of_ne_nil hb
    simp at h
    obtain ⟨_, rfl⟩ := h
    refine ⟨?_, rfl, [], by simp, rfl⟩
    simp [Rd.size, Rd.stream]

theorem step_pending {c c' : Chunked} {r r' : Rd} {b : Option Bytes} (h : c.step r = ⟨.pending, c', b, r'⟩) : r'.buf = [] ∧ Waited r r' := by
  unfold Chunked.step Chunked.readBody Chunked.readByte at h
  split at h
  · cases h
  · split at h
    · rename_i e; cases h; exact readMem_pending e
    · cases h
    · split at h <;> cases h
  · split at h
    · rename_i e; cases h; exact readMem_pending e
    · cases h
    · cases h
    · cases h

theorem step_loops {c c' : Chunked} {r r' : Rd} {s : CState} (h : c.step r = ⟨.ready (.ok s), c', none, r'⟩) (hs : s ≠ .finished) : r'.size < r.size ∧ Pulled r r' := by
  unfold Chunked.step Chunked.readBody Chunked.readByte at h
  split at h
  · cases h; exact absurd rfl hs
  · split at h
    · cases h
    · cases h
    · split at h <;> cases h
  · split at h
    · cases h
    · cases h
    · cases h
    · rename_i e
      simp only [StepRes.mk.injEq] at h
      obtain ⟨_, _, _, rfl⟩ := h
      exact readMem_byte e

theorem loop_pending (P : TrailerParser) : ∀ (fuel : Nat) (c : Chunked) (r : Rd), r.size < fuel → (c.decodeLoop P fuel r).1 = .pending →
    (c.decodeLoop P fuel r).2.2.buf = [] ∧ Waited r (c.decodeLoop P fuel r).2.2 := by
  intro fuel
  induction fuel with
  | zero => intro c r h; omega
  | succ fuel ih =>
    intro c r hlen h
    unfold Chunked.decodeLoop at h ⊢
    rcases hs : c.step r with ⟨res, c', b, r'⟩
    rw [hs] at h
    rcases res with _ | ⟨e | s⟩
    · exact step_pending hs
    · cases h
    · dsimp only at h ⊢
      by_cases hf : s = .finished
      · rw [if_pos hf] at h
        split at h
        · split at h <;> cases h
        · cases h
      · rw [if_neg hf] at h ⊢
        cases b with
        | some bs => cases h
        | none =>
          obtain ⟨l1, l2⟩ := step_loops hs hf
          obtain ⟨g1, g2⟩ := ih _ r' (by omega) h
          exact ⟨g1, l2.waited g2⟩

theorem decode_pending (P : TrailerParser) (d : Decoder) (r : Rd) (h : (d.decode P r).1 = .pending) : (d.decode P r).2.2.buf = [] ∧ Waited r (d.decode P r).2.2 := by
  cases d with
  | length n =>
    simp only [Decoder.decode] at h ⊢
    split at h
    · cases h
    · rename_i hn
      rw [if_neg hn]
      split at h
      · rename_i e; exact readMem_pending e
      · cases h
      · split at h
        · cases h
        · split at h <;> cases h
  | eof b =>
    simp only [Decoder.decode] at h ⊢
    split at h
    · cases h
    · rename_i hn
      rw [if_neg hn]
      split at h
      · rename_i e; exact readMem_pending e
      · cases h
      · cases h
  | chunked c =>
    have e := loop_pending P (r.size + 1) c r (by omega)
    simpa [Decoder.decode] using e (by simpa [Decoder.decode] using h)

/-! ## The two parsers -/

theorem client_near {cfg : ClientCfg} (h09 : cfg.h09 = false) {Q : Bytes → RespParse} (hst : PrefixStable Q) (hl : ResponseLocal Q) (m : Option Bytes) :
    ∀ (fuel : Nat) (buf : Bytes) (inf : List RespHead) (x : ResponseMsg), (clientParse cfg Q m fuel buf inf).res = .ok (some x) →
      HeadEndsAt buf (buf.length - (clientParse cfg Q m fuel buf inf).buf.length) ∧
      ∀ k, buf.length - (clientParse cfg Q m fuel buf inf).buf.length ≤ k → (clientParse cfg Q m fuel (buf.take k) inf).res = .ok (some x) := by
  intro fuel
  induction fuel with
  | zero => intro buf inf x h; simp [clientParse] at h
  | succ fuel ih =>
    intro buf inf x h
    have hsuf := (client_msg h09 hst m [] (fuel + 1) buf inf x h).1
    simp only [clientParse] at h hsuf ⊢
    cases hq : Q buf with
    | incomplete => rw [hq] at h; simp at h
    | err e => rw [hq] at h; simp at h
    | versionErr => rw [hq] at h; simp [h09] at h
    | complete len r =>
      obtain ⟨p1, p2, p3⟩ := hst _ _ _ hq
      obtain ⟨l1, l2⟩ := hl _ _ _ hq
      rw [hq] at h hsuf
      dsimp only at h hsuf ⊢
      cases hh : clientHead cfg r with
      | error e => rw [hh] at h; simp at h
      | ok hk =>
        obtain ⟨head, ka⟩ := hk
        rw [hh] at h hsuf
        dsimp only at h hsuf ⊢
        cases hd : clientDecoder head m with
        | error e => rw [hd] at h; simp at h
        | ok o =>
          rw [hd] at h hsuf
          cases o with
          | some du =>
            dsimp only at h ⊢
            have e : buf.length - (buf.drop len).length = len := by rw [List.length_drop]; omega
            rw [e]
            refine ⟨l1, fun k hk => ?_⟩
            rw [l2 k hk]
            dsimp only
            rw [hh]
            dsimp only
            rw [hd]
            exact h
          | none =>
            dsimp only at h hsuf ⊢
            by_cases he : buf.drop len = []
            · rw [if_pos he] at h; simp at h
            · rw [if_neg he] at h hsuf
              rw [if_neg he]
              obtain ⟨⟨i1, pre, t, i2, i3⟩, i4⟩ := ih _ _ _ h
              have hs := (client_msg h09 hst m [] _ _ _ _ h).1.length_le
              generalize hout : (clientParse cfg Q m fuel (buf.drop len) (if isInformational head.status then inf ++ [head] else inf)).buf = out at *
              have hdl : (buf.drop len).length = buf.length - len := List.length_drop
              have e : buf.length - out.length = len + ((buf.drop len).length - out.length) := by omega
              rw [e]
              have htake : ∀ n, buf.take (len + n) = buf.take len ++ (buf.drop len).take n := fun n => List.take_add
              refine ⟨⟨by omega, buf.take len ++ pre, t, i2, by rw [htake, i3, List.append_assoc]⟩, fun k hk => ?_⟩
              have hpos : 0 < (buf.drop len).length - out.length := by
                rcases Nat.eq_zero_or_pos ((buf.drop len).length - out.length) with h0 | h0
                · rw [h0, List.take_zero] at i3
                  rcases i2 with rfl | rfl <;> simp at i3
                · exact h0
              obtain ⟨k, rfl⟩ : ∃ j, k = len + j := ⟨k - len, by omega⟩
              have hdr : (buf.take (len + k)).drop len = (buf.drop len).take k := by rw [List.drop_take]; congr 1; omega
              rw [l2 _ (by omega)]
              dsimp only
              rw [hh]
              dsimp only
              rw [hd]
              dsimp only
              rw [hdr, if_neg (by
                intro h0
                have := congrArg List.length h0
                rw [List.length_take, List.length_nil] at this
                omega)]
              exact i4 k (by omega)

theorem client_blind {cfg : ClientCfg} (h09 : cfg.h09 = false) {Q : Bytes → RespParse} (m m' : Option Bytes) :
    ∀ (fuel : Nat) (buf : Bytes) (inf : List RespHead), (clientParse cfg Q m fuel buf inf).res = .ok none → (clientParse cfg Q m' fuel buf inf).res = .ok none := by
  intro fuel
  induction fuel with
  | zero => intro buf inf _; rfl
  | succ fuel ih =>
    intro buf inf h
    simp only [clientParse] at h ⊢
    cases hq : Q buf with
    | incomplete => rfl
    | err e => rw [hq] at h; simp at h
    | versionErr => rw [hq] at h; simp [h09] at h
    | complete len r =>
      rw [hq] at h
      dsimp only at h ⊢
      cases hh : clientHead cfg r with
      | error e => rw [hh] at h; simp at h
      | ok hk =>
        obtain ⟨head, ka⟩ := hk
        rw [hh] at h
        dsimp only at h ⊢
        cases hd : clientDecoder head m with
        | error e => rw [hd] at h; simp at h
        | ok o =>
          rw [hd] at h
          cases o with
          | some du => simp at h
          | none =>
            rw [clientDecoder_interim m' (clientDecoder_none hd)]
            dsimp only at h ⊢
            by_cases he : buf.drop len = []
            · rw [if_pos he]
            · rw [if_neg he] at h ⊢
              exact ih _ _ h

/-! ## The reference parsers -/

theorem while_less {p : Byte → Bool} {bs r : Bytes} {y : Byte} (h : bs.dropWhile p = y :: r) :
    ∃ a, bs = a ++ y :: r ∧ ∀ t, (a ++ y :: t).dropWhile p = y :: t ∧ (a ++ y :: t).takeWhile p = bs.takeWhile p := by
  induction bs with
  | nil => simp at h
  | cons b bs ih =>
    by_cases hp : p b = true
    · rw [List.dropWhile_cons_of_pos hp] at h
      obtain ⟨a, h1, h2⟩ := ih h
      refine ⟨b :: a, by rw [h1]; rfl, fun t => ?_⟩
      rw [List.cons_append, List.dropWhile_cons_of_pos hp, List.takeWhile_cons_of_pos hp, List.takeWhile_cons_of_pos hp, (h2 t).2]
      exact ⟨(h2 t).1, rfl⟩
    · rw [List.dropWhile_cons_of_neg hp] at h
      cases h
      refine ⟨[], rfl, fun t => ?_⟩
      rw [List.nil_append, List.dropWhile_cons_of_neg hp, List.takeWhile_cons_of_neg hp, List.takeWhile_cons_of_neg hp]
      exact ⟨rfl, rfl⟩

theorem refField_less {bs rest : Bytes} {f : Bytes × Bytes} (h : refField bs = some (f, rest)) :
    ∃ pre, bs = pre ++ 13 :: 10 :: rest ∧ ∀ t, refField (pre ++ 13 :: 10 :: t) = some (f, t) := by
  unfold refField at h
  simp only at h
  split at h
  · cases h
  · rename_i hn
    split at h
    · rename_i r hr
      split at h
      · rename_i rest' hr'
        obtain ⟨a, a1, a2⟩ := while_less hr
        obtain ⟨c, c1, c2⟩ := while_less hr'
        simp only [Option.some.injEq, Prod.mk.injEq] at h
        obtain ⟨rfl, rfl⟩ := h
        refine ⟨a ++ 58 :: c, by rw [a1, c1]; simp, fun t => ?_⟩
        obtain ⟨d1, d2⟩ := a2 (c ++ 13 :: 10 :: t)
        obtain ⟨e1, e2⟩ := c2 (10 :: t)
        have e : a ++ 58 :: c ++ 13 :: 10 :: t = a ++ 58 :: (c ++ 13 :: 10 :: t) := by simp
        unfold refField
        rw [e, d1, d2]
        simp only [if_neg hn, e1, e2]
      · cases h
    · cases h

theorem refBlock_less : ∀ (n : Nat) (bs rest : Bytes) (fs : List (Bytes × Bytes)), refBlock n bs = some (fs, rest) →
    ∃ pre, bs = pre ++ 13 :: 10 :: rest ∧ (pre = [] ∨ ∃ q, pre = q ++ [13, 10]) ∧ ∀ t, refBlock n (pre ++ 13 :: 10 :: t) = some (fs, t) := by
  intro n
  induction n with
  | zero =>
    intro bs rest fs h
    unfold refBlock at h
    split at h
    · cases h; exact ⟨[], rfl, .inl rfl, fun t => by simp [refBlock]⟩
    · cases h
    · omega
  | succ n ih =>
    intro bs rest fs h
    unfold refBlock at h
    split at h
    · cases h; exact ⟨[], rfl, .inl rfl, fun t => by simp [refBlock]⟩
    · omega
    · rename_i bs _ _ m heq _
      obtain rfl := Nat.succ.inj heq
      cases hf : refField bs with
      | none => rw [hf] at h; cases h
      | some p =>
        obtain ⟨f, r⟩ := p
        rw [hf] at h
        simp only at h
        cases hb : refBlock n r with
        | none => rw [hb] at h; cases h
        | some q =>
          obtain ⟨fs', r'⟩ := q
          rw [hb] at h
          simp only [Option.map_some, Option.some.injEq, Prod.mk.injEq] at h
          obtain ⟨rfl, rfl⟩ := h
          obtain ⟨p1, f1, f2⟩ := refField_less hf
          obtain ⟨p2, b1, b2, b3⟩ := ih _ _ _ hb
          refine ⟨p1 ++ 13 :: 10 :: p2, by rw [f1, b1]; simp, .inr ?_, fun t => ?_⟩
          · rcases b2 with rfl | ⟨q, rfl⟩
            · exact ⟨p1, rfl⟩
            · exact ⟨p1 ++ 13 :: 10 :: q, by simp⟩
          · have e : p1 ++ 13 :: 10 :: p2 ++ 13 :: 10 :: t = p1 ++ 13 :: 10 :: (p2 ++ 13 :: 10 :: t) := by simp
            rw [e]
            refine refBlock_cons (f2 _) ?_ (b3 t)
            intro x hx'
            have hg := f2 (p2 ++ 13 :: 10 :: t)
            rw [hx'] at hg
            have : isTchar 13 = false := by decide
            simp [refField, this] at hg

theorem refVersion_less {bs rest : Bytes} {v : Bool} (h : refVersion bs = some (v, rest)) :
    ∃ pre, bs = pre ++ 13 :: 10 :: rest ∧ ∀ t, refVersion (pre ++ 13 :: 10 :: t) = some (v, t) := by
  unfold refVersion at h
  split at h
  · rename_i ht
    have hb : ∀ c t, bs.drop 8 = c :: 13 :: 10 :: t → bs = (ascii " HTTP/1." ++ [c]) ++ 13 :: 10 :: t := by
      intro c t e
      rw [← List.take_append_drop 8 bs, ht, e]
      simp
    split at h
    · rename_i rest' hr
      cases h
      exact ⟨_, hb _ _ hr, fun t => rfl⟩
    · rename_i rest' hr
      cases h
      exact ⟨_, hb _ _ hr, fun t => rfl⟩
    · cases h
  · cases h

/-- A head followed by anything. -/
theorem near_of {p rest : Bytes} : HeadEndsAt (p ++ [10, 13, 10] ++ rest) (p.length + 3) ∧
    ∀ k, p.length + 3 ≤ k → ∃ t, (p ++ [10, 13, 10] ++ rest).take k = p ++ [10, 13, 10] ++ t := by
  have hl : (p ++ [10, 13, 10]).length = p.length + 3 := by simp
  refine ⟨⟨by rw [List.length_append, hl]; omega, p, _, .inr rfl, ?_⟩, fun k hk => ⟨rest.take (k - (p.length + 3)), ?_⟩⟩
  · rw [List.take_append_of_le_length (by omega), ← hl, List.take_length]
  · rw [List.take_append, hl, List.take_of_length_le (by omega)]

end Input

open Wire in
theorem Wire.refTokens_local (max : Nat) : RequestLocal (refTokens max) := by
  intro buf r n h
  simp only [refTokens, Except.ok.injEq] at h ⊢
  unfold refRequest at h
  simp only at h
  split at h
  · rename_i r1 hr
    split at h
    · cases h
    · rename_i hne
      cases hv : refVersion (r1.dropWhile (fun b => isValueByte b && !isBlankByte b)) with
      | none => rw [hv] at h; cases h
      | some p =>
        obtain ⟨v, rest⟩ := p
        rw [hv] at h
        simp only at h
        cases hb : refBlock max rest with
        | none => rw [hb] at h; cases h
        | some q =>
          obtain ⟨fs, r'⟩ := q
          rw [hb] at h
          simp only [Option.map_some, Option.some.injEq, Prod.mk.injEq] at h
          obtain ⟨rfl, rfl⟩ := h
          obtain ⟨a, a1, a2⟩ := while_less hr
          obtain ⟨y, rr, hy⟩ : ∃ y rr, r1.dropWhile (fun b => isValueByte b && !isBlankByte b) = y :: rr := by
            cases hd : r1.dropWhile (fun b => isValueByte b && !isBlankByte b) with
            | nil =>
              rw [hd] at hv
              have : refVersion [] = none := by decide
              rw [this] at hv; cases hv
            | cons y rr => exact ⟨y, rr, rfl⟩
          obtain ⟨b, b1, b2⟩ := while_less hy
          obtain ⟨c, c1, c2⟩ := refVersion_less hv
          obtain ⟨d, d1, d2, d3⟩ := refBlock_less _ _ _ _ hb
          rw [hy] at c1
          obtain ⟨c', rfl⟩ : ∃ c', c = y :: c' := by
            cases c with
            | nil =>
              have : refVersion [13, 10] = none := by decide
              have := c2 []
              simp_all
            | cons z c' => injection c1 with e1 e2; exact ⟨c', by rw [e1]⟩
          have c1' : rr = c' ++ 13 :: 10 :: rest := by injection c1
          obtain ⟨q, hq⟩ : ∃ q, a ++ 32 :: (b ++ y :: (c' ++ 13 :: 10 :: d)) ++ [13] = q ++ [10, 13] := by
            rcases d2 with rfl | ⟨q, rfl⟩
            · exact ⟨a ++ 32 :: (b ++ y :: (c' ++ [13])), by simp⟩
            · exact ⟨a ++ 32 :: (b ++ y :: (c' ++ 13 :: 10 :: (q ++ [13]))), by simp⟩
          have all : ∀ t, refRequest max (q ++ [10, 13, 10] ++ t) = some (⟨buf.takeWhile isTchar, r1.takeWhile (fun b => isValueByte b && !isBlankByte b), v, fs⟩, q.length + 3) := by
            intro t
            have e : q ++ [10, 13, 10] ++ t = a ++ 32 :: (b ++ y :: (c' ++ 13 :: 10 :: (d ++ 13 :: 10 :: t))) := by
              have : q ++ [10, 13, 10] ++ t = q ++ [10, 13] ++ 10 :: t := by simp
              rw [this, ← hq]; simp
            obtain ⟨x1, x2⟩ := a2 (b ++ y :: (c' ++ 13 :: 10 :: (d ++ 13 :: 10 :: t)))
            obtain ⟨y1, y2⟩ := b2 (c' ++ 13 :: 10 :: (d ++ 13 :: 10 :: t))
            have z := c2 (d ++ 13 :: 10 :: t)
            rw [List.cons_append] at z
            have hlen : (q ++ [10, 13, 10] ++ t).length - t.length = q.length + 3 := by simp; omega
            rw [e] at hlen ⊢
            unfold refRequest
            simp only [x1, x2, y1, y2, if_neg hne, z, d3, Option.map_some, hlen]
          have e : buf = q ++ [10, 13, 10] ++ r' := by
            have : q ++ [10, 13, 10] ++ r' = q ++ [10, 13] ++ 10 :: r' := by simp
            rw [this, ← hq, a1, b1, c1', d1]; simp
          obtain ⟨n1, n2⟩ := near_of (p := q) (rest := r')
          have hlen : buf.length - r'.length = q.length + 3 := by rw [e]; simp; omega
          rw [hlen]
          refine ⟨by rw [e]; exact n1, fun k hk => ?_⟩
          obtain ⟨t, ht⟩ := n2 k hk
          rw [← all t, ← ht, ← e]
  · cases h

open Wire in
theorem Wire.refReplies_local (max : Nat) : ResponseLocal (refReplies max) := by
  intro buf len r h
  have h' : refResponse max buf = .complete len r := by
    unfold refReplies at h
    split at h
    · rename_i e; cases h; exact e
    · cases h
  suffices key : HeadEndsAt buf len ∧ ∀ k, len ≤ k → refResponse max (buf.take k) = .complete len r by
    refine ⟨key.1, fun k hk => ?_⟩
    unfold refReplies
    rw [key.2 k hk]
  clear h
  unfold refResponse at h'
  split at h'
  · rename_i ht
    split at h'
    · rename_i v r1 e1
      split at h'
      · rename_i r2 e2
        split at h'
        · rename_i rest e3
          cases hb : refBlock max rest with
          | none => rw [hb] at h'; cases h'
          | some p =>
            obtain ⟨fs, r'⟩ := p
            rw [hb] at h'
            simp only [RespParse.complete.injEq] at h'
            obtain ⟨rfl, rfl⟩ := h'
            obtain ⟨a, a1, a2⟩ := while_less e2
            obtain ⟨b, b1, b2⟩ := while_less e3
            obtain ⟨d, d1, d2, d3⟩ := refBlock_less _ _ _ _ hb
            have e0 : buf = ascii "HTTP/1." ++ v :: 32 :: r1 := by rw [← List.take_append_drop 7 buf, ht, e1]
            obtain ⟨q, hq⟩ : ∃ q, ascii "HTTP/1." ++ v :: 32 :: (a ++ 32 :: (b ++ 13 :: 10 :: d)) ++ [13] = q ++ [10, 13] := by
              rcases d2 with rfl | ⟨q, rfl⟩
              · exact ⟨ascii "HTTP/1." ++ v :: 32 :: (a ++ 32 :: (b ++ [13])), by simp⟩
              · exact ⟨ascii "HTTP/1." ++ v :: 32 :: (a ++ 32 :: (b ++ 13 :: 10 :: (q ++ [13]))), by simp⟩
            have hs : ∀ t, q ++ [10, 13, 10] ++ t = ascii "HTTP/1." ++ v :: 32 :: (a ++ 32 :: (b ++ 13 :: 10 :: (d ++ 13 :: 10 :: t))) := by
              intro t
              have : q ++ [10, 13, 10] ++ t = q ++ [10, 13] ++ 10 :: t := by simp
              rw [this, ← hq]; simp
            have all : ∀ t, refResponse max (q ++ [10, 13, 10] ++ t) =
                .complete (q.length + 3) ⟨refNumber (r1.takeWhile isDigitByte), v == 49, refReason (r2.takeWhile isValueByte), fs⟩ := by
              intro t
              obtain ⟨x1, x2⟩ := a2 (b ++ 13 :: 10 :: (d ++ 13 :: 10 :: t))
              obtain ⟨y1, y2⟩ := b2 (10 :: (d ++ 13 :: 10 :: t))
              have hlen : (q ++ [10, 13, 10] ++ t).length - t.length = q.length + 3 := by simp; omega
              rw [hs t] at hlen ⊢
              have k1 : (ascii "HTTP/1." ++ v :: 32 :: (a ++ 32 :: (b ++ 13 :: 10 :: (d ++ 13 :: 10 :: t)))).take 7 = ascii "HTTP/1." := rfl
              have k2 : (ascii "HTTP/1." ++ v :: 32 :: (a ++ 32 :: (b ++ 13 :: 10 :: (d ++ 13 :: 10 :: t)))).drop 7 = v :: 32 :: (a ++ 32 :: (b ++ 13 :: 10 :: (d ++ 13 :: 10 :: t))) := rfl
              unfold refResponse
              rw [if_pos k1, k2]
              simp only [x1, x2, y1, y2, d3, hlen]
            have e : buf = q ++ [10, 13, 10] ++ r' := by rw [hs, e0, a1, b1, d1]
            obtain ⟨n1, n2⟩ := near_of (p := q) (rest := r')
            have hlen : buf.length - r'.length = q.length + 3 := by rw [e]; simp; omega
            rw [hlen]
            refine ⟨by rw [e]; exact n1, fun k hk => ?_⟩
            obtain ⟨t, ht⟩ := n2 k hk
            rw [← all t, ← ht, ← e]
        · cases h'
      · cases h'
    · cases h'
  · cases h'

/-- C69: the parser of requests is one of those the claim is about. -/
theorem C69_server_ending (Q : Bytes → Except ParseErr (Option (RawRequest × Nat))) (hQ : RequestLocal Q) (mo uo : Bytes → Bool) (pc : Bool) : Ending (serverHeads Q mo uo pc) := by
  have key : ∀ {m b x b'}, (serverHeads Q mo uo pc).parse m b = (.ok (some x), b') →
      ∃ raw n, Q b = .ok (some (raw, n)) ∧ serverParse mo uo pc raw = .ok x ∧ b' = b.drop n := by
    intro m b x b' h
    simp only [serverHeads] at h
    cases hq : Q b with
    | error e => rw [hq] at h; simp at h
    | ok o =>
      rw [hq] at h
      cases o with
      | none => simp at h
      | some rn =>
        obtain ⟨raw, n⟩ := rn
        dsimp only at h
        cases hp : serverParse mo uo pc raw with
        | error e => rw [hp] at h; simp at h
        | ok y =>
          rw [hp] at h
          simp only [Prod.mk.injEq, Except.ok.injEq, Option.some.injEq] at h
          exact ⟨raw, n, rfl, h.1 ▸ hp, h.2.symm⟩
  constructor
  · intro m b x b' h
    obtain ⟨raw, n, hq, _, rfl⟩ := key h
    have hl := (hQ _ _ _ hq).1
    have := hl.1
    rw [show b.length - (b.drop n).length = n by rw [List.length_drop]; omega]
    exact hl
  · intro m b x b' h k hk
    obtain ⟨raw, n, hq, hp, rfl⟩ := key h
    have hl := (hQ _ _ _ hq).1.1
    rw [List.length_drop] at hk
    refine ⟨x, (b.take k).drop n, ?_⟩
    simp only [serverHeads, (hQ _ _ _ hq).2 k (by omega), hp]
  · intro m b b' h m' x b'' h'
    obtain ⟨raw, n, hq, hp, rfl⟩ := key h'
    simp only [serverHeads, hq, hp] at h
    cases h

/-- C69: and so is the parser of responses. -/
theorem C69_client_ending (cfg : ClientCfg) (h09 : cfg.h09 = false) (Q : Bytes → RespParse) (hst : PrefixStable Q) (hQ : ResponseLocal Q) : Ending (clientHeads cfg Q) := by
  constructor
  · intro m b x b' h
    simp only [clientHeads, Prod.mk.injEq] at h
    obtain ⟨h1, rfl⟩ := h
    exact (client_near h09 hst hQ m _ _ _ _ h1).1
  · intro m b x b' h k hk
    simp only [clientHeads, Prod.mk.injEq] at h
    obtain ⟨h1, rfl⟩ := h
    have g := (client_near h09 hst hQ m _ _ _ _ h1).2 k hk
    have hl : (b.take k).length ≤ b.length := by rw [List.length_take]; omega
    have f := (client_fuel (cfg := cfg) hst m ((b.take k).length + 1) (b.length + 1) ((b.take k).length + 1) (b.take k) [] [] (by omega) (by omega) (by omega)).1
    exact ⟨x, (clientParse cfg Q m ((b.take k).length + 1) (b.take k) []).buf, by simp only [clientHeads, ← f, g]⟩
  · intro m b b' h m' x b'' h'
    simp only [clientHeads, Prod.mk.injEq] at h h'
    have := client_blind h09 (Q := Q) m m' _ _ _ h.1
    rw [h'.1] at this
    cases this

/-- C69, heads: when a connection that looks for the head of its next message finds that it has to wait, in any run, no complete head is in its buffer, and the
transport has nothing more to give at the moment. -/
theorem C69_head {α : Type} (env : EncodeEnv) (P : TrailerParser) (H : HeadFn α) (hS : Stable H) (hE : Ending H) (f : Fed α) (hp : f.inlet.partialLen = none)
    (as : List FAct) (i : ReadIn) (hi : (f.run env P H as).disp.parses i = true)
    (ho : ((f.run env P H as).inlet.parse (H.parse (f.run env P H as).disp.conn.method)).1 = .pending) :
    NoHead H ((f.run env P H as).read env P H i).inlet.rd.buf ∧ Waited (f.run env P H as).inlet.rd ((f.run env P H as).read env P H i).inlet.rd := by
  have hw : Watch H (f.run env P H as) := watch_run hS hE env P as (fun h => absurd hp h)
  generalize f.run env P H as = g at *
  have hinit := (step_parses env P g.disp i i rfl hi).2
  have hx : Seen H g.inlet := by
    intro n hn
    rcases hw (by rw [hn]; simp) with h | h
    · rw [hinit] at h; cases h
    · exact h.2 n hn
  have := parse_prompt hS hE g.disp.conn.method (g.inlet.rd.net.length + 1) g.inlet hx (by omega)
  change match (g.inlet.parse (H.parse g.disp.conn.method)).1 with
    | .pending => _ ∧ NoHead H (g.inlet.parse (H.parse g.disp.conn.method)).2.rd.buf ∧ Waited g.inlet.rd (g.inlet.parse (H.parse g.disp.conn.method)).2.rd
    | .msg _ => _
    | .error _ => True at this
  rw [ho] at this
  unfold Fed.read
  rw [if_pos hi]
  exact this.2

/-- C69, bodies: when a connection that reads a body has to wait, in any run, its buffer is empty, and the transport has nothing more to give at the moment. -/
theorem C69_body {α : Type} (env : EncodeEnv) (P : TrailerParser) (H : HeadFn α) (f : Fed α) (as : List FAct) (i : ReadIn) (dec : Decoder)
    (hi : (f.run env P H as).disp.parses i = false) (hd : (f.run env P H as).disp.decodes i = some dec) (ho : (dec.decode P (f.run env P H as).inlet.rd).1 = .pending) :
    ((f.run env P H as).read env P H i).inlet.rd.buf = [] ∧ Waited (f.run env P H as).inlet.rd ((f.run env P H as).read env P H i).inlet.rd := by
  have := decode_pending P dec (f.run env P H as).inlet.rd ho
  unfold Fed.read
  rw [if_neg (by rw [hi]; decide), hd]
  exact this

namespace Input

open Wire

def exTurn : ReadIn := { ready := true, t0 := 0, t1 := 0, parse := .pending, notify := .pending, full := false, gone := false, rd := exNo, bufEmpty := true, io := .pending }

/-- A body of five bytes, of which two are there. -/
def exShort : Fed RequestMsg := exFed [.data 80 ((ascii "POST / HTTP/1.1\r\ncontent-length: 5\r\n\r\nab").drop 1), .pending, .data 99 (ascii "de")]

def exHalf : Fed RequestMsg := exShort.run exEnv parseBlock exServer [.act (.read exTurn), .act (.want 0), .act (.read exTurn)]

end Input

open Wire

/-- The head is there in two pieces; after the first the connection waits, after the second it does not. -/
example : Stable exServer ∧ Ending exServer ∧ exTwice.disp.parses exTurn = true ∧ (exTwice.inlet.parse (exServer.parse exTwice.disp.conn.method)).1 = .pending ∧
    NoHead exServer (exTwice.read exEnv parseBlock exServer exTurn).inlet.rd.buf ∧
    (exTwice.read exEnv parseBlock exServer exTurn).inlet.rd.buf = exBytes.take 50 ∧
    ((exTwice.run exEnv parseBlock exServer [.act (.read exTurn), .act (.read exTurn)]).got.map (fun r => r.head.method)) = [ascii "POST"] :=
  have hp : (exTwice.inlet.parse (exServer.parse exTwice.disp.conn.method)).1 = .pending := by
    have : (match (exTwice.inlet.parse (exServer.parse exTwice.disp.conn.method)).1 with | .pending => true | _ => false) = true := by decide +kernel
    revert this
    cases (exTwice.inlet.parse (exServer.parse exTwice.disp.conn.method)).1 <;> simp
  have hS := C66_server_stable (refTokens 100) (refTokens_stable 100) (fun _ => true) (fun _ => true) false
  have hE := C69_server_ending (refTokens 100) (refTokens_local 100) (fun _ => true) (fun _ => true) false
  have ht : exTwice.disp.parses exTurn = true := by decide +kernel
  have hr : exTwice.run exEnv parseBlock exServer [] = exTwice := by unfold Fed.run; rw [List.foldl_nil]
  ⟨hS, hE, ht, hp, by
    have := C69_head exEnv parseBlock exServer hS hE exTwice (by decide +kernel) [] exTurn
    rw [hr] at this
    exact (this ht hp).1, by decide +kernel, by decide +kernel⟩

example : Ending exUserHeads := C69_client_ending exUserCfg rfl (refReplies 100) (refReplies_stable 100) (refReplies_local 100)

/-- The body: the two bytes are passed on; then there is nothing to pass on. -/
example : exHalf.got.map (fun r => r.data) = [ascii "ab"] ∧ exHalf.disp.parses exTurn = false ∧
    (match exHalf.disp.decodes exTurn with | some d => (match (d.decode parseBlock exHalf.inlet.rd).1 with | .pending => true | _ => false) | none => false) = true ∧
    (exHalf.run exEnv parseBlock exServer [.act (.read exTurn), .act (.read exTurn)]).got.map (fun r => (r.data, r.whole)) = [(ascii "abcde", true)] :=
  ⟨by decide +kernel, by decide +kernel, by decide +kernel, by decide +kernel⟩

end Hyper
