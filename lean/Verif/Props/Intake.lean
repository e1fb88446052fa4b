import Verif.Spec.Intake
import Verif.Proof.Input
import Verif.Props.Input

/-!
# C90: what a connection takes from its peer and holds is bounded

A body whose reader does not take it must stop the connection from reading (`poll_read`, dispatch.rs 225-298), so that a fast peer cannot
fill the memory of a slow user.
-/

namespace Hyper

open Intake Input

namespace Intake

/-! ## Reading -/

/-- What one call of the decoder does to the read buffer. -/
structure Took (r n : Nat) (a b : Rd) : Prop where
  within : Within r a.net → Within r b.net
  buf : Within r a.net → a.buf.length ≤ n → b.buf.length ≤ max n r

theorem Took.refl (r n : Nat) (a : Rd) : Took r n a a := ⟨id, fun _ h => by omega⟩

theorem Took.trans {r n : Nat} {a b c : Rd} (h : Took r n a b) (k : Took r (max n r) b c) : Took r n a c :=
  ⟨fun w => k.within (h.within w), fun w l => by have := k.buf (h.within w) (h.buf w l); omega⟩

theorem within_tail {r : Nat} {s : Seg} {net : List Seg} (h : Within r (s :: net)) : Within r net :=
  fun b bs m => h b bs (List.mem_cons_of_mem _ m)

theorem readIo_took (r : Nat) (a : Rd) :
    (Within r a.net → Within r a.readIo.2.net) ∧ a.readIo.2.buf = a.buf ∧
    (Within r a.net → ∀ bs, a.readIo.1 = .ready (.ok bs) → bs.length ≤ r) := by
  unfold Rd.readIo
  cases hn : a.net with
  | nil =>
    dsimp only
    cases a.fin with
    | silent => exact ⟨fun w => by rw [hn]; exact w, rfl, fun _ bs h => by cases h⟩
    | eof => exact ⟨fun w => by rw [hn]; exact w, rfl, fun _ bs h => by cases h; exact Nat.zero_le _⟩
    | err => exact ⟨fun w => by rw [hn]; exact w, rfl, fun _ bs h => by cases h⟩
  | cons s net =>
    cases s with
    | pending => exact ⟨fun w => within_tail w, rfl, fun _ bs h => by cases h⟩
    | data b bs => exact ⟨fun w => within_tail w, rfl, fun w x h => by cases h; exact w b bs List.mem_cons_self⟩

theorem readMem_took (r n len : Nat) (a : Rd) :
    Took r n a (a.readMem len).2 ∧ (Within r a.net → a.buf.length ≤ n → ∀ bs, (a.readMem len).1 = .ready (.ok bs) → bs.length ≤ max n r) := by
  obtain ⟨i1, i2, i3⟩ := readIo_took r a
  unfold Rd.readMem
  by_cases hb : a.buf = []
  · rw [if_neg (by simp [hb])]
    cases hio : a.readIo with
    | mk p a' =>
      rw [hio] at i1 i2 i3
      cases p with
      | pending => exact ⟨⟨i1, fun _ h => by have e : a'.buf = a.buf := i2; rw [e]; omega⟩, fun _ _ bs h => by cases h⟩
      | ready x =>
        cases x with
        | error e => exact ⟨⟨i1, fun _ h => by have e : a'.buf = a.buf := i2; rw [e]; omega⟩, fun _ _ bs h => by cases h⟩
        | ok bs =>
          refine ⟨⟨i1, fun w _ => ?_⟩, fun w _ x h => ?_⟩
          · have := i3 w bs rfl
            simp only [List.length_drop]; omega
          · have := i3 w bs rfl
            simp only [Poll.ready.injEq, Except.ok.injEq] at h
            rw [← h, List.length_take]; omega
  · rw [if_pos hb]
    refine ⟨⟨id, fun _ h => by simp only [List.length_drop]; omega⟩, fun _ h x e => ?_⟩
    simp only [Poll.ready.injEq, Except.ok.injEq] at e
    rw [← e, List.length_take]; omega

theorem step_took (r n : Nat) (c : Chunked) (a : Rd) :
    Took r n a (c.step a).rd ∧ (Within r a.net → a.buf.length ≤ n → ∀ bs, (c.step a).chunkBuf = some bs → bs.length ≤ max n r) := by
  have hbody : Took r n a (c.readBody a).rd ∧
      (Within r a.net → a.buf.length ≤ n → ∀ bs, (c.readBody a).chunkBuf = some bs → bs.length ≤ max n r) := by
    obtain ⟨m1, m2⟩ := readMem_took r n c.len a
    unfold Chunked.readBody
    cases hm : a.readMem c.len with
    | mk p a' =>
      rw [hm] at m1 m2
      cases p with
      | pending => exact ⟨m1, fun _ _ bs h => by cases h⟩
      | ready x =>
        cases x with
        | error e => exact ⟨m1, fun _ _ bs h => by cases h⟩
        | ok s =>
          dsimp only
          split
          · exact ⟨m1, fun _ _ bs h => by cases h⟩
          · exact ⟨m1, fun w l bs h => by cases h; exact m2 w l s rfl⟩
  have hbyte : Took r n a (c.readByte a).rd ∧
      (Within r a.net → a.buf.length ≤ n → ∀ bs, (c.readByte a).chunkBuf = some bs → bs.length ≤ max n r) := by
    obtain ⟨m1, _⟩ := readMem_took r n 1 a
    unfold Chunked.readByte
    cases hm : a.readMem 1 with
    | mk p a' =>
      rw [hm] at m1
      cases p with
      | pending => exact ⟨m1, fun _ _ bs h => by cases h⟩
      | ready x =>
        cases x with
        | error e => exact ⟨m1, fun _ _ bs h => by cases h⟩
        | ok s => cases s <;> exact ⟨m1, fun _ _ bs h => by cases h⟩
  unfold Chunked.step
  split
  · exact ⟨.refl _ _ _, fun _ _ bs h => by cases h⟩
  · exact hbody
  · exact hbyte

theorem loop_took (P : TrailerParser) (r : Nat) : ∀ (fuel n : Nat) (c : Chunked) (a : Rd),
    Took r n a (c.decodeLoop P fuel a).2.2 ∧
    (Within r a.net → a.buf.length ≤ n → ∀ bs, (c.decodeLoop P fuel a).1 = .ready (.ok (.data bs)) → bs.length ≤ max n r) := by
  intro fuel
  induction fuel with
  | zero => intro n c a; exact ⟨.refl _ _ _, fun _ _ bs h => by cases h⟩
  | succ fuel ih =>
    intro n c a
    obtain ⟨s1, s2⟩ := step_took r n c a
    unfold Chunked.decodeLoop
    cases hs : c.step a with
    | mk res ch cb rd =>
      rw [hs] at s1 s2
      cases res with
      | pending => exact ⟨s1, fun _ _ bs h => by cases h⟩
      | ready x =>
        cases x with
        | error e => exact ⟨s1, fun _ _ bs h => by cases h⟩
        | ok s =>
          dsimp only
          split
          · split
            · split
              · exact ⟨s1, fun _ _ bs h => by cases h⟩
              · exact ⟨s1, fun _ _ bs h => by cases h⟩
            · exact ⟨s1, fun _ _ bs h => by cases h; exact Nat.zero_le _⟩
          · cases cb with
            | some bs => exact ⟨s1, fun w l x h => by cases h; exact s2 w l bs rfl⟩
            | none =>
              obtain ⟨i1, i2⟩ := ih (max n r) { ch with state := s } rd
              refine ⟨s1.trans i1, fun w l bs h => ?_⟩
              have := i2 (s1.within w) (s1.buf w l) bs h
              omega

theorem decode_took (P : TrailerParser) (r n : Nat) (d : Decoder) (a : Rd) :
    Took r n a (d.decode P a).2.2 ∧
    (Within r a.net → a.buf.length ≤ n → ∀ bs, (d.decode P a).1 = .ready (.ok (.data bs)) → bs.length ≤ max n r) := by
  cases d with
  | length m =>
    obtain ⟨m1, m2⟩ := readMem_took r n m a
    simp only [Decoder.decode]
    split
    · exact ⟨.refl _ _ _, fun _ _ bs h => by cases h; exact Nat.zero_le _⟩
    · cases hm : a.readMem m with
      | mk p a' =>
        rw [hm] at m1 m2
        cases p with
        | pending => exact ⟨m1, fun _ _ bs h => by cases h⟩
        | ready x =>
          cases x with
          | error e => exact ⟨m1, fun _ _ bs h => by cases h⟩
          | ok s =>
            dsimp only
            split
            · exact ⟨m1, fun w l bs h => by cases h; exact m2 w l s rfl⟩
            · split
              · exact ⟨m1, fun _ _ bs h => by cases h⟩
              · exact ⟨m1, fun w l bs h => by cases h; exact m2 w l s rfl⟩
  | eof b =>
    obtain ⟨m1, m2⟩ := readMem_took r n 8192 a
    simp only [Decoder.decode]
    split
    · exact ⟨.refl _ _ _, fun _ _ bs h => by cases h; exact Nat.zero_le _⟩
    · cases hm : a.readMem 8192 with
      | mk p a' =>
        rw [hm] at m1 m2
        cases p with
        | pending => exact ⟨m1, fun _ _ bs h => by cases h⟩
        | ready x =>
          cases x with
          | error e => exact ⟨m1, fun _ _ bs h => by cases h⟩
          | ok s => exact ⟨m1, fun w l bs h => by cases h; exact m2 w l s rfl⟩
  | chunked c =>
    have h := loop_took P r (a.size + 1) n c a
    simpa [Decoder.decode] using h

/-! ## Parsing -/

variable {α : Type}

theorem attempt_left {p : Bytes → Except ParseErr (Option α) × Bytes} (hp : ∀ b, (p b).2.length ≤ b.length) (x : Inlet) :
    (x.attempt p).2.length ≤ x.rd.buf.length := by
  unfold Inlet.attempt
  repeat' split
  · simp
  · exact hp _
  · exact hp _
  · exact Nat.le_refl _

theorem pull_took {r : Nat} {x : Inlet} (w : Within r x.rd.net) : Within r x.pull.rd.net ∧ x.pull.rd.buf.length ≤ x.rd.buf.length + r ∧ x.pull.max = x.max := by
  obtain ⟨i1, i2, i3⟩ := readIo_took r x.rd
  unfold Inlet.pull
  cases hio : x.rd.readIo with
  | mk p a' =>
    rw [hio] at i1 i2 i3
    cases p with
    | pending => exact ⟨i1 w, by simp only; omega, rfl⟩
    | ready y =>
      cases y with
      | error e => exact ⟨i1 w, by simp only; omega, rfl⟩
      | ok bs => exact ⟨i1 w, by have := i3 w bs rfl; simp only [List.length_append]; omega, rfl⟩

theorem peek_took {r : Nat} {x : Inlet} (w : Within r x.rd.net) : Within r x.peek.rd.net ∧ x.peek.rd.buf.length ≤ max x.rd.buf.length r ∧ x.peek.max = x.max := by
  unfold Inlet.peek
  split
  · rename_i hb
    obtain ⟨a, b, c⟩ := pull_took w
    rw [hb] at b ⊢
    simp only [List.length_nil] at b ⊢
    exact ⟨a, by omega, c⟩
  · exact ⟨w, by omega, rfl⟩

/-- What holds of an inlet at all times. -/
structure Small (r : Nat) (x : Inlet) : Prop where
  within : Within r x.rd.net
  buf : x.rd.buf.length ≤ x.max + r

theorem parseLoop_small {r : Nat} {p : Bytes → Except ParseErr (Option α) × Bytes} (hp : ∀ b, (p b).2.length ≤ b.length) : ∀ (fuel : Nat) (x : Inlet),
    Small r x → Small r (x.parseLoop p fuel).2 ∧ (x.parseLoop p fuel).2.max = x.max := by
  intro fuel
  induction fuel with
  | zero => intro x h; exact ⟨h, rfl⟩
  | succ fuel ih =>
    intro x h
    have hl := attempt_left hp x
    have hb := h.buf
    unfold Inlet.parseLoop
    cases ha : x.attempt p with
    | mk o b =>
      rw [ha] at hl
      have hl : b.length ≤ x.rd.buf.length := hl
      have hleave : Small r (x.leave b) := ⟨h.within, by simp only [Inlet.leave]; omega⟩
      have hpull : b.length < x.max → Small r (x.leave b).setPartial.pull ∧ (x.leave b).setPartial.pull.max = x.max := by
        intro hlt
        obtain ⟨p1, p2, p3⟩ := pull_took (r := r) (x := (x.leave b).setPartial) h.within
        refine ⟨⟨p1, ?_⟩, p3⟩
        rw [p3]
        have e1 : (x.leave b).setPartial.rd.buf = b := rfl
        have e2 : (x.leave b).setPartial.max = x.max := rfl
        rw [e1] at p2
        rw [e2]
        omega
      cases o with
      | error e => exact ⟨hleave, rfl⟩
      | ok o =>
        cases o with
        | some m => exact ⟨⟨h.within, hleave.buf⟩, rfl⟩
        | none =>
          dsimp only
          split
          · exact ⟨hleave, rfl⟩
          · rename_i hlt
            have hx := hpull (by omega)
            split
            · exact hx
            · exact hx
            · exact hx
            · obtain ⟨a, b⟩ := ih _ hx.1
              exact ⟨a, b.trans hx.2⟩

theorem small_step (env : EncodeEnv) (P : TrailerParser) (H : HeadFn α) (hH : Shrinks H) {r : Nat} {f : Fed α} (h : Small r f.inlet) (a : FAct) : Small r (f.step env P H a).inlet ∧ (f.step env P H a).inlet.max = f.inlet.max := by
  have hp := parseLoop_small (r := r) (p := H.parse f.disp.conn.method) (fun b => hH _ b) (f.inlet.rd.net.length + 1) f.inlet h
  cases a with
  | pull =>
    obtain ⟨p1, p2, p3⟩ := peek_took h.within
    refine ⟨⟨p1, ?_⟩, p3⟩
    show f.inlet.peek.rd.buf.length ≤ f.inlet.peek.max + r
    have := h.buf
    omega
  | act a =>
    cases a with
    | read i =>
      show Small r (f.read env P H i).inlet ∧ (f.read env P H i).inlet.max = f.inlet.max
      unfold Fed.read
      split
      · exact hp
      · split
        · rename_i dec _
          have ht := (decode_took P r (f.inlet.max + r) dec f.inlet.rd).1
          refine ⟨⟨ht.within h.within, ?_⟩, rfl⟩
          have := ht.buf h.within h.buf
          show (dec.decode P f.inlet.rd).2.2.buf.length ≤ f.inlet.max + r
          omega
        · exact ⟨h, rfl⟩
    | _ => exact ⟨h, rfl⟩

theorem small_run (env : EncodeEnv) (P : TrailerParser) (H : HeadFn α) (hH : Shrinks H) {r : Nat} : ∀ (as : List FAct) {f : Fed α}, Small r f.inlet →
    Small r (f.run env P H as).inlet ∧ (f.run env P H as).inlet.max = f.inlet.max := by
  intro as
  induction as with
  | nil => intro f h; exact ⟨h, rfl⟩
  | cons a as ih =>
    intro f h
    obtain ⟨x, y⟩ := small_step env P H hH h a
    obtain ⟨x', y'⟩ := ih x
    exact ⟨x', y'.trans y⟩

/-! ## Not reading -/

/-- Body `k` is being read, or nothing more will be. -/
structure Busy (k : Nat) (d : Disp) : Prop where
  rd : rk d.conn.reading = .closed ∨ ∃ dec, rk d.conn.reading = .dec dec
  tx : d.bodyTx = none ∨ d.bodyTx = some k

theorem Busy.quiet {k : Nat} {d d' : Disp} (h : Busy k d) (q : QD d d') : Busy k d' := by
  refine ⟨?_, ?_⟩
  · rcases q.conn.rd with e | e | ⟨e, _⟩
    · rw [e]; exact h.rd
    · exact .inl e
    · rcases h.rd with x | ⟨dec, x⟩ <;> rw [x] at e <;> cases e
  · rcases q.tx with e | e
    · rw [e]; exact h.tx
    · exact .inl e

theorem Busy.parses {k : Nat} {d : Disp} (h : Busy k d) (i : ReadIn) : d.parses i = false := by
  have : d.conn.canReadHead = false := by
    unfold Conn.canReadHead
    rcases h.rd with x | ⟨dec, x⟩ <;> (revert x; cases d.conn.reading <;> simp [rk])
  simp [Disp.parses, this]

theorem Busy.decodes {k : Nat} {d : Disp} (h : Busy k d) (i : ReadIn) (hi : idle d k i = true) : d.decodes i = none := by
  unfold Disp.decodes
  split
  · rfl
  · rcases h.tx with e | e
    · rw [e]
    · rw [e]
      dsimp only
      unfold idle at hi
      split at hi
      · rename_i w; rw [w]
      · rename_i w; rw [w]; dsimp only; rw [if_pos hi]
      · cases hi

theorem Busy.read {k : Nat} (env : EncodeEnv) (P : TrailerParser) (H : HeadFn α) {f : Fed α} (h : Busy k f.disp) (i : ReadIn) (hi : idle f.disp k i = true) :
    Busy k (f.step env P H (.act (.read i))).disp ∧ (f.step env P H (.act (.read i))).inlet = f.inlet ∧ (f.step env P H (.act (.read i))).got = f.got := by
  have h1 := h.parses i
  have h2 := h.decodes i hi
  have e : f.step env P H (.act (.read i)) = { f with disp := f.disp.step env P (.read (f.readIn H i)) } := by
    show f.read env P H i = _
    unfold Fed.read
    rw [if_neg (by rw [h1]; simp), h2]
  rw [e]
  exact ⟨h.quiet (qd_idle env P f.disp i (f.readIn H i) rfl rfl h1 h2), rfl, rfl⟩

theorem Busy.other {k : Nat} (env : EncodeEnv) (P : TrailerParser) (H : HeadFn α) {f : Fed α} (h : Busy k f.disp) (a : Act) (ha : ∀ i, a ≠ .read i) :
    Busy k (f.step env P H (.act a)).disp ∧ (f.step env P H (.act a)).inlet = f.inlet ∧ (f.step env P H (.act a)).got = f.got := by
  have e : f.step env P H (.act a) = { f with disp := f.disp.step env P a } := by
    cases a with
    | read i => exact absurd rfl (ha i)
    | _ => rfl
  rw [e]
  exact ⟨h.quiet (qd_step env P f.disp a ha), rfl, rfl⟩

/-- Looking at the transport with an empty buffer. -/
theorem pull_coming {r : Nat} {x : Inlet} (w : Within r x.rd.net) (hb : x.rd.buf = []) :
    (segBytes x.rd.net).length = (segBytes x.pull.rd.net).length + x.pull.rd.buf.length ∧ x.pull.rd.buf.length ≤ r := by
  obtain ⟨_, h2, _⟩ := pull_took w
  rw [hb] at h2
  refine ⟨?_, by simpa using h2⟩
  unfold Inlet.pull Rd.readIo
  cases hn : x.rd.net with
  | nil => cases x.rd.fin <;> simp [hb, hn, segBytes]
  | cons s net => cases s <;> simp [hb, segBytes] <;> omega

theorem busy_run {k r : Nat} (env : EncodeEnv) (P : TrailerParser) (H : HeadFn α) : ∀ (as : List FAct) {f : Fed α}, Busy k f.disp → Within r f.inlet.rd.net →
    Stalls env P H k f as →
    (f.run env P H as).got = f.got ∧ (f.inlet.rd.buf ≠ [] → (f.run env P H as).inlet = f.inlet) ∧ coming f ≤ coming (f.run env P H as) + r := by
  intro as
  induction as with
  | nil => intro f _ _ _; exact ⟨rfl, fun _ => rfl, by simp [Fed.run]⟩
  | cons a as ih =>
    intro f h w hs
    have hact : ∀ b, a = .act b → Busy k (f.step env P H a).disp ∧ (f.step env P H a).inlet = f.inlet ∧ (f.step env P H a).got = f.got ∧
        Stalls env P H k (f.step env P H a) as := by
      intro b e
      subst e
      cases b with
      | read i => obtain ⟨x, y, z⟩ := h.read env P H i hs.1; exact ⟨x, y, z, hs.2⟩
      | _ => exact (fun g => ⟨g.1, g.2.1, g.2.2, hs⟩) (h.other env P H _ (fun i e => Act.noConfusion e))
    cases a with
    | act b =>
      obtain ⟨b1, b2, b3, b4⟩ := hact b rfl
      obtain ⟨i1, i2, i3⟩ := ih b1 (by rw [b2]; exact w) b4
      refine ⟨i1.trans b3, fun hne => (i2 (by rw [b2]; exact hne)).trans b2, ?_⟩
      unfold coming at *
      rw [b2] at i3
      exact i3
    | pull =>
      have hw : Within r f.inlet.peek.rd.net := (peek_took w).1
      obtain ⟨i1, i2, i3⟩ := ih (f := f.step env P H .pull) h hw hs
      have e : (f.step env P H .pull).inlet = f.inlet.peek := rfl
      by_cases hb : f.inlet.rd.buf = []
      · have hpk : f.inlet.peek = f.inlet.pull := by unfold Inlet.peek; rw [if_pos hb]
        obtain ⟨c1, c2⟩ := pull_coming w hb
        rw [e, hpk] at i2
        refine ⟨i1, fun hne => absurd hb hne, ?_⟩
        by_cases hn : f.inlet.pull.rd.buf = []
        · rw [hn] at c1
          unfold coming at *
          rw [e, hpk] at i3
          simp only [List.length_nil] at c1
          rw [c1]
          exact i3
        · unfold coming
          show _ ≤ (segBytes ((f.step env P H .pull).run env P H as).inlet.rd.net).length + r
          rw [i2 hn]
          omega
      · have hpk : f.inlet.peek = f.inlet := by unfold Inlet.peek; rw [if_neg hb]
        rw [e, hpk] at i2
        refine ⟨i1, fun hne => i2 hne, ?_⟩
        unfold coming at *
        rw [e, hpk] at i3
        exact i3

theorem clientParse_left (cfg : ClientCfg) (Q : Bytes → RespParse) (m : Option Bytes) : ∀ (fuel : Nat) (buf : Bytes) (inf : List RespHead),
    (clientParse cfg Q m fuel buf inf).buf.length ≤ buf.length := by
  intro fuel
  induction fuel with
  | zero => intro buf inf; exact Nat.le_refl _
  | succ fuel ih =>
    intro buf inf
    have hd : ∀ len, (buf.drop len).length ≤ buf.length := fun len => by rw [List.length_drop]; omega
    unfold clientParse
    repeat' split
    all_goals first
      | exact Nat.le_refl _
      | exact hd _
      | exact Nat.zero_le _
      | exact Nat.le_trans (ih _ _) (hd _)

end Intake

/-- C90: the parsers of requests and of responses leave no more than they were given. -/
theorem C90_parsers_shrink (Q : Bytes → Except ParseErr (Option (RawRequest × Nat))) (mo uo : Bytes → Bool) (pc : Bool) (cfg : ClientCfg) (R : Bytes → RespParse) :
    Shrinks (serverHeads Q mo uo pc) ∧ Shrinks (clientHeads cfg R) := by
  refine ⟨fun m b => ?_, fun m b => clientParse_left cfg R m _ _ _⟩
  simp only [serverHeads]
  repeat' split
  · exact Nat.le_refl _
  · exact Nat.le_refl _
  · rw [List.length_drop]; omega
  · rw [List.length_drop]; omega

/-- C90, what is held: if no read of the transport gives more than `r` bytes, the read buffer of a connection never holds more than its maximum and
`r`, whatever is sent, read or not read, parsed or decoded. -/
theorem C90_held {α : Type} (env : EncodeEnv) (P : TrailerParser) (H : HeadFn α) (hH : Shrinks H) (f : Fed α) (hb : f.inlet.rd.buf = []) (r : Nat)
    (hr : Within r f.inlet.rd.net) (as : List FAct) :
    (f.run env P H as).inlet.rd.buf.length ≤ f.inlet.max + r := by
  obtain ⟨a, b⟩ := small_run env P H hH as (f := f) ⟨hr, by rw [hb]; exact Nat.zero_le _⟩
  rw [← b]; exact a.buf

/-- C90, what is handed over at once: a piece of a body is no larger. -/
theorem C90_piece {α : Type} (env : EncodeEnv) (P : TrailerParser) (H : HeadFn α) (hH : Shrinks H) (f : Fed α) (hb : f.inlet.rd.buf = []) (r : Nat)
    (hr : Within r f.inlet.rd.net) (as : List FAct) (dec : Decoder) (bs : Bytes)
    (hd : (dec.decode P (f.run env P H as).inlet.rd).1 = .ready (.ok (.data bs))) : bs.length ≤ f.inlet.max + r := by
  obtain ⟨a, b⟩ := small_run env P H hH as (f := f) ⟨hr, by rw [hb]; exact Nat.zero_le _⟩
  have := (decode_took P r (f.inlet.max + r) dec (f.run env P H as).inlet.rd).2 a.within (by rw [← b]; exact a.buf) bs hd
  omega

/-- C90, back-pressure: while the reader of the body being received is there but does not take it (it has not asked, or has not taken what was sent),
the connection, however often it is polled and whatever else happens to it, parses nothing, takes nothing at all off the transport if bytes are
left in the read buffer, and at most one read's worth if it is empty. -/
theorem C90_backpressure {α : Type} (env : EncodeEnv) (P : TrailerParser) (H : HeadFn α) (f : Fed α) (k : Nat) (dec : Decoder)
    (htx : f.disp.bodyTx = some k) (hdec : f.disp.decoder = some dec) (r : Nat) (hr : Within r f.inlet.rd.net) (as : List FAct)
    (hs : Stalls env P H k f as) :
    (f.run env P H as).got = f.got ∧ (f.inlet.rd.buf ≠ [] → (f.run env P H as).inlet = f.inlet) ∧ coming f ≤ coming (f.run env P H as) + r :=
  busy_run env P H as ⟨.inr ⟨dec, (decoder_rk _ _).1 hdec⟩, .inr htx⟩ hr hs

/-! ## Examples -/

namespace Intake

/-- The head of a request with a body of three bytes and its first byte have been read; the others are to come. -/
def exSlow : Fed RequestMsg := exCut.run exEnv exP exHeads [.act (exRead .pending exNo)]

/-- The same with the head alone. -/
def exEmpty : Fed RequestMsg := (exFed [.data 2 [], .pending, .data 1 [2], .data 3 []]).run exEnv exP exHeads [.act (exRead .pending exNo)]

/-- The user does not take what was sent. -/
def exFull : FAct :=
  .act (.read { ready := true, t0 := 0, t1 := 0, parse := .pending, notify := .pending, full := true, gone := false, rd := exNo, bufEmpty := true, io := .pending })

def exPolls : List FAct := [exFull, .act (exWrite (exResp [] none) .pending), .act (.flush exFlushIn .pending), exFull]

end Intake

example : exSlow.disp.bodyTx = some 0 ∧ exSlow.disp.decoder.isSome = true ∧ exSlow.inlet.rd.buf = [1] ∧ coming exSlow = 15 ∧
    coming (exSlow.run exEnv exP exHeads exPolls) = 15 ∧ (exSlow.run exEnv exP exHeads exPolls).inlet.rd.buf = [1] ∧
    coming (exSlow.run exEnv exP exHeads [.act (exRead .pending exNo), .act (exRead .pending exNo), .act (exRead .pending exNo)]) = 12 := by decide +kernel

/-- Nothing is parsed or decoded, and it may look at the transport until something is there. -/
example : Stalls exEnv exP exHeads 0 exSlow exPolls ∧
    Stalls exEnv exP exHeads 0 exEmpty (.pull :: .pull :: .pull :: exPolls) ∧
    coming exEmpty = 3 ∧ coming (exEmpty.run exEnv exP exHeads (.pull :: .pull :: .pull :: exPolls)) = 1 := by
  simp only [Stalls, exPolls, exFull, exWrite, and_true]
  decide +kernel

example : Within 2 (exFed [.data 2 [], .pending, .data 1 [2], .data 3 []]).inlet.rd.net := by
  intro b bs h
  simp [exFed] at h
  rcases h with ⟨_, rfl⟩ | ⟨_, rfl⟩ | ⟨_, rfl⟩ <;> simp

end Hyper
