import Verif.Spec.Input
import Verif.Props.Decode

/-! # Facts about what a connection makes of the bytes it receives -/

namespace Hyper.Input

open Hyper.Spec

/-! ## Reading a body in pieces -/

/-- The decoders that occur. -/
def DOk : Decoder → Prop
  | .chunked c => c.state = .body → 0 < c.len
  | _ => True

/-- What reading on gives. -/
def outc (P : TrailerParser) (dec : Decoder) (r : Rd) (acc : Bytes) : Outcome := (dec.poll P (r.size + 1) r acc).view

theorem poll_indep (P : TrailerParser) (d : Decoder) (hd : DOk d)
    (r₁ r₂ : Rd) (hstream : r₁.stream = r₂.stream) (hend : r₁.fin = r₂.fin)
    (n₁ n₂ : Nat) (h₁ : r₁.size < n₁) (h₂ : r₂.size < n₂) (acc : Bytes) :
    (d.poll P n₁ r₁ acc).view = (d.poll P n₂ r₂ acc).view := by
  cases d with
  | length n => exact C02_segmentation_independent P _ (.length n) r₁ r₂ hstream hend n₁ n₂ h₁ h₂ acc
  | eof seen => exact C02_segmentation_independent P _ (.eof seen) r₁ r₂ hstream hend n₁ n₂ h₁ h₂ acc
  | chunked c =>
    by_cases hf : c.state = .finished
    · obtain ⟨m₁, rfl⟩ : ∃ m, n₁ = m + 1 := ⟨n₁ - 1, by omega⟩
      obtain ⟨m₂, rfl⟩ : ∃ m, n₂ = m + 1 := ⟨n₂ - 1, by omega⟩
      rw [readAll_finished P c hf, readAll_finished P c hf, hstream]
    · rw [Chunked.poll_run P n₁ c r₁ acc ⟨hf, hd⟩ h₁,
        Chunked.poll_run P n₂ c r₂ acc ⟨hf, hd⟩ h₂, hstream, hend]

theorem outc_congr (P : TrailerParser) {d : Decoder} (hd : DOk d) {r₁ r₂ : Rd} (hs : r₁.stream = r₂.stream)
    (hf : r₁.fin = r₂.fin) (acc : Bytes) : outc P d r₁ acc = outc P d r₂ acc :=
  poll_indep P d hd r₁ r₂ hs hf _ _ (by omega) (by omega) acc

theorem readIo_fin (r : Rd) : r.readIo.2.fin = r.fin := by
  unfold Rd.readIo
  rcases r.net with _ | ⟨s, net⟩
  · cases h : r.fin <;> simp [h]
  · cases s <;> simp

theorem readMem_fin (r : Rd) (n : Nat) : (r.readMem n).2.fin = r.fin := by
  have h := readIo_fin r
  unfold Rd.readMem
  split
  · rfl
  · split <;> rename_i e <;> rw [e] at h <;> exact h

theorem step_fin (c : Chunked) (r : Rd) : (c.step r).rd.fin = r.fin := by
  have h1 := readMem_fin r c.len
  have h2 := readMem_fin r 1
  have hb : (c.readBody r).rd.fin = r.fin := by
    unfold Chunked.readBody
    split <;> rename_i e <;> rw [e] at h1
    · exact h1
    · exact h1
    · split <;> exact h1
  have hy : (c.readByte r).rd.fin = r.fin := by
    unfold Chunked.readByte
    split <;> rename_i e <;> rw [e] at h2 <;> exact h2
  unfold Chunked.step
  split
  · rfl
  · exact hb
  · exact hy

theorem loop_facts (P : TrailerParser) (fuel : Nat) : ∀ (c : Chunked) (r : Rd), (c.state = .body → 0 < c.len) →
    (c.decodeLoop P fuel r).2.2.fin = r.fin ∧
    ((∀ e, (c.decodeLoop P fuel r).1 ≠ .ready (.error e)) → DOk (.chunked (c.decodeLoop P fuel r).2.1)) := by
  induction fuel with
  | zero => intro c r h; exact ⟨rfl, fun _ => h⟩
  | succ fuel ih =>
    intro c r h
    have hf := step_fin c r
    have hl := Chunked.step_live (r := r) h
    unfold Chunked.decodeLoop
    split
    · rename_i c' b r' e
      rw [e] at hf
      refine ⟨hf, fun _ => ?_⟩
      rw [hl.1 _ _ _ e]; exact h
    · rename_i e' c' b r' e
      rw [e] at hf
      exact ⟨hf, fun hh => absurd rfl (hh e')⟩
    · rename_i s c' b r' e
      rw [e] at hf
      have hl' := hl.2 _ _ _ _ e
      have hlive : ({ c' with state := s } : Chunked).state = .body → 0 < ({ c' with state := s } : Chunked).len := hl'
      by_cases hs : s = .finished
      · subst hs
        simp only [if_true]
        split
        · split
          · exact ⟨hf, fun _ => by simp [DOk]⟩
          · exact ⟨hf, fun _ => by simp [DOk]⟩
        · exact ⟨hf, fun _ => by simp [DOk]⟩
      · simp only [hs, if_false]
        split
        · exact ⟨hf, fun _ => hlive⟩
        · have := ih { c' with state := s } r' hlive
          exact ⟨this.1.trans hf, this.2⟩

theorem decode_facts (P : TrailerParser) (d : Decoder) (r : Rd) (hd : DOk d) :
    (d.decode P r).2.2.fin = r.fin ∧ ((∀ e, (d.decode P r).1 ≠ .ready (.error e)) → DOk (d.decode P r).2.1) := by
  cases d with
  | length n =>
    have h := readMem_fin r n
    simp only [Decoder.decode]
    split
    · exact ⟨rfl, fun _ => trivial⟩
    · split <;> rename_i e <;> rw [e] at h
      · exact ⟨h, fun _ => trivial⟩
      · exact ⟨h, fun _ => trivial⟩
      · split
        · exact ⟨h, fun _ => trivial⟩
        · split <;> exact ⟨h, fun _ => trivial⟩
  | eof b =>
    have h := readMem_fin r 8192
    simp only [Decoder.decode]
    split
    · exact ⟨rfl, fun _ => trivial⟩
    · split <;> rename_i e <;> rw [e] at h <;> exact ⟨h, fun _ => trivial⟩
  | chunked c =>
    have h := loop_facts P (r.size + 1) c r hd
    simpa [Decoder.decode] using h

theorem outc_big (P : TrailerParser) {d : Decoder} (hd : DOk d) (r : Rd) (acc : Bytes) (n : Nat) (h : r.size < n) :
    outc P d r acc = (d.poll P n r acc).view :=
  poll_indep P d hd r r rfl rfl _ _ (by omega) h acc

/-- What one call of the decoder says about the outcome. -/
theorem outc_step (P : TrailerParser) (d : Decoder) (hd : DOk d) (r : Rd) (acc : Bytes) :
    outc P d r acc =
      match (d.decode P r).1 with
      | .pending => outc P (d.decode P r).2.1 (d.decode P r).2.2 acc
      | .ready (.error e) => .failed acc e
      | .ready (.ok (.trailers fs)) => .complete acc (some fs) (d.decode P r).2.2.stream
      | .ready (.ok (.data bs)) =>
        if (d.decode P r).2.1.isEof then .complete (acc ++ bs) none (d.decode P r).2.2.stream
        else if bs = [] then .unexpectedEnd acc
        else outc P (d.decode P r).2.1 (d.decode P r).2.2 (acc ++ bs) := by
  have hN : ∃ N, r.size < N ∧ (d.decode P r).2.2.size < N := ⟨r.size + (d.decode P r).2.2.size + 1, by omega, by omega⟩
  obtain ⟨N, h1, h2⟩ := hN
  have hk := (decode_facts P d r hd).2
  rw [outc_big P hd r acc (N + 1) (by omega)]
  unfold Decoder.poll
  rcases hdec : d.decode P r with ⟨o, d', r'⟩
  rw [hdec] at h2 hk
  dsimp only at h2 hk ⊢
  cases o with
  | pending =>
    have hk' := hk (by simp)
    dsimp only
    rw [outc_big P hk' r' acc N h2]
  | ready x =>
    cases x with
    | error e => rfl
    | ok f =>
      have hk' := hk (by simp)
      cases f with
      | trailers fs => rfl
      | data bs =>
        dsimp only
        by_cases he : d'.isEof
        · simp [he, BodyOut.view]
        · by_cases hb : bs = []
          · simp [he, hb, BodyOut.view]
          · simp only [he, hb, if_false, Bool.false_eq_true]
            rw [outc_big P hk' r' (acc ++ bs) N h2]

theorem poll_prefix (P : TrailerParser) (n : Nat) : ∀ (d : Decoder) (r : Rd) (acc : Bytes), acc <+: (d.poll P n r acc).view.data := by
  induction n with
  | zero => intro d r acc; exact List.prefix_refl _
  | succ n ih =>
    intro d r acc
    unfold Decoder.poll
    split
    · exact ih _ _ _
    · exact List.prefix_refl _
    · exact List.prefix_refl _
    · split
      · exact List.prefix_append _ _
      · split
        · exact List.prefix_refl _
        · exact List.IsPrefix.trans (List.prefix_append _ _) (ih _ _ _)

theorem outc_prefix (P : TrailerParser) (d : Decoder) (r : Rd) (acc : Bytes) : acc <+: (outc P d r acc).data := poll_prefix P _ d r acc

theorem ofLength_ok (len : DecodedLength) (a b : Option Nat) : DOk (Decoder.ofLength len a b) := by
  unfold Decoder.ofLength
  split
  · simp [DOk, Chunked.new]
  · split <;> trivial

/-- A body read to its end is one, and what is left follows it. -/
theorem body_of_complete (P : TrailerParser) (mh : Option Nat) (len : DecodedLength) (r : Rd) (data : Bytes) (tr : Option Fields)
    (rest : Bytes) (h : outc P (Decoder.ofLength len mh none) r [] = .complete data tr rest) :
    Body P mh r.fin len r.stream data tr rest := by
  unfold Decoder.ofLength at h
  split at h
  · rename_i hl
    obtain ⟨w, cs, e, t, n, h1, h2, h3, h4, h5⟩ := (C03_chunked_grammar_exact P mh none r data tr rest).1 h
    rw [h1, h4]
    exact .chunked w rest cs e n t tr hl h2 h3 h5
  · rename_i hl
    split at h
    · rename_i hc
      have h8 := C08_close_delimited_body P r
      have he : r.fin = .eof := h8.2.1.1 ⟨data, tr, rest, h⟩
      have h' := h8.2.2 he
      rw [show ((Decoder.eof false).readAll P r).view = outc P (.eof false) r [] from rfl, h] at h'
      injection h' with e1 e2 e3
      subst e1 e2 e3
      exact .close _ hc he
    · rename_i hc
      have h7 := C07_content_length_body P len.val r
      have e : ((Decoder.length len.val).readAll P r).view = outc P (.length len.val) r [] := rfl
      by_cases hn : len.val ≤ r.stream.length
      · have h' := h7.1 hn
        rw [e, h] at h'
        injection h' with e1 e2 e3
        subst e1 e2 e3
        have hb := Body.length (P := P) (mh := mh) (fin := r.fin) (len := len) (r.stream.take len.val) (r.stream.drop len.val) hl hc (by simp [hn])
        rwa [List.take_append_drop] at hb
      · have h' := h7.2 (by omega)
        rw [e, h] at h'
        cases hf : r.fin with
        | silent => have := h'.2.1 hf; simp at this
        | eof => obtain ⟨er, this⟩ := h'.2.2 (by simp [hf]); simp at this
        | err => obtain ⟨er, this⟩ := h'.2.2 (by simp [hf]); simp at this

/-! ## The inlet -/

theorem pull_facts (x : Inlet) : x.pull.rd.stream = x.rd.stream ∧ x.pull.rd.fin = x.rd.fin ∧ x.pull.max = x.max := by
  obtain ⟨⟨buf, net, fin⟩, pl, mx⟩ := x
  unfold Inlet.pull Rd.readIo
  rcases net with _ | ⟨s, net⟩
  · cases fin <;> simp [Rd.stream, segBytes]
  · cases s <;> simp [Rd.stream, segBytes]

theorem peek_facts (x : Inlet) : x.peek.rd.stream = x.rd.stream ∧ x.peek.rd.fin = x.rd.fin ∧ x.peek.max = x.max := by
  unfold Inlet.peek
  split
  · exact pull_facts x
  · exact ⟨rfl, rfl, rfl⟩

/-- From `s` the parser gets to `t` without finding a message. -/
def Near {α : Type} (H : HeadFn α) (s t : Bytes) : Prop := t <:+ s ∧ ∀ more, t ++ more ≠ [] → ∀ m, H.parse m (s ++ more) = H.parse m (t ++ more)

theorem Near.refl {α : Type} (H : HeadFn α) (s : Bytes) : Near H s s := ⟨List.suffix_refl _, fun _ _ _ => rfl⟩

theorem Near.parse {α : Type} {H : HeadFn α} {s t : Bytes} (h : Near H s t) (ht : t ≠ []) (m : Option Bytes) : H.parse m s = H.parse m t := by
  have := h.2 [] (by simpa using ht) m
  simpa using this

theorem Near.trans {α : Type} {H : HeadFn α} {s t u : Bytes} (h1 : Near H s t) (h2 : Near H t u) : Near H s u := by
  refine ⟨h2.1.trans h1.1, fun more hu m => ?_⟩
  have ht : t ++ more ≠ [] := by
    intro e
    obtain ⟨rfl, rfl⟩ := List.append_eq_nil_iff.1 e
    exact hu (by rw [List.eq_nil_of_suffix_nil h2.1]; rfl)
  rw [h1.2 more ht m, h2.2 more hu m]

theorem suffix_app {a b : Bytes} (h : a <:+ b) (c : Bytes) : a ++ c <:+ b ++ c := by
  obtain ⟨w, rfl⟩ := h
  exact ⟨w, by simp⟩

theorem setPartial_rd (x : Inlet) : x.setPartial.rd = x.rd := rfl

theorem attempt_facts {α : Type} {H : HeadFn α} (hS : Stable H) (m : Option Bytes) (x : Inlet) :
    match x.attempt (H.parse m) with
    | (.ok (some a), b) => x.rd.stream ≠ [] ∧ H.parse m x.rd.stream = (.ok (some a), (x.leave b).rd.stream) ∧
        (x.leave b).rd.stream <:+ x.rd.stream
    | (.ok none, b) => Near H x.rd.stream (x.leave b).rd.stream
    | (.error _, _) => True := by
  have key : ∀ (hb : x.rd.buf ≠ []),
      match H.parse m x.rd.buf with
      | (.ok (some a), b) => x.rd.stream ≠ [] ∧ H.parse m x.rd.stream = (.ok (some a), (x.leave b).rd.stream) ∧
          (x.leave b).rd.stream <:+ x.rd.stream
      | (.ok none, b) => Near H x.rd.stream (x.leave b).rd.stream
      | (.error _, _) => True := by
    intro hb
    rcases hp : H.parse m x.rd.buf with ⟨o, b⟩
    cases o with
    | error e => trivial
    | ok o =>
      cases o with
      | some a =>
        obtain ⟨h1, h2⟩ := hS.msg hp
        refine ⟨by simp [Rd.stream, hb], h2 _, ?_⟩
        exact suffix_app h1 _
      | none =>
        obtain ⟨h1, h2⟩ := hS.skip hb hp
        refine ⟨suffix_app h1 _, fun more ht m' => ?_⟩
        have := h2 m' (segBytes x.rd.net ++ more) (by simpa [Rd.stream, Inlet.leave] using ht)
        simpa [Rd.stream, Inlet.leave] using this
  unfold Inlet.attempt
  by_cases hb : x.rd.buf = []
  · rw [if_pos hb]
    have : x.leave [] = x := by
      obtain ⟨⟨buf, net, fin⟩, pl, mx⟩ := x
      simp only at hb; subst hb; rfl
    simp only [this]
    exact Near.refl _ _
  · rw [if_neg hb]
    cases hpl : x.partialLen with
    | none => exact key hb
    | some n =>
      dsimp only
      by_cases hq : isCompleteFast x.rd.buf n = some true
      · rw [if_pos hq]; exact key hb
      · rw [if_neg hq]
        exact Near.refl _ _

theorem parse_facts {α : Type} {H : HeadFn α} (hS : Stable H) (m : Option Bytes) (fuel : Nat) : ∀ x : Inlet,
    (x.parseLoop (H.parse m) fuel).2.rd.fin = x.rd.fin ∧
    match (x.parseLoop (H.parse m) fuel).1 with
    | .msg a => x.rd.stream ≠ [] ∧ H.parse m x.rd.stream = (.ok (some a), (x.parseLoop (H.parse m) fuel).2.rd.stream) ∧
        (x.parseLoop (H.parse m) fuel).2.rd.stream <:+ x.rd.stream
    | .pending => Near H x.rd.stream (x.parseLoop (H.parse m) fuel).2.rd.stream
    | .error _ => True := by
  induction fuel with
  | zero => intro x; exact ⟨rfl, Near.refl _ _⟩
  | succ fuel ih =>
    intro x
    have ha := attempt_facts hS m x
    unfold Inlet.parseLoop
    rcases hp : x.attempt (H.parse m) with ⟨o, b⟩
    rw [hp] at ha
    cases o with
    | error e => exact ⟨rfl, trivial⟩
    | ok o =>
      cases o with
      | some a => exact ⟨rfl, ha⟩
      | none =>
        dsimp only at ha ⊢
        by_cases hmx : x.max ≤ b.length
        · rw [if_pos hmx]; exact ⟨rfl, trivial⟩
        · rw [if_neg hmx]
          have hpl := pull_facts (x.leave b).setPartial
          rw [setPartial_rd] at hpl
          have hfin : (x.leave b).setPartial.pull.rd.fin = x.rd.fin := hpl.2.1
          rcases hr : (x.leave b).rd.readIo.1 with _ | ⟨_ | ⟨_ | ⟨c, cs⟩⟩⟩
          · exact ⟨hfin, by dsimp only; rw [hpl.1]; exact ha⟩
          · exact ⟨hfin, trivial⟩
          · exact ⟨hfin, trivial⟩
          · have := ih (x.leave b).setPartial.pull
            refine ⟨this.1.trans hfin, ?_⟩
            dsimp only
            have h2 := this.2
            rw [hpl.1] at h2
            revert h2
            cases (Inlet.parseLoop (H.parse m) fuel (x.leave b).setPartial.pull).1 with
            | pending => intro h2; exact ha.trans h2
            | error e => intro _; trivial
            | msg a =>
              rintro ⟨g1, g2, g3⟩
              refine ⟨?_, (ha.parse g1 m).trans g2, g3.trans ha.1⟩
              intro e
              rw [e] at ha
              exact g1 (List.eq_nil_of_suffix_nil ha.1)

/-! ## What does not read -/

/-- The states of reading, `Continue` and `Body` taken together. -/
inductive RK where
  | init
  | dec (d : Decoder)
  | keepAlive
  | closed

def rk : Reading → RK
  | .init => .init
  | .cont d => .dec d
  | .body d => .dec d
  | .keepAlive => .keepAlive
  | .closed => .closed

/-- What happens to a connection when nothing is read from it. -/
structure Quiet (c c' : Conn) : Prop where
  rd : rk c'.reading = rk c.reading ∨ rk c'.reading = .closed ∨ (rk c.reading = .keepAlive ∧ rk c'.reading = .init)
  mh : c'.maxHeaders = c.maxHeaders
  heads : c'.log.filter isHead = c.log.filter isHead

theorem Quiet.refl (c : Conn) : Quiet c c := ⟨.inl rfl, rfl, rfl⟩

theorem Quiet.trans {a b c : Conn} (h1 : Quiet a b) (h2 : Quiet b c) : Quiet a c := by
  refine ⟨?_, h2.mh.trans h1.mh, h2.heads.trans h1.heads⟩
  rcases h2.rd with e | e | ⟨e, e'⟩
  · rw [e]; exact h1.rd
  · exact .inr (.inl e)
  · rcases h1.rd with g | g | ⟨g, g'⟩
    · exact .inr (.inr ⟨g ▸ e, e'⟩)
    · rw [g] at e; cases e
    · rw [g'] at e; cases e

/-- The same in all that matters here. -/
theorem Quiet.of {c c' : Conn} (h1 : c'.reading = c.reading) (h2 : c'.maxHeaders = c.maxHeaders)
    (h3 : c'.log.filter isHead = c.log.filter isHead) : Quiet c c' := ⟨.inl (by rw [h1]), h2, h3⟩

/-- Reading is over. -/
theorem Quiet.stop {c c' : Conn} (h1 : c'.reading = .closed) (h2 : c'.maxHeaders = c.maxHeaders)
    (h3 : c'.log.filter isHead = c.log.filter isHead) : Quiet c c' := ⟨.inr (.inl (by rw [h1]; rfl)), h2, h3⟩

theorem q_closeAll (c : Conn) : Quiet c c.closeAll := .stop rfl rfl rfl
theorem q_closeRead (c : Conn) : Quiet c c.closeRead := .stop rfl rfl rfl
theorem q_closeWrite (c : Conn) : Quiet c c.closeWrite := .of rfl rfl rfl

theorem q_stateKeepAlive (c : Conn) : Quiet c c.stateKeepAlive := by
  unfold Conn.stateKeepAlive
  cases hr : c.reading with
  | keepAlive =>
    cases hw : c.writing with
    | keepAlive =>
      dsimp only
      by_cases h : c.ka = .busy
      · rw [if_pos h]; exact ⟨.inr (.inr ⟨by rw [hr]; rfl, rfl⟩), rfl, rfl⟩
      · rw [if_neg h]; exact q_closeAll c
    | closed => exact q_closeAll c
    | _ => exact Quiet.refl c
  | closed =>
    cases hw : c.writing with
    | keepAlive => exact q_closeAll c
    | _ => exact Quiet.refl c
  | _ => exact Quiet.refl c

theorem q_notifyFrom (c : Conn) (i : NotifyIn) : Quiet c (c.notifyFrom i) := by
  cases i with
  | blocked => exact Quiet.refl c
  | pending => exact Quiet.refl c
  | bytes => exact .of rfl rfl rfl
  | eof =>
    unfold Conn.notifyFrom
    dsimp only
    split
    · exact q_closeAll c
    · exact q_closeRead c
  | error => exact .stop rfl rfl rfl

theorem q_maybeNotify (c : Conn) (i : NotifyIn) : Quiet c (c.maybeNotify i) := by
  unfold Conn.maybeNotify
  split
  · split
    · exact Quiet.refl c
    · exact q_notifyFrom c i
  · exact Quiet.refl c

theorem q_tryKeepAlive (c : Conn) (i : NotifyIn) : Quiet c (c.tryKeepAlive i) :=
  (q_stateKeepAlive c).trans (q_maybeNotify _ i)

theorem q_put (c : Conn) (bs : Bytes) : Quiet c (c.put bs) := by
  unfold Conn.put
  split
  · exact Quiet.refl c
  · split
    · exact .of rfl rfl rfl
    · exact Quiet.refl c

theorem q_setWriting (c : Conn) (w : Writing) : Quiet c (c.setWriting w) := by
  refine .of rfl rfl ?_
  unfold Conn.setWriting
  dsimp only
  split
  · simp [List.filter_append, isHead]
  · rfl

theorem q_writeResp (env : EncodeEnv) (c : Conn) (m : RespOut) (ev : Bool → Ev) (hev : ∀ b, isHead (ev b) = false) :
    Quiet c (c.writeResp env m ev) := by
  unfold Conn.writeResp
  refine Quiet.trans ?_ (q_setWriting _ _)
  refine .of rfl rfl ?_
  simp [List.filter_append, hev]

theorem q_writeReq (c : Conn) (h : ReqHead) (b : Option BodyLength) (n : Nat) : Quiet c (c.writeReq h b n) := by
  unfold Conn.writeReq
  refine Quiet.trans ?_ (q_setWriting _ _)
  refine .of rfl rfl ?_
  simp [List.filter_append, isHead]

theorem q_writeBody (c : Conn) (bs : Bytes) : Quiet c (c.writeBody bs) := (q_put c _).trans (q_setWriting _ _)
theorem q_writeBodyAndEnd (c : Conn) (bs : Bytes) : Quiet c (c.writeBodyAndEnd bs) := (q_put c _).trans (q_setWriting _ _)
theorem q_writeTrailers (c : Conn) (m : HeaderMap) : Quiet c (c.writeTrailers m) := (q_put c _).trans (q_setWriting _ _)
theorem q_endBody (c : Conn) : Quiet c c.endBody.2 := (q_put c _).trans (q_setWriting _ _)

theorem q_startTimer (c : Conn) (t : Nat) : Quiet c (c.startTimer t) := by
  unfold Conn.startTimer
  split
  · exact Quiet.refl c
  · split
    · exact .of rfl rfl rfl
    · exact Quiet.refl c

theorem q_onParseError (env : EncodeEnv) (c : Conn) (e : Option ParseErr) (h2 : Bool) : Quiet c (c.onParseError env e h2).2 := by
  unfold Conn.onParseError
  split
  · split
    · exact Quiet.refl c
    · split
      · rename_i st _
        exact (q_writeResp env c (Conn.errorResp st) (fun _ => .errorHead) (fun _ => rfl)).trans (.of rfl rfl rfl)
      · exact Quiet.refl c
  · exact Quiet.refl c

theorem q_onReadHeadError (env : EncodeEnv) (c : Conn) (e : Option ParseErr) (r h2 : Bool) :
    Quiet c (c.onReadHeadError env e r h2).2 ∧ rk (c.onReadHeadError env e r h2).2.reading = .closed := by
  unfold Conn.onReadHeadError
  split
  · have h := q_onParseError env c.closeRead e h2
    refine ⟨(q_closeRead c).trans h, ?_⟩
    rcases h.rd with g | g | ⟨g, _⟩
    · exact g
    · exact g
    · cases g
  · exact ⟨(q_closeRead c).trans (q_closeWrite _), rfl⟩

theorem q_sendContinue (c : Conn) : Quiet c c.sendContinue := by
  unfold Conn.sendContinue
  split
  · refine .of rfl rfl ?_
    simp [List.filter_append, isHead]
  · exact Quiet.refl c

theorem q_drainStart (c : Conn) : Quiet c c.drainStart := by
  unfold Conn.drainStart
  split
  · rename_i d h; exact ⟨.inl (by rw [h]; rfl), rfl, rfl⟩
  · exact Quiet.refl c

theorem q_drainEnd (c : Conn) : Quiet c c.drainEnd := by
  unfold Conn.drainEnd
  split
  · exact Quiet.refl c
  · exact Quiet.refl c
  · exact q_closeRead c

theorem q_pollReadKeepAlive (c : Conn) (b : Bool) (i : IoIn) : Quiet c (c.pollReadKeepAlive b i).2 := by
  unfold Conn.pollReadKeepAlive Conn.requireEmpty Conn.midMessageEof
  split
  · exact Quiet.refl c
  · split <;> split
    · exact Quiet.refl c
    · cases i
      · exact Quiet.refl c
      · exact q_closeAll c
      · exact q_closeRead c
      · exact Quiet.refl c
    · exact Quiet.refl c
    · cases i
      · exact Quiet.refl c
      · exact q_closeAll c
      · exact q_closeRead c
      · exact Quiet.refl c

theorem q_pollFlush (c : Conn) (f : FlushIn) (i : NotifyIn) : Quiet c (c.pollFlush f i).2 := by
  unfold Conn.pollFlush
  dsimp only
  split
  · exact Quiet.trans (b := { c with out := ((c.scripted f).pollFlush bytesBuf f.readBuf).2 }) (.of rfl rfl rfl) (q_tryKeepAlive _ i)
  · exact .of rfl rfl rfl

theorem q_pollShutdown (c : Conn) (f : FlushIn) : Quiet c (c.pollShutdown f).2 := .of rfl rfl rfl

theorem q_disable (c : Conn) : Quiet c c.disableKeepAlive := by
  unfold Conn.disableKeepAlive
  dsimp only
  have h : Quiet c { c with log := c.log ++ [Ev.shutdown] } := .of rfl rfl (by simp [List.filter_append, isHead])
  split
  · exact h.trans (q_closeAll _)
  · exact h.trans (.of rfl rfl rfl)

/-! ## The same for the dispatcher -/

/-- Nothing was sent on the channel. -/
structure Same (ch ch' : Chan) : Prop where
  id : ch'.id = ch.id
  len : ch'.len = ch.len
  data : sentData ch' = sentData ch
  trailers : ch'.trailers = ch.trailers
  complete : ch'.complete = ch.complete
  want : ch.want = .closed → ch'.want = .closed

theorem Same.refl (ch : Chan) : Same ch ch := ⟨rfl, rfl, rfl, rfl, rfl, fun h => h⟩

theorem Same.trans {a b c : Chan} (h1 : Same a b) (h2 : Same b c) : Same a c :=
  ⟨h2.id.trans h1.id, h2.len.trans h1.len, h2.data.trans h1.data, h2.trailers.trans h1.trailers, h2.complete.trans h1.complete,
    fun h => h2.want (h1.want h)⟩

/-- Nothing was sent on any channel. -/
def ChQ (cs cs' : List Chan) : Prop :=
  cs'.length = cs.length ∧ ∀ (k : Nat) (ch' : Chan), cs'[k]? = some ch' → ∃ ch, cs[k]? = some ch ∧ Same ch ch'

theorem ChQ.refl (cs : List Chan) : ChQ cs cs := ⟨rfl, fun _ ch h => ⟨ch, h, Same.refl ch⟩⟩

theorem ChQ.trans {a b c : List Chan} (h1 : ChQ a b) (h2 : ChQ b c) : ChQ a c := by
  refine ⟨h2.1.trans h1.1, fun k ch' h => ?_⟩
  obtain ⟨ch1, g1, g2⟩ := h2.2 k ch' h
  obtain ⟨ch2, g3, g4⟩ := h1.2 k ch1 g1
  exact ⟨ch2, g3, g4.trans g2⟩

theorem chq_upd (cs : List Chan) (k : Nat) (f : Chan → Chan) (hf : ∀ ch, cs[k]? = some ch → Same ch (f ch)) : ChQ cs (updChan cs k f) := by
  refine ⟨by simp [updChan], fun j ch' h => ?_⟩
  unfold updChan at h
  rw [List.getElem?_modify] at h
  cases hj : cs[j]? with
  | none => rw [hj] at h; cases h
  | some ch =>
    rw [hj] at h
    by_cases e : k = j
    · subst e
      simp only [if_true, Option.map_eq_map, Option.map_some, Option.some.injEq] at h
      exact ⟨ch, rfl, h ▸ hf ch hj⟩
    · simp only [e, if_false, Option.map_eq_map, Option.map_some, Option.some.injEq] at h
      exact ⟨ch, rfl, h ▸ Same.refl ch⟩

theorem same_dropSender (ch : Chan) : Same ch ch.dropSender := ⟨rfl, rfl, rfl, rfl, rfl, fun h => h⟩
theorem same_fail (ch : Chan) : Same ch ch.fail := ⟨rfl, rfl, by simp [sentData, Chan.fail], rfl, rfl, fun h => h⟩
theorem same_lose (ch : Chan) : Same ch { ch with want := .closed } := ⟨rfl, rfl, rfl, rfl, rfl, fun _ => rfl⟩

/-- What happens to the dispatcher when nothing is read. -/
structure QD (d d' : Disp) : Prop where
  conn : Quiet d.conn d'.conn
  ch : ChQ d.chans d'.chans
  tx : d'.bodyTx = d.bodyTx ∨ d'.bodyTx = none

theorem QD.refl (d : Disp) : QD d d := ⟨Quiet.refl _, ChQ.refl _, .inl rfl⟩

theorem QD.trans {a b c : Disp} (h1 : QD a b) (h2 : QD b c) : QD a c :=
  ⟨h1.conn.trans h2.conn, h1.ch.trans h2.ch, by rcases h2.tx with e | e; rw [e]; exact h1.tx; exact .inr e⟩

/-- Only the connection changes. -/
theorem QD.of {d d' : Disp} (h : Quiet d.conn d'.conn) (h1 : d'.chans = d.chans) (h2 : d'.bodyTx = d.bodyTx) : QD d d' :=
  ⟨h, by rw [h1]; exact ChQ.refl _, .inl h2⟩

theorem qd_close (d : Disp) : QD d d.close := .of ((q_closeRead _).trans (q_closeWrite _)) rfl rfl

theorem qd_failBody (d : Disp) : QD d d.failBody := by
  unfold Disp.failBody
  split
  · exact ⟨Quiet.refl _, chq_upd _ _ _ (fun ch _ => same_fail ch), .inr rfl⟩
  · exact QD.refl d

theorem qd_fail (d : Disp) : QD d d.fail :=
  (qd_failBody d).trans (.of (Quiet.refl _) rfl rfl)

theorem qd_dropBody (d : Disp) (k : Nat) : QD d (d.dropBody k) := ⟨Quiet.refl _, chq_upd _ _ _ (fun ch _ => same_dropSender ch), .inr rfl⟩

theorem qd_loseReader (d : Disp) (k : Nat) : QD d (d.loseReader k) := ⟨Quiet.refl _, chq_upd _ _ _ (fun ch _ => same_lose ch), .inl rfl⟩

theorem qd_conn (d : Disp) (c : Conn) (h : Quiet d.conn c) : QD d { d with conn := c } := .of h rfl rfl

theorem qd_recvErr (d : Disp) : QD d d.recvErr := by
  unfold Disp.recvErr
  split
  · split
    · exact QD.trans (b := { d with inFlight := none }) (.of (Quiet.refl _) rfl rfl) (qd_close _)
    · exact qd_fail d
  · exact qd_fail d

theorem qd_readIdle (d : Disp) (i : ReadIn) : QD d (d.readIdle i) := by
  unfold Disp.readIdle
  dsimp only
  have h := qd_conn d _ (q_pollReadKeepAlive d.conn i.bufEmpty i.io)
  split
  · exact h.trans (qd_fail _)
  · exact h

theorem qd_writeHead (env : EncodeEnv) (d : Disp) (m : MsgOut) : QD d (d.writeHead env m) := by
  unfold Disp.writeHead
  cases m with
  | pending => exact QD.refl d
  | none => dsimp only; split; exact qd_close d; exact QD.refl d
  | err => dsimp only; split; exact QD.refl d; exact qd_fail d
  | resp m =>
    dsimp only
    split
    · exact QD.refl d
    · exact .of (q_writeResp env _ m _ (fun _ => rfl)) rfl rfl
  | req h b =>
    dsimp only
    split
    · exact .of (q_writeReq _ h b _) rfl rfl
    · exact QD.refl d

theorem qd_flushTurn (d : Disp) (f : FlushIn) (i : NotifyIn) : QD d (d.flushTurn f i) := by
  unfold Disp.flushTurn
  dsimp only
  have h := qd_conn d _ (q_pollFlush d.conn f i)
  split
  · exact h
  · exact h.trans (qd_fail _)

theorem qd_endBody (d : Disp) : QD d d.endBody := by
  unfold Disp.endBody
  dsimp only
  have h := qd_conn d _ (q_endBody d.conn)
  split
  · exact h.trans (qd_fail _)
  · exact h

theorem qd_bodyRx (d : Disp) (b : Bool) : QD d { d with bodyRx := b } := .of (Quiet.refl _) rfl rfl

theorem qd_writeFrame (d : Disp) (f : FrameIn) : QD d (d.writeFrame f) := by
  unfold Disp.writeFrame
  cases f with
  | pending => exact QD.refl d
  | eof => exact (qd_bodyRx d false).trans (qd_endBody _)
  | frame f =>
    cases f with
    | data bs last =>
      cases last with
      | true =>
        dsimp only
        split
        · exact (qd_bodyRx d false).trans (qd_endBody _)
        · exact .of (q_writeBodyAndEnd _ _) rfl rfl
      | false =>
        dsimp only
        split
        · exact QD.refl d
        · exact .of (q_writeBody _ _) rfl rfl
    | trailers m => exact .of (q_writeTrailers _ _) rfl rfl
    | unknown => exact QD.refl d
    | error => exact (qd_bodyRx d false).trans (qd_fail _)

theorem qd_writeTurn (env : EncodeEnv) (d : Disp) (i : WriteIn) : QD d (d.writeTurn env i) := by
  unfold Disp.writeTurn
  split
  · exact QD.refl d
  · split
    · exact qd_writeHead env d _
    · split
      · exact qd_flushTurn d _ _
      · split
        · split
          · exact qd_writeFrame d _
          · exact qd_bodyRx d false
        · split
          · exact qd_endBody d
          · exact QD.refl d

theorem qd_complete (d : Disp) : QD d d.complete := by
  unfold Disp.complete
  split
  · exact (qd_conn d { d.conn with error := false } (.of rfl rfl rfl)).trans (qd_fail _)
  · exact .of (Quiet.refl _) rfl rfl

theorem qd_finishTurn (d : Disp) (s : Bool) (f : FlushIn) : QD d (d.finishTurn s f) := by
  unfold Disp.finishTurn
  dsimp only
  split
  · exact QD.refl d
  · split
    · exact (qd_conn d { d.conn with upgrade := false } (.of rfl rfl rfl)).trans (qd_complete _)
    · split
      · have h := qd_conn d _ (q_pollShutdown d.conn f)
        split
        · exact h
        · split
          · exact h.trans (qd_complete _)
          · exact h.trans (qd_fail _)
      · exact qd_complete d

theorem qd_disable (d : Disp) (b : Bool) : QD d (d.disableKeepAlive b) := by
  unfold Disp.disableKeepAlive
  dsimp only
  have h := qd_conn d _ (q_disable d.conn)
  split
  · exact h.trans (qd_close _)
  · exact h

theorem qd_want (d : Disp) (k : Nat) : QD d (d.want k) := by
  unfold Disp.want
  split
  · rename_i ch hk
    split
    · rename_i hp
      refine ⟨.of rfl rfl (by simp [List.filter_append, isHead]), ?_, .inl rfl⟩
      refine chq_upd _ _ _ (fun ch' h => ?_)
      rw [hk] at h
      cases h
      exact ⟨rfl, rfl, rfl, rfl, rfl, fun h => by rw [hp] at h; cases h⟩
    · exact QD.refl d
  · exact QD.refl d

/-- What is not a read. -/
theorem qd_step (env : EncodeEnv) (P : TrailerParser) (d : Disp) (a : Act) (h : ∀ i, a ≠ .read i) : QD d (d.step env P a) := by
  unfold Disp.step
  cases a with
  | read i => exact absurd rfl (h i)
  | write i => dsimp only; split; exact QD.refl d; exact qd_writeTurn env d i
  | flush f i => dsimp only; split; exact QD.refl d; exact qd_flushTurn d f i
  | readAgain => dsimp only; split; exact QD.refl d; exact qd_conn d _ (.of rfl rfl rfl)
  | finish s f => dsimp only; split; exact QD.refl d; exact qd_finishTurn d s f
  | disable b => dsimp only; split; exact QD.refl d; exact qd_disable d b
  | want k => exact qd_want d k
  | dropReader k => exact qd_loseReader d k
  | drop => exact (qd_failBody d).trans (.of (Quiet.refl _) rfl rfl)

theorem canReadBody_rk (c : Conn) : c.canReadBody = true ↔ ∃ dec, rk c.reading = .dec dec := by
  unfold Conn.canReadBody
  cases c.reading <;> simp [rk]

theorem decoder_rk (d : Disp) (dec : Decoder) : d.decoder = some dec ↔ rk d.conn.reading = .dec dec := by
  unfold Disp.decoder
  cases d.conn.reading <;> simp [rk]

theorem decoder_none (d : Disp) : d.decoder = none ↔ d.conn.canReadBody = false := by
  unfold Disp.decoder Conn.canReadBody
  cases d.conn.reading <;> simp

/-- A turn of `poll_read` that gets neither to the parser nor to a decoder. -/
theorem qd_idle (env : EncodeEnv) (P : TrailerParser) (d : Disp) (i j : ReadIn) (hr : j.ready = i.ready) (hf : j.full = i.full)
    (h1 : d.parses i = false) (h2 : d.decodes i = none) : QD d (d.step env P (.read j)) := by
  unfold Disp.step
  dsimp only
  by_cases hd : d.done = true
  · rw [if_pos hd]; exact QD.refl d
  · rw [if_neg hd]
    unfold Disp.readTurn
    by_cases hc : d.closing = true
    · rw [if_pos hc]; exact QD.refl d
    · rw [if_neg hc]
      by_cases hh : d.conn.canReadHead = true
      · rw [if_pos hh]
        unfold Disp.readHead
        simp only [Disp.parses, hd, hc, hh] at h1
        cases hfl : d.inFlight with
        | some n =>
          dsimp only
          by_cases hcl : d.conn.client = true
          · rw [if_pos hcl]
            simp [hcl, hfl] at h1
            rw [hr, h1]
            exact qd_close d
          · rw [if_neg hcl]; exact QD.refl d
        | none =>
          dsimp only
          by_cases hcl : d.conn.client = true
          · rw [if_pos hcl]; exact qd_close d
          · simp [hcl, hfl] at h1
      · rw [if_neg hh]
        simp only [Disp.decodes, hd, hc, hh] at h2
        cases htx : d.bodyTx with
        | none => exact qd_readIdle d j
        | some k =>
          dsimp only
          simp only [htx] at h2
          unfold Disp.readBody
          by_cases hb : d.conn.canReadBody = true
          · rw [if_pos hb]
            have hdec : d.decoder ≠ none := by
              intro e; rw [decoder_none] at e; rw [e] at hb; cases hb
            cases hw : (d.chans[k]?).map Chan.want with
            | none => simp [hw] at h2; exact absurd h2 hdec
            | some w =>
              cases w with
              | pending => exact QD.refl d
              | closed => simp [hw] at h2; exact absurd h2 hdec
              | ready =>
                simp only [hw] at h2
                dsimp only
                by_cases hfu : i.full = true
                · rw [if_pos (by rw [hf]; exact hfu)]; exact QD.refl d
                · simp [hfu] at h2; exact absurd h2 hdec
          · rw [if_neg hb]; exact qd_dropBody d k

/-! ## The invariant -/

section
variable {α : Type} (H : HeadFn α) (P : TrailerParser) (mh : Option Nat) (fin : NetEnd) (S : Bytes)

/-- Where the connection is in its input. -/
inductive Pos (f : Fed α) : Prop where
  /-- Between messages. -/
  | between (t : Bytes) (hr : Reads H P mh fin S f.got t) (hn : rk f.disp.conn.reading = .closed ∨ Near H t f.inlet.rd.stream)
      (hk : ∀ dec, rk f.disp.conn.reading ≠ .dec dec) : Pos f
  /-- In a body. -/
  | within (ws : List (Received α)) (r : Received α) (t body : Bytes) (dec : Decoder) (hg : f.got = ws ++ [r])
      (hr : Reads H P mh fin S ws t) (hw : r.whole = false) (htr : r.trailers = none)
      (hp : H.parse r.method t = (.ok (some r.head), body)) (hs : body <:+ t) (hb : hasBody H r = true)
      (hk : rk f.disp.conn.reading = .dec dec) (hd : DOk dec)
      (ho : outc P dec f.inlet.rd r.data = outc P (Decoder.ofLength (H.view r.method r.head).decode mh none) ⟨body, [], fin⟩ []) : Pos f
  /-- Reading has stopped in a body. -/
  | stopped (ws : List (Received α)) (r : Received α) (t : Bytes) (hg : f.got = ws ++ [r])
      (hr : Reads H P mh fin S ws t) (hb : Begun H P mh fin t r) (hk : rk f.disp.conn.reading = .closed) : Pos f

/-- The channels carry what was read. -/
def Carried (cs : List Chan) (got : List (Received α)) : Prop :=
  cs.length = (got.filter (hasBody H)).length ∧
  ∀ (k : Nat) (ch : Chan), cs[k]? = some ch → ∃ r, (got.filter (hasBody H))[k]? = some r ∧ Carries H ch r

structure FI (f : Fed α) : Prop where
  finEq : f.inlet.rd.fin = fin
  mhEq : f.disp.conn.maxHeaders = mh
  heads : f.disp.conn.log.filter isHead = f.got.map (headEv H)
  carried : Carried H f.disp.chans f.got
  tx : ∀ k, f.disp.bodyTx = some k → f.disp.conn.canReadBody = true → k + 1 = f.disp.chans.length
  pos : Pos H P mh fin S f

end

section
variable {α : Type} {H : HeadFn α} {P : TrailerParser} {mh : Option Nat} {fin : NetEnd} {S : Bytes}

theorem reads_snoc {ws : List (Received α)} {s t body next : Bytes} {r : Received α} (h : Reads H P mh fin s ws t)
    (hw : r.whole = true) (hp : H.parse r.method t = (.ok (some r.head), body)) (hs : body <:+ t)
    (hb : Body P mh fin (H.view r.method r.head).decode body r.data r.trailers next) : Reads H P mh fin s (ws ++ [r]) next := by
  induction h with
  | nil s => exact .cons hw hp hs hb (.nil _)
  | cons g1 g2 g3 g4 _ ih => exact .cons g1 g2 g3 g4 (ih hp hs)

theorem Carries.same {ch ch' : Chan} {r : Received α} (h : Carries H ch r) (hs : Same ch ch') : Carries H ch' r := by
  refine ⟨hs.id.trans h.id, hs.len.trans h.len, by rw [hs.data]; exact h.data, by rw [hs.trailers]; exact h.trailers, ?_, ?_⟩
  · intro hw
    rw [hs.data, hs.trailers]
    exact h.all (fun e => hw (hs.want e))
  · rw [hs.complete]; exact h.whole

theorem Carried.chq {cs cs' : List Chan} {got : List (Received α)} (h : Carried H cs got) (hq : ChQ cs cs') : Carried H cs' got := by
  refine ⟨hq.1.trans h.1, fun k ch' hk => ?_⟩
  obtain ⟨ch, g1, g2⟩ := hq.2 k ch' hk
  obtain ⟨r, g3, g4⟩ := h.2 k ch g1
  exact ⟨r, g3, g4.same g2⟩

theorem Quiet.dec {c c' : Conn} (h : Quiet c c') {dec : Decoder} (hd : rk c'.reading = .dec dec) : rk c.reading = .dec dec := by
  rcases h.rd with e | e | ⟨_, e⟩
  · rw [← e]; exact hd
  · rw [e] at hd; cases hd
  · rw [e] at hd; cases hd

theorem begun_of_within {r : Received α} {t body : Bytes} {dec : Decoder} {rd : Rd} (hw : r.whole = false) (htr : r.trailers = none)
    (hp : H.parse r.method t = (.ok (some r.head), body)) (hs : body <:+ t)
    (ho : outc P dec rd r.data = outc P (Decoder.ofLength (H.view r.method r.head).decode mh none) ⟨body, [], fin⟩ []) :
    Begun H P mh fin t r := by
  refine ⟨hw, htr, body, hp, hs, ?_⟩
  have := outc_prefix P dec rd r.data
  rw [ho] at this
  exact this

/-- Nothing is read, but the transport may have been looked at. -/
theorem fi_quiet {f : Fed α} (h : FI H P mh fin S f) {d : Disp} {x : Inlet} (hq : QD f.disp d) (hs : x.rd.stream = f.inlet.rd.stream)
    (hf : x.rd.fin = f.inlet.rd.fin) : FI H P mh fin S { disp := d, inlet := x, got := f.got } := by
  refine ⟨hf.trans h.finEq, hq.conn.mh.trans h.mhEq, hq.conn.heads.trans h.heads, h.carried.chq hq.ch, ?_, ?_⟩
  · intro k hk hc
    obtain ⟨dec, hd⟩ := (canReadBody_rk _).1 hc
    have hd' := hq.conn.dec hd
    have hk' : f.disp.bodyTx = some k := by
      rcases hq.tx with e | e
      · rw [← e]; exact hk
      · simp only at hk; rw [e] at hk; cases hk
    have := h.tx k hk' ((canReadBody_rk _).2 ⟨dec, hd'⟩)
    rw [this]
    exact hq.ch.1.symm
  · cases h.pos with
    | between t hr hn hk =>
      refine .between t hr ?_ ?_
      · rcases hq.conn.rd with e | e | ⟨e, e'⟩
        · dsimp only
          rw [e, hs]; exact hn
        · exact .inl e
        · dsimp only
          rw [hs]
          rcases hn with hn | hn
          · rw [hn] at e; cases e
          · exact .inr hn
      · intro dec hd
        exact hk dec (hq.conn.dec hd)
    | within ws r t body dec hg hr hw htr hp hs' hb hk hd ho =>
      have ho' : outc P dec x.rd r.data = outc P dec f.inlet.rd r.data := outc_congr P hd hs hf _
      rcases hq.conn.rd with e | e | ⟨e, _⟩
      · exact .within ws r t body dec hg hr hw htr hp hs' hb (e.trans hk) hd (ho'.trans ho)
      · exact .stopped ws r t hg hr (begun_of_within hw htr hp hs' ho) e
      · rw [hk] at e; cases e
    | stopped ws r t hg hr hb hk =>
      refine .stopped ws r t hg hr hb ?_
      rcases hq.conn.rd with e | e | ⟨e, _⟩
      · exact e.trans hk
      · exact e
      · rw [hk] at e; cases e

end

/-! ## Reading a head -/

theorem tryKeepAlive_client (c : Conn) (i : NotifyIn) : (c.tryKeepAlive i).client = c.client := by
  have h1 : c.stateKeepAlive.client = c.client := by
    unfold Conn.stateKeepAlive
    repeat' split
    all_goals rfl
  have h2 : ∀ c : Conn, (c.maybeNotify i).client = c.client := by
    intro c
    unfold Conn.maybeNotify Conn.notifyFrom
    repeat' split
    all_goals rfl
  exact (h2 _).trans h1

theorem startTimer_client (c : Conn) (t : Nat) : (c.startTimer t).client = c.client := by
  unfold Conn.startTimer
  repeat' split
  all_goals rfl

theorem acceptHead_facts (c : Conn) (m : MsgIn) (n : Nat) (i : NotifyIn) :
    (c.acceptHead m n i).client = c.client ∧ (c.acceptHead m n i).maxHeaders = c.maxHeaders ∧
    (c.acceptHead m n i).log.filter isHead = c.log.filter isHead ++ [.readHead n m.continues m.keepAlive] ∧
    (m.decode = DecodedLength.ZERO → ∀ dec, rk (c.acceptHead m n i).reading ≠ .dec dec) ∧
    (m.decode ≠ DecodedLength.ZERO → rk (c.acceptHead m n i).reading = .dec (Decoder.ofLength m.decode c.maxHeaders none)) := by
  unfold Conn.acceptHead
  by_cases hz : m.decode = DecodedLength.ZERO
  · rw [if_pos hz]
    have hd : (c.headState m n).readDone.log.filter isHead = c.log.filter isHead ++ [.readHead n m.continues m.keepAlive] := by
      simp [Conn.readDone, Conn.headState, List.filter_append, List.filter_cons, isHead]
    have hk : ∀ dec, rk (c.headState m n).readDone.reading ≠ .dec dec := by intro dec h; cases h
    by_cases hc : c.client = true
    · rw [if_pos hc]
      have hq := q_tryKeepAlive (c.headState m n).readDone i
      refine ⟨tryKeepAlive_client _ i, hq.mh, hq.heads.trans hd, fun _ dec h => hk dec (hq.dec h), fun h => absurd hz h⟩
    · rw [if_neg hc]
      exact ⟨rfl, rfl, hd, fun _ => hk, fun h => absurd hz h⟩
  · rw [if_neg hz]
    have hl : (c.headState m n).log.filter isHead = c.log.filter isHead ++ [.readHead n m.continues m.keepAlive] := by
      simp [Conn.headState, isHead, List.filter_append]
    split
    · exact ⟨rfl, rfl, hl, fun h => absurd h hz, fun _ => rfl⟩
    · exact ⟨rfl, rfl, hl, fun h => absurd h hz, fun _ => rfl⟩

theorem step_parses (env : EncodeEnv) (P : TrailerParser) (d : Disp) (i j : ReadIn) (hr : j.ready = i.ready) (h : d.parses i = true) :
    d.step env P (.read j) = d.readHeadReady env j ∧ d.conn.reading = .init := by
  simp only [Disp.parses, Bool.and_eq_true, Bool.not_eq_true'] at h
  obtain ⟨⟨⟨h1, h2⟩, h3⟩, h4⟩ := h
  refine ⟨?_, ?_⟩
  · unfold Disp.step Disp.readTurn Disp.readHead
    simp only [h1, h2, h3, if_true, if_false, Bool.false_eq_true]
    cases hf : d.inFlight <;> cases hc : d.conn.client <;> simp_all
  · simp [Conn.canReadHead] at h3
    exact h3.1

section
variable {α : Type} {H : HeadFn α} {P : TrailerParser} {mh : Option Nat} {fin : NetEnd} {S : Bytes}

theorem filter_hasBody_snoc (got : List (Received α)) (r : Received α) :
    (got ++ [r]).filter (hasBody H) = got.filter (hasBody H) ++ (if hasBody H r then [r] else []) := by
  rw [List.filter_append]
  by_cases h : hasBody H r = true <;> simp [h]

/-- A message without body needs no channel. -/
theorem Carried.none {cs : List Chan} {got : List (Received α)} (h : Carried H cs got) {r : Received α} (hb : hasBody H r = false) :
    Carried H cs (got ++ [r]) := by
  unfold Carried
  rw [filter_hasBody_snoc, hb]
  simp only [Bool.false_eq_true, if_false, List.append_nil]
  exact h

/-- A message with a body gets a channel. -/
theorem Carried.snoc {cs : List Chan} {got : List (Received α)} (h : Carried H cs got) {r : Received α} {ch : Chan} (hb : hasBody H r = true)
    (hc : Carries H ch r) : Carried H (cs ++ [ch]) (got ++ [r]) := by
  unfold Carried
  rw [filter_hasBody_snoc, hb]
  simp only [if_true]
  refine ⟨by simp [h.1], fun k c hk => ?_⟩
  rw [List.getElem?_append] at hk ⊢
  by_cases hlt : k < cs.length
  · rw [if_pos hlt] at hk
    rw [if_pos (by rw [← h.1]; exact hlt)]
    exact h.2 k c hk
  · rw [if_neg hlt] at hk
    rw [if_neg (by rw [← h.1]; exact hlt)]
    rw [h.1] at hk
    rcases hkk : k - (got.filter (hasBody H)).length with _ | n
    · rw [hkk] at hk
      simp at hk
      subst hk
      exact ⟨r, rfl, hc⟩
    · rw [hkk] at hk; simp at hk

theorem chq_replaced (d : Disp) : ChQ d.chans d.replaced := by
  unfold Disp.replaced
  split
  · exact chq_upd _ _ _ (fun ch _ => same_dropSender ch)
  · exact ChQ.refl _

/-- What follows the new channel. -/
theorem qd_afterNew (d : Disp) (m : MsgIn) :
    QD (d.newBody m) (d.recvHead m) := by
  unfold Disp.recvHead
  dsimp only
  have h : QD (d.newBody m) { d.newBody m with conn := { (d.newBody m).conn with upgrade := (d.newBody m).conn.upgrade || m.wantsUpgrade } } :=
    .of (.of rfl rfl rfl) rfl rfl
  split
  · split
    · exact h.trans (.of (Quiet.refl _) rfl rfl)
    · exact h.trans (qd_fail _)
  · exact h.trans (.of (Quiet.refl _) rfl rfl)

theorem pos_init {f : Fed α} (h : Pos H P mh fin S f) (hr : f.disp.conn.reading = .init) :
    ∃ t, Reads H P mh fin S f.got t ∧ Near H t f.inlet.rd.stream := by
  cases h with
  | between t hrd hn hk =>
    rcases hn with hn | hn
    · rw [hr] at hn; cases hn
    · exact ⟨t, hrd, hn⟩
  | within _ _ _ _ _ _ _ _ _ _ _ _ hk => rw [hr] at hk; cases hk
  | stopped _ _ _ _ _ _ hk => rw [hr] at hk; cases hk

theorem onReadHeadError_no (env : EncodeEnv) (c : Conn) (e : Option ParseErr) (r h2 : Bool) (m : MsgIn) :
    (c.onReadHeadError env e r h2).1 ≠ .msg m := by
  unfold Conn.onReadHeadError Conn.onParseError
  repeat' split
  all_goals simp

theorem fi_head (env : EncodeEnv) {f : Fed α} (h : FI H P mh fin S f) (hinit : f.disp.conn.reading = .init) (o : ParseOut α) (x : Inlet)
    (hfin : x.rd.fin = f.inlet.rd.fin) (hf : match o with
      | .msg a => f.inlet.rd.stream ≠ [] ∧ H.parse f.disp.conn.method f.inlet.rd.stream = (.ok (some a), x.rd.stream) ∧
          x.rd.stream <:+ f.inlet.rd.stream
      | .pending => Near H f.inlet.rd.stream x.rd.stream
      | .error _ => True) (j : ReadIn) (hj : j.parse = Inlet.seen (H.view f.disp.conn.method) o x.rd.buf) :
    FI H P mh fin S { disp := f.disp.readHeadReady env j, inlet := x, got := f.begin H o } := by
  obtain ⟨t, hreads, hnear⟩ := pos_init h.pos hinit
  unfold Disp.readHeadReady
  cases o with
  | pending =>
    have hf' : Near H f.inlet.rd.stream x.rd.stream := hf
    have h' : FI H P mh fin S { f with inlet := x } :=
      ⟨hfin.trans h.finEq, h.mhEq, h.heads, h.carried, h.tx,
        .between t hreads (.inr (hnear.trans hf')) (by intro dec hd; simp only [hinit] at hd; cases hd)⟩
    refine fi_quiet h' (d := _) (x := x) ?_ rfl rfl
    simp only [hj, Inlet.seen, Conn.pollReadHead]
    have hq := q_startTimer f.disp.conn j.t0
    split
    · refine QD.trans (qd_conn f.disp { f.disp.conn.startTimer j.t0 with timing := false } (hq.trans (.of rfl rfl rfl))) (qd_recvErr _)
    · exact qd_conn f.disp _ hq
  | error e =>
    simp only [hj, Inlet.seen, Conn.pollReadHead]
    obtain ⟨hq, hk⟩ := q_onReadHeadError env (f.disp.conn.startTimer j.t0) e (!(Inlet.skipLines x.rd.buf).isEmpty) (Inlet.isH2 (Inlet.skipLines x.rd.buf))
    have hq' := (q_startTimer f.disp.conn j.t0).trans hq
    have hno := onReadHeadError_no env (f.disp.conn.startTimer j.t0) e (!(Inlet.skipLines x.rd.buf).isEmpty) (Inlet.isH2 (Inlet.skipLines x.rd.buf))
    generalize (f.disp.conn.startTimer j.t0).onReadHeadError env e (!(Inlet.skipLines x.rd.buf).isEmpty) (Inlet.isH2 (Inlet.skipLines x.rd.buf)) = oc at *
    have h0 := fi_quiet h (qd_conn f.disp oc.2 hq') rfl rfl
    have h' : FI H P mh fin S { disp := { f.disp with conn := oc.2 }, inlet := x, got := f.got } :=
      ⟨hfin.trans h.finEq, h0.mhEq, h0.heads, h0.carried, h0.tx,
        .between t hreads (.inl hk) (by intro dec hd; rw [hk] at hd; cases hd)⟩
    refine fi_quiet h' (d := _) (x := x) ?_ rfl rfl
    unfold Disp.afterHead
    split
    · exact QD.refl _
    · rename_i m hm
      exact absurd hm (hno m)
    · exact qd_recvErr _
    · exact qd_recvErr _
    · split
      · exact qd_close _
      · exact QD.refl _
  | msg a =>
    obtain ⟨hne, hparse, hsuf⟩ := hf
    have hparse' : H.parse f.disp.conn.method t = (.ok (some a), x.rd.stream) := (hnear.parse hne _).trans hparse
    have hsuf' : x.rd.stream <:+ t := hsuf.trans hnear.1
    simp only [hj, Inlet.seen, Conn.pollReadHead, Disp.afterHead, Fed.begin]
    obtain ⟨a1, a2, a3, a4, a5⟩ := acceptHead_facts (f.disp.conn.startTimer j.t0) (H.view f.disp.conn.method a) f.disp.headId j.notify
    have hq := q_startTimer f.disp.conn j.t0
    rw [startTimer_client] at a1
    rw [hq.mh] at a2
    rw [hq.heads] at a3
    rw [hq.mh] at a5
    generalize (f.disp.conn.startTimer j.t0).acceptHead (H.view f.disp.conn.method a) f.disp.headId j.notify = c1 at *
    have hid : ({ f.disp with conn := c1 } : Disp).headId = f.disp.headId := by unfold Disp.headId; simp only [a1]
    have key : FI H P mh fin S ⟨({ f.disp with conn := c1 } : Disp).newBody (H.view f.disp.conn.method a), x,
        f.got ++ [⟨f.disp.headId, f.disp.conn.method, a, [], none, (H.view f.disp.conn.method a).decode == DecodedLength.ZERO⟩]⟩ := by
      unfold Disp.newBody
      by_cases hz : (H.view f.disp.conn.method a).decode = DecodedLength.ZERO
      · rw [if_pos hz]
        refine ⟨hfin.trans h.finEq, a2.trans h.mhEq, ?_, h.carried.none (by simp [hasBody, hz]), ?_, ?_⟩
        · simp only [a3, h.heads, List.map_append, List.map_cons, List.map_nil, headEv]
        · intro k hk hc
          obtain ⟨dec, hd⟩ := (canReadBody_rk _).1 hc
          exact absurd hd (a4 hz dec)
        · refine .between x.rd.stream (reads_snoc hreads (by simp [hz]) hparse' hsuf' ?_) (.inr (Near.refl _ _)) (a4 hz)
          have := Body.length (P := P) (mh := mh) (fin := fin) (len := DecodedLength.ZERO) [] x.rd.stream (by decide) (by decide) rfl
          simpa [hz] using this
      · rw [if_neg hz]
        have hch := chq_replaced ({ f.disp with conn := c1 } : Disp)
        refine ⟨hfin.trans h.finEq, a2.trans h.mhEq, ?_, ?_, ?_, ?_⟩
        · simp only [a3, h.heads, List.map_append, List.map_cons, List.map_nil, headEv]
        · refine (h.carried.chq hch).snoc (by simp [hasBody, hz]) ⟨?_, rfl, List.prefix_refl _, .inl rfl, fun _ => ⟨rfl, rfl⟩, fun e => by cases e⟩
          exact hid
        · intro k hk _
          simp only [Option.some.injEq] at hk
          simp [← hk]
        · refine .within f.got _ t x.rd.stream _ rfl hreads (by simp [hz]) rfl hparse' hsuf' (by simp [hasBody, hz]) (a5 hz) (ofLength_ok _ _ _) ?_
          rw [h.mhEq]
          exact outc_congr P (ofLength_ok _ _ _) (by simp [Rd.stream, segBytes]) (hfin.trans h.finEq) []
    exact fi_quiet key (qd_afterNew _ _) rfl rfl

theorem fi_parse (hS : Stable H) (env : EncodeEnv) {f : Fed α} (h : FI H P mh fin S f) (i : ReadIn) (hp : f.disp.parses i = true) :
    FI H P mh fin S (f.read env P H i) := by
  obtain ⟨hstep, hinit⟩ := step_parses env P f.disp i (f.readIn H i) rfl hp
  unfold Fed.read
  rw [if_pos hp, hstep]
  have hpf := parse_facts hS f.disp.conn.method (f.inlet.rd.net.length + 1) f.inlet
  exact fi_head env h hinit _ _ hpf.1 hpf.2 _ rfl

end

/-! ## Reading a body -/

/-- What the connection makes of what the decoder yields. -/
def BodyFacts (dec : Decoder) (P : TrailerParser) (r : Rd) (o : BodyRes) (c' : Conn) : Prop :=
  match (dec.decode P r).1 with
  | .pending => o = .pending ∧ rk c'.reading = .dec (dec.decode P r).2.1
  | .ready (.error _) => o = .err ∧ rk c'.reading = .closed
  | .ready (.ok (.trailers fs)) => o = .trailers fs ∧ ∀ dec', rk c'.reading ≠ .dec dec'
  | .ready (.ok (.data bs)) =>
    if (dec.decode P r).2.1.isEof then o = (if bs = [] then .ended true else .data bs true) ∧ ∀ dec', rk c'.reading ≠ .dec dec'
    else if bs = [] then o = .ended false ∧ rk c'.reading = .closed
    else o = .data bs false ∧ rk c'.reading = .dec (dec.decode P r).2.1

theorem closed_stays {c c' : Conn} (h : Quiet c c') (hc : rk c.reading = .closed) : rk c'.reading = .closed := by
  rcases h.rd with e | e | ⟨e, _⟩
  · exact e.trans hc
  · exact e
  · rw [hc] at e; cases e

theorem decodeBody_facts (P : TrailerParser) (c : Conn) (dec : Decoder) (r : Rd) (i : NotifyIn) :
    BodyFacts dec P r (c.decodeBody P dec r i).1 (c.decodeBody P dec r i).2 ∧
    (c.decodeBody P dec r i).2.maxHeaders = c.maxHeaders ∧ (c.decodeBody P dec r i).2.log.filter isHead = c.log.filter isHead := by
  have hdone : c.readDone.log.filter isHead = c.log.filter isHead := by simp [Conn.readDone, List.filter_append, isHead]
  have q1 := q_tryKeepAlive c.readDone i
  have q2 := q_tryKeepAlive { c with reading := .closed } i
  have n1 : ∀ dec', rk (c.readDone.tryKeepAlive i).reading ≠ .dec dec' := fun dec' h => by have := q1.dec h; cases this
  have n2 := closed_stays q2 rfl
  unfold BodyFacts Conn.decodeBody
  rcases (dec.decode P r).1 with _ | ⟨_ | ⟨bs⟩ | ⟨fs⟩⟩
  · exact ⟨⟨rfl, rfl⟩, rfl, rfl⟩
  · exact ⟨⟨rfl, n2⟩, q2.mh, q2.heads⟩
  · dsimp only
    by_cases he : (dec.decode P r).2.1.isEof = true
    · rw [if_pos he, if_pos he]
      exact ⟨⟨rfl, n1⟩, q1.mh, q1.heads.trans hdone⟩
    · rw [if_neg he, if_neg he]
      by_cases hb : bs = []
      · rw [if_pos hb, if_pos hb]; exact ⟨⟨rfl, n2⟩, q2.mh, q2.heads⟩
      · rw [if_neg hb, if_neg hb]; exact ⟨⟨rfl, rfl⟩, rfl, rfl⟩
  · exact ⟨⟨rfl, n1⟩, q1.mh, q1.heads.trans hdone⟩

theorem pollReadBody_facts (P : TrailerParser) (c : Conn) (dec : Decoder) (hk : rk c.reading = .dec dec) (r : Rd) (i : NotifyIn) :
    BodyFacts dec P r (c.pollReadBody P r i).1 (c.pollReadBody P r i).2 ∧
    (c.pollReadBody P r i).2.maxHeaders = c.maxHeaders ∧ (c.pollReadBody P r i).2.log.filter isHead = c.log.filter isHead := by
  unfold Conn.pollReadBody
  cases hr : c.reading with
  | body d =>
    rw [hr] at hk; cases hk
    exact decodeBody_facts P c dec r i
  | cont d =>
    rw [hr] at hk; cases hk
    have h := decodeBody_facts P c.sendContinue dec r i
    have hq := q_sendContinue c
    exact ⟨h.1, h.2.1.trans hq.mh, h.2.2.trans hq.heads⟩
  | _ => rw [hr] at hk; cases hk

theorem onLast_snoc {β : Type} (g : β → β) (l : List β) (a : β) : onLast g (l ++ [a]) = l ++ [g a] := by
  induction l with
  | nil => rfl
  | cons b l ih =>
    cases l with
    | nil => rfl
    | cons c l => simp only [List.cons_append, onLast] at ih ⊢; rw [ih]

section
variable {α : Type} {H : HeadFn α} {P : TrailerParser} {mh : Option Nat} {fin : NetEnd} {S : Bytes}

theorem add_keep (r : Received α) (x : Poll (Except DErr Frame)) (e : Bool) :
    (r.add x e).id = r.id ∧ (r.add x e).method = r.method ∧ (r.add x e).head = r.head := by
  unfold Received.add
  split <;> exact ⟨rfl, rfl, rfl⟩

theorem Carried.upd {cs : List Chan} {ws : List (Received α)} {r r' : Received α} (h : Carried H cs (ws ++ [r])) (hb : hasBody H r = true)
    (hb' : hasBody H r' = true) {k : Nat} (hk : k + 1 = cs.length) {F : Chan → Chan}
    (hF : ∀ ch, cs[k]? = some ch → Carries H ch r → Carries H (F ch) r') : Carried H (updChan cs k F) (ws ++ [r']) := by
  unfold Carried at h ⊢
  rw [filter_hasBody_snoc, hb] at h
  rw [filter_hasBody_snoc, hb']
  simp only [if_true] at h ⊢
  obtain ⟨h1, h2⟩ := h
  have hlen : (ws.filter (hasBody H)).length = k := by simp at h1; omega
  refine ⟨by simp [updChan] at h1 ⊢; exact h1, fun j ch' hj => ?_⟩
  unfold updChan at hj
  rw [List.getElem?_modify] at hj
  cases hc : cs[j]? with
  | none => rw [hc] at hj; cases hj
  | some ch =>
    rw [hc] at hj
    obtain ⟨r0, g1, g2⟩ := h2 j ch hc
    by_cases e : k = j
    · subst e
      simp only [if_true, Option.map_eq_map, Option.map_some, Option.some.injEq] at hj
      rw [List.getElem?_append_right (by omega), hlen] at g1 ⊢
      simp at g1 ⊢
      subst g1
      rw [← hj]
      exact hF ch hc g2
    · simp only [e, if_false, Option.map_eq_map, Option.map_some, Option.some.injEq] at hj
      have hlt : j < k := by
        have : j < cs.length := by
          rcases Nat.lt_or_ge j cs.length with g | g
          · exact g
          · rw [List.getElem?_eq_none g] at hc; cases hc
        omega
      rw [List.getElem?_append_left (by omega)] at g1 ⊢
      exact ⟨r0, g1, by rw [← hj]; exact g2⟩

/-- After a call of the decoder. -/
theorem fi_decode {f : Fed α} (h : FI H P mh fin S f) {k : Nat} {dec : Decoder} (htx : f.disp.bodyTx = some k)
    (hk : rk f.disp.conn.reading = .dec dec) (o : BodyRes) (d' : Disp) (hf : BodyFacts dec P f.inlet.rd o d'.conn)
    (hmh : d'.conn.maxHeaders = f.disp.conn.maxHeaders) (hlog : d'.conn.log.filter isHead = f.disp.conn.log.filter isHead)
    (F : Chan → Chan) (hch : d'.chans = updChan f.disp.chans k F) (htx' : d'.bodyTx = f.disp.bodyTx ∨ d'.bodyTx = none)
    (hF : ∀ (ch : Chan) (r : Received α), f.disp.chans[k]? = some ch → Carries H ch r → r.whole = false → r.trailers = none →
      Carries H (F ch) (r.add (dec.decode P f.inlet.rd).1 (dec.decode P f.inlet.rd).2.1.isEof)) :
    FI H P mh fin S ⟨d', { f.inlet with rd := (dec.decode P f.inlet.rd).2.2 },
      onLast (fun r => r.add (dec.decode P f.inlet.rd).1 (dec.decode P f.inlet.rd).2.1.isEof) f.got⟩ := by
  have hkk := h.tx k htx ((canReadBody_rk _).2 ⟨dec, hk⟩)
  cases h.pos with
  | between _ _ _ hno => exact absurd hk (hno dec)
  | stopped _ _ _ _ _ _ hk' => rw [hk] at hk'; cases hk'
  | within ws r t body dec0 hg hr hw htr hp hs hb hk0 hd ho =>
    have : dec0 = dec := by rw [hk] at hk0; injection hk0 with e; exact e.symm
    subst this
    obtain ⟨df1, df2⟩ := decode_facts P dec0 f.inlet.rd hd
    have hstep := outc_step P dec0 hd f.inlet.rd r.data
    obtain ⟨k1, k2, k3⟩ := add_keep r (dec0.decode P f.inlet.rd).1 (dec0.decode P f.inlet.rd).2.1.isEof
    rw [hg, onLast_snoc]
    have hb' : hasBody H (r.add (dec0.decode P f.inlet.rd).1 (dec0.decode P f.inlet.rd).2.1.isEof) = true := by
      unfold hasBody; rw [k2, k3]; exact hb
    refine ⟨df1.trans h.finEq, hmh.trans h.mhEq, ?_, ?_, ?_, ?_⟩
    · dsimp only
      rw [hlog, h.heads, hg]
      simp only [List.map_append, List.map_cons, List.map_nil, headEv, k1, k2, k3]
    · dsimp only
      rw [hch]
      have hc := h.carried
      rw [hg] at hc
      exact hc.upd hb hb' hkk (fun ch g1 g2 => hF ch r g1 g2 hw htr)
    · intro k' hk' _
      dsimp only at hk' ⊢
      rw [hch]
      have : k' = k := by
        rcases htx' with e | e
        · rw [e, htx] at hk'; injection hk' with e'; exact e'.symm
        · rw [e] at hk'; cases hk'
      subst this
      simpa [updChan] using hkk
    · have hbody : ∀ data tr rest, outc P dec0 f.inlet.rd r.data = .complete data tr rest →
          Body P mh fin (H.view r.method r.head).decode body data tr rest := by
        intro data tr rest e
        rw [ho] at e
        have := body_of_complete P mh (H.view r.method r.head).decode ⟨body, [], fin⟩ data tr rest e
        simpa [Rd.stream, segBytes] using this
      unfold BodyFacts at hf
      rcases hD : (dec0.decode P f.inlet.rd).1 with _ | ⟨e | ⟨bs⟩ | ⟨fs⟩⟩
      · rw [hD] at hf hstep df2
        exact .within ws r t body _ rfl hr hw htr hp hs hb hf.2 (df2 (by simp)) (hstep.symm.trans ho)
      · rw [hD] at hf
        exact .stopped ws r t rfl hr (begun_of_within hw htr hp hs ho) hf.2
      · rw [hD] at hf hstep df2
        dsimp only at hf hstep
        by_cases he : (dec0.decode P f.inlet.rd).2.1.isEof = true
        · rw [if_pos he] at hf hstep
          refine .between (dec0.decode P f.inlet.rd).2.2.stream ?_ (.inr (Near.refl _ _)) hf.2
          refine reads_snoc hr he hp hs ?_
          have := hbody _ _ _ hstep
          rw [← htr] at this
          exact this
        · rw [if_neg he] at hf hstep
          by_cases hbs : bs = []
          · rw [if_pos hbs] at hf
            refine .stopped ws _ t rfl hr (begun_of_within (dec := dec0) (rd := f.inlet.rd) (by simpa [Received.add] using he) htr hp hs ?_) hf.2
            simp only [Received.add, hbs, List.append_nil]
            exact ho
          · rw [if_neg hbs] at hf hstep
            exact .within ws _ t body _ rfl hr (by simpa [Received.add] using he) htr hp hs hb hf.2 (df2 (by simp)) (hstep.symm.trans ho)
      · rw [hD] at hf hstep
        refine .between (dec0.decode P f.inlet.rd).2.2.stream ?_ (.inr (Near.refl _ _)) hf.2
        exact reads_snoc (r := { r with trailers := some fs, whole := true }) hr rfl hp hs (hbody _ _ _ hstep)

end

theorem upd_upd (cs : List Chan) (k : Nat) (f g : Chan → Chan) : updChan (updChan cs k f) k g = updChan cs k (fun ch => g (f ch)) := by
  unfold updChan
  apply List.ext_getElem?
  intro j
  simp only [List.getElem?_modify]
  cases cs[j]? with
  | none => rfl
  | some ch => by_cases e : k = j <;> simp [e]

theorem upd_id (cs : List Chan) (k : Nat) : updChan cs k (fun ch => ch) = cs := by
  unfold updChan
  apply List.ext_getElem?
  intro j
  simp only [List.getElem?_modify]
  cases cs[j]? with
  | none => rfl
  | some ch => by_cases e : k = j <;> simp [e]

/-- The reader being lost. -/
def loseIf (gone : Bool) (ch : Chan) : Chan := if gone then { ch with want := .closed } else ch

/-- The end having been seen. -/
def doneIf (fin : Bool) (ch : Chan) : Chan := if fin then { ch with complete := true } else ch

/-- What a piece does to the channel. -/
def pieceF (gone : Bool) (o : BodyRes) (ch : Chan) : Chan :=
  match o with
  | .pending => loseIf gone ch
  | .data bs fin =>
    if gone then (doneIf fin (loseIf gone ch)).dropSender
    else { doneIf fin (loseIf gone ch) with items := (doneIf fin (loseIf gone ch)).items ++ [.data bs] }
  | .trailers fs =>
    if gone then (doneIf true (loseIf gone ch)).dropSender else { doneIf true (loseIf gone ch) with trailers := some fs }
  | .ended fin => (doneIf fin (loseIf gone ch)).dropSender
  | .err => (loseIf gone ch).fail

theorem afterPiece_facts (d : Disp) (k : Nat) (htx : d.bodyTx = some k) (gone : Bool) (o : BodyRes) :
    ((d.maybeLose k gone).afterPiece k gone o).chans = updChan d.chans k (pieceF gone o) ∧
    Quiet d.conn ((d.maybeLose k gone).afterPiece k gone o).conn ∧
    (((d.maybeLose k gone).afterPiece k gone o).bodyTx = d.bodyTx ∨ ((d.maybeLose k gone).afterPiece k gone o).bodyTx = none) := by
  have hl : (d.maybeLose k gone).chans = updChan d.chans k (loseIf gone) ∧ (d.maybeLose k gone).conn = d.conn ∧
      (d.maybeLose k gone).bodyTx = d.bodyTx := by
    unfold Disp.maybeLose
    cases gone with
    | true => exact ⟨rfl, rfl, rfl⟩
    | false => exact ⟨(upd_id _ _).symm, rfl, rfl⟩
  have hm : ∀ (e : Disp) (fin : Bool), (e.markComplete k fin).chans = updChan e.chans k (doneIf fin) ∧ (e.markComplete k fin).conn = e.conn ∧
      (e.markComplete k fin).bodyTx = e.bodyTx := by
    intro e fin
    unfold Disp.markComplete
    cases fin with
    | true => exact ⟨rfl, rfl, rfl⟩
    | false => exact ⟨(upd_id _ _).symm, rfl, rfl⟩
  have hd : ∀ (e : Disp) (g : Chan → Chan), (e.deliver k gone g).chans = updChan e.chans k (fun ch => if gone then ch.dropSender else g ch) ∧
      Quiet e.conn (e.deliver k gone g).conn ∧ ((e.deliver k gone g).bodyTx = e.bodyTx ∨ (e.deliver k gone g).bodyTx = none) := by
    intro e g
    unfold Disp.deliver
    cases gone with
    | true =>
      simp only [if_true]
      split
      · exact ⟨rfl, q_closeRead _, .inr rfl⟩
      · exact ⟨rfl, Quiet.refl _, .inr rfl⟩
    | false => exact ⟨rfl, Quiet.refl _, .inl rfl⟩
  obtain ⟨l1, l2, l3⟩ := hl
  unfold Disp.afterPiece
  cases o with
  | pending => exact ⟨l1, by rw [l2]; exact Quiet.refl _, .inl l3⟩
  | data bs fin =>
    dsimp only
    obtain ⟨m1, m2, m3⟩ := hm (d.maybeLose k gone) fin
    obtain ⟨d1, d2, d3⟩ := hd ((d.maybeLose k gone).markComplete k fin) (fun ch => { ch with items := ch.items ++ [.data bs] })
    refine ⟨?_, by rw [m2, l2] at d2; exact d2, by rw [m3, l3] at d3; exact d3⟩
    rw [d1, m1, l1, upd_upd, upd_upd]
    rfl
  | trailers fs =>
    dsimp only
    obtain ⟨m1, m2, m3⟩ := hm (d.maybeLose k gone) true
    obtain ⟨d1, d2, d3⟩ := hd ((d.maybeLose k gone).markComplete k true) (fun ch => { ch with trailers := some fs })
    refine ⟨?_, by rw [m2, l2] at d2; exact d2, by rw [m3, l3] at d3; exact d3⟩
    rw [d1, m1, l1, upd_upd, upd_upd]
    rfl
  | ended fin =>
    dsimp only
    obtain ⟨m1, m2, m3⟩ := hm (d.maybeLose k gone) fin
    refine ⟨?_, ?_, .inr rfl⟩
    · unfold Disp.dropBody
      dsimp only
      rw [m1, l1, upd_upd, upd_upd]
      rfl
    · unfold Disp.dropBody
      dsimp only
      rw [m2, l2]
      exact Quiet.refl _
  | err =>
    dsimp only
    refine ⟨?_, by rw [l2]; exact Quiet.refl _, .inr rfl⟩
    rw [l1, upd_upd]
    rfl

section
variable {α : Type} {H : HeadFn α} {P : TrailerParser} {mh : Option Nat} {fin : NetEnd} {S : Bytes}

theorem sentData_snoc (ch : Chan) (bs : Bytes) : sentData { ch with items := ch.items ++ [.data bs] } = sentData ch ++ bs := by
  simp [sentData]

theorem loseIf_same (gone : Bool) (ch : Chan) : Same ch (loseIf gone ch) := by
  unfold loseIf
  cases gone with
  | true => exact same_lose ch
  | false => exact Same.refl ch

/-- A channel of a message that grows, with nothing sent: its reader must be gone. -/
theorem Carries.grow {ch ch' : Chan} {r r' : Received α} (h : Carries H ch r) (hid : r'.id = r.id) (hm : r'.method = r.method)
    (hh : r'.head = r.head) (hd : r.data <+: r'.data) (htr : r.trailers = none) (e1 : ch'.id = ch.id) (e2 : ch'.len = ch.len)
    (e3 : sentData ch' = sentData ch) (e4 : ch'.trailers = ch.trailers)
    (hall : ch'.want ≠ .closed → ch.want ≠ .closed ∧ r'.data = r.data ∧ r'.trailers = r.trailers)
    (hwh : ch'.complete = true → r'.whole = true) : Carries H ch' r' := by
  refine ⟨e1.trans (h.id.trans hid.symm), ?_, ?_, ?_, ?_, hwh⟩
  · rw [e2, h.len, hm, hh]
  · rw [e3]; exact h.data.trans hd
  · rw [e4]
    rcases h.trailers with g | g
    · exact .inl g
    · exact .inl (g.trans htr)
  · intro hw
    obtain ⟨g1, g2, g3⟩ := hall hw
    obtain ⟨g4, g5⟩ := h.all g1
    rw [e3, e4, g2, g3]
    exact ⟨g4, g5⟩

theorem pieceF_carries {dec : Decoder} {r : Rd} {o : BodyRes} {c' : Conn} (hf : BodyFacts dec P r o c') (gone : Bool) {ch : Chan} {m : Received α}
    (hw : ch.want = .ready) (h : Carries H ch m) (hwh : m.whole = false) (htr : m.trailers = none) :
    Carries H (pieceF gone o ch) (m.add (dec.decode P r).1 (dec.decode P r).2.1.isEof) := by
  obtain ⟨hd, ht⟩ := h.all (by rw [hw]; simp)
  have hcp : ch.complete = false := by
    cases e : ch.complete with
    | false => rfl
    | true => have := h.whole e; rw [hwh] at this; cases this
  unfold BodyFacts at hf
  rcases hD : (dec.decode P r).1 with _ | ⟨e | ⟨bs⟩ | ⟨fs⟩⟩
  · rw [hD] at hf
    rw [hf.1]
    exact h.same (loseIf_same gone ch)
  · rw [hD] at hf
    rw [hf.1]
    exact h.same ((loseIf_same gone ch).trans (same_fail _))
  · rw [hD] at hf
    dsimp only at hf
    have hdata : ∀ fin, (fin = true → (dec.decode P r).2.1.isEof = true) →
        Carries H (pieceF gone (.data bs fin) ch) (m.add (.ready (.ok (.data bs))) (dec.decode P r).2.1.isEof) := by
      intro fin hfin
      cases gone with
      | true =>
        refine h.grow rfl rfl rfl (List.prefix_append _ _) htr ?_ ?_ ?_ ?_ ?_ ?_
        all_goals cases fin <;> simp [pieceF, doneIf, loseIf, Chan.dropSender, sentData, Received.add, hcp] at hfin ⊢
        exact hfin
      | false =>
        refine ⟨?_, ?_, ?_, ?_, ?_, ?_⟩
        · cases fin <;> simpa [pieceF, doneIf, loseIf, Received.add] using h.id
        · cases fin <;> simpa [pieceF, doneIf, loseIf, Received.add] using h.len
        · cases fin <;> simp [pieceF, doneIf, loseIf, Received.add, sentData_snoc] <;> simp [sentData] at hd ⊢ <;> rw [hd] <;> exact List.prefix_refl _
        · cases fin <;> simp [pieceF, doneIf, loseIf, Received.add, ht]
        · intro _
          cases fin <;> simp [pieceF, doneIf, loseIf, Received.add, ht] <;> simp [sentData] at hd ⊢ <;> exact hd
        · cases fin <;> simp [pieceF, doneIf, loseIf, Received.add, hcp]
          simpa using hfin
    have hended : ∀ fin, bs = [] → (fin = true → (dec.decode P r).2.1.isEof = true) →
        Carries H (pieceF gone (.ended fin) ch) (m.add (.ready (.ok (.data bs))) (dec.decode P r).2.1.isEof) := by
      intro fin hbs hfin
      subst hbs
      refine h.grow rfl rfl rfl (List.prefix_append _ _) htr ?_ ?_ ?_ ?_ ?_ ?_
      all_goals cases fin <;> cases gone <;> simp [pieceF, doneIf, loseIf, Chan.dropSender, sentData, Received.add, hcp, hw] at hfin ⊢
      all_goals exact hfin
    by_cases he : (dec.decode P r).2.1.isEof = true
    · rw [if_pos he] at hf
      rw [hf.1]
      by_cases hbs : bs = []
      · rw [if_pos hbs]; exact hended true hbs (fun _ => he)
      · rw [if_neg hbs]; exact hdata true (fun _ => he)
    · rw [if_neg he] at hf
      by_cases hbs : bs = []
      · rw [if_pos hbs] at hf
        rw [hf.1]; exact hended false hbs (by simp)
      · rw [if_neg hbs] at hf
        rw [hf.1]; exact hdata false (by simp)
  · rw [hD] at hf
    rw [hf.1]
    cases gone with
    | true =>
      refine h.grow rfl rfl rfl (List.prefix_refl _) htr ?_ ?_ ?_ ?_ ?_ ?_
      all_goals simp [pieceF, doneIf, loseIf, Chan.dropSender, sentData, Received.add]
    | false =>
      refine ⟨?_, ?_, ?_, ?_, ?_, ?_⟩
      · simpa [pieceF, doneIf, loseIf, Received.add] using h.id
      · simpa [pieceF, doneIf, loseIf, Received.add] using h.len
      · simp [pieceF, doneIf, loseIf, Received.add]; simp [sentData] at hd ⊢; rw [hd]; exact List.prefix_refl _
      · simp [pieceF, doneIf, loseIf, Received.add]
      · intro _
        simp [pieceF, doneIf, loseIf, Received.add]; simp [sentData] at hd ⊢; exact hd
      · simp [pieceF, doneIf, loseIf, Received.add]

/-- A message whose reader is gone grows. -/
theorem closed_carries {ch : Chan} {m : Received α} (hw : ch.want = .closed) (h : Carries H ch m) (hwh : m.whole = false) (htr : m.trailers = none)
    (x : Poll (Except DErr Frame)) (e : Bool) : Carries H ch.dropSender (m.add x e) := by
  obtain ⟨k1, k2, k3⟩ := add_keep m x e
  refine h.grow k1 k2 k3 ?_ htr rfl rfl rfl rfl (fun g => absurd hw g) ?_
  · unfold Received.add
    split
    · exact List.prefix_refl _
    · exact List.prefix_append _ _
    · exact List.prefix_refl _
  · intro hc
    have : ch.complete = true := hc
    have := h.whole this
    rw [hwh] at this; cases this

theorem fi_body (env : EncodeEnv) {f : Fed α} (h : FI H P mh fin S f) (i : ReadIn) (dec : Decoder) (hp : f.disp.parses i = false)
    (hd : f.disp.decodes i = some dec) : FI H P mh fin S (f.read env P H i) := by
  unfold Fed.read
  rw [if_neg (by simp [hp]), hd]
  dsimp only
  unfold Disp.decodes at hd
  by_cases hg : (f.disp.done || f.disp.closing || f.disp.conn.canReadHead) = true
  · rw [if_pos hg] at hd; cases hd
  · rw [if_neg hg] at hd
    simp only [Bool.or_eq_true, not_or, Bool.not_eq_true] at hg
    obtain ⟨⟨g1, g2⟩, g3⟩ := hg
    cases htx : f.disp.bodyTx with
    | none => rw [htx] at hd; cases hd
    | some k =>
      rw [htx] at hd
      dsimp only at hd
      have hstep : f.disp.step env P (.read (f.readIn H i)) = f.disp.readBody P (f.readIn H i) k := by
        unfold Disp.step Disp.readTurn
        simp [g1, g2, g3, htx]
      rw [hstep]
      have main : f.disp.decoder = some dec → f.disp.conn.canReadBody = true ∧ rk f.disp.conn.reading = .dec dec := by
        intro e
        have e' := (decoder_rk f.disp dec).1 e
        exact ⟨(canReadBody_rk _).2 ⟨dec, e'⟩, e'⟩
      have drain : f.disp.decoder = some dec → (∀ ch, f.disp.chans[k]? = some ch → ch.want = .closed) →
          FI H P mh fin S ⟨{ f.disp.dropBody k with conn := f.disp.conn.drainOrClose P f.inlet.rd i.notify },
            { f.inlet with rd := (dec.decode P f.inlet.rd).2.2 },
            onLast (fun r => r.add (dec.decode P f.inlet.rd).1 (dec.decode P f.inlet.rd).2.1.isEof) f.got⟩ := by
        intro e hcl
        obtain ⟨_, hk⟩ := main e
        have hq := q_drainStart f.disp.conn
        have hk' : rk f.disp.conn.drainStart.reading = .dec dec := by
          unfold Conn.drainStart
          split
          · rename_i d0 hr; rw [hr] at hk; exact hk
          · exact hk
        obtain ⟨b1, b2, b3⟩ := pollReadBody_facts P f.disp.conn.drainStart dec hk' f.inlet.rd i.notify
        have core := fi_decode h htx hk _ ⟨(f.disp.conn.drainStart.pollReadBody P f.inlet.rd i.notify).2, none, f.disp.bodyRx, f.disp.closing,
          f.disp.inFlight, f.disp.next, updChan f.disp.chans k Chan.dropSender, f.disp.done⟩ b1 (b2.trans hq.mh) (b3.trans hq.heads)
          Chan.dropSender rfl (.inr rfl) (fun ch r c1 c2 c3 c4 => closed_carries (hcl ch c1) c2 c3 c4 _ _)
        exact fi_quiet core (.of (q_drainEnd _) rfl rfl) rfl rfl
      unfold Disp.readBody
      cases hch : f.disp.chans[k]? with
      | none =>
        rw [hch] at hd
        simp only [Option.map_none] at hd ⊢
        rw [if_pos (main hd).1]
        exact drain hd (fun ch hc => by rw [hch] at hc; cases hc)
      | some ch =>
        rw [hch] at hd
        simp only [Option.map_some] at hd ⊢
        cases hw : ch.want with
        | pending => rw [hw] at hd; cases hd
        | closed =>
          rw [hw] at hd
          dsimp only at hd ⊢
          rw [if_pos (main hd).1]
          exact drain hd (fun ch' hc => by rw [hch] at hc; injection hc with e; rw [← e]; exact hw)
        | ready =>
          rw [hw] at hd
          dsimp only at hd ⊢
          by_cases hfull : i.full = true
          · rw [if_pos hfull] at hd; cases hd
          · rw [if_neg hfull] at hd
            obtain ⟨hb, hk⟩ := main hd
            rw [if_pos hb, if_neg (show ¬ (f.readIn H i).full = true from hfull)]
            unfold Disp.readPiece
            obtain ⟨b1, b2, b3⟩ := pollReadBody_facts P f.disp.conn dec hk f.inlet.rd i.notify
            have hr1 : (f.readIn H i).rd = f.inlet.rd := rfl
            have hr2 : (f.readIn H i).notify = i.notify := rfl
            have hr3 : (f.readIn H i).gone = i.gone := rfl
            rw [hr1, hr2, hr3]
            generalize f.disp.conn.pollReadBody P f.inlet.rd i.notify = oc at *
            obtain ⟨a1, a2, a3⟩ := afterPiece_facts { f.disp with conn := oc.2 } k htx i.gone oc.1
            generalize hd2 : (({ f.disp with conn := oc.2 } : Disp).maybeLose k i.gone).afterPiece k i.gone oc.1 = d2 at *
            have core := fi_decode h htx hk oc.1 { d2 with conn := oc.2 } b1 b2 b3 (pieceF i.gone oc.1) a1 a3
              (fun ch' r c1 c2 c3 c4 => pieceF_carries b1 i.gone (by rw [hch] at c1; injection c1 with e; rw [← e]; exact hw) c2 c3 c4)
            exact fi_quiet core (.of a2 rfl rfl) rfl rfl

theorem fi_step (hS : Stable H) (env : EncodeEnv) {f : Fed α} (h : FI H P mh fin S f) (a : FAct) : FI H P mh fin S (f.step env P H a) := by
  cases a with
  | pull =>
    obtain ⟨p1, p2, _⟩ := peek_facts f.inlet
    exact fi_quiet h (QD.refl _) p1 p2
  | act a =>
    by_cases hr : ∃ i, a = .read i
    · obtain ⟨i, rfl⟩ := hr
      change FI H P mh fin S (f.read env P H i)
      by_cases hp : f.disp.parses i = true
      · exact fi_parse hS env h i hp
      · have hp' : f.disp.parses i = false := by simpa using hp
        cases hd : f.disp.decodes i with
        | some dec => exact fi_body env h i dec hp' hd
        | none =>
          unfold Fed.read
          rw [if_neg hp, hd]
          exact fi_quiet h (qd_idle env P f.disp i (f.readIn H i) rfl rfl hp' hd) rfl rfl
    · have hq := qd_step env P f.disp a (fun i e => hr ⟨i, e⟩)
      have : f.step env P H (.act a) = { f with disp := f.disp.step env P a } := by
        cases a with
        | read i => exact absurd ⟨i, rfl⟩ hr
        | _ => rfl
      rw [this]
      exact fi_quiet h hq rfl rfl

theorem fi_run (hS : Stable H) (env : EncodeEnv) (as : List FAct) : ∀ {f : Fed α}, FI H P mh fin S f → FI H P mh fin S (f.run env P H as) := by
  induction as with
  | nil => intro f h; exact h
  | cons a as ih => intro f h; exact ih (fi_step hS env h a)

theorem fi_start {f : Fed α} (hd : f.disp.Start) (hg : f.got = []) : FI H P f.disp.conn.maxHeaders f.inlet.rd.fin f.inlet.rd.stream f := by
  refine ⟨rfl, rfl, ?_, ?_, ?_, ?_⟩
  · rw [hd.log, hg]; rfl
  · rw [hg]
    exact ⟨by rw [hd.chans]; rfl, fun k ch h => by rw [hd.chans] at h; simp at h⟩
  · intro k hk; rw [hd.bodyTx] at hk; cases hk
  · refine .between f.inlet.rd.stream (by rw [hg]; exact .nil _) (.inr (Near.refl _ _)) ?_
    intro dec h; rw [hd.reading] at h; cases h

end

end Hyper.Input
