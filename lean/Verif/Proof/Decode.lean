import Verif.Model.Decode
import Verif.Proof.Transport
import Verif.Spec.Outcome

/-!
# The decoders as automata over the concatenated byte stream
-/

namespace Hyper

/-- One byte through the chunked automaton. -/
def Chunked.feed1 (c : Chunked) (b : Byte) : Except DErr (Chunked × Bytes) :=
  if c.state = .body then
    .ok ({ c with len := c.len - 1, state := if c.len - 1 > 0 then .body else .bodyCr }, [b])
  else
    match c.onByte b with
    | (.error e, _) => .error e
    | (.ok s, c') => .ok ({ c' with state := s }, [])

/-- What the automaton does when it stands before `bs` and the transport then ends with `fin`. -/
def Chunked.run (P : TrailerParser) (fin : NetEnd) : Chunked → Bytes → Bytes → Outcome
  | c, [], acc =>
    match fin with
    | .silent => .waiting acc
    | .eof => .failed acc (if c.state = .body then .incompleteBody else .eofInLine)
    | .err => .failed acc .io
  | c, b :: bs, acc =>
    match c.feed1 b with
    | .error e => .failed acc e
    | .ok (c', o) =>
      if c'.state = .finished then
        match c'.tbuf with
        | some t =>
          match P t c'.tcnt with
          | some fs => .complete (acc ++ o) (some fs) bs
          | none => .failed (acc ++ o) .badTrailers
        | none => .complete (acc ++ o) none bs
      else Chunked.run P fin c' bs (acc ++ o)

/-- States in which the decoder can be between calls. -/
def Chunked.Ok (c : Chunked) : Prop := c.state ≠ .finished ∧ (c.state = .body → 0 < c.len)

theorem Chunked.pushDigit_ok {c c' : Chunked} {d : Nat} {s : CState}
    (h : c.pushDigit d = (.ok s, c')) : s = .size := by
  unfold Chunked.pushDigit at h
  split at h
  · simp at h
  · split at h
    · simp at h
    · simp at h; exact h.1.symm

/-- A byte handler only moves to `body` with a positive chunk length. -/
theorem Chunked.onByte_body {c c' : Chunked} {b : Byte} (hb : c.state ≠ .body)
    (h : c.onByte b = (.ok .body, c')) : 0 < c'.len := by
  have hpd : ∀ d, c.pushDigit d ≠ (.ok .body, c') := by
    intro d hd; have := Chunked.pushDigit_ok hd; simp at this
  cases hs : c.state <;> simp only [Chunked.onByte, hs] at h
  · unfold Chunked.readStart at h
    repeat' split at h
    all_goals first | exact absurd h (hpd _) | simp at h
  · unfold Chunked.readSize at h
    repeat' split at h
    all_goals first | exact absurd h (hpd _) | simp at h
  · unfold Chunked.readSizeLws at h
    repeat' split at h
    all_goals simp at h
  · unfold Chunked.readExtension at h
    simp only at h
    repeat' split at h
    all_goals simp at h
  · unfold Chunked.readSizeLf at h
    repeat' split at h
    all_goals simp at h
    subst h; omega
  · simp at h
  · unfold Chunked.readBodyCr at h
    repeat' split at h
    all_goals simp at h
  · unfold Chunked.readBodyLf at h
    repeat' split at h
    all_goals simp at h
  · unfold Chunked.readTrailer Chunked.putU8 at h
    simp only at h
    repeat' split at h
    all_goals simp at h
  · unfold Chunked.readTrailerLf Chunked.putU8 at h
    simp only at h
    repeat' split at h
    all_goals simp at h
  · unfold Chunked.readEndCr Chunked.putU8 at h
    simp only at h
    repeat' split at h
    all_goals simp at h
  · unfold Chunked.readEndLf Chunked.putU8 at h
    simp only at h
    repeat' split at h
    all_goals simp at h
  · simp at h

/-- Feeding a whole slice of chunk data. -/
theorem Chunked.run_body (P : TrailerParser) (fin : NetEnd) (bs : Bytes) :
    ∀ (c : Chunked) (rest acc : Bytes), c.state = .body → bs ≠ [] → bs.length ≤ c.len →
    c.run P fin (bs ++ rest) acc =
      Chunked.run P fin
        { c with
          len := c.len - bs.length
          state := if c.len - bs.length > 0 then .body else .bodyCr } rest (acc ++ bs) := by
  induction bs with
  | nil => intro c rest acc _ h; exact absurd rfl h
  | cons b bs ih =>
    intro c rest acc hs _ hl
    simp only [List.length_cons] at hl
    simp only [List.cons_append, Chunked.run, Chunked.feed1, hs, if_true]
    have hne : (if c.len - 1 > 0 then CState.body else CState.bodyCr) ≠ CState.finished := by
      split <;> simp
    simp only [hne, if_false]
    cases bs with
    | nil => simp
    | cons b2 bs =>
      have h1 : c.len - 1 > 0 := by simp at hl; omega
      simp only [h1, if_true]
      rw [ih { c with len := c.len - 1, state := .body } rest (acc ++ [b]) rfl (by simp)
        (by simp at hl ⊢; omega)]
      have : c.len - 1 - (b2 :: bs).length = c.len - (b :: b2 :: bs).length := by
        simp; omega
      simp only [this, List.append_assoc, List.cons_append, List.nil_append]

/-- What one call of the decoder's loop does, in terms of the automaton. -/
inductive LoopSpec (P : TrailerParser) (c : Chunked) (r : Rd) :
    Poll (Except DErr Frame) × Chunked × Rd → Prop
  | wait (c' : Chunked) (r' : Rd)
      (hrun : ∀ acc, c.run P r.fin r.stream acc = c'.run P r'.fin r'.stream acc)
      (hok : c'.Ok) (hlt : r'.size < r.size) : LoopSpec P c r (.pending, c', r')
  | stuck (c' : Chunked) (r' : Rd)
      (hrun : ∀ acc, c.run P r.fin r.stream acc = c'.run P r'.fin r'.stream acc)
      (hok : c'.Ok) (hs : r'.stream = []) (hn : r'.net = []) (hf : r'.fin = .silent)
      (hle : r'.size ≤ r.size) :
      LoopSpec P c r (.pending, c', r')
  | fail (e : DErr) (c' : Chunked) (r' : Rd)
      (hrun : ∀ acc, c.run P r.fin r.stream acc = .failed acc e) :
      LoopSpec P c r (.ready (.error e), c', r')
  | trailers (fs : Fields) (c' : Chunked) (r' : Rd) (hf : r'.fin = r.fin)
      (hrun : ∀ acc, c.run P r.fin r.stream acc = .complete acc (some fs) r'.stream) :
      LoopSpec P c r (.ready (.ok (.trailers fs)), c', r')
  | done (c' : Chunked) (r' : Rd) (hfin : c'.state = .finished) (hf : r'.fin = r.fin)
      (hrun : ∀ acc, c.run P r.fin r.stream acc = .complete acc none r'.stream) :
      LoopSpec P c r (.ready (.ok (.data [])), c', r')
  | data (b : Byte) (bs : Bytes) (c' : Chunked) (r' : Rd)
      (hrun : ∀ acc, c.run P r.fin r.stream acc =
        c'.run P r'.fin r'.stream (acc ++ (b :: bs)))
      (hok : c'.Ok) (hlt : r'.size < r.size) :
      LoopSpec P c r (.ready (.ok (.data (b :: bs))), c', r')

theorem Chunked.decodeLoop_spec (P : TrailerParser) (fuel : Nat) :
    ∀ (c : Chunked) (r : Rd), c.Ok → r.size < fuel → LoopSpec P c r (c.decodeLoop P fuel r) := by
  induction fuel with
  | zero => intro c r _ h; omega
  | succ fuel ih =>
    intro c r hok hfuel
    obtain ⟨hnf, hpos⟩ := hok
    by_cases hb : c.state = .body
    · -- reading chunk data
      have hlen := hpos hb
      have hrd := readMem_spec r c.len hlen
      simp only [Chunked.decodeLoop, Chunked.step, hb, Chunked.readBody]
      generalize r.readMem c.len = q at hrd
      cases hrd with
      | wait r' hs hf hlt =>
        exact .wait c r' (by intro acc; rw [hs, hf]) ⟨hnf, hpos⟩ hlt
      | stuck hs hn hf =>
        exact .stuck c r (by intro acc; rfl) ⟨hnf, hpos⟩ hs hn hf (Nat.le_refl _)
      | err hs hf =>
        exact .fail .io c r (by intro acc; rw [hs, hf]; simp [Chunked.run])
      | eof hs hf =>
        simp only [List.length_nil, if_true]
        exact .fail .incompleteBody _ r (by intro acc; rw [hs, hf]; simp [Chunked.run, hb])
      | data b bs r' hs hl hf hlt =>
        have h0 : (b :: bs).length ≠ 0 := by simp
        have hne : (if c.len - (b :: bs).length > 0 then CState.body else CState.bodyCr)
            ≠ CState.finished := by split <;> simp
        simp only [h0, if_false, hne]
        refine .data b bs _ r' ?_ ⟨by simpa using hne, ?_⟩ hlt
        · intro acc
          rw [hs, hf, Chunked.run_body P r.fin (b :: bs) c r'.stream acc hb (by simp) hl]
        · intro h; simp only at h ⊢
          by_cases hp : c.len - (b :: bs).length > 0
          · exact hp
          · rw [if_neg hp] at h; cases h
    · have hrd := readMem_spec r 1 (by omega)
      have hstep : c.step r = c.readByte r := by
        unfold Chunked.step
        cases hs : c.state <;> simp_all
      simp only [Chunked.decodeLoop, hstep, Chunked.readByte]
      clear hstep
      generalize r.readMem 1 = q at hrd
      cases hrd with
      | wait r' hs hf hlt =>
        exact .wait c r' (by intro acc; rw [hs, hf]) ⟨hnf, hpos⟩ hlt
      | stuck hs hn hf =>
        exact .stuck c r (by intro acc; rfl) ⟨hnf, hpos⟩ hs hn hf (Nat.le_refl _)
      | err hs hf =>
        exact .fail .io c r (by intro acc; rw [hs, hf]; simp [Chunked.run])
      | eof hs hf =>
        exact .fail .eofInLine _ r (by intro acc; rw [hs, hf]; simp [Chunked.run, hb])
      | data b bs r' hs hl hf hlt =>
        have hbs : bs = [] := by
          cases bs with
          | nil => rfl
          | cons x xs => simp at hl
        subst hbs
        have hrun : ∀ acc, c.run P r.fin r.stream acc = c.run P r'.fin (b :: r'.stream) acc := by
          intro acc; rw [hs, hf]; rfl
        rcases hout : c.onByte b with ⟨res, c'⟩
        simp only [hout]
        cases res with
        | error e =>
          refine .fail e c' r' ?_
          intro acc; rw [hrun]; simp [Chunked.run, Chunked.feed1, hb, hout]
        | ok s =>
          have hfeed : c.feed1 b = .ok ({ c' with state := s }, []) := by
            simp [Chunked.feed1, hb, hout]
          by_cases hsf : s = .finished
          · simp only [hsf, if_true]
            cases ht : c'.tbuf with
            | none =>
              refine .done _ r' rfl hf ?_
              intro acc; rw [hrun]; simp [Chunked.run, hfeed, hsf, ht]
            | some t =>
              cases hP : P t c'.tcnt with
              | none =>
                simp only [hP]
                refine .fail .badTrailers _ r' ?_
                intro acc; rw [hrun]; simp [Chunked.run, hfeed, hsf, ht, hP]
              | some fs =>
                simp only [hP]
                refine .trailers fs _ r' hf ?_
                intro acc; rw [hrun]; simp [Chunked.run, hfeed, hsf, ht, hP]
          · simp only [hsf, if_false]
            have hrun2 : ∀ acc, c.run P r.fin r.stream acc =
                Chunked.run P r'.fin { c' with state := s } r'.stream acc := by
              intro acc; rw [hrun]; simp [Chunked.run, hfeed, hsf]
            have hok' : Chunked.Ok { c' with state := s } := by
              refine ⟨hsf, ?_⟩
              intro h; simp only at h; subst h
              have := Chunked.onByte_body hb hout
              exact this
            have := ih { c' with state := s } r' hok' (by omega)
            generalize Chunked.decodeLoop P fuel { c' with state := s } r' = out at this
            cases this with
            | wait c2 r2 h1 h2 h3 =>
              exact .wait c2 r2 (by intro acc; rw [hrun2, h1]) h2 (by omega)
            | stuck c2 r2 h1 h2 h3 h4 h5 h6 =>
              exact .stuck c2 r2 (by intro acc; rw [hrun2, h1]) h2 h3 h4 h5 (by omega)
            | fail e c2 r2 h1 => exact .fail e c2 r2 (by intro acc; rw [hrun2, h1])
            | trailers fs c2 r2 h1 h2 =>
              exact .trailers fs c2 r2 (h1.trans hf) (by intro acc; rw [hrun2, h2])
            | done c2 r2 h1 h2 h3 =>
              exact .done c2 r2 h1 (h2.trans hf) (by intro acc; rw [hrun2, h3])
            | data x xs c2 r2 h1 h2 h3 =>
              exact .data x xs c2 r2 (by intro acc; rw [hrun2, h1]) h2 (by omega)

/-- Polling a chunked body to exhaustion is the automaton run on the concatenated stream. -/
theorem Chunked.poll_run (P : TrailerParser) (n : Nat) :
    ∀ (c : Chunked) (r : Rd) (acc : Bytes), c.Ok → r.size < n →
    ((Decoder.chunked c).poll P n r acc).view = c.run P r.fin r.stream acc := by
  induction n with
  | zero => intro c r acc _ h; omega
  | succ n ih =>
    intro c r acc hok hn
    have hspec := Chunked.decodeLoop_spec P (r.size + 1) c r hok (by omega)
    simp only [Decoder.poll, Decoder.decode]
    generalize Chunked.decodeLoop P (r.size + 1) c r = out at hspec
    cases hspec with
    | wait c' r' h1 h2 h3 => simp only; rw [ih c' r' acc h2 (by omega), h1]
    | stuck c' r' h1 h2 h3 h4 h5 h6 =>
      simp only
      rw [h1, h3, h5]
      -- nothing can change any more
      have hst : ∀ m, ((Decoder.chunked c').poll P m r' acc).view = .waiting acc := by
        intro m
        induction m with
        | zero => rfl
        | succ m ihm =>
          have hb : r'.buf = [] := by
            have := h3; simp only [Rd.stream, List.append_eq_nil_iff] at this; exact this.1
          have hrm : ∀ k, r'.readMem k = (.pending, r') := by
            intro k
            obtain ⟨b, ne, fi⟩ := r'
            simp only at hb h4 h5
            subst hb h4 h5
            simp [Rd.readMem, Rd.readIo]
          have hl : Chunked.decodeLoop P (r'.size + 1) c' r' = (.pending, c', r') := by
            simp only [Chunked.decodeLoop, Chunked.step, Chunked.readBody, Chunked.readByte, hrm]
            have := h2.1
            cases hs : c'.state <;> simp_all
          simp only [Decoder.poll, Decoder.decode, hl]
          exact ihm
      rw [hst n]; simp [Chunked.run]
    | fail e c' r' h1 => simp only; rw [h1]; rfl
    | trailers fs c' r' h1 h2 => simp only; rw [h2]; rfl
    | done c' r' h1 h2 h3 =>
      simp only [Decoder.isEof, h1, beq_self_eq_true, if_true, List.append_nil]
      rw [h3]; rfl
    | data b bs c' r' h1 h2 h3 =>
      have hne : (c'.state == CState.finished) = false := by
        simpa using h2.1
      simp only [Decoder.isEof, hne, reduceCtorEq, if_false, Bool.false_eq_true]
      rw [ih c' r' _ h2 (by omega), h1]

theorem Chunked.new_ok (a b : Option Nat) : (Chunked.new a b).Ok := by
  simp [Chunked.new, Chunked.Ok]

theorem Chunked.readAll_run (P : TrailerParser) (c : Chunked) (r : Rd) (h : c.Ok) :
    ((Decoder.chunked c).readAll P r).view = c.run P r.fin r.stream [] :=
  Chunked.poll_run P _ c r [] h (by omega)

end Hyper
