import Verif.Proof.Decode

/-! # The content-length and close-delimited decoders over the concatenated stream -/

namespace Hyper

variable (P : TrailerParser)

/-- A silent, exhausted transport keeps every decoder that needs bytes waiting. -/
theorem readMem_stuck {r : Rd} (hs : r.stream = []) (hn : r.net = []) (hf : r.fin = .silent)
    (k : Nat) : r.readMem k = (.pending, r) := by
  have hb : r.buf = [] := by
    have := hs; simp only [Rd.stream, List.append_eq_nil_iff] at this; exact this.1
  obtain ⟨b, ne, fi⟩ := r
  simp only at hb hn hf
  subst hb hn hf
  simp [Rd.readMem, Rd.readIo]

/-- Outcome of a content-length body. -/
def lengthOutcome (n : Nat) (fin : NetEnd) (s acc : Bytes) : Outcome :=
  if n ≤ s.length then .complete (acc ++ s.take n) none (s.drop n)
  else match fin with
    | .silent => .waiting (acc ++ s)
    | .eof => .failed (acc ++ s) .incompleteBody
    | .err => .failed (acc ++ s) .io

theorem Decoder.length_poll (k : Nat) : ∀ (n : Nat) (r : Rd) (acc : Bytes), r.size < k →
    ((Decoder.length n).poll P k r acc).view = lengthOutcome n r.fin r.stream acc := by
  induction k with
  | zero => intro n r acc h; omega
  | succ k ih =>
    intro n r acc hk
    by_cases hn : n = 0
    · subst hn
      simp [Decoder.poll, Decoder.decode, Decoder.isEof, BodyOut.view, lengthOutcome]
    · have hrd := readMem_spec r n (by omega)
      simp only [Decoder.poll, Decoder.decode, hn, if_false]
      cases hq : r.readMem n with
      | mk res r0 =>
      rw [hq] at hrd
      cases hrd with
      | wait r' hs hf hlt =>
        simp only
        rw [ih n r0 acc (by omega), hs, hf]
      | stuck hs hn' hf =>
        simp only
        have hst : ∀ m, ((Decoder.length n).poll P m r acc).view = .waiting acc := by
          intro m
          induction m with
          | zero => rfl
          | succ m ihm =>
            simp only [Decoder.poll, Decoder.decode, hn, if_false, readMem_stuck hs hn' hf]
            exact ihm
        rw [hst k, hs, hf]
        simp [lengthOutcome, hn]
      | err hs hf =>
        simp [hs, hf, lengthOutcome, hn, BodyOut.view]
      | eof hs hf =>
        simp [hs, hf, lengthOutcome, hn, BodyOut.view]
      | data b bs r' hs hl hf hlt =>
        have h0 : ¬ ((b :: bs).length > n) := by omega
        have h1 : (b :: bs).length ≠ 0 := by simp
        simp only [h0, h1, if_false, Decoder.isEof]
        by_cases he : n - (b :: bs).length = 0
        · have hne : n = (b :: bs).length := by omega
          simp only [he, beq_self_eq_true, if_true, BodyOut.view, lengthOutcome]
          rw [hs, hne]
          simp
        · have he' : (n - (b :: bs).length == 0) = false := by simpa using he
          simp only [he', Bool.false_eq_true, if_false, reduceCtorEq]
          rw [ih _ r0 _ (by omega), hs, hf]
          simp only [lengthOutcome]
          have hnl : (b :: bs).length ≤ n := hl
          by_cases hc : n - (b :: bs).length ≤ r0.stream.length
          · have hc' : n ≤ (b :: bs ++ r0.stream).length := by
              simp only [List.length_append]; omega
            simp only [hc, hc', if_true]
            obtain ⟨m, hm⟩ := Nat.exists_eq_add_of_le hnl
            rw [hm, Nat.add_sub_cancel_left, List.take_length_add_append,
              List.drop_length_add_append, List.append_assoc]
          · have hc' : ¬ n ≤ (b :: bs ++ r0.stream).length := by
              simp only [List.length_append]; omega
            simp only [hc, hc', if_false]
            cases r.fin <;> simp

theorem Decoder.length_readAll (n : Nat) (r : Rd) :
    ((Decoder.length n).readAll P r).view = lengthOutcome n r.fin r.stream [] :=
  Decoder.length_poll P _ n r [] (by omega)

/-- Outcome of a close-delimited body. -/
def eofOutcome (fin : NetEnd) (s acc : Bytes) : Outcome :=
  match fin with
  | .silent => .waiting (acc ++ s)
  | .eof => .complete (acc ++ s) none []
  | .err => .failed (acc ++ s) .io

theorem Decoder.eof_poll (k : Nat) : ∀ (r : Rd) (acc : Bytes), r.size < k →
    ((Decoder.eof false).poll P k r acc).view = eofOutcome r.fin r.stream acc := by
  induction k with
  | zero => intro r acc h; omega
  | succ k ih =>
    intro r acc hk
    have hrd := readMem_spec r 8192 (by omega)
    simp only [Decoder.poll, Decoder.decode, Bool.false_eq_true, if_false]
    cases hq : r.readMem 8192 with
    | mk res r0 =>
    rw [hq] at hrd
    cases hrd with
    | wait r' hs hf hlt =>
      simp only
      rw [ih r0 acc (by omega), hs, hf]
    | stuck hs hn' hf =>
      simp only
      have hst : ∀ m, ((Decoder.eof false).poll P m r acc).view = .waiting acc := by
        intro m
        induction m with
        | zero => rfl
        | succ m ihm =>
          simp only [Decoder.poll, Decoder.decode, Bool.false_eq_true, if_false,
            readMem_stuck hs hn' hf]
          exact ihm
      rw [hst k, hs, hf]
      simp [eofOutcome]
    | err hs hf => simp [hs, hf, eofOutcome, BodyOut.view]
    | eof hs hf => simp [hs, hf, eofOutcome, BodyOut.view, Decoder.isEof]
    | data b bs r' hs hl hf hlt =>
      simp only [Decoder.isEof, List.isEmpty_cons, Bool.false_eq_true, if_false, reduceCtorEq]
      rw [ih r0 _ (by omega), hs, hf]
      cases r.fin <;> simp [eofOutcome]

theorem Decoder.eof_readAll (r : Rd) :
    ((Decoder.eof false).readAll P r).view = eofOutcome r.fin r.stream [] :=
  Decoder.eof_poll P _ r [] (by omega)

end Hyper
