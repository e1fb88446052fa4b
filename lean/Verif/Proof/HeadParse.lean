import Verif.Spec.Heads
import Verif.Model.HeadParse
import Verif.Proof.ServerEncodeHead

/-! # Splitting and reading heads -/

namespace Hyper

open Spec

/-! ## Splitting -/

theorem cutCrlf_line (l rest : Bytes) (h : 13 ∉ l) : cutCrlf (l ++ CRLF ++ rest) = some (l, rest) := by
  induction l with
  | nil => rfl
  | cons b l ih =>
    simp only [List.mem_cons, not_or] at h
    rw [List.cons_append, List.cons_append, cutCrlf, if_neg (fun hh => h.1 hh.1.symm), ih h.2]
    rfl

theorem cutColon_line (n v : Bytes) (h : 58 ∉ n) : cutColon (n ++ 58 :: v) = some (n, v) := by
  induction n with
  | nil => rfl
  | cons b n ih =>
    simp only [List.mem_cons, not_or] at h
    rw [List.cons_append, cutColon, if_neg (fun hh => h.1 hh.symm), ih h.2]
    rfl

/-- A name without colon or CR, a value without CR: enough for the line to be split back. -/
def Spec.PlainField (f : Bytes × Bytes) : Prop := 58 ∉ f.1 ∧ 13 ∉ f.1 ∧ 13 ∉ f.2

theorem splitBlock_written {bs : Bytes} {fs : List (Bytes × Bytes)} (h : WrittenLines bs fs)
    (hf : ∀ f ∈ fs, PlainField f) : SplitBlock bs fs := by
  have e1 : ascii ": " = [58, 32] := by decide
  have e2 : ascii ":" = [58] := by decide
  induction h with
  | nil => exact .nil
  | cons f _ ih =>
    have ih' := ih (fun g hg => hf g (by simp [hg]))
    obtain ⟨h1, h2, h3⟩ := hf f (by simp)
    show SplitBlock _ ((f.1, dropSpace (32 :: f.2)) :: _)
    refine .cons (l := f.1 ++ 58 :: 32 :: f.2) ?_ (cutColon_line _ _ h1) ih'
    have := cutCrlf_line (f.1 ++ 58 :: 32 :: f.2)
    simp only [line, e1]
    rw [show f.1 ++ [58, 32] ++ f.2 = f.1 ++ 58 :: 32 :: f.2 by simp]
    exact this _ (by simp [h2, h3])
  | empty n _ ih =>
    have ih' := ih (fun g hg => hf g (by simp [hg]))
    obtain ⟨h1, h2, h3⟩ := hf (n, []) (by simp)
    rw [show ((n, []) : Bytes × Bytes) = (n, dropSpace []) from rfl]
    refine .cons (l := n ++ 58 :: []) ?_ (cutColon_line _ _ h1) ih'
    rw [e2]
    exact cutCrlf_line (n ++ [58]) _ (by simp at h2 ⊢; exact h2)

theorem Spec.SplitBlock.unique {bs : Bytes} {fs gs : List (Bytes × Bytes)} (h : SplitBlock bs fs)
    (h' : SplitBlock bs gs) : fs = gs := by
  induction h generalizing gs with
  | nil =>
    cases h' with
    | nil => rfl
    | cons a => simp [cutCrlf] at a
  | cons a b _ ih =>
    cases h' with
    | nil => simp [cutCrlf] at a
    | cons a' b' c' =>
      rw [a] at a'
      simp only [Option.some.injEq, Prod.mk.injEq] at a'
      obtain ⟨rfl, rfl⟩ := a'
      rw [b] at b'
      simp only [Option.some.injEq, Prod.mk.injEq] at b'
      obtain ⟨rfl, rfl⟩ := b'
      rw [ih c']

theorem tchar_plain : ∀ b : Byte, isTchar b = true → b ≠ 58 ∧ b ≠ 13 ∧ b ≠ 32 := by
  apply byte_forall; decide +kernel

theorem valueByte_plain : ∀ b : Byte, isValueByte b = true → b ≠ 13 ∧ b ≠ 10 := by
  apply byte_forall; decide +kernel

theorem Spec.WireField.plain {f : Bytes × Bytes} (h : WireField f) : PlainField f := by
  refine ⟨fun hh => ?_, fun hh => ?_, fun hh => ?_⟩
  · exact (tchar_plain _ (h.name_ok _ hh)).1 rfl
  · exact (tchar_plain _ (h.name_ok _ hh)).2.1 rfl
  · exact (valueByte_plain _ (h.value_ok _ hh)).1 rfl

/-! ## The reference parsers satisfy the assumptions -/

theorem refField_line (f : Bytes × Bytes) (hf : WireField f) (rest : Bytes) :
    refField (line f ++ rest) = some ((f.1, trimBlanks f.2), rest) := by
  obtain ⟨n, v⟩ := f
  have h58 : isTchar 58 = false := by decide
  have h13 : isValueByte 13 = false := by decide
  have h32 : isValueByte 32 = true := by decide
  have hl : line (n, v) ++ rest = n ++ 58 :: (32 :: v ++ 13 :: 10 :: rest) := by
    have : ascii ": " = [58, 32] := by decide
    simp [line, this]
  have h1 := takeWhile_append_stop (xs := n) (y := 58) (ys := 32 :: v ++ 13 :: 10 :: rest)
    hf.name_ok h58
  have h2 := takeWhile_append_stop (p := isValueByte) (xs := 32 :: v) (y := 13) (ys := 10 :: rest)
    (by intro b hb; simp at hb; rcases hb with rfl | hb; exact h32; exact hf.value_ok b hb) h13
  have hne : n ≠ [] := hf.name_ne
  unfold refField
  rw [hl]
  simp only [h1.1, h1.2, if_neg hne]
  simp only [h2.1, h2.2, trim_space]

theorem refField_empty (n : Bytes) (hf : WireField (n, [])) (rest : Bytes) :
    refField (n ++ ascii ":" ++ CRLF ++ rest) = some ((n, []), rest) := by
  have h58 : isTchar 58 = false := by decide
  have h13 : isValueByte 13 = false := by decide
  have hl : n ++ ascii ":" ++ CRLF ++ rest = n ++ 58 :: (13 :: 10 :: rest) := by
    have : ascii ":" = [58] := by decide
    simp [this]
  have h1 := takeWhile_append_stop (xs := n) (y := 58) (ys := 13 :: 10 :: rest) hf.name_ok h58
  have hne : n ≠ [] := hf.name_ne
  unfold refField
  rw [hl]
  simp only [h1.1, h1.2, if_neg hne, List.dropWhile_cons, h13, List.takeWhile_cons]
  rfl

theorem refBlock_cons {n : Nat} {bs rest rest' : Bytes} {f : Bytes × Bytes} {fs : List (Bytes × Bytes)}
    (h : refField bs = some (f, rest)) (hb : ∀ r, bs ≠ 13 :: r) (hr : refBlock n rest = some (fs, rest')) :
    refBlock (n + 1) bs = some (f :: fs, rest') := by
  unfold refBlock
  split
  · rename_i h; exact absurd rfl (hb _)
  · omega
  · rename_i heq _
    obtain rfl := Nat.succ.inj heq
    simp only [h, hr]; rfl

theorem refBlock_written {bs : Bytes} {fs : List (Bytes × Bytes)} (h : WrittenLines bs fs)
    (hf : ∀ f ∈ fs, WireField f) (rest : Bytes) : ∀ n, fs.length ≤ n →
    refBlock n (bs ++ CRLF ++ rest) = some (fs.map (fun f => (f.1, trimBlanks f.2)), rest) := by
  have hname : ∀ (f : Bytes × Bytes) (t : Bytes), WireField f → ∀ r, f.1 ++ t ≠ 13 :: r := by
    intro f t hf r he
    cases hn : f.1 with
    | nil => exact hf.name_ne hn
    | cons b n =>
      rw [hn] at he
      simp only [List.cons_append, List.cons.injEq] at he
      exact (tchar_plain b (hf.name_ok b (by rw [hn]; simp))).2.1 he.1
  induction h with
  | nil =>
    intro n _
    cases n <;> rfl
  | cons f _ ih =>
    intro n hn
    have ih' := ih (fun g hg => hf g (by simp [hg]))
    simp only [List.length_cons] at hn
    obtain ⟨n, rfl⟩ : ∃ k, n = k + 1 := ⟨n - 1, by omega⟩
    have h1 := hf f (by simp)
    rw [List.append_assoc, List.append_assoc]
    refine refBlock_cons (refField_line f h1 _) ?_ ?_
    · intro r
      have := hname f
      simp only [line, List.append_assoc]
      exact this _ h1 r
    · rw [← List.append_assoc]; exact ih' n (by omega)
  | empty nm _ ih =>
    intro n hn
    have ih' := ih (fun g hg => hf g (by simp [hg]))
    simp only [List.length_cons] at hn
    obtain ⟨n, rfl⟩ : ∃ k, n = k + 1 := ⟨n - 1, by omega⟩
    have h1 := hf (nm, []) (by simp)
    have := refField_empty nm h1
    rw [List.append_assoc (nm ++ ascii ":" ++ CRLF), List.append_assoc (nm ++ ascii ":" ++ CRLF)]
    refine refBlock_cons (this _) ?_ ?_
    · intro r
      have := hname (nm, [])
      simp only [List.append_assoc]
      exact this _ h1 r
    · exact ih' n (by omega)

theorem refRequest_reads (max : Nat) : ReadsRequests max (refRequest max) := by
  intro method target http11 bs fs rest hm1 hm2 ht1 ht2 _ hw hf hmax
  simp only
  have h32 : isTchar 32 = false := by decide
  have e1 : ascii " " = [32] := by decide
  have e2 : ascii " HTTP/1." = 32 :: ascii "HTTP/1." := by decide
  generalize hd : (if http11 then ascii "1" else ascii "0") = d
  have hl : method ++ ascii " " ++ target ++ ascii " HTTP/1." ++ d ++ CRLF ++ bs ++ CRLF ++ rest =
      method ++ 32 :: (target ++ 32 :: (ascii "HTTP/1." ++ d ++ CRLF ++ (bs ++ CRLF ++ rest))) := by
    simp [e1, e2, List.append_assoc]
  have hlen := congrArg List.length hl
  have h1 := takeWhile_append_stop (xs := method) (y := 32)
    (ys := target ++ 32 :: (ascii "HTTP/1." ++ d ++ CRLF ++ (bs ++ CRLF ++ rest))) hm2 h32
  have h2 := takeWhile_append_stop (p := fun b => isValueByte b && !isBlankByte b) (xs := target) (y := 32)
    (ys := ascii "HTTP/1." ++ d ++ CRLF ++ (bs ++ CRLF ++ rest))
    (fun b hb => by have := ht2 b hb; simp [this.1, this.2]) (by decide)
  have hv : refVersion (32 :: (ascii "HTTP/1." ++ d ++ CRLF ++ (bs ++ CRLF ++ rest))) =
      some (http11, bs ++ CRLF ++ rest) := by
    subst hd
    cases http11 <;> rfl
  unfold refRequest
  rw [hl]
  simp only [h1.1, h1.2, h2.1, h2.2, hv]
  rw [if_neg (by simp [hm1, ht1]), refBlock_written hw hf rest max hmax]
  simp only [Option.map_some, Option.some.injEq, Prod.mk.injEq, true_and]
  rw [← hl]
  simp only [List.length_append]
  omega

theorem isDigitByte_iff : ∀ b : Byte, isDigitByte b = true ↔ IsDigit b := by
  unfold IsDigit; apply byte_forall; decide +kernel

theorem refReason_eq (r : Bytes) : refReason r = if ∃ b ∈ r, 128 ≤ b then [] else r := by
  unfold refReason
  by_cases h : ∃ b ∈ r, 128 ≤ b
  · rw [if_pos h, if_pos (by simpa using h)]
  · rw [if_neg h, if_neg (by simpa using h)]

theorem refResponse_reads (max : Nat) : ReadsResponses max (refResponse max) := by
  intro http11 status reason bs fs rest hs1 hs2 hr hw hf hmax
  simp only
  obtain ⟨d1, d2, d3⟩ := decimal_spec status
  have e1 : ascii " " = [32] := by decide
  generalize hd : (if http11 then ascii "1" else ascii "0") = d
  have hl : ascii "HTTP/1." ++ d ++ ascii " " ++ decimal status ++ ascii " " ++ reason ++ CRLF ++ bs ++ CRLF ++ rest =
      ascii "HTTP/1." ++ (d ++ 32 :: (decimal status ++ 32 :: (reason ++ 13 :: (10 :: (bs ++ CRLF ++ rest))))) := by
    simp [e1, List.append_assoc]
  have h1 := takeWhile_append_stop (p := isDigitByte) (xs := decimal status) (y := 32)
    (ys := reason ++ 13 :: (10 :: (bs ++ CRLF ++ rest))) (fun b hb => (isDigitByte_iff b).mpr (d2 b hb)) (by decide)
  have h2 := takeWhile_append_stop (p := isValueByte) (xs := reason) (y := 13) (ys := 10 :: (bs ++ CRLF ++ rest))
    hr (by decide)
  have hlen : (ascii "HTTP/1.").length = 7 := by decide
  unfold refResponse
  rw [hl]
  rw [List.take_append_of_le_length (by omega), List.take_of_length_le (by omega), if_pos rfl,
    List.drop_append_of_le_length (by omega), List.drop_of_length_le (by omega), List.nil_append]
  have hd' : ∃ c, d = [c] ∧ (c == 49) = http11 := by
    subst hd
    cases http11
    · exact ⟨48, by decide, by decide⟩
    · exact ⟨49, by decide, by decide⟩
  obtain ⟨c, rfl, hc⟩ := hd'
  simp only [List.cons_append, List.nil_append, h1.1, h1.2, h2.1, h2.2, refBlock_written hw hf rest max hmax, hc, refReason_eq]
  have hn : refNumber (decimal status) = status := d3
  rw [hn]
  simp only [RespParse.complete.injEq, and_true]
  simp only [List.length_append, List.length_cons, List.length_nil]
  simp only [e1, List.length_cons, List.length_nil]
  omega

/-! ## Blanks around values do not change the framing -/

theorem trimBlanks_pad {a b : Bytes} (e : Bytes) (ha : ∀ x ∈ a, isBlankByte x = true)
    (hb : ∀ x ∈ b, isBlankByte x = true) : trimBlanks (a ++ e ++ b) = trimBlanks e := by
  unfold trimBlanks
  rw [List.append_assoc, dropWhile_append_all _ _ _ ha]
  by_cases he : ∀ x ∈ e, isBlankByte x = true
  · have h1 := dropWhile_append_all isBlankByte e b he
    have h2 := dropWhile_append_all isBlankByte b [] hb
    have h3 := dropWhile_append_all isBlankByte e [] he
    rw [List.append_nil] at h2 h3
    rw [h1, h2, h3]
  · have h1 : (e ++ b).dropWhile isBlankByte = e.dropWhile isBlankByte ++ b := by
      clear ha hb
      induction e with
      | nil => simp at he
      | cons x e ih =>
        rw [List.cons_append, List.dropWhile_cons, List.dropWhile_cons]
        split
        · rename_i hx
          apply ih
          intro hh
          apply he
          intro y hy
          rcases List.mem_cons.mp hy with rfl | hy
          · exact hx
          · exact hh y hy
        · rfl
    rw [h1, List.reverse_append, dropWhile_append_all _ _ _ (fun x hx => hb x (by simpa using hx))]

theorem digits_trim {v : Bytes} {n : Nat} (h : IsLength v n) : trimBlanks v = v :=
  trimBlanks_of_padded ⟨[], [], by simp, by simp, by simp⟩ (fun b hb => digit_not_blank b (h.2.1 b hb))

theorem trim_mem {v : Bytes} : ∀ b ∈ trimBlanks v, b ∈ v := by
  intro b hb
  obtain ⟨x, y, _, _, h⟩ := trimBlanks_padded v
  rw [h]; simp [hb]

theorem blank_not_comma {a : Bytes} (h : ∀ x ∈ a, x = 32 ∨ x = 9) : (44 : Byte) ∉ a := by
  intro hh; rcases h _ hh with h | h <;> exact absurd h (by decide)

theorem agreed_trim {vs : List Bytes} {n : Nat} (h : AgreedLength vs n) :
    AgreedLength (vs.map trimBlanks) n := by
  refine ⟨by simpa using h.1, ?_⟩
  intro w hw
  obtain ⟨v, hv, rfl⟩ := List.mem_map.mp hw
  obtain ⟨h1, h2⟩ := h.2 v hv
  refine ⟨fun b hb => h1 b (trim_mem b hb), ?_⟩
  intro e he
  obtain ⟨a, b, ha, hb, hpad⟩ := trimBlanks_padded v
  obtain ⟨pre, post, e1, e2, e3, e4⟩ := he
  have key : ∃ a' b' : Bytes, (∀ x ∈ a', x = 32 ∨ x = 9) ∧ (∀ x ∈ b', x = 32 ∨ x = 9) ∧ Element v (a' ++ e ++ b') := by
    rcases e3 with rfl | ⟨p, rfl⟩
    · rcases e4 with rfl | ⟨q, rfl⟩
      · refine ⟨a, b, ha, hb, [], [], ?_, ?_, Or.inl rfl, Or.inl rfl⟩
        · rw [hpad, e1]; simp
        · simp [blank_not_comma ha, blank_not_comma hb, e2]
      · refine ⟨a, [], ha, by simp, [], 44 :: q ++ b, ?_, ?_, Or.inl rfl, Or.inr ⟨q ++ b, rfl⟩⟩
        · rw [hpad, e1]; simp
        · simp [blank_not_comma ha, e2]
    · rcases e4 with rfl | ⟨q, rfl⟩
      · refine ⟨[], b, by simp, hb, a ++ p ++ [44], [], ?_, ?_, Or.inr ⟨a ++ p, rfl⟩, Or.inl rfl⟩
        · rw [hpad, e1]; simp
        · simp [blank_not_comma hb, e2]
      · refine ⟨[], [], by simp, by simp, a ++ p ++ [44], 44 :: q ++ b, ?_, ?_, Or.inr ⟨a ++ p, rfl⟩,
          Or.inr ⟨q ++ b, rfl⟩⟩
        · rw [hpad, e1]; simp
        · simp [e2]
  obtain ⟨a', b', ha', hb', hel⟩ := key
  obtain ⟨t, ht, hlen⟩ := h2 _ hel
  refine ⟨t, ?_, hlen⟩
  have h3 := trimBlanks_of_padded ht (fun b hb => digit_not_blank b (hlen.2.1 b hb))
  rw [trimBlanks_pad e (fun x hx => (isBlankByte_iff x).mpr (ha' x hx))
    (fun x hx => (isBlankByte_iff x).mpr (hb' x hx))] at h3
  rw [← h3]
  exact trimBlanks_padded e

theorem chunked_not_blank {t : Bytes} (h : SameToken t (ascii "chunked")) :
    t ≠ [] ∧ ∀ b ∈ t, isBlankByte b = false := by
  constructor
  · rintro rfl
    exact absurd h (by unfold SameToken; decide)
  · intro b hb
    have h1 : foldCase b ∈ t.map foldCase := List.mem_map_of_mem hb
    rw [h] at h1
    have h2 : ∀ b : Byte, foldCase b ∈ (ascii "chunked").map foldCase → isBlankByte b = false := by
      apply byte_forall; decide +kernel
    exact h2 b h1

theorem finalChunked_trim {vs : List Bytes} (h : FinalChunked vs) : FinalChunked (vs.map trimBlanks) := by
  obtain ⟨ws, v, e, t, h1, h2, h3, h4, h5⟩ := h
  obtain ⟨htne, htb⟩ := chunked_not_blank h5
  refine ⟨ws.map trimBlanks, trimBlanks v, ?_⟩
  have hvis : ∀ b ∈ trimBlanks v, Visible b := fun b hb => h2 b (trim_mem b hb)
  have hmap : vs.map trimBlanks = ws.map trimBlanks ++ [trimBlanks v] := by rw [h1]; simp
  obtain ⟨pre, p1, p2, p3⟩ := h3
  rcases p3 with rfl | ⟨p, rfl⟩
  · have : trimBlanks v = t := trimBlanks_of_padded (by rw [p1]; exact h4) htb
    refine ⟨t, t, hmap, hvis, ⟨[], by rw [this]; rfl, ?_, Or.inl rfl⟩, ⟨[], [], by simp, by simp, by simp⟩, h5⟩
    intro hh
    obtain ⟨x, y, _, _, hxy⟩ := h4
    exact p2 (by rw [hxy]; simp [hh])
  · obtain ⟨x, y, hx, hy, hxy⟩ := h4
    have hlast : (t.reverse ++ (x.reverse ++ 44 :: (p.dropWhile isBlankByte).reverse)).dropWhile isBlankByte =
        t.reverse ++ (x.reverse ++ 44 :: (p.dropWhile isBlankByte).reverse) := by
      cases hr : t.reverse with
      | nil => exact absurd (List.reverse_eq_nil_iff.mp hr) htne
      | cons z zs =>
        have hz : z ∈ t := by
          have : z ∈ t.reverse := by rw [hr]; simp
          exact List.mem_reverse.mp this
        rw [List.cons_append, List.dropWhile_cons, if_neg (by simp [htb z hz])]
    have hfront : ∀ (p r : Bytes), (p ++ 44 :: r).dropWhile isBlankByte = p.dropWhile isBlankByte ++ 44 :: r := by
      intro p r
      induction p with
      | nil => rfl
      | cons z p ih =>
        rw [List.cons_append, List.dropWhile_cons, List.dropWhile_cons, ih]
        split <;> rfl
    have htrim : trimBlanks v = (p.dropWhile isBlankByte ++ [44]) ++ (x ++ t) := by
      have hv : v = p ++ 44 :: (x ++ t ++ y) := by rw [p1, hxy]; simp
      unfold trimBlanks
      rw [hv, hfront]
      have : (p.dropWhile isBlankByte ++ 44 :: (x ++ t ++ y)).reverse =
          y.reverse ++ (t.reverse ++ (x.reverse ++ 44 :: (p.dropWhile isBlankByte).reverse)) := by simp
      rw [this, dropWhile_append_all _ _ _ (fun z hz => (isBlankByte_iff z).mpr (hy z (by simpa using hz))), hlast]
      simp
    refine ⟨x ++ t, t, hmap, hvis, ⟨_, htrim, ?_, Or.inr ⟨_, rfl⟩⟩, ⟨x, [], hx, by simp, by simp⟩, h5⟩
    intro hh
    apply p2
    rw [hxy]
    rcases List.mem_append.mp hh with hh | hh <;> simp [hh]

theorem valuesOf_trim (k : Bytes) (fs : List (Bytes × Bytes)) :
    valuesOf k (fs.map (fun f => (f.1, trimBlanks f.2))) = (valuesOf k fs).map trimBlanks := by
  unfold valuesOf
  rw [List.filter_map, List.map_map, List.map_map]
  rfl

end Hyper
