import Verif.Spec.Body
import Verif.Spec.Chunked
import Verif.Proof.Chunked

namespace Hyper

open Spec

/-! ## Chunk sizes -/

theorem hexUpperDigit_spec : ∀ n, n < 16 →
    IsHex (hexUpperDigit n) ∧ hexDigit (hexUpperDigit n) = n := by
  decide

theorem hexNum_append (xs : Bytes) (d : Byte) :
    hexNum (xs ++ [d]) = 16 * hexNum xs + hexDigit d := by
  simp [hexNum, List.foldl_append]

theorem hexUpper_spec (n : Nat) :
    hexNum (hexUpper n) = n ∧ hexUpper n ≠ [] ∧ ∀ d ∈ hexUpper n, IsHex d := by
  induction n using Nat.strongRecOn with
  | ind n ih =>
    rw [hexUpper]
    split
    · rename_i h
      have := hexUpperDigit_spec n h
      simp [hexNum, this]
    · rename_i h
      have h1 := ih (n / 16) (by omega)
      have h2 := hexUpperDigit_spec (n % 16) (by omega)
      refine ⟨?_, by simp, ?_⟩
      · rw [hexNum_append, h1.1, h2.2]; omega
      · intro d hd
        simp at hd
        rcases hd with hd | rfl
        · exact h1.2.2 d hd
        · exact h2.1

theorem hexUpper_length (k : Nat) : ∀ n, n < 16 ^ (k + 1) → (hexUpper n).length ≤ k + 1 := by
  induction k with
  | zero => intro n h; rw [hexUpper, if_pos (by simpa using h)]; simp
  | succ k ih =>
    intro n h
    rw [hexUpper]
    split
    · simp
    · have h1 : n / 16 < 16 ^ (k + 1) := by
        rw [Nat.div_lt_iff_lt_mul (by omega)]
        calc n < 16 ^ (k + 1 + 1) := h
          _ = 16 ^ (k + 1) * 16 := by rw [Nat.pow_succ]
      have := ih _ h1
      simp; omega

theorem chunkSize_line (n : Nat) : SizeLine (chunkSize n) n 0 := by
  have h := hexUpper_spec n
  have := SizeLine.mk (hexUpper n) [] [] 0 h.2.1 h.2.2 (by simp) .none
  rw [h.1] at this
  simpa [chunkSize] using this

theorem lastChunk_line : SizeLine (ascii "0\r\n") 0 0 := by
  have := SizeLine.mk [48] [] [] 0 (by simp) (by simp [IsHex]) (by simp) .none
  have h : hexNum [48] = 0 := by decide
  rw [h] at this
  have h2 : ([48] ++ [] ++ [] ++ CRLF : Bytes) = ascii "0\r\n" := by decide
  rwa [h2] at this

theorem Chunks.snoc {w : Bytes} {cs : List Bytes} {e : Nat} (h : Chunks w cs e) (d : Bytes)
    (hd : d ≠ []) :
    Chunks (w ++ (chunkSize d.length ++ d ++ CRLF)) (cs ++ [d]) e := by
  induction h with
  | nil =>
    have := Chunks.cons (chunkSize d.length) d [] [] 0 0 (chunkSize_line _) hd .nil
    simpa using this
  | cons l d' w cs e e' hl hd' hw ih =>
    have := Chunks.cons l d' _ _ e e' hl hd' ih
    simpa using this

/-! ## Trailer filtering -/

theorem drain_cons (n : Bytes) (v : Bytes) (vs : List Bytes) (m : HeaderMap) :
    HeaderMap.drain ((n, v :: vs) :: m) =
      (some n, v) :: (vs.map (fun v => (none, v)) ++ m.drain) := by
  simp [HeaderMap.drain]

/-- What the filter keeps. -/
def keepTrailer (allowed : List Bytes) (n : Bytes) : Bool :=
  allowed.contains n && isValidTrailerField n

theorem append_fresh (acc : HeaderMap) (n v : Bytes) (h : n ∉ acc.map Prod.fst) :
    acc.append n v = acc ++ [(n, [v])] := by
  induction acc with
  | nil => rfl
  | cons g acc ih =>
    obtain ⟨n', vs⟩ := g
    simp at h
    have h1 : ¬ n' = n := fun hh => h.1 hh.symm
    simp only [HeaderMap.append, if_neg h1]
    rw [ih (by simpa using h.2)]
    rfl

theorem append_last (acc : HeaderMap) (n v : Bytes) (vs : List Bytes)
    (h : n ∉ acc.map Prod.fst) :
    HeaderMap.append (acc ++ [(n, vs)]) n v = acc ++ [(n, vs ++ [v])] := by
  induction acc with
  | nil => simp [HeaderMap.append]
  | cons g acc ih =>
    obtain ⟨n', vs'⟩ := g
    simp at h
    have h1 : ¬ n' = n := fun hh => h.1 hh.symm
    simp only [List.cons_append, HeaderMap.append, if_neg h1]
    rw [ih (by simpa using h.2)]

theorem filterTrailers_group (allowed : List Bytes) (n : Bytes) (vs : List Bytes) :
    ∀ (acc : HeaderMap) (us : List Bytes) (rest : List (Option Bytes × Bytes)),
      n ∉ acc.map Prod.fst →
      filterTrailers allowed (some n)
        (if keepTrailer allowed n then acc ++ [(n, us)] else acc)
        (vs.map (fun v => (none, v)) ++ rest) =
      filterTrailers allowed (some n)
        (if keepTrailer allowed n then acc ++ [(n, us ++ vs)] else acc) rest := by
  induction vs with
  | nil => intro acc us rest _; simp
  | cons v vs ih =>
    intro acc us rest hn
    simp only [List.map_cons, List.cons_append, filterTrailers, Option.or]
    have hk : (if allowed.contains n = true then
          (if isValidTrailerField n = true then
            (if keepTrailer allowed n = true then acc ++ [(n, us)] else acc).append n v
           else (if keepTrailer allowed n = true then acc ++ [(n, us)] else acc))
        else (if keepTrailer allowed n = true then acc ++ [(n, us)] else acc)) =
        (if keepTrailer allowed n = true then acc ++ [(n, us ++ [v])] else acc) := by
      unfold keepTrailer
      cases h1 : allowed.contains n <;> cases h2 : isValidTrailerField n <;>
        simp [append_last acc n v us hn]
    rw [hk, ih acc (us ++ [v]) rest hn]
    simp

theorem filterTrailers_spec (allowed : List Bytes) (m : HeaderMap) :
    ∀ (cur : Option Bytes) (acc : HeaderMap),
      (m.map Prod.fst).Nodup → (∀ g ∈ m, g.2 ≠ []) →
      (∀ g ∈ m, g.1 ∉ acc.map Prod.fst) →
      filterTrailers allowed cur acc m.drain =
        some (acc ++ m.filter (fun g => keepTrailer allowed g.1)) := by
  induction m with
  | nil => intro cur acc _ _ _; simp [HeaderMap.drain, filterTrailers]
  | cons g m ih =>
    intro cur acc hnd hne hfresh
    obtain ⟨n, vs⟩ := g
    cases vs with
    | nil => exact absurd rfl (hne (n, []) (by simp))
    | cons v vs =>
      have hn : n ∉ acc.map Prod.fst := hfresh (n, v :: vs) (by simp)
      rw [drain_cons]
      simp only [filterTrailers, Option.or]
      have hk : (if allowed.contains n = true then
            (if isValidTrailerField n = true then acc.append n v else acc) else acc) =
          (if keepTrailer allowed n = true then acc ++ [(n, [v])] else acc) := by
        unfold keepTrailer
        cases h1 : allowed.contains n <;> cases h2 : isValidTrailerField n <;>
          simp [append_fresh acc n v hn]
      rw [hk, filterTrailers_group allowed n vs acc [v] _ hn]
      simp only [List.map_cons, List.nodup_cons] at hnd
      rw [ih (some n) _ hnd.2 (fun g hg => hne g (by simp [hg]))]
      · by_cases hkeep : keepTrailer allowed n = true
        · simp [hkeep]
        · simp [hkeep]
      · intro g hg
        have h1 := hfresh g (by simp [hg])
        have h2 : g.1 ≠ n := by
          intro h; apply hnd.1; rw [← h]; exact List.mem_map_of_mem hg
        by_cases hkeep : keepTrailer allowed n = true
        · simp [hkeep] at h1 ⊢
          exact ⟨h1, h2⟩
        · simpa [hkeep] using h1

theorem fields_filter (p : Bytes → Bool) (m : HeaderMap) :
    HeaderMap.fields (m.filter (fun g => p g.1)) = m.fields.filter (fun f => p f.1) := by
  induction m with
  | nil => rfl
  | cons g m ih =>
    simp only [HeaderMap.fields] at ih
    by_cases h : p g.1 = true
    · simp [HeaderMap.fields, h, ih, List.filter_append, List.filter_map, Function.comp_def]
      rw [List.filter_eq_self.mpr (by simp)]
    · simp [HeaderMap.fields, h, ih, List.filter_append, List.filter_map, Function.comp_def]

theorem keepTrailer_iff (allowed : List Bytes) (n : Bytes) :
    keepTrailer allowed n = decide (n ∈ allowed ∧ n ∉ neverTrailer) := by
  have : isValidTrailerField n = decide (n ∉ neverTrailer) := by
    unfold isValidTrailerField
    rw [Bool.eq_iff_iff]
    simp only [forbiddenTrailers, neverTrailer, Bool.not_eq_true', List.contains_eq_mem,
      decide_eq_false_iff_not, List.mem_cons, List.not_mem_nil, or_false, not_or,
      decide_eq_true_eq]
    constructor
    · rintro ⟨a, b, c, d, e, f, g, h, i, j, k, l⟩; exact ⟨a, b, c, d, e, f, g, h, i, l, j, k⟩
    · rintro ⟨a, b, c, d, e, f, g, h, i, l, j, k⟩; exact ⟨a, b, c, d, e, f, g, h, i, j, k, l⟩
  rw [keepTrailer, this]
  simp

/-- Names as written. -/
def wireName (title : Bool) (n : Bytes) : Bytes := if title then titleCase n else n

/-- Fields as written. -/
def wireFields (title : Bool) (fs : List (Bytes × Bytes)) : List (Bytes × Bytes) :=
  fs.map (fun f => (wireName title f.1, f.2))

theorem Encoder.encodeTrailers_spec (allowed : List Bytes) (last title : Bool) (m : HeaderMap)
    (hm : m.Wf) :
    Encoder.encodeTrailers ⟨.chunked (some allowed), last⟩ m title =
      if sendable allowed m.fields = [] then none
      else some (ascii "0\r\n" ++ lines (wireFields title (sendable allowed m.fields)) ++ CRLF) := by
  have h1 := filterTrailers_spec allowed m none [] hm.nodup hm.nonempty (by simp)
  simp only [Encoder.encodeTrailers, h1, List.nil_append]
  have h2 : HeaderMap.fields (m.filter (fun g => keepTrailer allowed g.1)) = sendable allowed m.fields := by
    rw [fields_filter (keepTrailer allowed)]
    simp only [sendable, keepTrailer_iff]
  have h3 : (if title = true then
        writeHeadersTitleCase (m.filter (fun g => keepTrailer allowed g.1))
      else writeHeaders (m.filter (fun g => keepTrailer allowed g.1))) =
      lines (wireFields title (sendable allowed m.fields)) := by
    cases title
    · simp [writeHeaders, h2, lines, wireFields, wireName]
      congr 1; funext f; simp [line]
    · simp [writeHeadersTitleCase, h2, lines, wireFields, wireName, line, List.flatMap_map]
  rw [h3]
  have h4 : lines (wireFields title (sendable allowed m.fields)) = [] ↔
      sendable allowed m.fields = [] := by
    cases hs : sendable allowed m.fields with
    | nil => simp [lines, wireFields]
    | cons f fs => simp [lines, wireFields, line]
  by_cases h5 : sendable allowed m.fields = []
  · simp [h5, lines, wireFields]
  · rw [if_neg (fun h => h5 (h4.mp h)), if_neg h5]

/-! ## Whole bodies -/

theorem writeFrames_done (allow title : Bool) (out : Bytes) (w : Writing)
    (frames : List UserFrame) (h : ∀ e, w ≠ .body e) :
    writeFrames allow title out w frames = ⟨out, w, .ok⟩ := by
  cases w <;> first | (exact absurd rfl (h _)) | simp [writeFrames]

/-- How a chunked body is closed. -/
def chunkedTail (allow title : Bool) (allowed : Option (List Bytes)) (tr : Option HeaderMap) :
    Bytes :=
  match tr with
  | none => ascii "0\r\n\r\n"
  | some m =>
    if allow then
      (Encoder.encodeTrailers ⟨.chunked allowed, false⟩ m title).getD (ascii "0\r\n\r\n")
    else ascii "0\r\n\r\n"

theorem encodeTrailers_last (k : EncKind) (a b : Bool) (m : HeaderMap) (t : Bool) :
    Encoder.encodeTrailers ⟨k, a⟩ m t = Encoder.encodeTrailers ⟨k, b⟩ m t := by
  rfl

theorem writeFrames_chunked (allow title : Bool) (allowed : Option (List Bytes)) (last : Bool)
    (frames : List UserFrame) : ∀ out, userFails frames = false → FramesFit frames →
    ∃ w cs, writeFrames allow title out (.body ⟨.chunked allowed, last⟩) frames =
        ⟨out ++ w ++ chunkedTail allow title allowed (userTrailers frames),
          .afterBody last, .ok⟩ ∧
      Chunks w cs 0 ∧ cs.flatten = userData frames ∧ ∀ c ∈ cs, c.length < 2 ^ 64 := by
  induction frames with
  | nil =>
    intro out _ _
    refine ⟨[], [], ?_, .nil, by simp [userData], by simp⟩
    simp [writeFrames, finishBody, Writing.endBody, Encoder.finish, chunkedTail, userTrailers,
      Encoder.isCloseDelimited]
  | cons f frames ih =>
    intro out hf hfit
    have hfit' : FramesFit frames := fun g hg => hfit g (by simp [hg])
    cases f with
    | data bs e =>
      have hlen : bs.length < 2 ^ 64 := hfit _ (by simp) bs e rfl
      by_cases hbs : bs = []
      · subst hbs
        cases e with
        | true =>
          refine ⟨[], [], ?_, .nil, by simp [userData], by simp⟩
          simp [writeFrames, finishBody, Writing.endBody, Encoder.finish, chunkedTail,
            userTrailers, Encoder.isCloseDelimited]
        | false =>
          simp only [userFails] at hf
          obtain ⟨w, cs, h1, h2, h3, h4⟩ := ih out hf hfit'
          refine ⟨w, cs, ?_, h2, by simpa [userData] using h3, h4⟩
          rw [writeFrames]; simpa [userTrailers] using h1
      · cases e with
        | true =>
          refine ⟨chunkSize bs.length ++ bs ++ CRLF, [bs], ?_, ?_, by simp [userData],
            by simpa using hlen⟩
          · rw [writeFrames]
            have hlit : ascii "\r\n0\r\n\r\n" = CRLF ++ ascii "0\r\n\r\n" := by decide
            simp [hbs, Writing.writeBodyAndEnd, Encoder.encodeAndEnd, chunkedTail, userTrailers,
              hlit, Writing.afterBody]
            cases last <;> simp
          · have := Chunks.snoc .nil bs hbs
            simpa using this
        | false =>
          simp only [userFails] at hf
          obtain ⟨w, cs, h1, h2, h3, h4⟩ :=
            ih (out ++ (chunkSize bs.length ++ bs ++ CRLF)) hf hfit'
          refine ⟨chunkSize bs.length ++ bs ++ CRLF ++ w, bs :: cs, ?_, ?_,
            by simp [userData, h3], ?_⟩
          · rw [writeFrames]
            simp only [hbs, if_false, Writing.writeBody, Encoder.encode, Encoder.isEof]
            simp only [Bool.not_false, if_true]
            rw [h1]
            simp [userTrailers]
          · have := Chunks.cons _ bs w cs 0 0 (chunkSize_line bs.length) hbs h2
            simpa using this
          · intro c hc
            simp at hc
            rcases hc with rfl | hc
            · exact hlen
            · exact h4 c hc
    | trailers m =>
      refine ⟨[], [], ?_, .nil, by simp [userData], by simp⟩
      rw [writeFrames]
      cases allow with
      | false =>
        simp [Writing.writeTrailers, finishBody, Writing.endBody, Encoder.finish, chunkedTail,
          userTrailers, Encoder.isCloseDelimited]
      | true =>
        simp only [Writing.writeTrailers, chunkedTail, userTrailers, Bool.not_true,
          Bool.false_eq_true, if_false, if_true]
        rw [encodeTrailers_last _ last false]
        cases he : Encoder.encodeTrailers ⟨.chunked allowed, false⟩ m title with
        | none =>
          simp [finishBody, Writing.endBody, Encoder.finish, Encoder.isCloseDelimited]
        | some x =>
          simp [finishBody, Encoder.isCloseDelimited, Writing.afterBody]
          cases last <;> simp
    | unknown =>
      simp only [userFails] at hf
      obtain ⟨w, cs, h1, h2, h3, h4⟩ := ih out hf hfit'
      refine ⟨w, cs, ?_, h2, by simpa [userData] using h3, h4⟩
      rw [writeFrames]; simpa [userTrailers] using h1
    | error => simp [userFails] at hf

/-- A length-framed body writes exactly the first `n` bytes supplied. -/
theorem writeFrames_length_out (allow title : Bool) (last : Bool) (frames : List UserFrame) :
    ∀ n out, (writeFrames allow title out (.body ⟨.length n, last⟩) frames).out =
      out ++ (userData frames).take n := by
  induction frames with
  | nil =>
    intro n out
    cases n <;> simp [writeFrames, finishBody, Writing.endBody, Encoder.finish, userData]
  | cons f frames ih =>
    intro n out
    cases f with
    | data bs e =>
      by_cases hbs : bs = []
      · subst hbs
        cases e with
        | true =>
          cases n <;> simp [writeFrames, finishBody, Writing.endBody, Encoder.finish, userData]
        | false => rw [writeFrames]; simpa [userData] using ih n out
      · cases e with
        | true =>
          rw [writeFrames]
          simp only [hbs, if_false, Writing.writeBodyAndEnd, Encoder.encodeAndEnd, userData]
          by_cases h1 : bs.length = n
          · simp only [h1, if_true]
            rw [List.take_of_length_le (by omega)]
          · by_cases h2 : bs.length > n
            · simp only [h1, h2, if_true, if_false]
            · simp only [h1, h2, if_false]
              rw [List.take_of_length_le (by omega)]
        | false =>
          rw [writeFrames]
          simp only [hbs, if_false, Writing.writeBody, Encoder.encode, userData]
          by_cases h1 : bs.length > n
          · simp only [h1, if_true, Encoder.isEof, beq_self_eq_true, Bool.not_true,
              Bool.false_eq_true, if_false]
            rw [writeFrames_done]
            · rw [List.take_append_of_le_length (by omega)]
            · intro e; cases last <;> simp [Writing.afterBody]
          · simp only [h1, if_false]
            obtain ⟨m, hm⟩ := Nat.exists_eq_add_of_le (show bs.length ≤ n by omega)
            subst hm
            simp only [Nat.add_sub_cancel_left, List.take_length_add_append]
            by_cases h2 : m = 0
            · subst h2
              simp only [Encoder.isEof, beq_self_eq_true, Bool.not_true, Bool.false_eq_true,
                if_false]
              rw [writeFrames_done]
              · simp
              · intro e; cases last <;> simp [Writing.afterBody]
            · have h3 : (Encoder.isEof ⟨.length m, last⟩) = false := by
                simp [Encoder.isEof, h2]
              simp only [h3, Bool.not_false, if_true]
              rw [ih m (out ++ bs)]
              simp
    | trailers m =>
      rw [writeFrames]
      cases allow <;> cases n <;>
        simp [Writing.writeTrailers, Encoder.encodeTrailers, finishBody, Writing.endBody,
          Encoder.finish, userData]
    | unknown => rw [writeFrames]; simpa [userData] using ih n out
    | error => simp [writeFrames, userData]

/-- How a length-framed body ends. -/
theorem writeFrames_length_end (allow title : Bool) (last : Bool) (frames : List UserFrame) :
    ∀ n out, userFails frames = false → 0 < n →
      let res := writeFrames allow title out (.body ⟨.length n, last⟩) frames
      (n ≤ (userData frames).length → res.result = .ok ∧ res.writing = .afterBody last) ∧
      ((userData frames).length < n → res.writing = .closed ∧
        (endsWithData frames = false → res.result = .aborted (n - (userData frames).length)) ∧
        (endsWithData frames = true → res.result = .ok)) := by
  induction frames with
  | nil =>
    intro n out _ hn
    cases n with
    | zero => omega
    | succ n =>
      simp [writeFrames, finishBody, Writing.endBody, Encoder.finish, userData, endsWithData]
  | cons f frames ih =>
    intro n out hf hn
    cases f with
    | data bs e =>
      by_cases hbs : bs = []
      · subst hbs
        cases e with
        | true =>
          cases n with
          | zero => omega
          | succ n =>
            simp [writeFrames, finishBody, Writing.endBody, Encoder.finish, userData,
              endsWithData]
        | false =>
          simp only [userFails] at hf
          have := ih n out hf hn
          rw [writeFrames]; simpa [userData, endsWithData] using this
      · cases e with
        | true =>
          rw [writeFrames]
          simp only [hbs, if_false, Writing.writeBodyAndEnd, Encoder.encodeAndEnd, userData,
            endsWithData]
          have hne : bs.isEmpty = false := by simpa using hbs
          by_cases h1 : bs.length = n
          · simp only [h1, if_true]
            refine ⟨?_, by omega⟩
            intro _; cases last <;> simp [Writing.afterBody]
          · by_cases h2 : bs.length > n
            · simp only [h1, h2, if_true, if_false]
              refine ⟨?_, by omega⟩
              intro _; cases last <;> simp [Writing.afterBody]
            · simp only [h1, h2, if_false]
              refine ⟨by omega, ?_⟩
              intro _; simp [hne]
        | false =>
          simp only [userFails] at hf
          rw [writeFrames]
          simp only [hbs, if_false, Writing.writeBody, Encoder.encode, userData, endsWithData,
            List.length_append]
          by_cases h1 : bs.length > n
          · simp only [h1, if_true, Encoder.isEof, beq_self_eq_true, Bool.not_true,
              Bool.false_eq_true, if_false]
            rw [writeFrames_done _ _ _ _ _ (by intro e; cases last <;> simp [Writing.afterBody])]
            refine ⟨?_, by omega⟩
            intro _; simp
          · simp only [h1, if_false]
            obtain ⟨m, hm⟩ := Nat.exists_eq_add_of_le (show bs.length ≤ n by omega)
            subst hm
            simp only [Nat.add_sub_cancel_left]
            by_cases h2 : m = 0
            · subst h2
              simp only [Encoder.isEof, beq_self_eq_true, Bool.not_true, Bool.false_eq_true,
                if_false]
              rw [writeFrames_done _ _ _ _ _
                (by intro e; cases last <;> simp [Writing.afterBody])]
              refine ⟨?_, by omega⟩
              intro _; simp
            · have h3 : (Encoder.isEof ⟨.length m, last⟩) = false := by
                simp [Encoder.isEof, h2]
              simp only [h3, Bool.not_false, if_true]
              have := ih m (out ++ bs) hf (by omega)
              refine ⟨?_, ?_⟩
              · intro h4; exact this.1 (by omega)
              · intro h4
                have h5 := this.2 (by omega)
                refine ⟨h5.1, ?_, h5.2.2⟩
                intro h6
                rw [h5.2.1 h6]
                congr 1; omega
    | trailers m =>
      rw [writeFrames]
      cases n with
      | zero => omega
      | succ n =>
        cases allow <;>
          simp [Writing.writeTrailers, Encoder.encodeTrailers, finishBody, Writing.endBody,
            Encoder.finish, userData, endsWithData]
    | unknown =>
      simp only [userFails] at hf
      have := ih n out hf hn
      rw [writeFrames]; simpa [userData, endsWithData] using this
    | error => simp [userFails] at hf

end Hyper
