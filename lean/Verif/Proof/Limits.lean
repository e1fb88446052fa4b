import Verif.Proof.Chunked
import Verif.Proof.Framed
import Mathlib.Tactic.ByContra

/-! # Bodies outside the limits are rejected -/

namespace Hyper

open Spec

variable (P : TrailerParser) (fin : NetEnd)

theorem Chunked.run_sizeLine_bad {l : Bytes} {n e : Nat} (h : SizeLine l n e) (c : Chunked)
    (bs acc : Bytes) (hs : c.state = .start) (hl : c.len = 0)
    (hx : c.ext < CHUNKED_EXTENSIONS_LIMIT)
    (hbad : u64Max < n ∨ CHUNKED_EXTENSIONS_LIMIT ≤ c.ext + e) :
    ∃ er, c.run P fin (l ++ bs) acc = .failed acc er ∧
      (c.ext + e < CHUNKED_EXTENSIONS_LIMIT → er ≠ .extLimit) := by
  obtain ⟨ds, ws, x, e, hne, hhex, hws, hext⟩ := h
  simp only [List.append_assoc]
  by_cases hn : u64Max < hexNum ds
  · rw [(Chunked.run_size P fin c ds _ acc hs hl hne hhex).2 hn]
    exact ⟨_, rfl, by simp⟩
  · rw [(Chunked.run_size P fin c ds _ acc hs hl hne hhex).1 (by omega)]
    rw [Chunked.run_blanks P fin ws _ _ acc (Or.inl rfl) hws]
    have hbad' : CHUNKED_EXTENSIONS_LIMIT ≤ c.ext + e := by
      rcases hbad with h | h
      · exact absurd h hn
      · exact h
    cases hext with
    | none => simp only [Nat.add_zero] at hbad'; omega
    | some e hcr hlf =>
      rw [List.cons_append, Chunked.run_semi P fin _ _ acc (by
        simp only; split <;> simp)]
      rw [Chunked.run_ext_over P fin e _ _ acc rfl hcr hlf (by exact hx) (by exact hbad')]
      exact ⟨_, rfl, by intro h; omega⟩

theorem Chunked.run_chunks_bad {w : Bytes} {cs : List Bytes} {e : Nat} (h : Chunks w cs e) :
    ∀ (c : Chunked) (bs acc : Bytes), c.state = .start → c.len = 0 →
    c.ext < CHUNKED_EXTENSIONS_LIMIT →
    (¬ (∀ d ∈ cs, d.length ≤ u64Max) ∨ CHUNKED_EXTENSIONS_LIMIT ≤ c.ext + e) →
    ∃ d er, c.run P fin (w ++ bs) acc = .failed d er ∧
      (c.ext + e < CHUNKED_EXTENSIONS_LIMIT → er ≠ .extLimit) := by
  induction h with
  | nil => intro c bs acc _ _ hx hbad; simp at hbad; omega
  | cons l d w cs e e' hl hd hw ih =>
    intro c bs acc hs hlen hx hbad
    simp only [List.append_assoc]
    by_cases hfirst : u64Max < d.length ∨ CHUNKED_EXTENSIONS_LIMIT ≤ c.ext + e
    · obtain ⟨er, h1, h2⟩ := Chunked.run_sizeLine_bad P fin hl c (d ++ (CRLF ++ (w ++ bs))) acc
        hs hlen hx hfirst
      exact ⟨acc, er, h1, fun h => h2 (by omega)⟩
    · rw [Chunked.run_sizeLine P fin hl c _ acc hs hlen (by omega) (by omega)]
      have hdl : d.length ≠ 0 := by
        cases d with
        | nil => exact absurd rfl hd
        | cons _ _ => simp
      simp only [hdl, if_false]
      have := Chunked.run_chunkData P fin
        { c with state := .body, len := d.length, ext := c.ext + e } d (w ++ bs) acc rfl hd rfl
      simp only [List.append_assoc] at this
      rw [this]
      obtain ⟨d', er, h1, h2⟩ := ih { c with state := .start, len := 0, ext := c.ext + e } bs
        (acc ++ d) rfl rfl (by simp only; omega) (by
          rcases hbad with h | h
          · left
            intro hall
            apply h
            intro y hy
            simp only [List.mem_cons] at hy
            rcases hy with rfl | hy
            · omega
            · exact hall y hy
          · right; simp only; omega)
      exact ⟨d', er, h1, fun h => h2 (by simp only; omega)⟩

/-- An error of the trailer limits. -/
def IsTrailerLimit (er : DErr) : Prop := er = .trailerBytes ∨ er = .trailerCount

theorem Chunked.putU8_over (c : Chunked) (t : Bytes) (b : Byte) (s : CState)
    (h : c.maxBytes ≤ t.length + 1) :
    c.putU8 t b s = (.error .trailerBytes, { c with tbuf := some (t ++ [b]) }) := by
  have : (t ++ [b]).length ≥ c.maxBytes := by simp; omega
  exact if_pos this

theorem Chunked.run_trailer_over (s : Bytes) : ∀ (c : Chunked) (t bs acc : Bytes),
    c.state = .trailer → c.tbuf = some t → CR ∉ s → s ≠ [] →
    c.maxBytes ≤ t.length + s.length →
    c.run P fin (s ++ bs) acc = .failed acc .trailerBytes := by
  induction s with
  | nil => intro c t bs acc _ _ _ h; exact absurd rfl h
  | cons b s ih =>
    intro c t bs acc hs ht hcr _ hm
    simp only [List.mem_cons, not_or, List.length_cons] at hcr hm
    by_cases ho : c.maxBytes ≤ t.length + 1
    · rw [List.cons_append]
      exact Chunked.run_byte_err P fin (by simp [hs]) (by
        rw [Chunked.onByte_trailer hs]
        simp only [Chunked.readTrailer, ht]
        exact Chunked.putU8_over c t b _ ho) _ _
    · have hob : c.onByte b = (.ok .trailer, { c with tbuf := some (t ++ [b]) }) := by
        rw [Chunked.onByte_trailer hs]
        simp only [Chunked.readTrailer, ht, if_neg (Ne.symm hcr.1)]
        exact Chunked.putU8_ok c t b _ (by omega)
      rw [List.cons_append, Chunked.run_byte P fin (by simp [hs]) hob (by simp)]
      refine ih _ (t ++ [b]) bs acc rfl rfl hcr.2 ?_ ?_
      · rintro rfl; simp at hm; omega
      · change c.maxBytes ≤ _; simp; omega

/-- A trailer line beyond the limits. -/
theorem Chunked.run_trailerLine_over (c : Chunked) (b : Byte) (s bs acc : Bytes)
    (hs : c.state = .endCr) (hb : b ≠ CR) (hcr : CR ∉ s)
    (hbad : c.maxCnt ≤ c.tcnt ∨
      c.maxBytes ≤ (c.tbuf.getD []).length + (b :: s ++ CRLF).length) :
    ∃ er, c.run P fin (b :: s ++ CRLF ++ bs) acc = .failed acc er ∧ IsTrailerLimit er := by
  simp only [List.length_append, List.length_cons, List.length_nil] at hbad
  have hin : ∀ t0 : Bytes, t0 = c.tbuf.getD [] ++ [b] →
      ∃ er, Chunked.run P fin { c with state := .trailer, tbuf := some t0 } (s ++ (CRLF ++ bs)) acc =
        .failed acc er ∧ IsTrailerLimit er := by
    intro t0 ht0
    have htl : t0.length = (c.tbuf.getD []).length + 1 := by rw [ht0]; simp
    have hstep : (∃ er, Chunked.run P fin { c with state := .trailer, tbuf := some t0 }
          (s ++ (CRLF ++ bs)) acc = .failed acc er ∧ IsTrailerLimit er) ∨
        Chunked.run P fin { c with state := .trailer, tbuf := some t0 } (s ++ (CRLF ++ bs)) acc =
        Chunked.run P fin { c with state := .trailer, tbuf := some (t0 ++ s) } (CRLF ++ bs) acc := by
      by_cases hs0 : s = []
      · subst hs0; right; simp
      · by_cases hm : c.maxBytes ≤ t0.length + s.length
        · left
          exact ⟨_, Chunked.run_trailer_over P fin s _ t0 _ acc rfl rfl hcr hs0 (by exact hm),
            Or.inl rfl⟩
        · right
          exact Chunked.run_trailer P fin s _ t0 _ acc rfl rfl hcr (by
            change _ < c.maxBytes; omega)
    rcases hstep with h | h
    · exact h
    · rw [h]
      generalize ht1 : t0 ++ s = t1
      have htl1 : t1.length = t0.length + s.length := by rw [← ht1]; simp
      have hcrlf : CRLF ++ bs = CR :: LF :: bs := rfl
      rw [hcrlf]
      by_cases ho : c.maxBytes ≤ t1.length + 1
      · refine ⟨_, Chunked.run_byte_err P fin (by simp) (by
          rw [Chunked.onByte_trailer rfl]
          simp only [Chunked.readTrailer]
          exact Chunked.putU8_over _ t1 CR _ (by exact ho)) _ _, Or.inl rfl⟩
      · rw [Chunked.run_byte P fin (s := .trailerLf)
          (c' := { c with state := .trailer, tbuf := some (t1 ++ [CR]) }) (by simp) (by
          rw [Chunked.onByte_trailer rfl]
          simp only [Chunked.readTrailer, if_true]
          exact Chunked.putU8_ok _ t1 CR _ (by change _ < c.maxBytes; omega)) (by simp)]
        by_cases hc : c.maxCnt ≤ c.tcnt
        · refine ⟨_, Chunked.run_byte_err P fin (by simp) (by
            rw [Chunked.onByte_trailerLf rfl]
            simp only [Chunked.readTrailerLf, if_true]
            exact if_pos hc) _ _, Or.inr rfl⟩
        · refine ⟨_, Chunked.run_byte_err P fin (by simp) (by
            rw [Chunked.onByte_trailerLf rfl]
            simp only [Chunked.readTrailerLf, if_true]
            refine (if_neg (by exact hc)).trans ?_
            exact Chunked.putU8_over _ (t1 ++ [CR]) LF _ (by
              change c.maxBytes ≤ _
              simp only [List.length_append, List.length_cons, List.length_nil]
              rcases hbad with h | h <;> omega)) _ _, Or.inl rfl⟩
  -- the first byte
  simp only [List.cons_append, List.append_assoc]
  cases htb : c.tbuf with
  | none =>
    rw [Chunked.run_byte P fin (s := .trailer) (c' := { c with tbuf := some [b] }) (by simp [hs]) (by
      rw [Chunked.onByte_endCr hs]; simp [Chunked.readEndCr, hb, htb]) (by simp)]
    exact hin [b] (by simp [htb])
  | some t =>
    by_cases ho : c.maxBytes ≤ t.length + 1
    · refine ⟨_, Chunked.run_byte_err P fin (by simp [hs]) (by
        rw [Chunked.onByte_endCr hs]
        simp only [Chunked.readEndCr, if_neg hb, htb]
        exact Chunked.putU8_over _ t b _ ho) _ _, Or.inl rfl⟩
    · rw [Chunked.run_byte P fin (s := .trailer) (c' := { c with tbuf := some (t ++ [b]) })
        (by simp [hs]) (by
        rw [Chunked.onByte_endCr hs]
        simp only [Chunked.readEndCr, if_neg hb, htb]
        exact Chunked.putU8_ok _ t b _ (by omega)) (by simp)]
      exact hin (t ++ [b]) (by simp [htb])

/-- A trailer section beyond the limits. -/
theorem Chunked.run_trailers_over {t : Bytes} {n : Nat} (h : TrailerLines t n) :
    ∀ (c : Chunked) (bs acc : Bytes), c.state = .endCr →
    (c.tbuf = none → n ≠ 0 ) → 
    (c.maxCnt < c.tcnt + n ∨ c.maxBytes ≤ (c.tbuf.getD []).length + t.length + 2) →
    c.tcnt ≤ c.maxCnt →
    ∃ er, c.run P fin (t ++ (CRLF ++ bs)) acc = .failed acc er ∧ IsTrailerLimit er := by
  induction h with
  | nil =>
    intro c bs acc hs hn hbad hcnt
    cases htb : c.tbuf with
    | none => exact absurd rfl (hn htb)
    | some t =>
      have hbad' : c.maxBytes ≤ t.length + 2 := by
        rcases hbad with h | h
        · omega
        · simpa [htb] using h
      have hcrlf : [] ++ (CRLF ++ bs) = CR :: LF :: bs := rfl
      rw [hcrlf]
      by_cases ho : c.maxBytes ≤ t.length + 1
      · refine ⟨_, Chunked.run_byte_err P fin (by simp [hs]) (by
          rw [Chunked.onByte_endCr hs]
          simp only [Chunked.readEndCr, htb, if_true]
          exact Chunked.putU8_over _ t CR _ ho) _ _, Or.inl rfl⟩
      · rw [Chunked.run_byte P fin (s := .endLf) (c' := { c with tbuf := some (t ++ [CR]) })
          (by simp [hs]) (by
          rw [Chunked.onByte_endCr hs]
          simp only [Chunked.readEndCr, htb, if_true]
          exact Chunked.putU8_ok _ t CR _ (by omega)) (by simp)]
        refine ⟨_, Chunked.run_byte_err P fin (by simp) (by
          rw [Chunked.onByte_endLf rfl]
          simp only [Chunked.readEndLf, if_true]
          exact Chunked.putU8_over _ (t ++ [CR]) LF _ (by
            change c.maxBytes ≤ _
            simp; omega)) _ _, Or.inl rfl⟩
  | cons b s w n hb hcr hw ih =>
    intro c bs acc hs hn hbad hcnt
    by_cases hfirst : c.maxCnt ≤ c.tcnt ∨
        c.maxBytes ≤ (c.tbuf.getD []).length + (b :: s ++ CRLF).length
    · obtain ⟨er, h1, h2⟩ := Chunked.run_trailerLine_over P fin c b s (w ++ (CRLF ++ bs)) acc hs hb
        hcr hfirst
      exact ⟨er, by simpa only [List.append_assoc] using h1, h2⟩
    · have h1 := Chunked.run_trailerLine P fin c b s (w ++ (CRLF ++ bs)) acc hs hb hcr (by omega)
        (by omega)
      simp only [List.append_assoc] at h1 ⊢
      rw [h1]
      refine ih _ bs acc hs (by simp) ?_ (by change _ ≤ c.maxCnt; simp only; omega)
      rcases hbad with h | h
      · left; change c.maxCnt < _; simp only; omega
      · right; change c.maxBytes ≤ _
        simp only [Option.getD_some, List.length_append, List.length_cons] at h ⊢; omega

/-- A whole body beyond the limits is rejected, and for its extensions only if those are too long. -/
theorem Chunked.run_all_bad {w : Bytes} {cs : List Bytes} {e : Nat} {t : Bytes} {n : Nat}
    (h : ChunkedBody w cs e t n) (c : Chunked) (bs acc : Bytes) (hs : c.state = .start)
    (hl : c.len = 0) (htb : c.tbuf = none) (htc : c.tcnt = 0) (hx0 : c.ext = 0)
    (hbad : ¬ WithinLimits c.maxCnt c.maxBytes cs e t n) :
    ∃ d er, c.run P fin (w ++ bs) acc = .failed d er ∧ (e < 16384 → er ≠ .extLimit) := by
  obtain ⟨w, l, t, cs, e, e', n, h1, h2, h3⟩ := h
  have hlim : CHUNKED_EXTENSIONS_LIMIT = 16384 := rfl
  have hmax : u64Max = 2 ^ 64 - 1 := rfl
  simp only [List.append_assoc]
  by_cases hc : ¬ (∀ d ∈ cs, d.length ≤ u64Max) ∨ CHUNKED_EXTENSIONS_LIMIT ≤ c.ext + e
  · obtain ⟨d, er, g1, g2⟩ := Chunked.run_chunks_bad P fin h1 c (l ++ (t ++ (CRLF ++ bs))) acc hs hl
      (by omega) hc
    exact ⟨d, er, g1, fun h => g2 (by omega)⟩
  · have hsz : ∀ d ∈ cs, d.length ≤ u64Max := by
      by_contra hh; exact hc (Or.inl hh)
    have hx1 : c.ext + e < CHUNKED_EXTENSIONS_LIMIT := by
      by_contra hh; exact hc (Or.inr (by omega))
    rw [Chunked.run_chunks P fin h1 c _ acc hs hl hsz hx1]
    by_cases hx2 : CHUNKED_EXTENSIONS_LIMIT ≤ c.ext + e + e'
    · obtain ⟨er, g1, g2⟩ := Chunked.run_sizeLine_bad P fin h2 { c with ext := c.ext + e }
        (t ++ (CRLF ++ bs)) (acc ++ cs.flatten) hs hl (by exact hx1) (Or.inr (by exact hx2))
      exact ⟨_, er, g1, fun h => g2 (by simp only; omega)⟩
    · rw [Chunked.run_sizeLine P fin h2 _ _ _ (by exact hs) (by exact hl) (by simp [u64Max])
        (by simp only; omega)]
      have hbad' : n ≠ 0 ∧ (c.maxCnt < n ∨ c.maxBytes ≤ t.length + 2) := by
        by_contra hh
        apply hbad
        refine ⟨fun x hx => ?_, by omega, ?_, ?_⟩
        · have := hsz x hx; omega
        · by_contra hn; exact hh ⟨by omega, Or.inl (by omega)⟩
        · intro hn
          by_contra hm
          exact hh ⟨hn, Or.inr (by
            have : (t ++ CRLF).length = t.length + 2 := by simp [CRLF]
            omega)⟩
      obtain ⟨hn, hb⟩ := hbad'
      obtain ⟨er, g1, g2⟩ := Chunked.run_trailers_over P fin h3
        { c with state := if (0:Nat) = 0 then .endCr else .body, len := 0, ext := c.ext + e + e' }
        bs (acc ++ cs.flatten) rfl (fun _ => hn) (by
          change c.maxCnt < c.tcnt + n ∨ c.maxBytes ≤ (c.tbuf.getD []).length + _ + 2
          rw [htc, htb]; simpa using hb) (by change c.tcnt ≤ c.maxCnt; omega)
      refine ⟨_, er, g1, fun _ => ?_⟩
      rcases g2 with rfl | rfl <;> simp

end Hyper
