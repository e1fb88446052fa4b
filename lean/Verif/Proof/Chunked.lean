import Verif.Proof.Decode
import Verif.Spec.Chunked

namespace Hyper

open Spec

/-- A statement about all bytes can be checked on the 256 values. -/
theorem byte_forall {p : Byte → Prop} (h : ∀ n : Fin 256, p (UInt8.ofNat n.val)) : ∀ b, p b := by
  intro b
  have := h ⟨b.toNat, b.toNat_lt⟩
  simpa using this

instance (b : Byte) : Decidable (IsHex b) := by unfold IsHex; infer_instance
instance (b : Byte) : Decidable (IsBlank b) := by unfold IsBlank; infer_instance

theorem hexDigit_lt : ∀ b, IsHex b → hexDigit b < 16 := by
  apply byte_forall; decide +kernel

/-- The three digit arms of the code, as one. -/
theorem digitArms {α : Type} (f : Nat → α) (e : α) (b : Byte) :
    (if 48 ≤ b ∧ b ≤ 57 then f (b - 48).toNat
     else if 97 ≤ b ∧ b ≤ 102 then f (b + 10 - 97).toNat
     else if 65 ≤ b ∧ b ≤ 70 then f (b + 10 - 65).toNat else e)
    = if IsHex b then f (hexDigit b) else e := by
  have key : ∀ b : Byte, (48 ≤ b ∧ b ≤ 57 → IsHex b ∧ (b - 48).toNat = hexDigit b) ∧
      (97 ≤ b ∧ b ≤ 102 → IsHex b ∧ (b + 10 - 97).toNat = hexDigit b) ∧
      (65 ≤ b ∧ b ≤ 70 → IsHex b ∧ (b + 10 - 65).toNat = hexDigit b) ∧
      (IsHex b → (48 ≤ b ∧ b ≤ 57) ∨ (97 ≤ b ∧ b ≤ 102) ∨ (65 ≤ b ∧ b ≤ 70)) := by
    apply byte_forall; decide +kernel
  obtain ⟨h1, h2, h3, h4⟩ := key b
  by_cases c1 : 48 ≤ b ∧ b ≤ 57
  · simp only [if_pos c1, if_pos (h1 c1).1, (h1 c1).2]
  · by_cases c2 : 97 ≤ b ∧ b ≤ 102
    · simp only [if_neg c1, if_pos c2, if_pos (h2 c2).1, (h2 c2).2]
    · by_cases c3 : 65 ≤ b ∧ b ≤ 70
      · simp only [if_neg c1, if_neg c2, if_pos c3, if_pos (h3 c3).1, (h3 c3).2]
      · have : ¬ IsHex b := by
          intro h; rcases h4 h with h | h | h <;> contradiction
        simp only [if_neg c1, if_neg c2, if_neg c3, if_neg this]

theorem hex_ne : ∀ b, IsHex b → b ≠ 9 ∧ b ≠ 32 ∧ b ≠ 59 ∧ b ≠ CR ∧ b ≠ LF := by
  apply byte_forall; decide +kernel

/-- The accumulated size after more digits. -/
def accNum (a : Nat) (ds : Bytes) : Nat := ds.foldl (fun a d => 16 * a + hexDigit d) a

theorem accNum_mono (ds : Bytes) : ∀ a, a ≤ accNum a ds := by
  induction ds with
  | nil => intro a; exact Nat.le_refl _
  | cons d ds ih =>
    intro a
    have := ih (16 * a + hexDigit d)
    simp only [accNum, List.foldl_cons] at *
    omega

theorem Chunked.pushDigit_eq (c : Chunked) (d : Nat) :
    (16 * c.len + d ≤ u64Max → c.pushDigit d = (.ok .size, { c with len := 16 * c.len + d })) ∧
    (u64Max < 16 * c.len + d → ∃ c', c.pushDigit d = (.error .overflow, c')) := by
  unfold Chunked.pushDigit checkedMul checkedAdd
  constructor
  · intro h
    have h1 : c.len * 16 ≤ u64Max := by omega
    have h2 : c.len * 16 + d ≤ u64Max := by omega
    simp only [h1, h2, if_true]
    rw [Nat.mul_comm]
  · intro h
    by_cases h1 : c.len * 16 ≤ u64Max
    · have h2 : ¬ (c.len * 16 + d ≤ u64Max) := by omega
      simp only [h1, h2, if_true, if_false]
      exact ⟨_, rfl⟩
    · simp only [h1, if_false]
      exact ⟨_, rfl⟩

theorem Chunked.onByte_start {c : Chunked} (h : c.state = .start) (b : Byte) :
    c.onByte b = c.readStart b := by simp [Chunked.onByte, h]
theorem Chunked.onByte_size {c : Chunked} (h : c.state = .size) (b : Byte) :
    c.onByte b = c.readSize b := by simp [Chunked.onByte, h]
theorem Chunked.onByte_sizeLws {c : Chunked} (h : c.state = .sizeLws) (b : Byte) :
    c.onByte b = c.readSizeLws b := by simp [Chunked.onByte, h]
theorem Chunked.onByte_extension {c : Chunked} (h : c.state = .extension) (b : Byte) :
    c.onByte b = c.readExtension b := by simp [Chunked.onByte, h]
theorem Chunked.onByte_sizeLf {c : Chunked} (h : c.state = .sizeLf) (b : Byte) :
    c.onByte b = c.readSizeLf b := by simp [Chunked.onByte, h]
theorem Chunked.onByte_bodyCr {c : Chunked} (h : c.state = .bodyCr) (b : Byte) :
    c.onByte b = c.readBodyCr b := by simp [Chunked.onByte, h]
theorem Chunked.onByte_bodyLf {c : Chunked} (h : c.state = .bodyLf) (b : Byte) :
    c.onByte b = c.readBodyLf b := by simp [Chunked.onByte, h]
theorem Chunked.onByte_trailer {c : Chunked} (h : c.state = .trailer) (b : Byte) :
    c.onByte b = c.readTrailer b := by simp [Chunked.onByte, h]
theorem Chunked.onByte_trailerLf {c : Chunked} (h : c.state = .trailerLf) (b : Byte) :
    c.onByte b = c.readTrailerLf b := by simp [Chunked.onByte, h]
theorem Chunked.onByte_endCr {c : Chunked} (h : c.state = .endCr) (b : Byte) :
    c.onByte b = c.readEndCr b := by simp [Chunked.onByte, h]
theorem Chunked.onByte_endLf {c : Chunked} (h : c.state = .endLf) (b : Byte) :
    c.onByte b = c.readEndLf b := by simp [Chunked.onByte, h]

variable (P : TrailerParser) (fin : NetEnd)

/-! ## Forward: what the automaton does on each piece of the grammar -/

theorem Chunked.run_byte {c c' : Chunked} {b : Byte} {s : CState} (hb : c.state ≠ .body)
    (h : c.onByte b = (.ok s, c')) (hs : s ≠ .finished) (bs acc : Bytes) :
    c.run P fin (b :: bs) acc = Chunked.run P fin { c' with state := s } bs acc := by
  simp [Chunked.run, Chunked.feed1, hb, h, hs]

theorem Chunked.run_byte_err {c c' : Chunked} {b : Byte} {e : DErr} (hb : c.state ≠ .body)
    (h : c.onByte b = (.error e, c')) (bs acc : Bytes) :
    c.run P fin (b :: bs) acc = .failed acc e := by
  simp [Chunked.run, Chunked.feed1, hb, h]

/-- Digits in state `size`. -/
theorem Chunked.run_digits (ds : Bytes) : ∀ (c : Chunked) (bs acc : Bytes),
    c.state = .size → (∀ d ∈ ds, IsHex d) → accNum c.len ds ≤ u64Max →
    c.run P fin (ds ++ bs) acc = Chunked.run P fin { c with len := accNum c.len ds } bs acc := by
  induction ds with
  | nil => intro c bs acc _ _ _; simp [accNum]
  | cons d ds ih =>
    intro c bs acc hs hh hm
    have hd : IsHex d := hh d (by simp)
    have hm' : 16 * c.len + hexDigit d ≤ u64Max := by
      have := accNum_mono ds (16 * c.len + hexDigit d)
      simp only [accNum, List.foldl_cons] at hm this
      omega
    have hob : c.onByte d = (.ok .size, { c with len := 16 * c.len + hexDigit d }) := by
      simp only [Chunked.onByte_size hs, Chunked.readSize, digitArms, hd, if_true]
      exact (c.pushDigit_eq _).1 hm'
    rw [List.cons_append, Chunked.run_byte P fin (by simp [hs]) hob (by simp)]
    rw [ih _ bs acc rfl (fun x hx => hh x (by simp [hx])) hm]
    cases c; simp at hs; subst hs; rfl

theorem Chunked.run_digits_overflow (ds : Bytes) : ∀ (c : Chunked) (bs acc : Bytes),
    c.state = .size → (∀ d ∈ ds, IsHex d) → c.len ≤ u64Max → u64Max < accNum c.len ds →
    c.run P fin (ds ++ bs) acc = .failed acc .overflow := by
  induction ds with
  | nil => intro c bs acc _ _ h1 h2; simp [accNum] at h2; omega
  | cons d ds ih =>
    intro c bs acc hs hh h1 h2
    have hd : IsHex d := hh d (by simp)
    by_cases hm : 16 * c.len + hexDigit d ≤ u64Max
    · have hob : c.onByte d = (.ok .size, { c with len := 16 * c.len + hexDigit d }) := by
        simp only [Chunked.onByte_size hs, Chunked.readSize, digitArms, hd, if_true]
        exact (c.pushDigit_eq _).1 hm
      rw [List.cons_append, Chunked.run_byte P fin (by simp [hs]) hob (by simp)]
      exact ih _ bs acc rfl (fun x hx => hh x (by simp [hx])) hm h2
    · obtain ⟨c', hc'⟩ := (c.pushDigit_eq (hexDigit d)).2 (by omega)
      have hob : c.onByte d = (.error .overflow, c') := by
        simp only [Chunked.onByte_size hs, Chunked.readSize, digitArms, hd, if_true]
        exact hc'
      rw [List.cons_append, Chunked.run_byte_err P fin (by simp [hs]) hob]

/-- The first digit. -/
theorem Chunked.run_start (c : Chunked) (d : Byte) (bs acc : Bytes) (hs : c.state = .start)
    (hl : c.len = 0) (hd : IsHex d) :
    c.run P fin (d :: bs) acc =
      Chunked.run P fin { c with state := .size, len := hexDigit d } bs acc := by
  have hlt := hexDigit_lt d hd
  have hob : c.onByte d = (.ok .size, { c with len := 16 * c.len + hexDigit d }) := by
    simp only [Chunked.onByte_start hs, Chunked.readStart, digitArms, hd, if_true]
    refine (c.pushDigit_eq _).1 ?_
    simp only [hl, u64Max]; omega
  rw [Chunked.run_byte P fin (by simp [hs]) hob (by simp)]
  simp [hl]

theorem accNum_cons (d : Byte) (ds : Bytes) : accNum (hexDigit d) ds = hexNum (d :: ds) := by
  simp [accNum, hexNum]

/-- The whole digit string from `start`. -/
theorem Chunked.run_size (c : Chunked) (ds bs acc : Bytes) (hs : c.state = .start) (hl : c.len = 0)
    (hne : ds ≠ []) (hh : ∀ d ∈ ds, IsHex d) :
    (hexNum ds ≤ u64Max → c.run P fin (ds ++ bs) acc =
      Chunked.run P fin { c with state := .size, len := hexNum ds } bs acc) ∧
    (u64Max < hexNum ds → c.run P fin (ds ++ bs) acc = .failed acc .overflow) := by
  cases ds with
  | nil => exact absurd rfl hne
  | cons d ds =>
    have hd : IsHex d := hh d (by simp)
    have hlt := hexDigit_lt d hd
    rw [List.cons_append, Chunked.run_start P fin c d _ acc hs hl hd]
    have hh' : ∀ x ∈ ds, IsHex x := fun x hx => hh x (by simp [hx])
    constructor
    · intro hm
      rw [Chunked.run_digits P fin ds _ bs acc rfl hh' (by simpa [accNum_cons] using hm)]
      simp [accNum_cons]
    · intro hm
      exact Chunked.run_digits_overflow P fin ds _ bs acc rfl hh' (by simp [u64Max]; omega)
        (by simpa [accNum_cons] using hm)

/-- Blanks, from `size` or `sizeLws`: the state after them. -/
theorem Chunked.run_blanks (ws : Bytes) : ∀ (c : Chunked) (bs acc : Bytes),
    (c.state = .size ∨ c.state = .sizeLws) → (∀ b ∈ ws, IsBlank b) →
    c.run P fin (ws ++ bs) acc =
      Chunked.run P fin { c with state := if ws = [] then c.state else .sizeLws } bs acc := by
  induction ws with
  | nil => intro c bs acc _ _; simp
  | cons w ws ih =>
    intro c bs acc hs hb
    have hw : IsBlank w := hb w (by simp)
    have hnh : ¬ IsHex w := by
      intro h; have := hex_ne w h; rcases hw with h | h <;> simp_all
    have hw' : w = 9 ∨ w = 32 := Or.symm hw
    have hob : c.onByte w = (.ok .sizeLws, c) := by
      rcases hs with hs | hs
      · simp only [Chunked.onByte, hs, Chunked.readSize, digitArms, hnh, if_false, hw', if_true]
      · simp only [Chunked.onByte, hs, Chunked.readSizeLws, hw', if_true]
    rw [List.cons_append, Chunked.run_byte P fin (by rcases hs with h | h <;> simp [h]) hob (by simp)]
    rw [ih _ bs acc (Or.inr rfl) (fun x hx => hb x (by simp [hx]))]
    simp

/-- Extension bytes. -/
theorem Chunked.run_ext (e : Bytes) : ∀ (c : Chunked) (bs acc : Bytes), c.state = .extension →
    CR ∉ e → LF ∉ e → c.ext + e.length < CHUNKED_EXTENSIONS_LIMIT →
    c.run P fin (e ++ bs) acc = Chunked.run P fin { c with ext := c.ext + e.length } bs acc := by
  induction e with
  | nil => intro c bs acc _ _ _ _; simp
  | cons b e ih =>
    intro c bs acc hs hcr hlf hm
    simp only [List.mem_cons, not_or, List.length_cons] at hcr hlf hm
    have hob : c.onByte b = (.ok .extension, { c with ext := c.ext + 1 }) := by
      simp only [Chunked.onByte, hs, Chunked.readExtension, Ne.symm hcr.1, Ne.symm hlf.1, if_false]
      have : ¬ (c.ext + 1 ≥ CHUNKED_EXTENSIONS_LIMIT) := by omega
      simp only [this, if_false]
    rw [List.cons_append, Chunked.run_byte P fin (by simp [hs]) hob (by simp)]
    rw [ih _ bs acc rfl hcr.2 hlf.2 (by simp; omega)]
    cases c; simp at hs; subst hs
    simp; congr 2; omega

/-- Too many extension bytes. -/
theorem Chunked.run_ext_over (e : Bytes) : ∀ (c : Chunked) (bs acc : Bytes), c.state = .extension →
    CR ∉ e → LF ∉ e → c.ext < CHUNKED_EXTENSIONS_LIMIT →
    CHUNKED_EXTENSIONS_LIMIT ≤ c.ext + e.length →
    c.run P fin (e ++ bs) acc = .failed acc .extLimit := by
  induction e with
  | nil => intro c bs acc _ _ _ h1 h2; simp at h2; omega
  | cons b e ih =>
    intro c bs acc hs hcr hlf h1 h2
    simp only [List.mem_cons, not_or, List.length_cons] at hcr hlf h2
    by_cases hm : c.ext + 1 ≥ CHUNKED_EXTENSIONS_LIMIT
    · have hob : c.onByte b = (.error .extLimit, { c with ext := c.ext + 1 }) := by
        simp only [Chunked.onByte, hs, Chunked.readExtension, Ne.symm hcr.1, Ne.symm hlf.1, if_false]
        simp only [hm, if_true]
      rw [List.cons_append, Chunked.run_byte_err P fin (by simp [hs]) hob]
    · have hob : c.onByte b = (.ok .extension, { c with ext := c.ext + 1 }) := by
        simp only [Chunked.onByte, hs, Chunked.readExtension, Ne.symm hcr.1, Ne.symm hlf.1, if_false]
        simp only [hm, if_false]
      rw [List.cons_append, Chunked.run_byte P fin (by simp [hs]) hob (by simp)]
      exact ih _ bs acc rfl hcr.2 hlf.2 (by simp; omega) (by simp; omega)

/-- A `;` from `size` or `sizeLws`. -/
theorem Chunked.run_semi (c : Chunked) (bs acc : Bytes)
    (hs : c.state = .size ∨ c.state = .sizeLws) :
    c.run P fin (59 :: bs) acc = Chunked.run P fin { c with state := .extension } bs acc := by
  have hnh : ¬ IsHex 59 := by decide
  have hob : c.onByte 59 = (.ok .extension, c) := by
    rcases hs with hs | hs
    · simp only [Chunked.onByte, hs, Chunked.readSize, digitArms, hnh, if_false]
      rfl
    · simp only [Chunked.onByte, hs, Chunked.readSizeLws]; rfl
  rw [Chunked.run_byte P fin (by rcases hs with h | h <;> simp [h]) hob (by simp)]

/-- The CRLF closing a size line. -/
theorem Chunked.run_line_end (c : Chunked) (bs acc : Bytes)
    (hs : c.state = .size ∨ c.state = .sizeLws ∨ c.state = .extension) :
    c.run P fin (CRLF ++ bs) acc =
      Chunked.run P fin { c with state := if c.len = 0 then .endCr else .body } bs acc := by
  have hnh : ¬ IsHex CR := by decide
  have hob : c.onByte CR = (.ok .sizeLf, c) := by
    rcases hs with hs | hs | hs
    · simp only [Chunked.onByte, hs, Chunked.readSize, digitArms, hnh, if_false]; rfl
    · simp only [Chunked.onByte, hs, Chunked.readSizeLws]; rfl
    · simp only [Chunked.onByte, hs, Chunked.readExtension, if_true]
  have hcr : CRLF ++ bs = CR :: LF :: bs := rfl
  rw [hcr, Chunked.run_byte P fin (by rcases hs with h | h | h <;> simp [h]) hob (by simp)]
  by_cases hl : c.len = 0
  · have hob2 : Chunked.onByte { c with state := .sizeLf } LF =
        (.ok .endCr, { c with state := .sizeLf }) := by
      simp [Chunked.onByte, Chunked.readSizeLf, hl]
    rw [Chunked.run_byte P fin (by simp) hob2 (by simp)]
    simp [hl]
  · have hob2 : Chunked.onByte { c with state := .sizeLf } LF =
        (.ok .body, { c with state := .sizeLf }) := by
      simp [Chunked.onByte, Chunked.readSizeLf, hl]
    rw [Chunked.run_byte P fin (by simp) hob2 (by simp)]
    simp [hl]

/-- A whole size line. -/
theorem Chunked.run_sizeLine {l : Bytes} {n e : Nat} (h : SizeLine l n e) (c : Chunked)
    (bs acc : Bytes) (hs : c.state = .start) (hl : c.len = 0) (hn : n ≤ u64Max)
    (hx : c.ext + e < CHUNKED_EXTENSIONS_LIMIT) :
    c.run P fin (l ++ bs) acc =
      Chunked.run P fin { c with
        state := if n = 0 then .endCr else .body
        len := n
        ext := c.ext + e } bs acc := by
  obtain ⟨ds, ws, x, e, hne, hhex, hws, hext⟩ := h
  simp only [List.append_assoc]
  rw [(Chunked.run_size P fin c ds _ acc hs hl hne hhex).1 hn]
  rw [Chunked.run_blanks P fin ws _ _ acc (Or.inl rfl) hws]
  have hst : ∀ c' : Chunked, (if ws = [] then CState.size else .sizeLws) = CState.size ∨
      (if ws = [] then CState.size else .sizeLws) = CState.sizeLws := by
    intro _; split <;> simp
  cases hext with
  | none =>
    rw [List.nil_append, Chunked.run_line_end P fin _ bs acc]
    · simp
    · rcases hst c with h | h
      · left; exact h
      · right; left; exact h
  | some e hcr hlf =>
    rw [List.cons_append, Chunked.run_semi P fin _ _ acc (hst c)]
    refine (Chunked.run_ext P fin e _ _ acc ?_ hcr hlf ?_).trans ?_
    · rfl
    · exact hx
    rw [Chunked.run_line_end P fin _ bs acc (by simp)]

/-- Chunk data and its CRLF. -/
theorem Chunked.run_chunkData (c : Chunked) (d bs acc : Bytes) (hs : c.state = .body) (hd : d ≠ [])
    (hl : c.len = d.length) :
    c.run P fin (d ++ CRLF ++ bs) acc =
      Chunked.run P fin { c with state := .start, len := 0 } bs (acc ++ d) := by
  rw [List.append_assoc, Chunked.run_body P fin d c _ acc hs hd (by omega)]
  simp only [hl, Nat.sub_self, gt_iff_lt, Nat.lt_irrefl, if_false]
  have hcr : CRLF ++ bs = CR :: LF :: bs := rfl
  rw [hcr]
  rw [Chunked.run_byte P fin (c' := { c with state := .bodyCr, len := 0 }) (s := .bodyLf)
    (by simp) (by simp [Chunked.onByte, Chunked.readBodyCr]) (by simp)]
  rw [Chunked.run_byte P fin (c' := { c with state := .bodyLf, len := 0 }) (s := .start)
    (by simp) (by simp [Chunked.onByte, Chunked.readBodyLf]) (by simp)]

/-- A sequence of chunks. -/
theorem Chunked.run_chunks {w : Bytes} {cs : List Bytes} {e : Nat} (h : Chunks w cs e) :
    ∀ (c : Chunked) (bs acc : Bytes), c.state = .start → c.len = 0 →
    (∀ d ∈ cs, d.length ≤ u64Max) → c.ext + e < CHUNKED_EXTENSIONS_LIMIT →
    c.run P fin (w ++ bs) acc =
      Chunked.run P fin { c with ext := c.ext + e } bs (acc ++ cs.flatten) := by
  induction h with
  | nil => intro c bs acc _ _ _ _; simp
  | cons l d w cs e e' hl hd hw ih =>
    intro c bs acc hs hlen hsz hx
    simp only [List.append_assoc]
    rw [Chunked.run_sizeLine P fin hl c _ acc hs hlen (hsz d (by simp)) (by omega)]
    have hdl : d.length ≠ 0 := by
      cases d with
      | nil => exact absurd rfl hd
      | cons _ _ => simp
    simp only [hdl, if_false]
    rw [← List.append_assoc, Chunked.run_chunkData P fin _ d _ acc rfl hd rfl]
    rw [ih _ bs _ rfl rfl (fun x hx => hsz x (by simp [hx])) (by simp; omega)]
    cases c; simp at hs hlen; subst hs hlen
    simp; congr 2; omega

/-- Bytes of a trailer line. -/
theorem Chunked.run_trailer (s : Bytes) : ∀ (c : Chunked) (t bs acc : Bytes), c.state = .trailer →
    c.tbuf = some t → CR ∉ s → t.length + s.length < c.maxBytes →
    c.run P fin (s ++ bs) acc = Chunked.run P fin { c with tbuf := some (t ++ s) } bs acc := by
  induction s with
  | nil =>
    intro c t bs acc hs ht _ _
    cases c; simp at hs ht; subst hs ht; simp
  | cons b s ih =>
    intro c t bs acc hs ht hcr hm
    simp only [List.mem_cons, not_or, List.length_cons] at hcr hm
    have hob : c.onByte b = (.ok .trailer, { c with tbuf := some (t ++ [b]) }) := by
      have : ¬ ((t ++ [b]).length ≥ c.maxBytes) := by simp; omega
      simp only [Chunked.onByte_trailer hs, Chunked.readTrailer, ht, Chunked.putU8, Ne.symm hcr.1, if_false]
      exact if_neg this
    rw [List.cons_append, Chunked.run_byte P fin (by simp [hs]) hob (by simp)]
    rw [ih _ (t ++ [b]) bs acc rfl rfl hcr.2 (by simp [Chunked.maxBytes] at hm ⊢; omega)]
    cases c; simp at hs; subst hs; simp

theorem Chunked.putU8_ok (c : Chunked) (t : Bytes) (b : Byte) (s : CState)
    (h : t.length + 1 < c.maxBytes) :
    c.putU8 t b s = (.ok s, { c with tbuf := some (t ++ [b]) }) := by
  have : ¬ ((t ++ [b]).length ≥ c.maxBytes) := by simp; omega
  exact if_neg this

/-- One trailer line. -/
theorem Chunked.run_trailerLine (c : Chunked) (b : Byte) (s bs acc : Bytes) (hs : c.state = .endCr)
    (hb : b ≠ CR) (hcr : CR ∉ s) (hcnt : c.tcnt < c.maxCnt)
    (hm : (c.tbuf.getD []).length + (b :: s ++ CRLF).length < c.maxBytes) :
    c.run P fin (b :: s ++ CRLF ++ bs) acc =
      Chunked.run P fin { c with
        tbuf := some (c.tbuf.getD [] ++ (b :: s ++ CRLF))
        tcnt := c.tcnt + 1 } bs acc := by
  simp only [List.length_append, List.length_cons, List.length_nil] at hm
  have h1 : c.run P fin (b :: s ++ CRLF ++ bs) acc =
      Chunked.run P fin { c with state := .trailer, tbuf := some (c.tbuf.getD [] ++ [b]) }
        (s ++ (CRLF ++ bs)) acc := by
    have hob : c.onByte b = (.ok .trailer, { c with tbuf := some (c.tbuf.getD [] ++ [b]) }) := by
      rw [Chunked.onByte_endCr hs]
      unfold Chunked.readEndCr
      rw [if_neg hb]
      cases ht : c.tbuf with
      | none => simp
      | some t =>
        simp only [Option.getD_some]
        exact Chunked.putU8_ok c t b .trailer (by simp [ht] at hm; omega)
    have := Chunked.run_byte P fin (by simp [hs]) hob (by simp) (s ++ (CRLF ++ bs)) acc
    simpa using this
  rw [h1]
  rw [Chunked.run_trailer P fin s _ (c.tbuf.getD [] ++ [b]) _ acc rfl rfl hcr
    (by simp [Chunked.maxBytes] at hm ⊢; omega)]
  have hcrlf : CRLF ++ bs = CR :: LF :: bs := rfl
  rw [hcrlf]
  rw [Chunked.run_byte P fin (s := .trailerLf)
    (c' := { c with state := .trailer, tbuf := some (c.tbuf.getD [] ++ [b] ++ s ++ [CR]) })
    (by simp)
    (by
      rw [Chunked.onByte_trailer rfl]
      simp only [Chunked.readTrailer, if_true]
      exact Chunked.putU8_ok _ _ _ _ (by simp [Chunked.maxBytes] at hm ⊢; omega)) (by simp)]
  rw [Chunked.run_byte P fin (s := .endCr)
    (c' := { c with
        state := .trailerLf
        tcnt := c.tcnt + 1
        tbuf := some (c.tbuf.getD [] ++ [b] ++ s ++ [CR] ++ [LF]) })
    (by simp)
    (by
      rw [Chunked.onByte_trailerLf rfl]
      have : ¬ (c.tcnt ≥ c.maxCnt) := by omega
      simp only [Chunked.readTrailerLf, if_true]
      rw [if_neg (by exact this)]
      exact Chunked.putU8_ok _ _ _ _ (by simp [Chunked.maxBytes] at hm ⊢; omega)) (by simp)]
  cases c; simp at hs; subst hs; simp

/-- All trailer lines. -/
theorem Chunked.run_trailers {t : Bytes} {n : Nat} (h : TrailerLines t n) :
    ∀ (c : Chunked) (bs acc : Bytes), c.state = .endCr → c.tcnt + n ≤ c.maxCnt →
    (n ≠ 0 → (c.tbuf.getD []).length + t.length < c.maxBytes) →
    c.run P fin (t ++ bs) acc =
      Chunked.run P fin { c with
        tbuf := if n = 0 then c.tbuf else some (c.tbuf.getD [] ++ t)
        tcnt := c.tcnt + n } bs acc := by
  induction h with
  | nil => intro c bs acc _ _ _; simp
  | cons b s w n hb hcr hw ih =>
    intro c bs acc hs hc hm
    have hm := hm (by omega)
    simp only [List.length_append] at hm
    rw [List.append_assoc, Chunked.run_trailerLine P fin c b s _ acc hs hb hcr (by omega)
      (by simp at hm ⊢; omega)]
    rw [ih _ bs acc (by exact hs) (by simp [Chunked.maxCnt] at hc ⊢; omega)
      (by intro _; simp [Chunked.maxBytes] at hm ⊢; omega)]
    cases c; simp at hs; subst hs
    simp only [Nat.add_one_ne_zero, if_false]
    by_cases hn : n = 0
    · subst hn; cases hw; simp
    · simp only [hn, if_false, Option.getD_some, List.append_assoc]
      congr 2; omega

/-- The final empty line, without trailers. -/
theorem Chunked.run_end_none (c : Chunked) (bs acc : Bytes) (hs : c.state = .endCr)
    (ht : c.tbuf = none) :
    c.run P fin (CRLF ++ bs) acc = .complete acc none bs := by
  have hcrlf : CRLF ++ bs = CR :: LF :: bs := rfl
  rw [hcrlf, Chunked.run_byte P fin (c' := c) (s := .endLf) (by simp [hs])
    (by rw [Chunked.onByte_endCr hs]; simp [Chunked.readEndCr, ht]) (by simp)]
  simp [Chunked.run, Chunked.feed1, Chunked.onByte, Chunked.readEndLf, ht]

/-- The final empty line, with trailers. -/
theorem Chunked.run_end_some (c : Chunked) (t bs acc : Bytes) (hs : c.state = .endCr)
    (ht : c.tbuf = some t) (hm : t.length + 2 < c.maxBytes) :
    c.run P fin (CRLF ++ bs) acc =
      match P (t ++ CRLF) c.tcnt with
      | some fs => .complete acc (some fs) bs
      | none => .failed acc .badTrailers := by
  have hcrlf : CRLF ++ bs = CR :: LF :: bs := rfl
  rw [hcrlf, Chunked.run_byte P fin (c' := { c with tbuf := some (t ++ [CR]) }) (s := .endLf)
    (by simp [hs])
    (by
      rw [Chunked.onByte_endCr hs]; simp only [Chunked.readEndCr, ht, if_true]
      exact Chunked.putU8_ok _ _ _ _ (by omega)) (by simp)]
  have hob : Chunked.onByte { c with tbuf := some (t ++ [CR]), state := .endLf } LF =
      (.ok .finished, { c with tbuf := some (t ++ [CR] ++ [LF]), state := .endLf }) := by
    rw [Chunked.onByte_endLf rfl]
    simp only [Chunked.readEndLf, if_true]
    exact Chunked.putU8_ok _ _ _ _ (by simp [Chunked.maxBytes] at hm ⊢; omega)
  simp only [Chunked.run, Chunked.feed1, hob]
  simp
  split <;> simp_all

/-! ## Backward: an accepting run follows the grammar -/

section Inversion

variable {P fin}
variable {d : Bytes} {tr : Option Fields} {rest : Bytes}

theorem Chunked.inv_byte {c : Chunked} {bs acc : Bytes} (hb : c.state ≠ .body)
    (h : c.run P fin bs acc = .complete d tr rest) :
    ∃ b bs' s c', bs = b :: bs' ∧ c.onByte b = (.ok s, c') ∧
      (s ≠ .finished → Chunked.run P fin { c' with state := s } bs' acc = .complete d tr rest) := by
  cases bs with
  | nil => cases fin <;> simp [Chunked.run] at h
  | cons b bs =>
    rcases ho : c.onByte b with ⟨res, c'⟩
    cases res with
    | error e => rw [Chunked.run_byte_err P fin hb ho] at h; simp at h
    | ok s =>
      refine ⟨b, bs, s, c', rfl, ho, ?_⟩
      intro hs
      rw [Chunked.run_byte P fin hb ho hs] at h
      exact h

theorem Chunked.pushDigit_inv {c c' : Chunked} {n : Nat} {s : CState}
    (h : c.pushDigit n = (.ok s, c')) :
    16 * c.len + n ≤ u64Max ∧ s = .size ∧ c' = { c with len := 16 * c.len + n } := by
  by_cases hm : 16 * c.len + n ≤ u64Max
  · rw [(c.pushDigit_eq n).1 hm] at h
    simp at h
    exact ⟨hm, h.1.symm, h.2.symm⟩
  · obtain ⟨c2, h2⟩ := (c.pushDigit_eq n).2 (by omega)
    rw [h2] at h; simp at h

theorem Chunked.inv_sizeLf {c : Chunked} {bs acc : Bytes} (hs : c.state = .sizeLf)
    (h : c.run P fin bs acc = .complete d tr rest) :
    ∃ bs', bs = LF :: bs' ∧
      Chunked.run P fin { c with state := if c.len = 0 then .endCr else .body } bs' acc =
        .complete d tr rest := by
  obtain ⟨b, bs', s, c', h1, h2, h3⟩ := Chunked.inv_byte (by simp [hs]) h
  rw [Chunked.onByte_sizeLf hs] at h2
  unfold Chunked.readSizeLf at h2
  split at h2
  · rename_i hb
    subst hb
    refine ⟨bs', h1, ?_⟩
    by_cases hl : c.len = 0
    · simp only [hl, if_true] at h2 ⊢
      simp at h2
      obtain ⟨rfl, rfl⟩ := h2
      have := h3 (by simp)
      simpa [hl] using this
    · simp only [hl, if_false] at h2 ⊢
      simp at h2
      obtain ⟨rfl, rfl⟩ := h2
      have := h3 (by simp)
      simpa using this
  · simp at h2

theorem Chunked.inv_ext (bs : Bytes) : ∀ {c : Chunked} {acc : Bytes}, c.state = .extension →
    c.ext < CHUNKED_EXTENSIONS_LIMIT →
    c.run P fin bs acc = .complete d tr rest →
    ∃ e bs', bs = e ++ CRLF ++ bs' ∧ CR ∉ e ∧ LF ∉ e ∧
      c.ext + e.length < CHUNKED_EXTENSIONS_LIMIT ∧
      Chunked.run P fin { c with
        state := if c.len = 0 then .endCr else .body
        ext := c.ext + e.length } bs' acc = .complete d tr rest := by
  induction bs with
  | nil => intro c acc _ _ h; cases fin <;> simp [Chunked.run] at h
  | cons b bs ih =>
    intro c acc hs hx h
    obtain ⟨b', bs', s, c', h1, h2, h3⟩ := Chunked.inv_byte (by simp [hs]) h
    simp only [List.cons.injEq] at h1
    obtain ⟨rfl, rfl⟩ := h1
    rw [Chunked.onByte_extension hs] at h2
    unfold Chunked.readExtension at h2
    simp only at h2
    by_cases hcr : b = CR
    · simp only [hcr, if_true] at h2
      simp at h2
      obtain ⟨rfl, rfl⟩ := h2
      obtain ⟨bs2, hb2, h4⟩ := Chunked.inv_sizeLf rfl (h3 (by simp))
      subst hb2 hcr
      exact ⟨[], bs2, by simp, by simp, by simp, by simpa using hx, by simpa using h4⟩
    · by_cases hlf : b = LF
      · rw [if_neg hcr, if_pos hlf] at h2; simp at h2
      · simp only [hcr, hlf, if_false] at h2
        by_cases hm : c.ext + 1 ≥ CHUNKED_EXTENSIONS_LIMIT
        · simp [hm] at h2
        · rw [if_neg hm] at h2
          simp at h2
          obtain ⟨rfl, rfl⟩ := h2
          obtain ⟨e, bs2, he, g1, g2, g3, g4⟩ := ih rfl (by simp; omega) (h3 (by simp))
          refine ⟨b :: e, bs2, by simp [he], ?_, ?_, ?_, ?_⟩
          · simp; exact ⟨Ne.symm hcr, g1⟩
          · simp; exact ⟨Ne.symm hlf, g2⟩
          · simp at g3 ⊢; omega
          · rw [← g4]; congr 2; simp; omega

theorem Chunked.inv_lws (bs : Bytes) : ∀ {c : Chunked} {acc : Bytes}, c.state = .sizeLws →
    c.ext < CHUNKED_EXTENSIONS_LIMIT →
    c.run P fin bs acc = .complete d tr rest →
    ∃ ws x e bs', bs = ws ++ x ++ CRLF ++ bs' ∧ (∀ b ∈ ws, IsBlank b) ∧ ChunkExt x e ∧
      c.ext + e < CHUNKED_EXTENSIONS_LIMIT ∧
      Chunked.run P fin { c with
        state := if c.len = 0 then .endCr else .body
        ext := c.ext + e } bs' acc = .complete d tr rest := by
  induction bs with
  | nil => intro c acc _ _ h; cases fin <;> simp [Chunked.run] at h
  | cons b bs ih =>
    intro c acc hs hx h
    obtain ⟨b', bs', s, c', h1, h2, h3⟩ := Chunked.inv_byte (by simp [hs]) h
    simp only [List.cons.injEq] at h1
    obtain ⟨rfl, rfl⟩ := h1
    rw [Chunked.onByte_sizeLws hs] at h2
    unfold Chunked.readSizeLws at h2
    split at h2
    · rename_i hb
      simp at h2
      obtain ⟨rfl, rfl⟩ := h2
      obtain ⟨ws, x, e, bs2, he, g1, g2, g3, g4⟩ := ih rfl (by exact hx) (h3 (by simp))
      refine ⟨b :: ws, x, e, bs2, by simp [he], ?_, g2, g3, g4⟩
      intro y hy
      simp at hy
      rcases hy with rfl | hy
      · exact Or.symm hb
      · exact g1 y hy
    · split at h2
      · rename_i hb
        subst hb
        simp at h2
        obtain ⟨rfl, rfl⟩ := h2
        obtain ⟨e, bs2, he, g1, g2, g3, g4⟩ := Chunked.inv_ext _ rfl (by exact hx) (h3 (by simp))
        exact ⟨[], 59 :: e, e.length, bs2, by simp [he], by simp, .some e g1 g2, g3, g4⟩
      · split at h2
        · rename_i hb
          subst hb
          simp at h2
          obtain ⟨rfl, rfl⟩ := h2
          obtain ⟨bs2, he, g⟩ := Chunked.inv_sizeLf rfl (h3 (by simp))
          exact ⟨[], [], 0, bs2, by simp [he], by simp, .none, hx, g⟩
        · simp at h2

theorem Chunked.inv_size (bs : Bytes) : ∀ {c : Chunked} {acc : Bytes}, c.state = .size →
    c.ext < CHUNKED_EXTENSIONS_LIMIT → c.len ≤ u64Max →
    c.run P fin bs acc = .complete d tr rest →
    ∃ ds ws x e bs', bs = ds ++ ws ++ x ++ CRLF ++ bs' ∧ (∀ y ∈ ds, IsHex y) ∧
      (∀ b ∈ ws, IsBlank b) ∧ ChunkExt x e ∧ accNum c.len ds ≤ u64Max ∧
      c.ext + e < CHUNKED_EXTENSIONS_LIMIT ∧
      Chunked.run P fin { c with
        state := if accNum c.len ds = 0 then .endCr else .body
        len := accNum c.len ds
        ext := c.ext + e } bs' acc = .complete d tr rest := by
  induction bs with
  | nil => intro c acc _ _ _ h; cases fin <;> simp [Chunked.run] at h
  | cons b bs ih =>
    intro c acc hs hx hl h
    obtain ⟨b', bs', s, c', h1, h2, h3⟩ := Chunked.inv_byte (by simp [hs]) h
    simp only [List.cons.injEq] at h1
    obtain ⟨rfl, rfl⟩ := h1
    rw [Chunked.onByte_size hs] at h2
    simp only [Chunked.readSize, digitArms] at h2
    split at h2
    · rename_i hb
      obtain ⟨g1, rfl, rfl⟩ := Chunked.pushDigit_inv h2
      obtain ⟨ds, ws, x, e, bs2, he, f1, f2, f3, f4, f5, f6⟩ := ih rfl (by exact hx) (by exact g1) (h3 (by simp))
      refine ⟨b :: ds, ws, x, e, bs2, by simp [he], ?_, f2, f3, f4, f5, f6⟩
      intro y hy
      simp at hy
      rcases hy with rfl | hy
      · exact hb
      · exact f1 y hy
    · split at h2
      · rename_i hb
        simp at h2
        obtain ⟨rfl, rfl⟩ := h2
        obtain ⟨ws, x, e, bs2, he, g1, g2, g3, g4⟩ := Chunked.inv_lws _ rfl (by exact hx) (h3 (by simp))
        refine ⟨[], b :: ws, x, e, bs2, by simp [he], by simp, ?_, g2, hl, g3, g4⟩
        intro y hy
        simp at hy
        rcases hy with rfl | hy
        · exact Or.symm hb
        · exact g1 y hy
      · split at h2
        · rename_i hb
          subst hb
          simp at h2
          obtain ⟨rfl, rfl⟩ := h2
          obtain ⟨e, bs2, he, g1, g2, g3, g4⟩ := Chunked.inv_ext _ rfl (by exact hx) (h3 (by simp))
          exact ⟨[], [], 59 :: e, e.length, bs2, by simp [he], by simp, by simp, .some e g1 g2, hl,
            g3, g4⟩
        · split at h2
          · rename_i hb
            subst hb
            simp at h2
            obtain ⟨rfl, rfl⟩ := h2
            obtain ⟨bs2, he, g⟩ := Chunked.inv_sizeLf rfl (h3 (by simp))
            exact ⟨[], [], [], 0, bs2, by simp [he], by simp, by simp, .none, hl, hx, g⟩
          · simp at h2

theorem Chunked.inv_start {c : Chunked} {bs acc : Bytes} (hs : c.state = .start) (hl : c.len = 0)
    (hx : c.ext < CHUNKED_EXTENSIONS_LIMIT) (h : c.run P fin bs acc = .complete d tr rest) :
    ∃ l n e bs', bs = l ++ bs' ∧ SizeLine l n e ∧ n ≤ u64Max ∧
      c.ext + e < CHUNKED_EXTENSIONS_LIMIT ∧
      Chunked.run P fin { c with
        state := if n = 0 then .endCr else .body
        len := n
        ext := c.ext + e } bs' acc = .complete d tr rest := by
  obtain ⟨b, bs', s, c', h1, h2, h3⟩ := Chunked.inv_byte (by simp [hs]) h
  subst h1
  rw [Chunked.onByte_start hs] at h2
  simp only [Chunked.readStart, digitArms] at h2
  split at h2
  · rename_i hb
    obtain ⟨g1, rfl, rfl⟩ := Chunked.pushDigit_inv h2
    obtain ⟨ds, ws, x, e, bs2, he, f1, f2, f3, f4, f5, f6⟩ :=
      Chunked.inv_size _ rfl (by exact hx) (by exact g1) (h3 (by simp))
    simp only [hl, Nat.mul_zero, Nat.zero_add, accNum_cons] at f4 f6
    refine ⟨(b :: ds) ++ ws ++ x ++ CRLF, hexNum (b :: ds), e, bs2, by simp [he], ?_, f4, f5, f6⟩
    refine SizeLine.mk (b :: ds) ws x e (by simp) ?_ f2 f3
    intro y hy
    simp at hy
    rcases hy with rfl | hy
    · exact hb
    · exact f1 y hy
  · simp at h2

theorem Chunked.inv_body (bs : Bytes) : ∀ {c : Chunked} {acc : Bytes}, c.state = .body →
    0 < c.len → c.run P fin bs acc = .complete d tr rest →
    ∃ x bs', bs = x ++ CRLF ++ bs' ∧ x.length = c.len ∧
      Chunked.run P fin { c with state := .start, len := 0 } bs' (acc ++ x) =
        .complete d tr rest := by
  induction bs with
  | nil => intro c acc _ _ h; cases fin <;> simp [Chunked.run] at h
  | cons b bs ih =>
    intro c acc hs hl h
    have h1 := Chunked.run_body P fin [b] c bs acc hs (by simp) (by simp; omega)
    simp only [List.cons_append, List.nil_append, List.length_cons, List.length_nil,
      Nat.zero_add] at h1
    rw [h1] at h
    by_cases hl1 : c.len - 1 > 0
    · simp only [hl1, if_true] at h
      obtain ⟨x, bs', g1, g2, g3⟩ := ih rfl hl1 h
      refine ⟨b :: x, bs', by simp [g1], by simp at g2 ⊢; omega, ?_⟩
      simpa using g3
    · have hl0 : c.len - 1 = 0 := by omega
      simp only [hl0, gt_iff_lt, Nat.lt_irrefl, if_false] at h
      obtain ⟨b2, bs2, s, c', g1, g2, g3⟩ := Chunked.inv_byte (by simp) h
      rw [Chunked.onByte_bodyCr rfl] at g2
      simp only [Chunked.readBodyCr] at g2
      split at g2
      · rename_i hb2
        simp at g2
        obtain ⟨rfl, rfl⟩ := g2
        obtain ⟨b3, bs3, s, c', f1, f2, f3⟩ := Chunked.inv_byte (by simp) (g3 (by simp))
        rw [Chunked.onByte_bodyLf rfl] at f2
        simp only [Chunked.readBodyLf] at f2
        split at f2
        · rename_i hb3
          simp at f2
          obtain ⟨rfl, rfl⟩ := f2
          subst hb2 hb3 g1 f1
          refine ⟨[b], bs3, by simp, by simp; omega, ?_⟩
          exact f3 (by simp)
        · simp at f2
      · simp at g2

theorem Chunked.putU8_inv {c c' : Chunked} {t : Bytes} {b : Byte} {s s' : CState}
    (h : c.putU8 t b s = (.ok s', c')) :
    t.length + 1 < c.maxBytes ∧ s' = s ∧ c' = { c with tbuf := some (t ++ [b]) } := by
  by_cases hm : t.length + 1 < c.maxBytes
  · rw [Chunked.putU8_ok c t b s hm] at h
    simp at h
    exact ⟨hm, h.1.symm, h.2.symm⟩
  · have : (t ++ [b]).length ≥ c.maxBytes := by simp; omega
    have h2 : c.putU8 t b s = (.error .trailerBytes, { c with tbuf := some (t ++ [b]) }) :=
      if_pos this
    rw [h2] at h; simp at h

theorem Chunked.inv_trailer (bs : Bytes) : ∀ {c : Chunked} {t acc : Bytes}, c.state = .trailer →
    c.tbuf = some t → c.run P fin bs acc = .complete d tr rest →
    ∃ s bs', bs = s ++ CRLF ++ bs' ∧ CR ∉ s ∧ c.tcnt < c.maxCnt ∧
      t.length + s.length + 2 < c.maxBytes ∧
      Chunked.run P fin { c with
        state := .endCr
        tbuf := some (t ++ s ++ CRLF)
        tcnt := c.tcnt + 1 } bs' acc = .complete d tr rest := by
  induction bs with
  | nil => intro c t acc _ _ h; cases fin <;> simp [Chunked.run] at h
  | cons b bs ih =>
    intro c t acc hs ht h
    obtain ⟨b', bs', s, c', h1, h2, h3⟩ := Chunked.inv_byte (by simp [hs]) h
    simp only [List.cons.injEq] at h1
    obtain ⟨rfl, rfl⟩ := h1
    rw [Chunked.onByte_trailer hs] at h2
    simp only [Chunked.readTrailer, ht] at h2
    obtain ⟨g1, g2, rfl⟩ := Chunked.putU8_inv h2
    by_cases hcr : b = CR
    · subst hcr
      simp only [if_true] at g2
      subst g2
      obtain ⟨b2, bs2, s, c', f1, f2, f3⟩ := Chunked.inv_byte (by simp) (h3 (by simp))
      rw [Chunked.onByte_trailerLf rfl] at f2
      simp only [Chunked.readTrailerLf] at f2
      split at f2
      · rename_i hb2
        split at f2
        · simp at f2
        · rename_i hcnt
          obtain ⟨k1, rfl, rfl⟩ := Chunked.putU8_inv f2
          subst hb2 f1
          refine ⟨[], bs2, by simp, by simp, ?_, ?_, ?_⟩
          · simp [Chunked.maxCnt] at hcnt ⊢; omega
          · simp [Chunked.maxBytes] at k1 ⊢; omega
          · have := f3 (by simp)
            simpa using this
      · simp at f2
    · simp only [hcr, if_false] at g2
      subst g2
      obtain ⟨s, bs2, f1, f2, f3, f4, f5⟩ := ih rfl rfl (h3 (by simp))
      refine ⟨b :: s, bs2, by simp [f1], ?_, ?_, ?_, ?_⟩
      · simp; exact ⟨Ne.symm hcr, f2⟩
      · exact f3
      · simp [Chunked.maxBytes] at f4 ⊢; omega
      · simpa using f5

/-- From `endCr`: trailer lines and the final empty line. -/
theorem Chunked.inv_endCr (k : Nat) : ∀ {c : Chunked} {bs acc : Bytes}, bs.length ≤ k →
    c.state = .endCr → c.tcnt ≤ c.maxCnt → c.run P fin bs acc = .complete d tr rest →
    ∃ t n, bs = t ++ CRLF ++ rest ∧ TrailerLines t n ∧ d = acc ∧
      c.tcnt + n ≤ c.maxCnt ∧
      ((c.tbuf = none ∧ n = 0 ∧ tr = none) ∨
       ((c.tbuf ≠ none ∨ n ≠ 0) ∧ (c.tbuf.getD [] ++ t ++ CRLF).length < c.maxBytes ∧
        ∃ fs, tr = some fs ∧ P (c.tbuf.getD [] ++ t ++ CRLF) (c.tcnt + n) = some fs)) := by
  induction k with
  | zero =>
    intro c bs acc hk _ _ h
    have : bs = [] := by cases bs <;> simp_all
    subst this
    cases fin <;> simp [Chunked.run] at h
  | succ k ih =>
    intro c bs acc hk hs hcnt h
    obtain ⟨b, bs', s, c', h1, h2, h3⟩ := Chunked.inv_byte (by simp [hs]) h
    subst h1
    rw [Chunked.onByte_endCr hs] at h2
    by_cases hb : b = CR
    · subst hb
      simp only [Chunked.readEndCr, if_true] at h2
      cases ht : c.tbuf with
      | none =>
        simp only [ht] at h2
        simp at h2
        obtain ⟨rfl, rfl⟩ := h2
        have h4 := h3 (by simp)
        obtain ⟨b2, bs2, s, c', f1, f2, f3⟩ := Chunked.inv_byte (by simp) h4
        have f2' := f2
        rw [Chunked.onByte_endLf rfl] at f2
        simp only [Chunked.readEndLf, ht] at f2
        split at f2
        · rename_i hb2
          subst hb2
          simp at f2
          obtain ⟨rfl, rfl⟩ := f2
          subst f1
          have hcl : CR :: LF :: bs2 = CRLF ++ bs2 := rfl
          rw [hcl, Chunked.run_end_none P fin c bs2 acc hs ht] at h
          simp at h
          obtain ⟨rfl, rfl, rfl⟩ := h
          exact ⟨[], 0, by simp, .nil, rfl, by omega, Or.inl ⟨rfl, rfl, rfl⟩⟩
        · simp at f2
      | some t =>
        simp only [ht] at h2
        obtain ⟨g1, rfl, rfl⟩ := Chunked.putU8_inv h2
        have h4 := h3 (by simp)
        obtain ⟨b2, bs2, s, c', f1, f2, f3⟩ := Chunked.inv_byte (by simp) h4
        rw [Chunked.onByte_endLf rfl] at f2
        simp only [Chunked.readEndLf] at f2
        split at f2
        · rename_i hb2
          subst hb2
          obtain ⟨k1, rfl, rfl⟩ := Chunked.putU8_inv f2
          subst f1
          have hcl : CR :: LF :: bs2 = CRLF ++ bs2 := rfl
          rw [hcl, Chunked.run_end_some P fin c t bs2 acc hs ht
            (by simp [Chunked.maxBytes] at k1 ⊢; omega)] at h
          split at h
          · rename_i fs hP
            simp at h
            obtain ⟨rfl, rfl, rfl⟩ := h
            refine ⟨[], 0, by simp, .nil, rfl, by omega, Or.inr ⟨Or.inl (by simp), ?_, fs, rfl, ?_⟩⟩
            · simp [Chunked.maxBytes] at k1 ⊢; omega
            · simpa using hP
          · simp at h
        · simp at f2
    · simp only [Chunked.readEndCr, if_neg hb] at h2
      have key : s = .trailer ∧ c' = { c with tbuf := some (c.tbuf.getD [] ++ [b]) } := by
        cases ht : c.tbuf with
        | none =>
          simp only [ht] at h2
          simp at h2
          exact ⟨h2.1.symm, by simp [← h2.2]⟩
        | some t =>
          simp only [ht] at h2
          obtain ⟨g1, rfl, rfl⟩ := Chunked.putU8_inv h2
          exact ⟨rfl, by simp⟩
      obtain ⟨rfl, rfl⟩ := key
      obtain ⟨s, bs2, f1, f2, f3, f4, f5⟩ := Chunked.inv_trailer _ rfl rfl (h3 (by simp))
      subst f1
      have f3' : c.tcnt < c.maxCnt := f3
      obtain ⟨t, n, g1, g2, g3, g4, g5⟩ := ih (by simp at hk ⊢; omega) rfl (by exact f3') f5
      subst g1
      refine ⟨b :: s ++ CRLF ++ t, n + 1, by simp, .cons b s t n hb f2 g2, g3, ?_, ?_⟩
      · simp [Chunked.maxCnt] at g4 ⊢; omega
      · right
        refine ⟨Or.inr (by omega), ?_⟩
        rcases g5 with g5 | ⟨_, g6, fs, g7, g8⟩
        · simp at g5
        · refine ⟨?_, fs, g7, ?_⟩
          · simp [Chunked.maxBytes] at g6 ⊢; omega
          · simp at g8 ⊢
            rw [← g8]; congr 1; omega

/-- From `start`: a whole chunked body. -/
theorem Chunked.inv_all (k : Nat) : ∀ {c : Chunked} {bs acc : Bytes}, bs.length ≤ k →
    c.state = .start → c.len = 0 → c.ext < CHUNKED_EXTENSIONS_LIMIT → c.tbuf = none → c.tcnt = 0 →
    c.run P fin bs acc = .complete d tr rest →
    ∃ w cs e t n, bs = w ++ rest ∧ ChunkedBody w cs e t n ∧ d = acc ++ cs.flatten ∧
      (∀ x ∈ cs, x.length ≤ u64Max) ∧ c.ext + e < CHUNKED_EXTENSIONS_LIMIT ∧ n ≤ c.maxCnt ∧
      ((n = 0 ∧ tr = none) ∨
       (n ≠ 0 ∧ t.length < c.maxBytes ∧ ∃ fs, tr = some fs ∧ P t n = some fs)) := by
  induction k with
  | zero =>
    intro c bs acc hk _ _ _ _ _ h
    have : bs = [] := by cases bs <;> simp_all
    subst this
    cases fin <;> simp [Chunked.run] at h
  | succ k ih =>
    intro c bs acc hk hs hl hx htb htc h
    obtain ⟨l, n, e, bs', rfl, g2, g3, g4, g5⟩ := Chunked.inv_start hs hl hx h
    by_cases hn : n = 0
    · subst hn
      simp only [if_true] at g5
      obtain ⟨t, n, f1, f2, f3, f4, f5⟩ := Chunked.inv_endCr _ (Nat.le_refl _) rfl
        (by simp [htc]) g5
      subst f1 f3
      refine ⟨[] ++ l ++ t ++ CRLF, [], 0 + e, t ++ CRLF, n, by simp,
        .mk [] l t [] 0 e n .nil g2 f2, by simp, by simp, by simpa using g4, ?_, ?_⟩
      · simpa [htc, Chunked.maxCnt] using f4
      · rcases f5 with f5 | ⟨f5, f6, fs, f7, f8⟩
        · exact Or.inl ⟨f5.2.1, f5.2.2⟩
        · right
          simp [htb] at f5
          refine ⟨f5, ?_, fs, f7, ?_⟩
          · simpa [htb, Chunked.maxBytes] using f6
          · simpa [htb, htc] using f8
    · simp only [hn, if_false] at g5
      obtain ⟨x, bs2, f1, f2, f3⟩ := Chunked.inv_body _ rfl (by simp; omega) g5
      subst f1
      simp only at f2
      obtain ⟨w, cs, e2, t, n2, k1, k2, k3, k4, k5, k6, k7⟩ :=
        ih (by simp at hk ⊢; omega) rfl rfl (by exact g4) (by exact htb) (by exact htc) f3
      subst k1
      subst f2
      obtain ⟨w, l2, t, cs, e1, e3, n2, q1, q2, q3⟩ := k2
      refine ⟨(l ++ x ++ CRLF ++ w) ++ l2 ++ t ++ CRLF, x :: cs, (e + e1) + e3, t ++ CRLF, n2,
        by simp, .mk _ l2 t (x :: cs) (e + e1) e3 n2 (.cons l x w cs e e1 g2 ?_ q1) q2 q3,
        by simp [k3], ?_, ?_, k6, k7⟩
      · intro h0; subst h0; simp at hn
      · intro y hy
        simp at hy
        rcases hy with rfl | hy
        · exact g3
        · exact k4 y hy
      · simp at k5; omega

end Inversion

/-- A whole chunked body, forward. -/
theorem Chunked.run_all {w : Bytes} {cs : List Bytes} {e : Nat} {t : Bytes} {n : Nat}
    (h : ChunkedBody w cs e t n) (c : Chunked) (bs acc : Bytes) (hs : c.state = .start)
    (hl : c.len = 0) (htb : c.tbuf = none) (htc : c.tcnt = 0)
    (hsz : ∀ x ∈ cs, x.length ≤ u64Max) (hx : c.ext + e < CHUNKED_EXTENSIONS_LIMIT)
    (hcnt : n ≤ c.maxCnt) (hm : n ≠ 0 → t.length < c.maxBytes) :
    c.run P fin (w ++ bs) acc =
      if n = 0 then .complete (acc ++ cs.flatten) none bs
      else match P t n with
        | some fs => .complete (acc ++ cs.flatten) (some fs) bs
        | none => .failed (acc ++ cs.flatten) .badTrailers := by
  obtain ⟨w, l, t, cs, e, e', n, h1, h2, h3⟩ := h
  simp only [List.append_assoc]
  rw [Chunked.run_chunks P fin h1 c _ acc hs hl hsz (by omega)]
  rw [Chunked.run_sizeLine P fin h2 _ _ _ (by exact hs) (by exact hl) (by simp [u64Max])
    (by simp; omega)]
  simp only [if_true]
  rw [Chunked.run_trailers P fin h3 _ _ _ rfl (by simpa [htc, Chunked.maxCnt] using hcnt)
    (by
      intro h0
      have := hm h0
      simp [htb, Chunked.maxBytes] at this ⊢; omega)]
  simp only [htb, htc, Option.getD_none, List.nil_append, Nat.zero_add]
  by_cases hn : n = 0
  · simp only [hn, if_true]
    rw [Chunked.run_end_none P fin _ bs _ rfl rfl]
  · simp only [hn, if_false]
    rw [Chunked.run_end_some P fin _ t bs _ rfl rfl
      (by have := hm hn; simp [Chunked.maxBytes] at this ⊢; omega)]

end Hyper
