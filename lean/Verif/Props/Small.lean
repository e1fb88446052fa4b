import Verif.Model.Reason
import Verif.Model.Date
import Verif.Model.H2Headers
import Verif.Proof.ServerEncode
import Verif.Proof.HeaderMap
import Verif.Props.ClientEncode

/-! # Reason phrases, the cached date, HTTP/2 connection headers: C50, C52, C45 -/

namespace Hyper

open Spec

/-! ## C50 -/

/-- A byte of a reason phrase (RFC 9112 section 4): tab, space, visible ASCII, or obs-text. -/
def Spec.ReasonByte (b : Byte) : Prop :=
  b = 9 ∨ b = 32 ∨ (0x21 ≤ b.toNat ∧ b.toNat ≤ 0x7E) ∨ (0x80 ≤ b.toNat ∧ b.toNat ≤ 0xFF)

theorem isReasonByte_iff : ∀ b : Byte, isReasonByte b = true ↔ ReasonByte b := by
  unfold ReasonByte
  apply byte_forall; decide +kernel

theorem findInvalidByte_none (bs : Bytes) : findInvalidByte bs = none ↔ ∀ b ∈ bs, ReasonByte b := by
  induction bs with
  | nil => simp [findInvalidByte]
  | cons b t ih =>
    rw [findInvalidByte]
    by_cases h : isReasonByte b = true
    · rw [if_pos h, ih]; simp [(isReasonByte_iff b).mp h]
    · rw [if_neg h]; simp [← isReasonByte_iff, h]

/-- C50.  A phrase is accepted exactly if all its bytes may be in one, it is kept as it is, and the error names
a byte that may not. -/
theorem C50_accepted_iff (bs : Bytes) :
    ((∃ r, reasonTryFrom bs = .ok r) ↔ ∀ b ∈ bs, ReasonByte b) ∧
    (∀ r, reasonTryFrom bs = .ok r → r = bs) ∧
    (∀ b, reasonTryFrom bs = .error b → b ∈ bs ∧ ¬ ReasonByte b) := by
  have hbad : ∀ (bs : Bytes) b, findInvalidByte bs = some b → b ∈ bs ∧ ¬ ReasonByte b := by
    intro bs
    induction bs with
    | nil => simp [findInvalidByte]
    | cons c t ih =>
      intro b h
      rw [findInvalidByte] at h
      split at h
      · exact ⟨List.mem_cons_of_mem _ (ih b h).1, (ih b h).2⟩
      · rename_i hn
        simp only [Option.some.injEq] at h
        subst h
        exact ⟨List.mem_cons_self, fun hh => hn ((isReasonByte_iff _).mpr hh)⟩
  unfold reasonTryFrom
  cases h : findInvalidByte bs with
  | none => exact ⟨⟨fun _ => (findInvalidByte_none bs).mp h, fun _ => ⟨bs, rfl⟩⟩, fun r hr => by simpa using hr.symm, by simp⟩
  | some c =>
    refine ⟨?_, by simp, ?_⟩
    · simp only [reduceCtorEq, exists_false, false_iff]
      intro hh
      rw [(findInvalidByte_none bs).mpr hh] at h; simp at h
    · intro b hb
      simp only [Except.error.injEq] at hb
      exact hb ▸ hbad bs c h

example : reasonTryFrom (ascii "Not\tOK" ++ [0x80, 0xff]) = .ok (ascii "Not\tOK" ++ [0x80, 0xff]) ∧
    reasonTryFrom (ascii "a\r\nSet-Cookie: x") = .error 13 ∧ reasonTryFrom [127] = .error 127 := by decide +kernel

/-- C50.  A status line with an accepted phrase has CR, LF and NUL nowhere but in its line end. -/
theorem C50_status_line_whole (env : EncodeEnv) (head : OutHead) (bs : Bytes) (line : Bytes)
    (hr : ∃ r, reasonTryFrom bs = .ok r ∧ head.reason = some r) (h : statusLine env head = some line) :
    ∃ l, line = l ++ CRLF ∧ 13 ∉ l ∧ 10 ∉ l ∧ 0 ∉ l := by
  obtain ⟨r, h1, h2⟩ := hr
  have hb := (C50_accepted_iff bs).1.mp ⟨r, h1⟩
  rw [(C50_accepted_iff bs).2.1 r h1] at h2
  have hcl : ∀ (x : Bytes), (∀ b ∈ x, ReasonByte b) → 13 ∉ x ∧ 10 ∉ x ∧ 0 ∉ x := by
    intro x hx
    refine ⟨fun hh => ?_, fun hh => ?_, fun hh => ?_⟩ <;>
      exact absurd (hx _ hh) (by unfold ReasonByte; decide)
  have hdec : ∀ b ∈ decimal head.status, ReasonByte b := by
    intro b hb
    exact (isReasonByte_iff b).mp ((byte_forall (p := fun b => isValueByte b = true → isReasonByte b = true) (by decide +kernel)) b
      (decimal_valueBytes _ b hb))
  have hver : ∀ v ∈ [ascii "HTTP/1.0 ", ascii "HTTP/1.1 ", ascii " "], ∀ b ∈ v, isReasonByte b = true := by decide +kernel
  unfold statusLine at h
  rw [if_neg (by rw [h2]; simp), h2] at h
  have fin : ∀ v ∈ [ascii "HTTP/1.0 ", ascii "HTTP/1.1 ", ascii " "],
      v ++ decimal head.status ++ ascii " " ++ bs ++ CRLF = line →
      ∃ l, line = l ++ CRLF ∧ 13 ∉ l ∧ 10 ∉ l ∧ 0 ∉ l := by
    intro v hv e
    refine ⟨v ++ decimal head.status ++ ascii " " ++ bs, e.symm, hcl _ ?_⟩
    intro b hb'
    simp only [List.mem_append] at hb'
    rcases hb' with ((hb' | hb') | hb') | hb'
    · exact (isReasonByte_iff b).mp (hver v hv b hb')
    · exact hdec b hb'
    · exact (isReasonByte_iff b).mp (hver (ascii " ") (by simp) b hb')
    · exact hb b hb'
  cases hv : head.version <;> rw [hv] at h <;>
    simp only [Option.map_some, Option.map_none, reduceCtorEq, Option.some.injEq] at h
  all_goals exact fin _ (by simp) h

/-! ## C52 -/

/-- The cache after a first use at `first` and refreshes at these clock readings. -/
def dateAfter (render : Nat → Bytes) (first : Nat) (readings : List Nat) : CachedDate :=
  readings.foldl (CachedDate.check render) (CachedDate.new render first)

theorem dateAfter_inv (render : Nat → Bytes) (first : Nat) (readings : List Nat) :
    ∃ sec, dateAfter render first readings = ⟨render sec, (sec + 1) * nanosPerSec⟩ ∧
      ∃ t ∈ first :: readings, sec * nanosPerSec ≤ t := by
  have hupd : ∀ t, CachedDate.update render t = ⟨render (t / nanosPerSec), (t / nanosPerSec + 1) * nanosPerSec⟩ := by
    intro t
    unfold CachedDate.update
    congr 1
    have := Nat.div_add_mod t nanosPerSec
    have h2 : t % nanosPerSec < nanosPerSec := Nat.mod_lt _ (by decide)
    rw [Nat.add_mul, Nat.mul_comm (t / nanosPerSec)]
    omega
  have hdiv : ∀ t, t / nanosPerSec * nanosPerSec ≤ t := fun t => Nat.div_mul_le_self _ _
  rcases List.eq_nil_or_concat readings with rfl | ⟨rs, t, rfl⟩
  · exact ⟨first / nanosPerSec, hupd first, first, by simp, hdiv first⟩
  · obtain ⟨sec, e, t', ht', hle⟩ := dateAfter_inv render first rs
    rw [List.concat_eq_append]
    have e2 : dateAfter render first (rs ++ [t]) = (dateAfter render first rs).check render t := by simp [dateAfter]
    rw [e2]
    unfold CachedDate.check
    split
    · exact ⟨t / nanosPerSec, hupd t, t, by simp, hdiv t⟩
    · refine ⟨sec, e, t', ?_, hle⟩
      rw [← List.cons_append]; exact List.mem_append_left _ ht'
termination_by readings.length

/-- C52.  After a refresh at clock reading `now`, the latest of a non-decreasing sequence, the value
written renders the current second; or the one just before it, if `now` is an exact second boundary. -/
theorem C52_at_most_a_second_old (render : Nat → Bytes) (first now : Nat) (readings : List Nat)
    (hmono : ∀ t ∈ first :: readings, t ≤ now) :
    (dateAfter render first (readings ++ [now])).bytes = render (now / 1000000000) ∨
    (now % 1000000000 = 0 ∧ 1 ≤ now / 1000000000 ∧
      (dateAfter render first (readings ++ [now])).bytes = render (now / 1000000000 - 1)) := by
  obtain ⟨sec, e, t, ht, hle⟩ := dateAfter_inv render first readings
  have e2 : dateAfter render first (readings ++ [now]) = (dateAfter render first readings).check render now := by
    simp [dateAfter]
  rw [e2, e]
  have htn := hmono t ht
  have hcheck : ∀ c : CachedDate, c.check render now = if now > c.nextUpdate then CachedDate.update render now else c :=
    fun _ => rfl
  rw [hcheck]
  split
  · exact .inl rfl
  · rename_i h
    simp only [nanosPerSec] at hle h ⊢
    rcases Nat.lt_or_ge now ((sec + 1) * 1000000000) with hlt | hge
    · left; congr 1; omega
    · right
      refine ⟨by omega, by omega, by congr 1; omega⟩

/-- Both cases occur. -/
example : (dateAfter (fun n => [UInt8.ofNat n]) 1500000000 [1700000000, 2000000000]).bytes = [1] ∧
    (dateAfter (fun n => [UInt8.ofNat n]) 1500000000 [1700000000, 2000000001]).bytes = [2] := by decide +kernel

/-! ## C45 -/

/-- The fields to be removed from an HTTP/2 message: the connection-specific ones, those named by the
first Connection field, and TE, except for a request whose first TE field is `trailers`. -/
def Spec.ConnectionSpecific (kind : MessageKind) (m : HeaderMap) (k : Bytes) : Prop :=
  k = ascii "keep-alive" ∨ k = ascii "proxy-connection" ∨ k = ascii "transfer-encoding" ∨ k = ascii "upgrade" ∨
  k = ascii "connection" ∨
  (k = ascii "te" ∧ (kind = .response ∨ (m.getAll (ascii "te")).head? ≠ some (ascii "trailers"))) ∨
  (∃ v, (m.getAll (ascii "connection")).head? = some v ∧ HasOption [v] k)

theorem getAll_removeStr (m : HeaderMap) (name k : Bytes) (hk : LowerName k) (hlen : k.length < 2 ^ 16) :
    (m.removeStr name).getAll k = if name.map foldCase = k then [] else m.getAll k := by
  have hf : lowerByte = foldCase := funext lowerByte_fold
  unfold HeaderMap.removeStr
  cases h : headerName name with
  | none =>
    simp only
    rw [if_neg]
    rintro rfl
    unfold headerName at h
    split at h
    · simp at h
    · rename_i hn
      apply hn
      refine ⟨fun hh => hk.ne (by rw [hh]; rfl), List.all_eq_true.mpr fun b hb => ?_, by simpa using hlen⟩
      have := hk.tchar (foldCase b) (List.mem_map_of_mem hb)
      exact byte_forall (p := fun b => isTchar (foldCase b) = true → isTchar b = true) (by decide +kernel) b this
  | some n =>
    simp only
    rw [getAll_remove, headerName_some h]
    simp only [eq_comm]

theorem getAll_removeListed (names : List Bytes) : ∀ (m : HeaderMap) (k : Bytes), LowerName k → k.length < 2 ^ 16 →
    (names.foldl (fun m name => m.removeStr (trimBlanks name)) m).getAll k =
      if ∃ n ∈ names, (trimBlanks n).map foldCase = k then [] else m.getAll k := by
  induction names with
  | nil => intro m k _ _; simp
  | cons n ns ih =>
    intro m k hk hl
    rw [List.foldl_cons, ih _ k hk hl, getAll_removeStr _ _ _ hk hl]
    by_cases h1 : ∃ n ∈ ns, (trimBlanks n).map foldCase = k
    · rw [if_pos h1, if_pos]; obtain ⟨x, hx, e⟩ := h1; exact ⟨x, List.mem_cons_of_mem _ hx, e⟩
    · rw [if_neg h1]
      by_cases h2 : (trimBlanks n).map foldCase = k
      · rw [if_pos h2, if_pos]; exact ⟨n, List.mem_cons_self, h2⟩
      · rw [if_neg h2, if_neg]
        rintro ⟨x, hx, e⟩
        rcases List.mem_cons.mp hx with rfl | hx
        · exact h2 e
        · exact h1 ⟨x, hx, e⟩

open Classical in
theorem getAll_stripListed (m : HeaderMap) (v k : Bytes) (hk : LowerName k) (hl : k.length < 2 ^ 16) :
    (stripListed m v).getAll k = if HasOption [v] k then [] else m.getAll k := by
  have htok : ∀ b ∈ k, isBlankByte b = false := fun b hb =>
    byte_forall (p := fun b => isTchar b = true → isBlankByte b = false) (by decide +kernel) b (hk.tchar b hb)
  unfold stripListed
  cases hs : toStr v with
  | none =>
    simp only
    rw [if_neg]
    rintro ⟨w, hw, h1, _⟩
    simp only [List.mem_singleton] at hw
    subst hw
    exact (toStr_none w).mp hs h1
  | some s =>
    obtain ⟨rfl, hv⟩ := (toStr_iff v s).mp hs
    simp only
    rw [getAll_removeListed _ _ _ hk hl]
    have : (∃ n ∈ splitComma s, (trimBlanks n).map foldCase = k) ↔ HasOption [s] k := by
      constructor
      · rintro ⟨n, hn, e⟩
        exact ⟨s, by simp, hv, n, trimBlanks n, (mem_splitComma _ _).mp hn, trimBlanks_padded n, by
          show _ = k.map foldCase; rw [hk.fold]; exact e⟩
      · rintro ⟨w, hw, _, e, t, h1, h2, h3⟩
        simp only [List.mem_singleton] at hw
        subst hw
        refine ⟨e, (mem_splitComma _ _).mpr h1, ?_⟩
        have := (eqIgnoreCase_iff _ _).mp ((sameToken_trim e k htok).mp ⟨t, h2, h3⟩)
        unfold SameToken at this
        rw [this, hk.fold]
    simp only [this]

open Classical in
/-- C45, read with TE judged by its first field (with a further TE field the claim is false, see
`C45_second_te_kept`): before an HTTP/2 message is sent exactly the connection-specific fields are
removed, and every other field keeps all its values, in order. -/
theorem C45_stripped_partial (kind : MessageKind) (m : HeaderMap) (k : Bytes) (hk : LowerName k) (hlen : k.length < 2 ^ 16) :
    (stripConnectionHeaders kind m).getAll k = if ConnectionSpecific kind m k then [] else m.getAll k := by
  have hA : ∀ k, (connectionHeaders.foldl HeaderMap.remove m).getAll k =
      if k = ascii "keep-alive" ∨ k = ascii "proxy-connection" ∨ k = ascii "transfer-encoding" ∨ k = ascii "upgrade"
      then [] else m.getAll k := by
    intro k
    simp only [connectionHeaders, List.foldl_cons, List.foldl_nil, getAll_remove, hTE, hUPGRADE]
    split
    · rename_i h; simp [h]
    · split
      · rename_i h; simp [h]
      · split
        · rename_i h; simp [h]
        · split
          · rename_i h; simp [h]
          · rw [if_neg]; simp_all
  unfold stripConnectionHeaders
  generalize connectionHeaders.foldl HeaderMap.remove m = m1 at hA
  have hte1 : m1.getAll (ascii "te") = m.getAll (ascii "te") := by rw [hA]; exact if_neg (by decide)
  have hB : ∀ k, (stripTe kind m1).getAll k =
      if k = ascii "te" ∧ (kind = .response ∨ (m.getAll (ascii "te")).head? ≠ some (ascii "trailers"))
      then [] else m1.getAll k := by
    intro k
    cases kind with
    | response => simp only [stripTe, getAll_remove, hTeField, true_or, and_true]
    | request =>
      simp only [stripTe, HeaderMap.get, hTeField, reduceCtorEq, false_or, hte1]
      cases hh : (m.getAll (ascii "te")).head? with
      | none =>
        simp only [Option.any_none, Bool.false_eq_true, if_false, ne_eq, reduceCtorEq, not_false_iff, and_true]
        split
        · rename_i hk; rw [hk, hte1]; exact List.head?_eq_none_iff.mp hh
        · rfl
      | some v =>
        simp only [Option.any_some, bne_iff_ne, ne_eq, Option.some.injEq]
        split
        · rename_i hv; rw [getAll_remove]; simp [hv]
        · rename_i hv; rw [if_neg (by simp_all)]
  generalize stripTe kind m1 = m2 at hB
  have hc2 : m2.getAll (ascii "connection") = m.getAll (ascii "connection") := by
    rw [hB, if_neg (by decide_cbv), hA]; exact if_neg (by decide)
  have hC : (stripConnection m2).getAll k =
      if k = ascii "connection" ∨ ∃ v, (m.getAll (ascii "connection")).head? = some v ∧ HasOption [v] k
      then [] else m2.getAll k := by
    unfold stripConnection
    simp only [HeaderMap.get, hCONN, hc2]
    cases hh : (m.getAll (ascii "connection")).head? with
    | none =>
      simp only [reduceCtorEq, false_and, exists_false, or_false]
      split
      · rename_i hk; rw [hk, hc2]; exact List.head?_eq_none_iff.mp hh
      · rfl
    | some v =>
      simp only [Option.some.injEq, exists_eq_left']
      rw [getAll_stripListed _ _ _ hk hlen, getAll_remove]
      by_cases h1 : HasOption [v] k
      · simp [h1]
      · simp [h1]
  rw [hC, hB, hA]
  unfold ConnectionSpecific
  by_cases h1 : k = ascii "connection" ∨ ∃ v, (m.getAll (ascii "connection")).head? = some v ∧ HasOption [v] k
  · rw [if_pos h1, if_pos]; rcases h1 with h | h <;> simp [h]
  · rw [if_neg h1]
    by_cases h2 : k = ascii "te" ∧ (kind = .response ∨ (m.getAll (ascii "te")).head? ≠ some (ascii "trailers"))
    · rw [if_pos h2, if_pos]; simp only [h2, true_or, or_true, and_self]
    · rw [if_neg h2]
      by_cases h3 : k = ascii "keep-alive" ∨ k = ascii "proxy-connection" ∨ k = ascii "transfer-encoding" ∨ k = ascii "upgrade"
      · rw [if_pos h3, if_pos]; rcases h3 with h | h | h | h <;> simp only [h, true_or, or_true]
      · rw [if_neg h3, if_neg]
        rintro (h | h | h | h | h | h | h)
        · exact h3 (.inl h)
        · exact h3 (.inr (.inl h))
        · exact h3 (.inr (.inr (.inl h)))
        · exact h3 (.inr (.inr (.inr h)))
        · exact h1 (.inl h)
        · exact h2 h
        · exact h1 (.inr h)

example : stripConnectionHeaders .request [(ascii "a", [ascii "1"]), (hCONN, [ascii "close , X-Y"]), (ascii "x-y", [ascii "2"]),
      (hUPGRADE, [ascii "h2c"]), (ascii "te", [ascii "gzip"]), (ascii "b", [ascii "3", ascii "4"])] =
    [(ascii "a", [ascii "1"]), (ascii "b", [ascii "3", ascii "4"])] := by decide +kernel

/-- The claim is false of the code for a second TE field: only the first is looked at, so `gzip` is sent in an HTTP/2
request. -/
theorem C45_second_te_kept :
    (stripConnectionHeaders .request [(ascii "te", [ascii "trailers", ascii "gzip"])]).getAll (ascii "te") =
      [ascii "trailers", ascii "gzip"] := by decide +kernel

/-- Likewise only the first Connection field is honoured. -/
theorem C45_second_connection_ignored :
    (stripConnectionHeaders .request [(hCONN, [ascii "a", ascii "b"]), (ascii "b", [ascii "1"])]) =
      [(ascii "b", [ascii "1"])] := by decide +kernel

end Hyper
