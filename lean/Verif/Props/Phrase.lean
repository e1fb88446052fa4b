import Verif.Props.RoundTrip

/-!
# C111: a response's reason phrase

The phrase of a status line is either set by the user (`ext::ReasonPhrase`, src/ext/h1_reason_phrase.rs) or the usual one of the status.  The writer is src/proto/h1/role.rs 421-456,
the reader 1057-1067 and 1159-1164.
-/

namespace Hyper

open Spec

/-- All bytes are ASCII. -/
def Spec.Ascii (bs : Bytes) : Prop := ∀ b ∈ bs, b < 128

/-- The phrase of a response: the one set, or else the usual one. -/
def Spec.phrase (usual : Nat → Option Bytes) (status : Nat) (given : Option Bytes) : Bytes :=
  match given with
  | some r => r
  | none => (usual status).getD []

/-- What is assumed of the table of usual phrases: it is ASCII and has the one of 200, which the writer has as a constant. -/
structure Spec.TableOk (usual : Nat → Option Bytes) : Prop where
  ok : usual 200 = some (ascii "OK")
  ascii : ∀ s r, usual s = some r → Ascii r

namespace Phrase

/-- The phrase on the line. -/
theorem line_phrase {env : EncodeEnv} {m : EncodeMsg} {line : Bytes} (ht : TableOk env.canonicalReason) (h : statusLine env m.head = some line) :
    line = Hyper.ascii "HTTP/1." ++ (if decide (m.head.version ≠ .h10) = true then Hyper.ascii "1" else Hyper.ascii "0") ++ Hyper.ascii " " ++
      decimal m.head.status ++ Hyper.ascii " " ++ m.head.reason.getD ((env.canonicalReason m.head.status).getD (Hyper.ascii "<none>")) ++ CRLF := by
  unfold statusLine at h
  split at h
  · rename_i hh
    simp only [Option.some.injEq] at h
    subst h
    rw [hh.1, hh.2.1, hh.2.2, ht.ok]
    simp only [decimal_200, Option.getD_none, Option.getD_some]
    decide
  · simp only at h
    have e0 : Hyper.ascii "HTTP/1.0 " = Hyper.ascii "HTTP/1." ++ Hyper.ascii "0" ++ Hyper.ascii " " := by decide
    have e1 : Hyper.ascii "HTTP/1.1 " = Hyper.ascii "HTTP/1." ++ Hyper.ascii "1" ++ Hyper.ascii " " := by decide
    cases hr : m.head.reason <;> cases hv : m.head.version <;> rw [hv, hr] at h <;>
      simp only [Option.map_some, Option.map_none, reduceCtorEq, Option.some.injEq] at h
    all_goals subst h
    all_goals simp [e0, e1]

theorem decoder_some {h : RespHead} {method : Option Bytes} (hs : 200 ≤ h.status ∧ h.status ≤ 999 ∨ h.status = 101) : clientDecoder h method ≠ .ok none := by
  intro hd
  unfold clientDecoder at hd
  simp only at hd
  repeat' split at hd
  all_goals first
    | (cases hd; done)
    | (exfalso; omega)

theorem head_reason {cfg : ClientCfg} {r : RawResponse} {h : RespHead} {ka : Bool} (hh : clientHead cfg r = .ok (h, ka)) :
    h.reason = (if some r.reason ≠ cfg.canonicalReason r.status then some r.reason else none) ∧ h.status = r.status := by
  unfold clientHead at hh
  repeat' split at hh
  all_goals first
    | (cases hh; done)
    | (simp only [Except.ok.injEq, Prod.mk.injEq] at hh; obtain ⟨rfl, _⟩ := hh; exact ⟨by simp_all, rfl⟩)

/-- The head that is delivered is that of the first response in the buffer. -/
theorem delivered {cfg : ClientCfg} {H : Bytes → RespParse} {method : Option Bytes} {fuel : Nat} {buf : Bytes} {len : Nat} {r : RawResponse} {msg : ResponseMsg}
    (hq : H buf = .complete len r) (hs : 200 ≤ r.status ∧ r.status ≤ 999 ∨ r.status = 101) (h : (clientParse cfg H method (fuel + 1) buf []).res = .ok (some msg)) :
    msg.head.reason = (if some r.reason ≠ cfg.canonicalReason r.status then some r.reason else none) := by
  simp only [clientParse, hq] at h
  cases hh : clientHead cfg r with
  | error e => rw [hh] at h; cases h
  | ok p =>
    obtain ⟨hd, ka⟩ := p
    obtain ⟨h1, h2⟩ := head_reason hh
    rw [hh] at h
    simp only at h
    cases hd' : clientDecoder hd method with
    | error e => rw [hd'] at h; cases h
    | ok o =>
      cases o with
      | none => exact absurd hd' (decoder_some (by rw [h2]; exact hs))
      | some p =>
        obtain ⟨d, up⟩ := p
        rw [hd'] at h
        simp only [Except.ok.injEq, Option.some.injEq] at h
        subst h
        exact h1

/-- What arrives of the phrase that was written. -/
theorem arrives (max : Nat) (H : Bytes → RespParse) (hH : ReadsResponses max H)
    (cfg : ClientCfg) (env : EncodeEnv) (m : EncodeMsg) (fuel : Nat) (out rest : Bytes) (e : Encoder)
    (hwf : ResponseWf m) (hdate : DateOk env) (hreason : ReasonsOk env m) (hshort : ShortNames m.head.headers)
    (huser : UserFramingOk m)
    (hstatus : 200 ≤ m.head.status ∧ m.head.status ≤ 999 ∨ m.head.status = 101)
    (hr : serverEncode env m [] = (out, .ok e))
    (hcount : fieldCount out ≤ max) (hmax : ∀ n, e.kind = .length n → n ≤ 2 ^ 64 - 3)
    (ht : TableOk env.canonicalReason) (w : Bytes) (hw : w = m.head.reason.getD ((env.canonicalReason m.head.status).getD (Hyper.ascii "<none>"))) :
    ∃ msg, (clientParse cfg H m.reqMethod (fuel + 1) (out ++ rest) []).res = .ok (some msg) ∧ msg.head.status = m.head.status ∧
      msg.head.reason = if some (if ∃ b ∈ w, 128 ≤ b then [] else w) ≠ cfg.canonicalReason m.head.status then some (if ∃ b ∈ w, 128 ≤ b then [] else w) else none := by
  obtain ⟨msg, g1, g2, _⟩ := C25_server_to_client_partial max H hH cfg env m fuel out rest e hwf hdate hreason hshort huser hstatus hr hcount hmax
  refine ⟨msg, g1, g2, ?_⟩
  obtain ⟨line, fs, _, hl, h2, h3⟩ := serverEncode_full (S := True) hwf hdate (fun _ => huser) hr
  have hline := line_phrase ht hl
  rw [← hw] at hline
  have hre : ∀ b ∈ w, isValueByte b = true := by
    rw [hw]
    cases hh : m.head.reason with
    | some r => exact hreason.1 r hh
    | none =>
      simp only [Option.getD_none]
      cases hc : env.canonicalReason m.head.status with
      | some r => exact hreason.2 _ r hc
      | none => simp only [Option.getD_none]; decide +kernel
  have hcnt : fs.length ≤ max := by
    have c1 : (CRLF : Bytes).count 10 = 1 := by decide
    have c2 : (Hyper.ascii " ").count 10 = 0 := by decide
    have c3 : (Hyper.ascii "HTTP/1.").count 10 = 0 := by decide
    have c4 : (decimal m.head.status).count 10 = 0 := count_lf_zero (value_not_lf (decimal_valueBytes _))
    have c5 := count_lf_zero (value_not_lf hre)
    have c7 := written_count (writtenLines_lines fs) h3.wire
    have c8 : (if decide (m.head.version ≠ .h10) = true then Hyper.ascii "1" else Hyper.ascii "0").count 10 = 0 := by
      split <;> decide
    rw [h2, hline] at hcount
    simp only [fieldCount, List.count_append, c1, c2, c3, c4, c5, c7, c8, List.count_nil] at hcount
    omega
  have hq := hH (decide (m.head.version ≠ .h10)) m.head.status w (lines fs) fs rest (by omega) (by omega) hre
    (writtenLines_lines fs) h3.wire hcnt
  simp only at hq
  rw [← hline] at hq
  have hout : out = line ++ lines fs ++ CRLF := by rw [h2]; simp
  rw [← hout] at hq
  exact delivered hq hstatus g1

theorem ascii_iff {w : Bytes} : Ascii w ↔ ¬ ∃ b ∈ w, 128 ≤ b := by
  unfold Ascii
  constructor
  · rintro h ⟨b, hb, h'⟩
    have := h b hb
    rw [UInt8.lt_iff_toNat_lt] at this
    rw [UInt8.le_iff_toNat_le] at h'
    omega
  · intro h b hb
    rw [UInt8.lt_iff_toNat_lt]
    have : ¬ (128 : UInt8) ≤ b := fun h' => h ⟨b, hb, h'⟩
    rw [UInt8.le_iff_toNat_le] at this
    omega

end Phrase

/-- C111.  A response written by hyper's server and read by hyper's client shows the same reason phrase at both ends, if it is ASCII and there is one: the one that was set, even an empty
one, and else the usual one of the status, in which case none is reported as set.  The two cases missing are `C111_none_arrives` and `C111_lost`, where the claim is false. -/
theorem C111_phrase_partial (max : Nat) (H : Bytes → RespParse) (hH : ReadsResponses max H)
    (cfg : ClientCfg) (env : EncodeEnv) (m : EncodeMsg) (fuel : Nat) (out rest : Bytes) (e : Encoder)
    (hwf : ResponseWf m) (hdate : DateOk env) (hreason : ReasonsOk env m) (hshort : ShortNames m.head.headers)
    (huser : UserFramingOk m)
    (hstatus : 200 ≤ m.head.status ∧ m.head.status ≤ 999 ∨ m.head.status = 101)
    (hr : serverEncode env m [] = (out, .ok e))
    (hcount : fieldCount out ≤ max) (hmax : ∀ n, e.kind = .length n → n ≤ 2 ^ 64 - 3)
    (ht : TableOk env.canonicalReason) (hsame : cfg.canonicalReason = env.canonicalReason)
    (hascii : ∀ r, m.head.reason = some r → Ascii r) (hsome : m.head.reason = none → env.canonicalReason m.head.status ≠ none) :
    ∃ msg, (clientParse cfg H m.reqMethod (fuel + 1) (out ++ rest) []).res = .ok (some msg) ∧
      phrase cfg.canonicalReason msg.head.status msg.head.reason = phrase env.canonicalReason m.head.status m.head.reason ∧
      (m.head.reason = none → msg.head.reason = none) := by
  obtain ⟨msg, g1, g2, g3⟩ := Phrase.arrives max H hH cfg env m fuel out rest e hwf hdate hreason hshort huser hstatus hr hcount hmax ht _ rfl
  refine ⟨msg, g1, ?_⟩
  rw [hsame] at g3 ⊢
  rw [g2]
  cases hg : m.head.reason with
  | some r =>
    rw [hg] at g3
    simp only [Option.getD_some, Phrase.ascii_iff.mp (hascii r hg), if_false] at g3
    refine ⟨?_, by intro h; cases h⟩
    rw [g3]
    by_cases hc : some r = env.canonicalReason m.head.status
    · simp [phrase, ← hc]
    · simp [phrase, hc]
  | none =>
    cases hc : env.canonicalReason m.head.status with
    | none => exact absurd hc (hsome hg)
    | some r =>
      rw [hg, hc] at g3
      simp only [Option.getD_some, Option.getD_none, Phrase.ascii_iff.mp (ht.ascii _ r hc), if_false] at g3
      simp only [ne_eq, not_true_eq_false, if_false] at g3
      rw [g3]
      exact ⟨rfl, fun _ => rfl⟩

/-- C111 is false of a status without a usual phrase: if none was set, `<none>` arrives as if it had been set. -/
theorem C111_none_arrives (max : Nat) (H : Bytes → RespParse) (hH : ReadsResponses max H)
    (cfg : ClientCfg) (env : EncodeEnv) (m : EncodeMsg) (fuel : Nat) (out rest : Bytes) (e : Encoder)
    (hwf : ResponseWf m) (hdate : DateOk env) (hreason : ReasonsOk env m) (hshort : ShortNames m.head.headers)
    (huser : UserFramingOk m)
    (hstatus : 200 ≤ m.head.status ∧ m.head.status ≤ 999 ∨ m.head.status = 101)
    (hr : serverEncode env m [] = (out, .ok e))
    (hcount : fieldCount out ≤ max) (hmax : ∀ n, e.kind = .length n → n ≤ 2 ^ 64 - 3)
    (ht : TableOk env.canonicalReason) (hsame : cfg.canonicalReason = env.canonicalReason)
    (hnone : m.head.reason = none) (husual : env.canonicalReason m.head.status = none) :
    ∃ msg, (clientParse cfg H m.reqMethod (fuel + 1) (out ++ rest) []).res = .ok (some msg) ∧ msg.head.reason = some (ascii "<none>") := by
  obtain ⟨msg, g1, _, g3⟩ := Phrase.arrives max H hH cfg env m fuel out rest e hwf hdate hreason hshort huser hstatus hr hcount hmax ht _ rfl
  refine ⟨msg, g1, ?_⟩
  rw [hsame, hnone, husual] at g3
  rw [g3]
  decide +kernel

/-- C111 is false of a phrase that is not ASCII, which `ReasonPhrase` takes: an empty one arrives. -/
theorem C111_lost (max : Nat) (H : Bytes → RespParse) (hH : ReadsResponses max H)
    (cfg : ClientCfg) (env : EncodeEnv) (m : EncodeMsg) (fuel : Nat) (out rest : Bytes) (e : Encoder)
    (hwf : ResponseWf m) (hdate : DateOk env) (hreason : ReasonsOk env m) (hshort : ShortNames m.head.headers)
    (huser : UserFramingOk m)
    (hstatus : 200 ≤ m.head.status ∧ m.head.status ≤ 999 ∨ m.head.status = 101)
    (hr : serverEncode env m [] = (out, .ok e))
    (hcount : fieldCount out ≤ max) (hmax : ∀ n, e.kind = .length n → n ≤ 2 ^ 64 - 3)
    (ht : TableOk env.canonicalReason) (r : Bytes) (hset : m.head.reason = some r) (hnot : ¬ Ascii r) (hne : cfg.canonicalReason m.head.status ≠ some []) :
    ∃ msg, (clientParse cfg H m.reqMethod (fuel + 1) (out ++ rest) []).res = .ok (some msg) ∧ msg.head.reason = some [] := by
  obtain ⟨msg, g1, _, g3⟩ := Phrase.arrives max H hH cfg env m fuel out rest e hwf hdate hreason hshort huser hstatus hr hcount hmax ht _ rfl
  refine ⟨msg, g1, ?_⟩
  have hx : ∃ b ∈ r, 128 ≤ b := Decidable.not_not.mp (fun h => hnot (Phrase.ascii_iff.mpr h))
  rw [hset] at g3
  simp only [Option.getD_some, hx, if_true] at g3
  rw [g3, if_pos (fun h => hne h.symm)]

namespace Phrase

def exTable (s : Nat) : Option Bytes := if s = 200 then some (Hyper.ascii "OK") else if s = 404 then some (Hyper.ascii "Not Found") else none

theorem exTable_value {s : Nat} {r : Bytes} (h : exTable s = some r) : (∀ b ∈ r, isValueByte b = true) ∧ Ascii r := by
  unfold exTable at h
  split at h
  · cases h; unfold Ascii; decide +kernel
  · split at h
    · cases h; unfold Ascii; decide +kernel
    · cases h

def exEnv : EncodeEnv := ⟨exTable, Hyper.ascii "Thu, 01 Jan 1970 00:00:00 GMT"⟩

def exMsg (status : Nat) (reason : Option Bytes) : EncodeMsg := ⟨⟨.h11, status, [], none, reason⟩, none, true, some mGET, false, false⟩

def exSeen (status : Nat) (reason : Option Bytes) : Option (Option Bytes) :=
  match (clientParse ⟨false, false, false, exTable⟩ (refResponse 100) (some mGET) 1 (serverEncode exEnv (exMsg status reason) []).1 []).res with
  | .ok (some msg) => some msg.head.reason
  | _ => none

end Phrase

/-- Phrases set, not set, set to the usual one, to an empty one, missing, and not ASCII. -/
example : TableOk Phrase.exTable ∧ Phrase.exSeen 200 (some (ascii "Fine")) = some (some (ascii "Fine")) ∧ Phrase.exSeen 404 none = some none ∧
    Phrase.exSeen 404 (some (ascii "Not Found")) = some none ∧ Phrase.exSeen 200 (some []) = some (some []) ∧
    Phrase.exSeen 299 none = some (some (ascii "<none>")) ∧ Phrase.exSeen 200 (some [195, 169]) = some (some []) := by
  exact ⟨⟨rfl, fun s r h => (Phrase.exTable_value h).2⟩, by decide +kernel⟩

/-- The assumptions of the theorem hold of such a response. -/
example : ∃ msg, (clientParse ⟨false, false, false, Phrase.exTable⟩ (refResponse 100) (some mGET) 1
      ((serverEncode Phrase.exEnv (Phrase.exMsg 200 (some (ascii "Fine"))) []).1 ++ []) []).res = .ok (some msg) ∧
    phrase Phrase.exTable msg.head.status msg.head.reason = ascii "Fine" := by
  have hr : ∃ e, serverEncode Phrase.exEnv (Phrase.exMsg 200 (some (ascii "Fine"))) [] =
      ((serverEncode Phrase.exEnv (Phrase.exMsg 200 (some (ascii "Fine"))) []).1, .ok e) ∧ ∀ n, e.kind = .length n → n ≤ 2 ^ 64 - 3 :=
    ⟨⟨.length 0, false⟩, by decide +kernel, by intro n h; cases h; decide⟩
  obtain ⟨e, hr, hmax⟩ := hr
  obtain ⟨msg, h1, h2, _⟩ := C111_phrase_partial 100 (refResponse 100) (refResponse_reads 100) ⟨false, false, false, Phrase.exTable⟩ Phrase.exEnv
    (Phrase.exMsg 200 (some (ascii "Fine"))) 0 _ [] e
    ⟨by simp [Phrase.exMsg, HeaderMap.fields], by simp [Phrase.exMsg], by simp [Phrase.exMsg]⟩ (by unfold DateOk; decide +kernel)
    ⟨by intro r h; cases h; decide +kernel, fun s r h => (Phrase.exTable_value h).1⟩
    (by simp [ShortNames, Phrase.exMsg, HeaderMap.fields]) ⟨by simp [Phrase.exMsg, HeaderMap.fields, valuesOf], by simp [Phrase.exMsg, HeaderMap.fields, valuesOf]⟩
    (.inl (by decide)) hr (by decide +kernel) hmax
    ⟨rfl, fun s r h => (Phrase.exTable_value h).2⟩ rfl (by intro r h; cases h; unfold Ascii; decide +kernel) (by simp [Phrase.exMsg])
  exact ⟨msg, h1, h2⟩

end Hyper
