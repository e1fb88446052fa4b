import Verif.Proof.ClientParse
import Verif.Props.ServerParse

/-!
# C14 (responses), C19, C20: reading response heads

`clientParse cfg H method fuel buf []` is the client looking for a response head in its buffer: `H`
is the external tokeniser, `method` the request's method.
-/

namespace Hyper

open Spec

theorem ofLength_framing (fr : Framing) (h : ∀ n, fr = .length n → n ≤ 2 ^ 64 - 3)
    (mh ms : Option Nat) : Decoder.ofLength (framingLength fr) mh ms = readerFor mh ms fr := by
  cases fr with
  | chunked => rfl
  | untilClose => rfl
  | length n =>
    have hn := h n rfl
    unfold Decoder.ofLength framingLength
    rw [if_neg, if_neg]
    · rfl
    · simp only [DecodedLength.CLOSE_DELIMITED, DecodedLength.mk.injEq, u64Max]; omega
    · simp only [DecodedLength.CHUNKED, DecodedLength.mk.injEq, u64Max]; omega

/-- C19.  When the buffer starts with a complete final response head whose fields have valid names,
and RFC 9112 gives it a framing (of a length below 2^64-2), the caller gets that response and its body
is read with exactly that framing, its headers are those fields; when RFC 9112 gives it none, the caller gets an error. -/
theorem C19_response_framing (cfg : ClientCfg) (H : Bytes → RespParse) (method : Option Bytes)
    (fuel : Nat) (buf : Bytes) (len : Nat) (r : RawResponse)
    (hH : H buf = .complete len r)
    (hfinal : 200 ≤ r.status ∧ r.status ≤ 999 ∨ r.status = 101)
    (hnames : ∀ f ∈ r.fields, headerName f.1 ≠ none) :
    let fields := cfg.unfold r.fields
    let out := clientParse cfg H method (fuel + 1) buf []
    (∀ fr, ResponseFraming method r.status (r.http11 = false) (teOf fields) (clOf fields) fr →
      (∀ n, fr = .length n → n ≤ 2 ^ 64 - 3) →
      ∃ m, out.res = .ok (some m) ∧ m.head.status = r.status ∧ out.buf = buf.drop len ∧
        (∀ maxHeaders maxSize, Decoder.ofLength m.decode maxHeaders maxSize =
          readerFor maxHeaders maxSize fr) ∧
        (m.head.version = if r.http11 then .h11 else .h10) ∧ ∀ k, m.head.headers.getAll k = valuesOf k fields) ∧
    ((¬ ∃ fr, ResponseFraming method r.status (r.http11 = false) (teOf fields) (clOf fields) fr ∧
        (∀ n, fr = .length n → n ≤ 2 ^ 64 - 3)) → ∃ e, out.res = .error e) := by
  simp only
  have hunf : ∀ f ∈ cfg.unfold r.fields, headerName f.1 ≠ none := by
    unfold ClientCfg.unfold
    split
    · intro f hf
      obtain ⟨g, hg, rfl⟩ := List.mem_map.mp hf
      exact hnames g hg
    · exact hnames
  obtain ⟨head, ka, hh⟩ : ∃ head ka, clientHead cfg r = .ok (head, ka) := by
    have hlong : namesTooLong r.fields = false := by
      cases hl : namesTooLong r.fields with
      | false => rfl
      | true =>
        obtain ⟨f, hf, hlen⟩ := List.any_eq_true.mp hl
        exfalso
        apply hnames f hf
        unfold headerName
        rw [if_neg]
        rintro ⟨_, _, h3⟩
        simp only [decide_eq_true_eq] at hlen
        omega
    obtain ⟨⟨k, hs, cm⟩, ht⟩ := respLoop_total (cfg.unfold r.fields) r.http11 []
      (if cfg.preserveCase then some [] else none) hunf
    unfold clientHead
    rw [if_neg (by omega), if_neg (by simp [hlong])]
    simp only [ht]
    exact ⟨_, _, rfl⟩
  obtain ⟨hf, hst, hver, hget, hka, _⟩ := clientHead_ok hh
  have hte : head.headers.getAll hTE = teOf (cfg.unfold r.fields) := hget _
  have hcl : head.headers.getAll hCL = clOf (cfg.unfold r.fields) := hget _
  have hv : (head.version = .h10) = (r.http11 = false) := by
    rw [hver]; cases r.http11 <;> simp
  have hspec := clientDecoder_spec head method hf (by rw [hst]; omega)
  rw [hte, hcl, hst, hv] at hspec
  rcases hspec with ⟨fr, h1, h2, up, h3, h4⟩ | ⟨h1, e, h2⟩
  · constructor
    · intro fr' hfr' _
      have := hfr'.unique h1
      subst this
      refine ⟨⟨head, framingLength fr', ka && !up, up⟩, ?_, hst, ?_, ?_, hver, hget⟩
      · simp only [clientParse, hH, hh, h3]
      · simp only [clientParse, hH, hh, h3]
      · exact fun mh ms => ofLength_framing fr' h2 mh ms
    · intro hno; exact absurd ⟨fr, h1, h2⟩ hno
  · constructor
    · intro fr hfr hle; exact absurd ⟨fr, hfr, hle⟩ h1
    · intro _
      exact ⟨e, by simp only [clientParse, hH, hh, h2]⟩

/-- C14, on responses: Content-Length values that do not agree on a length make the response an
error (unless it has no body or a Transfer-Encoding). -/
theorem C14_disagreeing_response_rejected (cfg : ClientCfg) (H : Bytes → RespParse)
    (method : Option Bytes) (fuel : Nat) (buf : Bytes) (len : Nat) (r : RawResponse)
    (hH : H buf = .complete len r) (hfinal : 200 ≤ r.status ∧ r.status ≤ 999)
    (hnames : ∀ f ∈ r.fields, headerName f.1 ≠ none) (hbody : ¬ NoBody method r.status)
    (hte : teOf (cfg.unfold r.fields) = []) (hcl : clOf (cfg.unfold r.fields) ≠ [])
    (hdis : ¬ ∃ n, AgreedLength (clOf (cfg.unfold r.fields)) n) :
    ∃ e, (clientParse cfg H method (fuel + 1) buf []).res = .error e := by
  refine (C19_response_framing cfg H method fuel buf len r hH (Or.inl hfinal) hnames).2 ?_
  rintro ⟨fr, hfr, _⟩
  cases hfr with
  | noBody b => exact hbody b
  | chunked _ b => exact b hte
  | otherCoding _ b => exact b hte
  | length n _ _ b => exact hdis ⟨n, b⟩
  | untilClose _ _ b => exact hcl b

/-- Default options. -/
def exCfg : ClientCfg := ⟨false, false, false, fun s => if s = 200 then some (ascii "OK") else none⟩

/-- A tokeniser that knows two heads, one byte each. -/
def exH : Bytes → RespParse
  | 1 :: _ => .complete 1 ⟨100, true, ascii "Continue", []⟩
  | 2 :: _ => .complete 1 ⟨103, true, ascii "Early Hints", [(ascii "Link", ascii "x")]⟩
  | 3 :: _ => .complete 1 ⟨200, true, ascii "OK",
      [(ascii "Content-Length", ascii "5, 5"), (ascii "content-length", ascii "05")]⟩
  | 4 :: _ => .complete 1 ⟨200, true, ascii "OK",
      [(ascii "Content-Length", ascii "5, 6")]⟩
  | 5 :: _ => .complete 1 ⟨200, true, ascii "OK",
      [(ascii "Content-Length", ascii "5"), (ascii "transfer-encoding", ascii "gzip")]⟩
  | _ => .incomplete

example : (clientParse exCfg exH (some mGET) 9 [3, 9] []).res = .ok (some
    ⟨⟨.h11, 200, [(hCL, [ascii "5, 5", ascii "05"])], none, none⟩, ⟨5⟩, true, false⟩) := by
  decide +kernel
example : (clientParse exCfg exH (some mGET) 9 [4, 9] []).res =
    .error (.header .contentLengthInvalid) := by decide +kernel
example : (clientParse exCfg exH (some mGET) 9 [5, 9] []).res = .ok (some
    ⟨⟨.h11, 200, [(hCL, [ascii "5"]), (hTE, [ascii "gzip"])], none, none⟩,
      DecodedLength.CLOSE_DELIMITED, true, false⟩) := by decide +kernel
example : (clientParse exCfg exH (some mHEAD) 9 [5, 9] []).res = .ok (some
    ⟨⟨.h11, 200, [(hCL, [ascii "5"]), (hTE, [ascii "gzip"])], none, none⟩,
      DecodedLength.ZERO, true, false⟩) := by decide +kernel

/-! ## C20 -/

/-- An interim status: 1xx other than 101. -/
def Spec.Interim (status : Nat) : Prop := 100 ≤ status ∧ status ≤ 199 ∧ status ≠ 101

/-- `buf` starts with the interim heads `rs`, followed by `rest`. -/
inductive Spec.InterimHeads (H : Bytes → RespParse) : Bytes → List RawResponse → Bytes → Prop where
  | nil (buf : Bytes) : InterimHeads H buf [] buf
  | cons {buf : Bytes} {len : Nat} {r : RawResponse} {rs : List RawResponse} {rest : Bytes} :
      H buf = .complete len r → Interim r.status → InterimHeads H (buf.drop len) rs rest →
      InterimHeads H buf (r :: rs) rest

/-- The head built from a tokenised response. -/
def Spec.headOf (cfg : ClientCfg) (r : RawResponse) : Option RespHead :=
  match clientHead cfg r with
  | .ok (h, _) => some h
  | .error _ => none

theorem clientDecoder_none {head : RespHead} {method : Option Bytes}
    (h : clientDecoder head method = .ok none) : Interim head.status := by
  unfold clientDecoder at h
  simp only at h
  split at h
  · simp at h
  · split at h
    · rename_i h1 h2; unfold Interim; omega
    · split at h
      · simp at h
      · split at h
        · simp at h
        · split at h
          · simp at h
          · split at h
            · split at h
              · simp at h
              · split at h <;> simp at h
            · split at h
              · split at h <;> simp at h
              · split at h <;> simp at h

theorem clientDecoder_interim {head : RespHead} (method : Option Bytes)
    (h : Interim head.status) : clientDecoder head method = .ok none := by
  unfold Interim at h
  unfold clientDecoder
  simp only
  rw [if_neg (by omega), if_pos (by omega)]

theorem clientParse_sound (cfg : ClientCfg) (H : Bytes → RespParse) (method : Option Bytes)
    (fuel : Nat) : ∀ (buf : Bytes) (inf : List RespHead),
    ∃ rs rest hs, InterimHeads H buf rs rest ∧ rs.map (headOf cfg) = hs.map some ∧
      (clientParse cfg H method fuel buf inf).informed = inf ++ hs ∧
      ((clientParse cfg H method fuel buf inf).res = .ok none →
        (clientParse cfg H method fuel buf inf).buf = rest) ∧
      (∀ m, (clientParse cfg H method fuel buf inf).res = .ok (some m) →
        ¬ Interim m.head.status ∧
        ((∃ len r, H rest = .complete len r ∧ headOf cfg r = some m.head ∧
            (clientParse cfg H method fuel buf inf).buf = rest.drop len) ∨
          (cfg.h09 = true ∧ H rest = .versionErr ∧ m.head = h09Head cfg ∧
            (clientParse cfg H method fuel buf inf).buf = rest))) := by
  induction fuel with
  | zero =>
    intro buf inf
    exact ⟨[], buf, [], .nil buf, rfl, by simp [clientParse], by simp [clientParse], by simp [clientParse]⟩
  | succ fuel ih =>
    intro buf inf
    have base : ∀ o : ClientOut, o.informed = inf → (o.res = .ok none → o.buf = buf) →
        (∀ m, o.res = .ok (some m) → ¬ Interim m.head.status ∧
          ((∃ len r, H buf = .complete len r ∧ headOf cfg r = some m.head ∧ o.buf = buf.drop len) ∨
           (cfg.h09 = true ∧ H buf = .versionErr ∧ m.head = h09Head cfg ∧ o.buf = buf))) →
        clientParse cfg H method (fuel + 1) buf inf = o →
        ∃ rs rest hs, InterimHeads H buf rs rest ∧ rs.map (headOf cfg) = hs.map some ∧
          (clientParse cfg H method (fuel + 1) buf inf).informed = inf ++ hs ∧
          ((clientParse cfg H method (fuel + 1) buf inf).res = .ok none →
            (clientParse cfg H method (fuel + 1) buf inf).buf = rest) ∧
          (∀ m, (clientParse cfg H method (fuel + 1) buf inf).res = .ok (some m) →
            ¬ Interim m.head.status ∧
            ((∃ len r, H rest = .complete len r ∧ headOf cfg r = some m.head ∧
                (clientParse cfg H method (fuel + 1) buf inf).buf = rest.drop len) ∨
              (cfg.h09 = true ∧ H rest = .versionErr ∧ m.head = h09Head cfg ∧
                (clientParse cfg H method (fuel + 1) buf inf).buf = rest))) := by
      intro o h1 h2 h3 h4
      rw [h4]
      exact ⟨[], buf, [], .nil buf, rfl, by simp [h1], h2, h3⟩
    cases hH : H buf with
    | incomplete =>
      exact base ⟨.ok none, buf, inf⟩ rfl (fun _ => rfl) (by simp) (by simp only [clientParse, hH])
    | err e =>
      exact base ⟨.error e, buf, inf⟩ rfl (by simp) (by simp) (by simp only [clientParse, hH])
    | versionErr =>
      by_cases h9 : cfg.h09 = true
      · cases hd : clientDecoder (h09Head cfg) method with
        | error e =>
          exact base ⟨.error e, buf, inf⟩ rfl (by simp) (by simp)
            (by simp only [clientParse, hH, hd, h9, if_true])
        | ok o =>
          cases o with
          | none =>
            exact base ⟨.ok none, buf, inf⟩ rfl (fun _ => rfl) (by simp)
              (by simp only [clientParse, hH, hd, h9, if_true])
          | some p =>
            obtain ⟨d, up⟩ := p
            refine base ⟨.ok (some ⟨h09Head cfg, d, false && !up, up⟩), buf, inf⟩ rfl (by simp) ?_
              (by simp only [clientParse, hH, hd, h9, if_true])
            intro m hm
            simp only [Except.ok.injEq, Option.some.injEq] at hm
            subst hm
            exact ⟨by simp [Interim, h09Head], Or.inr ⟨h9, hH, rfl, rfl⟩⟩
      · exact base ⟨.error .version, buf, inf⟩ rfl (by simp) (by simp)
          (by simp only [clientParse, hH, h9]; rfl)
    | complete len r =>
      cases hh : clientHead cfg r with
      | error e =>
        exact base ⟨.error e, buf.drop len, inf⟩ rfl (by simp) (by simp)
          (by simp only [clientParse, hH, hh])
      | ok p =>
        obtain ⟨head, ka⟩ := p
        have hho : headOf cfg r = some head := by simp only [headOf, hh]
        cases hd : clientDecoder head method with
        | error e =>
          exact base ⟨.error e, buf.drop len, inf⟩ rfl (by simp) (by simp)
            (by simp only [clientParse, hH, hh, hd])
        | ok o =>
          cases o with
          | some p =>
            obtain ⟨d, up⟩ := p
            refine base ⟨.ok (some ⟨head, d, ka && !up, up⟩), buf.drop len, inf⟩ rfl (by simp) ?_
              (by simp only [clientParse, hH, hh, hd])
            intro m hm
            simp only [Except.ok.injEq, Option.some.injEq] at hm
            subst hm
            refine ⟨fun hi => ?_, Or.inl ⟨len, r, hH, hho, rfl⟩⟩
            have := clientDecoder_interim method hi
            rw [hd] at this; simp at this
          | none =>
            have hint := clientDecoder_none hd
            have hst : head.status = r.status := (clientHead_ok hh).2.1
            have hinf : isInformational head.status = true := by
              unfold Interim at hint; unfold isInformational
              simp only [Bool.and_eq_true, decide_eq_true_eq]; omega
            by_cases he : buf.drop len = []
            · refine ⟨[r], [], [head], .cons hH (hst ▸ hint) (he ▸ .nil _), by simp [hho], ?_, ?_, ?_⟩
              · simp only [clientParse, hH, hh, hd, hinf, if_true, he]
              · simp only [clientParse, hH, hh, hd, hinf, if_true, he]; intro; trivial
              · simp only [clientParse, hH, hh, hd, hinf, if_true, he]; simp
            · obtain ⟨rs, rest, hs, g1, g2, g3, g4, g5⟩ := ih (buf.drop len) (inf ++ [head])
              have hrec : clientParse cfg H method (fuel + 1) buf inf =
                  clientParse cfg H method fuel (buf.drop len) (inf ++ [head]) := by
                simp only [clientParse, hH, hh, hd, hinf, if_true, he, if_false]
              rw [hrec]
              refine ⟨r :: rs, rest, head :: hs, .cons hH (hst ▸ hint) g1, by simp [hho, g2], ?_, g4, g5⟩
              rw [g3]; simp

/-- The client's calls as data arrives: after each read the new bytes are appended to what was left
and the parser is called again, until there is a response or an error.  Result: what the last call
gave, with every head reported so far. -/
def clientSession (cfg : ClientCfg) (H : Bytes → RespParse) (method : Option Bytes) :
    Bytes → List RespHead → List Bytes → ClientOut
  | buf, inf, [] => ⟨.ok none, buf, inf⟩
  | buf, inf, seg :: segs =>
    let o := clientParse cfg H method ((buf ++ seg).length + 1) (buf ++ seg) inf
    match o.res with
    | .ok none => clientSession cfg H method o.buf o.informed segs
    | _ => o

/-- Assumption about the tokeniser: a complete head is recognised whatever follows it. -/
def Spec.PrefixStable (H : Bytes → RespParse) : Prop :=
  ∀ buf len r, H buf = .complete len r → 0 < len ∧ len ≤ buf.length ∧
    ∀ more, H (buf ++ more) = .complete len r

theorem Spec.InterimHeads.extend {H : Bytes → RespParse} (hst : PrefixStable H) {buf rest : Bytes}
    {rs : List RawResponse} (h : InterimHeads H buf rs rest) (more : Bytes) :
    InterimHeads H (buf ++ more) rs (rest ++ more) := by
  induction h with
  | nil buf => exact .nil _
  | @cons buf len r rs rest h1 h2 h3 ih =>
    obtain ⟨s1, s2, s3⟩ := hst _ _ _ h1
    refine .cons (s3 more) h2 ?_
    rw [List.drop_append_of_le_length s2]
    exact ih

theorem Spec.InterimHeads.trans {H : Bytes → RespParse} {a b c : Bytes}
    {rs ss : List RawResponse} (h1 : InterimHeads H a rs b) (h2 : InterimHeads H b ss c) :
    InterimHeads H a (rs ++ ss) c := by
  induction h1 with
  | nil => exact h2
  | cons g1 g2 _ ih => exact .cons g1 g2 (ih h2)

/-- C20.  However the bytes arrive, the response handed to the caller is never interim; the bytes
received are a series of interim heads followed by that response's head, and the informational
callback was given exactly these interim heads, once each, in order. -/
theorem C20_interim_never_final (cfg : ClientCfg) (h09 : cfg.h09 = false) (H : Bytes → RespParse)
    (hst : PrefixStable H) (method : Option Bytes) (segs : List Bytes) (m : ResponseMsg)
    (hm : (clientSession cfg H method [] [] segs).res = .ok (some m)) :
    ¬ Interim m.head.status ∧
    ∃ k rs rest len r hs, InterimHeads H (segs.take k).flatten rs rest ∧
      H rest = .complete len r ∧ headOf cfg r = some m.head ∧
      rs.map (headOf cfg) = hs.map some ∧
      (clientSession cfg H method [] [] segs).informed = hs ∧
      (clientSession cfg H method [] [] segs).buf = rest.drop len := by
  have main : ∀ (segs : List Bytes) (seen buf : Bytes) (rs : List RawResponse) (inf : List RespHead),
      InterimHeads H seen rs buf → rs.map (headOf cfg) = inf.map some →
      (clientSession cfg H method buf inf segs).res = .ok (some m) →
      ¬ Interim m.head.status ∧
      ∃ k rs rest len r hs, InterimHeads H (seen ++ (segs.take k).flatten) rs rest ∧
        H rest = .complete len r ∧ headOf cfg r = some m.head ∧
        rs.map (headOf cfg) = hs.map some ∧
        (clientSession cfg H method buf inf segs).informed = hs ∧
        (clientSession cfg H method buf inf segs).buf = rest.drop len := by
    intro segs
    induction segs with
    | nil => intro seen buf rs inf _ _ h; simp [clientSession] at h
    | cons seg segs ih =>
      intro seen buf rs inf hin hmap h
      obtain ⟨rs2, rest, hs, g1, g2, g3, g4, g5⟩ :=
        clientParse_sound cfg H method ((buf ++ seg).length + 1) (buf ++ seg) inf
      have hin2 : InterimHeads H (seen ++ seg) (rs ++ rs2) rest := (hin.extend hst seg).trans g1
      have hmap2 : (rs ++ rs2).map (headOf cfg) = (inf ++ hs).map some := by
        simp [hmap, g2]
      generalize ho : clientParse cfg H method ((buf ++ seg).length + 1) (buf ++ seg) inf = o at *
      cases hr : o.res with
      | error e =>
        have hsess : clientSession cfg H method buf inf (seg :: segs) = o := by
          simp only [clientSession, ho, hr]
        rw [hsess, hr] at h; simp at h
      | ok p =>
        cases p with
        | none =>
          have hsess : clientSession cfg H method buf inf (seg :: segs) =
              clientSession cfg H method o.buf o.informed segs := by
            simp only [clientSession, ho, hr]
          rw [hsess] at h ⊢
          have hb : o.buf = rest := g4 hr
          obtain ⟨c1, k, rs3, rest3, len, r, hs3, c2, c3⟩ :=
            ih (seen ++ seg) o.buf (rs ++ rs2) o.informed (hb ▸ hin2) (by rw [g3]; exact hmap2) h
          refine ⟨c1, k + 1, rs3, rest3, len, r, hs3, ?_, c3⟩
          simpa using c2
        | some m' =>
          have hsess : clientSession cfg H method buf inf (seg :: segs) = o := by
            simp only [clientSession, ho, hr]
          rw [hsess] at h ⊢
          rw [hr] at h
          simp only [Except.ok.injEq, Option.some.injEq] at h
          subst h
          obtain ⟨d1, d2⟩ := g5 m' hr
          rcases d2 with ⟨len, r, e1, e2, e3⟩ | ⟨e1, _⟩
          · exact ⟨d1, 1, rs ++ rs2, rest, len, r, inf ++ hs, by simpa using hin2, e1, e2, hmap2, g3, e3⟩
          · rw [h09] at e1; simp at e1
  have := main segs [] [] [] [] (.nil _) rfl hm
  simpa using this

/-- C20, the other direction: if the buffer holds interim heads and then a complete final head with a
valid framing, that final response is delivered and exactly the interim heads are reported. -/
theorem C20_final_delivered (cfg : ClientCfg) (H : Bytes → RespParse) (hst : PrefixStable H)
    (method : Option Bytes) (buf rest : Bytes) (rs : List RawResponse) (hs : List RespHead)
    (len : Nat) (r : RawResponse) (head : RespHead) (ka up : Bool) (d : DecodedLength)
    (hin : InterimHeads H buf rs rest) (hok : rs.map (headOf cfg) = hs.map some)
    (hH : H rest = .complete len r) (hh : clientHead cfg r = .ok (head, ka))
    (hd : clientDecoder head method = .ok (some (d, up))) :
    clientParse cfg H method (buf.length + 1) buf [] =
      ⟨.ok (some ⟨head, d, ka && !up, up⟩), rest.drop len, hs⟩ := by
  have main : ∀ (fuel : Nat) (inf : List RespHead) (hs : List RespHead), buf.length + 1 ≤ fuel →
      rs.map (headOf cfg) = hs.map some →
      clientParse cfg H method fuel buf inf =
        ⟨.ok (some ⟨head, d, ka && !up, up⟩), rest.drop len, inf ++ hs⟩ := by
    clear hok
    induction hin with
    | nil buf =>
      intro fuel inf hs hfuel hmap
      obtain ⟨fuel, rfl⟩ : ∃ n, fuel = n + 1 := ⟨fuel - 1, by omega⟩
      have : hs = [] := by simpa using hmap.symm
      subst this
      simp only [clientParse, hH, hh, hd, List.append_nil]
    | @cons buf l q qs rest h1 h2 h3 ih =>
      intro fuel inf hs hfuel hmap
      obtain ⟨fuel, rfl⟩ : ∃ n, fuel = n + 1 := ⟨fuel - 1, by omega⟩
      cases hs with
      | nil => simp at hmap
      | cons a as =>
        simp only [List.map_cons, List.cons.injEq] at hmap
        obtain ⟨s1, s2, _⟩ := hst _ _ _ h1
        obtain ⟨ka', hq⟩ : ∃ ka', clientHead cfg q = .ok (a, ka') := by
          have := hmap.1
          unfold headOf at this
          cases hc : clientHead cfg q with
          | error e => rw [hc] at this; simp at this
          | ok p => obtain ⟨x, y⟩ := p; rw [hc] at this; simp at this; exact ⟨y, by rw [this]⟩
        have hstat : a.status = q.status := (clientHead_ok hq).2.1
        have hdn := clientDecoder_interim (head := a) method (hstat ▸ h2)
        have hinf : isInformational a.status = true := by
          unfold Interim at h2; unfold isInformational
          simp only [Bool.and_eq_true, decide_eq_true_eq]; omega
        have hne : buf.drop l ≠ [] := by
          intro he
          have hemp : ∀ (b : Bytes) (l : List RawResponse), b = [] → InterimHeads H b l rest → rest = [] := by
            intro b l hb hi
            cases hi with
            | nil => exact hb
            | cons k1 _ _ =>
              obtain ⟨z1, z2, _⟩ := hst _ _ _ k1
              rw [hb] at z2; simp at z2; omega
          have hr := hemp _ _ he h3
          obtain ⟨z1, z2, _⟩ := hst _ _ _ hH
          rw [hr] at z2; simp at z2; omega
        have hrec : clientParse cfg H method (fuel + 1) buf inf =
            clientParse cfg H method fuel (buf.drop l) (inf ++ [a]) := by
          simp only [clientParse, h1, hq, hdn, hinf, if_true, hne, if_false]
        rw [hrec, ih hH fuel (inf ++ [a]) as (by rw [List.length_drop]; omega) hmap.2]
        simp
  have := main (buf.length + 1) [] hs (Nat.le_refl _) hok
  simpa using this

example : PrefixStable exH := by
  intro buf len r h
  unfold exH at h
  split at h <;> simp at h <;> obtain ⟨rfl, rfl⟩ := h <;>
    exact ⟨by decide, by simp, fun more => rfl⟩

/-- Two interim heads arriving in pieces, then the response. -/
example : (clientSession exCfg exH (some mGET) [] [] [[1], [2, 3, 9]]).informed.map RespHead.status =
      [100, 103] ∧
    (clientSession exCfg exH (some mGET) [] [] [[1], [2, 3, 9]]).buf = [9] := by decide +kernel

/-! ## Persistence of responses -/

/-- C26, what marks a response as the last one: a response handed to the caller leaves the connection reusable exactly if its version's
default, as modified by its successive Connection fields, says so and it is not an upgrade; one without a head (HTTP/0.9) never does. -/
theorem C26_response_persistence (cfg : ClientCfg) (H : Bytes → RespParse) (method : Option Bytes) (fuel : Nat) (buf : Bytes) (inf : List RespHead)
    (m : ResponseMsg) (hm : (clientParse cfg H method fuel buf inf).res = .ok (some m)) :
    (∃ rest len r b, rest <:+ buf ∧ H rest = .complete len r ∧ headOf cfg r = some m.head ∧
      Persists r.http11 (valuesOf (ascii "connection") (cfg.unfold r.fields)) b ∧ (m.keepAlive = true ↔ b = true ∧ m.wantsUpgrade = false)) ∨
    (m.head.version = .h09 ∧ m.keepAlive = false) := by
  induction fuel generalizing buf inf with
  | zero => simp [clientParse] at hm
  | succ fuel ih =>
    rw [clientParse] at hm
    cases hH : H buf with
    | incomplete => simp [hH] at hm
    | err e => simp [hH] at hm
    | versionErr =>
      simp only [hH] at hm
      split at hm
      · split at hm
        · simp at hm
        · simp only [Except.ok.injEq, Option.some.injEq] at hm
          rw [← hm]; exact .inr ⟨rfl, rfl⟩
        · simp at hm
      · simp at hm
    | complete len r =>
      simp only [hH] at hm
      cases hh : clientHead cfg r with
      | error e => simp [hh] at hm
      | ok p =>
        obtain ⟨head, ka⟩ := p
        simp only [hh] at hm
        cases hd : clientDecoder head method with
        | error e => simp [hd] at hm
        | ok o =>
          cases o with
          | some p =>
            obtain ⟨dl, up⟩ := p
            simp only [hd, Except.ok.injEq, Option.some.injEq] at hm
            obtain ⟨_, _, _, _, hka, _⟩ := clientHead_ok hh
            refine .inl ⟨buf, len, r, ka, List.suffix_refl _, hH, ?_, ?_, ?_⟩
            · simp only [headOf, hh]; rw [← hm]
            · rw [hka]; exact persists_connFold _ _
            · rw [← hm]; simp
          | none =>
            simp only [hd] at hm
            split at hm
            · simp at hm
            · rcases ih _ _ hm with ⟨rest, len', r', b, h1, h2⟩ | h
              · exact .inl ⟨rest, len', r', b, h1.trans (List.drop_suffix _ _), h2⟩
              · exact .inr h

example : (clientParse exCfg (fun _ => .complete 1 ⟨200, true, ascii "OK", [(ascii "Connection", ascii "close")]⟩) (some mGET) 9 [3, 9] []).res = .ok (some
    ⟨⟨.h11, 200, [(hCONN, [ascii "close"])], none, none⟩, DecodedLength.CLOSE_DELIMITED, false, false⟩) := by decide +kernel

end Hyper
