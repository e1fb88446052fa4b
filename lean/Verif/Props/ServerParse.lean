import Verif.Proof.ServerParse

/-!
# C17, C18: reading request heads

`serverParse` is the server turning a tokenised head into a request; `r.fields` are the fields as
received, in order and with their original case.  `Decoder.ofLength m.decode` is the body reader the
connection then uses.
-/

namespace Hyper

open Spec

/-- The body reader for a framing. -/
def Spec.readerFor (maxHeaders maxSize : Option Nat) : Framing → Decoder
  | .length n => .length n
  | .chunked => .chunked (Chunked.new maxHeaders maxSize)
  | .untilClose => .eof false

theorem Spec.RequestFraming.unique {h : Prop} {te cl : List Bytes} {f g : Framing}
    (hf : RequestFraming h te cl f) (hg : RequestFraming h te cl g) : f = g := by
  cases hf with
  | chunked a1 a2 a3 =>
    cases hg with
    | chunked => rfl
    | length n b1 => exact absurd b1 a1
    | none b1 => exact absurd b1 a1
  | length n a1 a2 a3 =>
    cases hg with
    | chunked b1 => exact absurd a1 b1
    | length k b1 b2 b3 =>
      cases cl with
      | nil => exact absurd rfl a2
      | cons v vs =>
        have e1 := a3 v (by simp)
        have e2 := b3 v (by simp)
        rw [← e1.2.2.1, ← e2.2.2.1]
    | none b1 b2 => exact absurd b2 a2
  | none a1 a2 =>
    cases hg with
    | chunked b1 => exact absurd a1 b1
    | length n b1 b2 => exact absurd a2 b2
    | none => rfl

theorem serverParse_ok {mo uo : Bytes → Bool} {pc : Bool} {r : RawRequest} {m : RequestMsg}
    (hm : serverParse mo uo pc r = .ok m) :
    ∃ s, (ReqSt.start pc r).run r.http11 r.fields = .ok s ∧ (s.isTe = true → s.isTeChunked = true) ∧
      m = { method := r.method, target := r.target,
            version := if r.http11 then .h11 else .h10, headers := s.headers, caseMap := s.caseMap,
            decode := s.decoder, expectContinue := s.expectContinue,
            keepAlive := if s.isTe && s.isCl then false else s.keepAlive,
            wantsUpgrade := s.wantsUpgrade } := by
  unfold serverParse at hm
  split at hm
  · simp at hm
  · split at hm
    · simp at hm
    · split at hm
      · simp at hm
      · split at hm
        · simp at hm
        · cases hs : (ReqSt.start pc r).run r.http11 r.fields with
          | error e => rw [hs] at hm; simp at hm
          | ok s =>
            rw [hs] at hm
            simp only at hm
            by_cases hc : (s.isTe && !s.isTeChunked) = true
            · rw [if_pos hc] at hm; simp at hm
            · rw [if_neg hc] at hm
              simp only [Except.ok.injEq] at hm
              refine ⟨s, rfl, ?_, hm.symm⟩
              intro ht
              rw [ht] at hc
              simpa using hc

/-- C17.  Every accepted request head has a framing in the sense of RFC 9112, and its body is read
with exactly that framing; with Transfer-Encoding no Content-Length is shown to the service, and if
both were sent the connection is not reused. -/
theorem C17_request_framing (mo uo : Bytes → Bool) (pc : Bool) (r : RawRequest) (m : RequestMsg)
    (hm : serverParse mo uo pc r = .ok m) :
    (∃ fr, RequestFraming (r.http11 = true) (teOf r.fields) (clOf r.fields) fr ∧
      ∀ maxHeaders maxSize, Decoder.ofLength m.decode maxHeaders maxSize =
        readerFor maxHeaders maxSize fr) ∧
    (teOf r.fields ≠ [] → m.headers.getAll (ascii "content-length") = []) ∧
    (teOf r.fields ≠ [] → clOf r.fields ≠ [] → m.keepAlive = false) := by
  obtain ⟨s, hs, hte, rfl⟩ := serverParse_ok hm
  have h := reqInv_run pc r s hs
  refine ⟨?_, fun ht => (h.teNoCl ht).1, ?_⟩
  · by_cases ht : teOf r.fields = []
    · by_cases hc : clOf r.fields = []
      · refine ⟨.length 0, .none ht hc, fun mh ms => ?_⟩
        show Decoder.ofLength s.decoder mh ms = _
        rw [(h.clNone ht hc).2.1]
        rfl
      · obtain ⟨n, c1, c2, c3, c4, _⟩ := h.clSome ht hc
        refine ⟨.length n, .length n ht hc c4, fun mh ms => ?_⟩
        show Decoder.ofLength s.decoder mh ms = _
        rw [c2]
        unfold Decoder.ofLength
        rw [if_neg, if_neg]
        · rfl
        · simp only [DecodedLength.CLOSE_DELIMITED, DecodedLength.mk.injEq, u64Max]; omega
        · simp only [DecodedLength.CHUNKED, DecodedLength.mk.injEq, u64Max]; omega
    · have hch := hte (h.isTe.mpr ht)
      refine ⟨.chunked, .chunked ht (h.te11 ht) ?_, fun mh ms => ?_⟩
      · rw [h.teChunked ht] at hch
        exact (isChunked_iff _).mp hch
      · show Decoder.ofLength s.decoder mh ms = _
        rw [h.teDecoder hch]; rfl
  · intro ht hc
    show (if (s.isTe && s.isCl) = true then false else s.keepAlive) = false
    rw [if_pos (by rw [h.isTe.mpr ht, h.isCl.mpr hc]; rfl)]

/-- C17.  A head with no framing in the sense of RFC 9112 is rejected. -/
theorem C17_violations_rejected (mo uo : Bytes → Bool) (pc : Bool) (r : RawRequest)
    (hbad : ¬ ∃ fr, RequestFraming (r.http11 = true) (teOf r.fields) (clOf r.fields) fr) :
    ∃ e, serverParse mo uo pc r = .error e := by
  cases hm : serverParse mo uo pc r with
  | error e => exact ⟨e, rfl⟩
  | ok m =>
    obtain ⟨⟨fr, h, _⟩, _⟩ := C17_request_framing mo uo pc r m hm
    exact absurd ⟨fr, h⟩ hbad

/-- C17.  Exactly which heads are accepted, when the request line and the field names are fine.
(Content-Length fields after a Transfer-Encoding field are ignored, so they need not be valid.) -/
theorem C17_accepted_iff (mo uo : Bytes → Bool) (pc : Bool) (r : RawRequest)
    (hline : r.target.length ≤ 65534 ∧ mo r.method = true ∧ uo r.target = true)
    (hnames : ∀ f ∈ r.fields, headerName f.1 ≠ none) :
    (∃ m, serverParse mo uo pc r = .ok m) ↔
      (teOf r.fields ≠ [] → r.http11 = true ∧ FinalChunked (teOf r.fields)) ∧
      (clOf (beforeTe r.fields) = [] ∨
        ∃ n, n ≤ 2 ^ 64 - 3 ∧ ∀ v ∈ clOf (beforeTe r.fields), IsLength v n) := by
  constructor
  · rintro ⟨m, hm⟩
    obtain ⟨s, hs, hte, rfl⟩ := serverParse_ok hm
    have h := reqInv_run pc r s hs
    refine ⟨fun ht => ⟨h.te11 ht, ?_⟩, h.before⟩
    have hch := hte (h.isTe.mpr ht)
    rw [h.teChunked ht] at hch
    exact (isChunked_iff _).mp hch
  · rintro ⟨h1, h2⟩
    have hlong : namesTooLong r.fields = false := by
      cases hl : namesTooLong r.fields with
      | false => rfl
      | true =>
        obtain ⟨f, hf, hlen⟩ := List.any_eq_true.mp hl
        exfalso
        apply hnames f hf
        unfold headerName
        rw [if_neg]
        rintro ⟨_, _, h3⟩
        simp only [decide_eq_true_eq] at hlen
        omega
    unfold serverParse
    rw [if_neg (by simp only [MAX_URI_LEN]; omega), if_neg (by simp [hline.2.1]),
      if_neg (by simp [hlong]), if_neg (by simp [hline.2.2])]
    cases hs : (ReqSt.start pc r).run r.http11 r.fields with
    | error e =>
      have := run_error r.fields [] _ e (reqInv_start pc r) hs
      rcases this with ⟨f, hf, hn⟩ | ⟨h3, h4⟩ | h3
      · exact absurd hn (hnames f hf)
      · rw [(h1 h3).1] at h4; simp at h4
      · exact absurd h2 h3
    | ok s =>
      have h := reqInv_run pc r s hs
      simp only
      rw [if_neg]
      · exact ⟨_, rfl⟩
      · intro hc
        simp only [Bool.and_eq_true, Bool.not_eq_true'] at hc
        have ht := h.isTe.mp hc.1
        have := h.teChunked ht
        rw [hc.2] at this
        have hfin := (isChunked_iff _).mpr (h1 ht).2
        rw [hfin] at this
        simp at this

/-- C17.  The service is shown every field received, in order per name; of a repeated
Content-Length it is shown the first. -/
theorem C17_fields_shown (mo uo : Bytes → Bool) (pc : Bool) (r : RawRequest) (m : RequestMsg)
    (hm : serverParse mo uo pc r = .ok m) :
    (∀ name, name ≠ ascii "content-length" → m.headers.getAll name = valuesOf name r.fields) ∧
    (teOf r.fields = [] →
      m.headers.getAll (ascii "content-length") = (clOf r.fields).take 1) ∧
    m.method = r.method ∧ m.target = r.target := by
  obtain ⟨s, hs, hte, rfl⟩ := serverParse_ok hm
  have h := reqInv_run pc r s hs
  refine ⟨h.others, fun ht => ?_, rfl, rfl⟩
  by_cases hc : clOf r.fields = []
  · rw [hc]; exact (h.clNone ht hc).2.2
  · obtain ⟨n, _, _, _, _, c5⟩ := h.clSome ht hc; exact c5

/-- Every rejection the header loop can produce is answered with a 4xx response. -/
theorem C17_rejection_answered (mo uo : Bytes → Bool) (pc : Bool) (r : RawRequest) (e : ParseErr)
    (hnames : ∀ f ∈ r.fields, headerName f.1 ≠ none)
    (he : serverParse mo uo pc r = .error e) :
    serverOnError e = some 400 ∨ serverOnError e = some 414 ∨ serverOnError e = some 431 := by
  unfold serverParse at he
  split at he
  · simp only [Except.error.injEq] at he; subst he; right; left; rfl
  · split at he
    · simp only [Except.error.injEq] at he; subst he; left; rfl
    · split at he
      · simp only [Except.error.injEq] at he; subst he; right; right; rfl
      · split at he
        · simp only [Except.error.injEq] at he; subst he; left; rfl
        · have hstep : ∀ (s : ReqSt) (f : Bytes × Bytes) (e : ParseErr), headerName f.1 ≠ none →
              s.step r.http11 f = .error e → (∃ k, e = .header k) ∨ e = .tooLarge := by
            intro s f e hn hs
            unfold ReqSt.step at hs
            cases hh : headerName f.1 with
            | none => exact absurd hh hn
            | some name =>
              rw [hh] at hs
              simp only at hs
              split at hs
              · unfold ReqSt.onTe at hs
                split at hs
                · rename_i e' heq
                  split at heq
                  · simp only [Except.error.injEq] at heq hs; subst heq; subst hs; exact Or.inl ⟨_, rfl⟩
                  · simp only at heq; split at heq <;> simp at heq
                · simp at hs
              · split at hs
                · unfold ReqSt.onCl at hs
                  simp only at hs
                  split at hs
                  · rename_i e' heq
                    simp only [Except.error.injEq] at hs
                    subst hs
                    split at heq
                    · simp at heq
                    · split at heq
                      · simp only [Except.error.injEq] at heq; subst heq; exact Or.inl ⟨_, rfl⟩
                      · split at heq
                        · split at heq
                          · simp only [Except.error.injEq] at heq; subst heq; exact Or.inl ⟨_, rfl⟩
                          · simp at heq
                        · unfold DecodedLength.checkedNew at heq
                          split at heq
                          · rename_i heq2
                            split at heq2
                            · simp at heq2
                            · simp only [Except.error.injEq] at heq heq2
                              subst heq2; subst heq; exact Or.inr rfl
                          · simp at heq
                  · simp at hs
                  · simp at hs
                · split at hs
                  · simp at hs
                  · split at hs
                    · simp at hs
                    · split at hs <;> simp at hs
          have hrun : ∀ (fs : List (Bytes × Bytes)) (s : ReqSt) (e : ParseErr),
              (∀ f ∈ fs, headerName f.1 ≠ none) → s.run r.http11 fs = .error e →
              (∃ k, e = .header k) ∨ e = .tooLarge := by
            intro fs
            induction fs with
            | nil => intro s e _ h; simp [ReqSt.run] at h
            | cons f fs ih =>
              intro s e hn h
              simp only [ReqSt.run] at h
              cases hst : s.step r.http11 f with
              | error e' =>
                rw [hst] at h
                simp only [Except.error.injEq] at h
                subst h
                exact hstep s f _ (hn f (by simp)) hst
              | ok t => rw [hst] at h; exact ih t e (fun g hg => hn g (by simp [hg])) h
          split at he
          · rename_i e' heq
            simp only [Except.error.injEq] at he
            subst he
            rcases hrun _ _ _ hnames heq with ⟨k, rfl⟩ | rfl
            · left; rfl
            · right; right; rfl
          · split at he
            · simp only [Except.error.injEq] at he; subst he; left; rfl
            · simp at he

/-- A POST with a length before and a chunked coding after: accepted, chunked, not reused. -/
def exBoth : RawRequest where
  method := ascii "POST"
  target := ascii "/"
  http11 := true
  fields := [(ascii "Content-Length", ascii "5"), (ascii "TRANSFER-encoding", ascii "gzip"),
    (ascii "transfer-encoding", ascii "x, Chunked"), (ascii "content-length", ascii "zz")]

example : ∃ m, serverParse (fun _ => true) (fun _ => true) false exBoth = .ok m ∧
    m.decode = DecodedLength.CHUNKED ∧ m.keepAlive = false ∧ m.headers.getAll hCL = [] := by
  refine ⟨⟨ascii "POST", ascii "/", .h11, [(hTE, [ascii "gzip", ascii "x, Chunked"])], none,
    DecodedLength.CHUNKED, false, false, false⟩, ?_, rfl, rfl, ?_⟩ <;> decide +kernel

example : serverParse (fun _ => true) (fun _ => true) false
    { exBoth with fields := [(ascii "Content-Length", ascii "5"), (ascii "Content-length", ascii "6")] } =
    .error (.header .contentLengthInvalid) := by decide +kernel

example : serverParse (fun _ => true) (fun _ => true) false
    { exBoth with fields := [(ascii "Transfer-Encoding", ascii "chunked, gzip")] } =
    .error (.header .transferEncodingInvalid) := by decide +kernel

/-! ## C18 -/

/-- Whether the connection persists after the successive Connection fields: a persistent connection
stops being so at a field with `close`, a non-persistent one becomes so at a field with
`keep-alive`. -/
inductive Spec.Persists : Bool → List Bytes → Bool → Prop where
  | done (b : Bool) : Persists b [] b
  | close {v : Bytes} {vs : List Bytes} {b : Bool} : HasOption [v] (ascii "close") →
      Persists false vs b → Persists true (v :: vs) b
  | stay {v : Bytes} {vs : List Bytes} {b : Bool} : ¬ HasOption [v] (ascii "close") →
      Persists true vs b → Persists true (v :: vs) b
  | revive {v : Bytes} {vs : List Bytes} {b : Bool} : HasOption [v] (ascii "keep-alive") →
      Persists true vs b → Persists false (v :: vs) b
  | off {v : Bytes} {vs : List Bytes} {b : Bool} : ¬ HasOption [v] (ascii "keep-alive") →
      Persists false vs b → Persists false (v :: vs) b

theorem persists_connFold (vs : List Bytes) : ∀ b, Persists b vs (connFold b vs) := by
  induction vs with
  | nil => intro b; exact .done b
  | cons v vs ih =>
    intro b
    have hc := connectionHas_iff v (ascii "close") (by decide)
    have hk := connectionHas_iff v (ascii "keep-alive") (by decide)
    have hstep : connFold b (v :: vs) = connFold (connectionArm b v) vs := rfl
    rw [hstep]
    cases b with
    | true =>
      cases h : connectionClose v with
      | true =>
        have : connectionArm true v = false := by simp [connectionArm, h]
        rw [this]; exact .close (hc.mp h) (ih false)
      | false =>
        have : connectionArm true v = true := by simp [connectionArm, h]
        rw [this]
        exact .stay (fun hh => by have := hc.mpr hh; rw [show connectionHas v _ = connectionClose v from rfl, h] at this; simp at this) (ih true)
    | false =>
      cases h : connectionKeepAlive v with
      | true =>
        have : connectionArm false v = true := by simp [connectionArm, h]
        rw [this]; exact .revive (hk.mp h) (ih true)
      | false =>
        have : connectionArm false v = false := by simp [connectionArm, h]
        rw [this]
        exact .off (fun hh => by have := hk.mpr hh; rw [show connectionHas v _ = connectionKeepAlive v from rfl, h] at this; simp at this) (ih false)

/-- C18, persistence: the version's default as modified by the successive Connection fields (and off
when both framing headers were sent). -/
theorem C18_persistence (mo uo : Bytes → Bool) (pc : Bool) (r : RawRequest) (m : RequestMsg)
    (hm : serverParse mo uo pc r = .ok m) :
    ∃ b, Persists r.http11 (valuesOf (ascii "connection") r.fields) b ∧
      (m.keepAlive = true ↔ b = true ∧ ¬ (teOf r.fields ≠ [] ∧ clOf r.fields ≠ [])) := by
  obtain ⟨s, hs, hte, rfl⟩ := serverParse_ok hm
  have h := reqInv_run pc r s hs
  refine ⟨_, persists_connFold _ _, ?_⟩
  show (if (s.isTe && s.isCl) = true then false else s.keepAlive) = true ↔ _
  rw [h.keepAlive]
  by_cases hb : (s.isTe && s.isCl) = true
  · rw [if_pos hb]
    simp only [Bool.and_eq_true] at hb
    simp [h.isTe.mp hb.1, h.isCl.mp hb.2]
  · rw [if_neg hb]
    constructor
    · intro hk
      refine ⟨hk, fun hc => hb ?_⟩
      rw [h.isTe.mpr hc.1, h.isCl.mpr hc.2]; rfl
    · intro hk; exact hk.1

/-- C18.  With one Connection field the outcome is the expected one: HTTP/1.1 persists unless
`close` is listed, HTTP/1.0 only if `keep-alive` is listed; with none, HTTP/1.1 only. -/
theorem C18_single_field (mo uo : Bytes → Bool) (pc : Bool) (r : RawRequest) (m : RequestMsg)
    (hm : serverParse mo uo pc r = .ok m) (hte : teOf r.fields = []) :
    (valuesOf (ascii "connection") r.fields = [] → m.keepAlive = r.http11) ∧
    (∀ v, valuesOf (ascii "connection") r.fields = [v] →
      (m.keepAlive = true ↔ if r.http11 then ¬ HasOption [v] (ascii "close")
        else HasOption [v] (ascii "keep-alive"))) := by
  obtain ⟨b, hp, hk⟩ := C18_persistence mo uo pc r m hm
  have hk' : m.keepAlive = true ↔ b = true := by rw [hk]; simp [hte]
  constructor
  · intro hv
    rw [hv] at hp
    have hb : b = r.http11 := by
      generalize r.http11 = x at hp
      cases hp; rfl
    cases h1 : m.keepAlive <;> cases h2 : r.http11 <;> simp_all
  · intro v hv
    rw [hv] at hp
    rw [hk']
    cases h11 : r.http11 with
    | true =>
      rw [h11] at hp
      simp only [if_true]
      cases hp with
      | close h1 h2 => cases h2; simp [h1]
      | stay h1 h2 => cases h2; simp [h1]
    | false =>
      rw [h11] at hp
      simp only [Bool.false_eq_true, if_false]
      cases hp with
      | revive h1 h2 => cases h2; simp [h1]
      | off h1 h2 => cases h2; simp [h1]

/-- C18, expectation: iff the last Expect field is 100-continue, ignoring case. -/
theorem C18_expect (mo uo : Bytes → Bool) (pc : Bool) (r : RawRequest) (m : RequestMsg)
    (hm : serverParse mo uo pc r = .ok m) :
    m.expectContinue = true ↔
      ∃ vs v, valuesOf (ascii "expect") r.fields = vs ++ [v] ∧ SameToken v (ascii "100-continue") := by
  obtain ⟨s, hs, hte, rfl⟩ := serverParse_ok hm
  have h := reqInv_run pc r s hs
  show s.expectContinue = true ↔ _
  rw [h.expect]
  show _ ↔ ∃ vs v, valuesOf hEXPECT r.fields = vs ++ [v] ∧ _
  cases hl : (valuesOf hEXPECT r.fields).getLast? with
  | none =>
    have := List.getLast?_eq_none_iff.mp hl
    rw [this]; simp
  | some v =>
    obtain ⟨ws, hw⟩ := List.getLast?_eq_some_iff.mp hl
    rw [hw]
    simp only [Option.map_some, Option.getD_some, eqIgnoreCase_iff]
    constructor
    · intro hs; exact ⟨ws, v, rfl, hs⟩
    · rintro ⟨us, u, h1, h2⟩
      have : v = u := by simpa using congrArg List.getLast? h1
      rw [this]; exact h2

/-- C18, upgrades (partial): on HTTP/1.1 an upgrade is wanted iff the method is CONNECT or an Upgrade
field is present; on HTTP/1.0 iff the method is CONNECT and there is no Upgrade field.  The English
claim says a CONNECT always wants one: see `C18_connect_upgrade_lost`. -/
theorem C18_upgrade_partial (mo uo : Bytes → Bool) (pc : Bool) (r : RawRequest) (m : RequestMsg)
    (hm : serverParse mo uo pc r = .ok m) :
    (r.http11 = true → (m.wantsUpgrade = true ↔
      r.method = ascii "CONNECT" ∨ valuesOf (ascii "upgrade") r.fields ≠ [])) ∧
    (r.http11 = false → (m.wantsUpgrade = true ↔
      r.method = ascii "CONNECT" ∧ valuesOf (ascii "upgrade") r.fields = [])) := by
  obtain ⟨s, hs, hte, rfl⟩ := serverParse_ok hm
  have h := reqInv_run pc r s hs
  have hu : s.wantsUpgrade = if valuesOf (ascii "upgrade") r.fields = [] then
    r.method == ascii "CONNECT" else r.http11 := h.upgrade
  constructor
  · intro h11
    show s.wantsUpgrade = true ↔ _
    rw [hu, h11]
    by_cases hv : valuesOf (ascii "upgrade") r.fields = []
    · rw [if_pos hv]; simp [hv]
    · rw [if_neg hv]; simp [hv]
  · intro h11
    show s.wantsUpgrade = true ↔ _
    rw [hu, h11]
    by_cases hv : valuesOf (ascii "upgrade") r.fields = []
    · rw [if_pos hv]; simp [hv]
    · rw [if_neg hv]; simp [hv]

/-- The claim "a CONNECT request wants an upgrade" is false of the code: on HTTP/1.0 an Upgrade field
clears the flag set for CONNECT (role.rs 327-330). -/
theorem C18_connect_upgrade_lost :
    ∃ (r : RawRequest) (m : RequestMsg), r.method = ascii "CONNECT" ∧
      serverParse (fun _ => true) (fun _ => true) false r = .ok m ∧ m.wantsUpgrade = false :=
  ⟨⟨ascii "CONNECT", ascii "a:1", false, [(ascii "Upgrade", ascii "x")]⟩,
   ⟨ascii "CONNECT", ascii "a:1", .h10, [(ascii "upgrade", [ascii "x"])], none, DecodedLength.ZERO,
     false, false, false⟩, rfl, by decide +kernel, rfl⟩

/-- A request may list `close` and still leave the connection persistent, if a later field lists
`keep-alive`. -/
theorem C18_close_overridden :
    ∃ (r : RawRequest) (m : RequestMsg),
      HasOption (valuesOf (ascii "connection") r.fields) (ascii "close") ∧ r.http11 = true ∧
      serverParse (fun _ => true) (fun _ => true) false r = .ok m ∧ m.keepAlive = true :=
  ⟨⟨ascii "GET", ascii "/", true,
      [(ascii "Connection", ascii "close"), (ascii "Connection", ascii "keep-alive")]⟩,
   ⟨ascii "GET", ascii "/", .h11, [(ascii "connection", [ascii "close", ascii "keep-alive"])], none,
     DecodedLength.ZERO, false, true, false⟩,
   (any_connectionHas_iff _ _ (by decide)).mp (by decide +kernel), rfl, by decide +kernel, rfl⟩

example : ∃ m, serverParse (fun _ => true) (fun _ => true) true
    ⟨ascii "GET", ascii "/", true, [(ascii "Expect", ascii "100-Continue"),
      (ascii "upgrade", ascii "ws"), (ascii "connection", ascii "x, CLOSE")]⟩ = .ok m ∧
    m.expectContinue = true ∧ m.wantsUpgrade = true ∧ m.keepAlive = false := by
  refine ⟨⟨ascii "GET", ascii "/", .h11, [(ascii "expect", [ascii "100-Continue"]),
    (ascii "upgrade", [ascii "ws"]), (ascii "connection", [ascii "x, CLOSE"])],
    some [(ascii "expect", [ascii "Expect"]), (ascii "upgrade", [ascii "upgrade"]),
      (ascii "connection", [ascii "connection"])], DecodedLength.ZERO, true, false, true⟩, ?_, rfl, rfl, rfl⟩
  decide +kernel

end Hyper
