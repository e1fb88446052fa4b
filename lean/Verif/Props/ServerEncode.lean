import Verif.Model.ConnHead
import Verif.Proof.ServerEncodeHead
import Verif.Proof.Encode

/-! # Properties of response heads: C21-C23 -/

namespace Hyper

open Spec

/-- What the types of the `http` crate and of Rust guarantee about a response handed to hyper: header
names are lower-case tokens, values have no control bytes, recorded spellings differ from the name
in case only, a known length is a `u64`. -/
structure Spec.ResponseWf (m : EncodeMsg) : Prop where
  headers : ∀ f ∈ m.head.headers.fields, LowerName f.1 ∧ ∀ b ∈ f.2, isValueByte b = true
  spelling : ∀ map, m.head.caseMap = some map → SpellingsOf map
  length : ∀ n, m.body = some (.known n) → n < 2 ^ 64

/-- The cached date is printable. -/
def Spec.DateOk (env : EncodeEnv) : Prop := ∀ b ∈ env.date, isValueByte b = true

/-- The framing headers the user wrote are right: a Content-Length beside a body of known length says
that length, and Transfer-Encoding values are plain ASCII; on responses that have no body they do not matter. -/
def Spec.UserFramingOk (m : EncodeMsg) : Prop :=
  (∀ v ∈ valuesOf hCL m.head.headers.fields, ∀ k, m.body = some (.known k) →
    ¬ NoBody m.reqMethod m.head.status → AgreedLength [v] k) ∧
  (∀ v ∈ valuesOf hTE m.head.headers.fields, ¬ NoBody m.reqMethod m.head.status → ∀ b ∈ v, Visible b)

/-- A status line: version, status, reason, end of line. -/
def Spec.StatusLine (version status : Nat) (line : Bytes) : Prop :=
  ∃ reason, line = ascii "HTTP/1." ++ decimal version ++ ascii " " ++ decimal status ++ ascii " " ++ reason ++ CRLF

/-- Connections that end with this message whatever its headers say. -/
def Spec.EndsConnection (m : EncodeMsg) : Prop :=
  m.head.status = 101 ∨ (m.reqMethod = some (ascii "CONNECT") ∧ 200 ≤ m.head.status ∧ m.head.status ≤ 299) ∨
    m.keepAlive = false

instance (m : EncodeMsg) : Decidable (EndsConnection m) := by unfold EndsConnection; infer_instance

theorem decimal_one : decimal 1 = ascii "1" := by rw [decimal]; decide
theorem decimal_zero : decimal 0 = ascii "0" := by rw [decimal]; decide
theorem decimal_200 : decimal 200 = ascii "200" := by
  rw [decimal, decimal, decimal]; decide

theorem statusLine_spec {env : EncodeEnv} {head : OutHead} {line : Bytes}
    (h : statusLine env head = some line) :
    StatusLine (if head.version = .h10 then 0 else 1) head.status line := by
  unfold statusLine at h
  split at h
  · rename_i hh
    simp only [Option.some.injEq] at h
    subst h
    refine ⟨ascii "OK", ?_⟩
    rw [hh.1, hh.2.1]
    simp only [reduceCtorEq, if_false, decimal_one, decimal_200]
    decide
  · simp only at h
    have e0 : ascii "HTTP/1.0 " = ascii "HTTP/1." ++ ascii "0" ++ ascii " " := by decide
    have e1 : ascii "HTTP/1.1 " = ascii "HTTP/1." ++ ascii "1" ++ ascii " " := by decide
    refine ⟨head.reason.getD ((env.canonicalReason head.status).getD (ascii "<none>")), ?_⟩
    cases hr : head.reason <;> cases hv : head.version <;> rw [hv, hr] at h <;> simp only [Option.map_some, Option.map_none, reduceCtorEq,
      Option.some.injEq] at h
    all_goals subst h
    all_goals simp only [reduceCtorEq, if_true, if_false, decimal_zero, decimal_one, e0, e1, Option.getD_none,
      Option.getD_some]

theorem nameWriterOf_ok {m : EncodeMsg} (h : ∀ map, m.head.caseMap = some map → SpellingsOf map) :
    (nameWriterOf m).Ok := by
  unfold nameWriterOf
  split
  · rename_i map hm; exact ⟨h map hm, by simp⟩
  · split
    · refine ⟨?_, by simp⟩
      intro g hg; simp at hg
    · trivial

theorem fieldOk_of {S : Prop} {m : EncodeMsg} (h : ResponseWf m) (hS : S → UserFramingOk m) :
    ∀ f ∈ m.head.headers.fields, FieldOk S m f := by
  intro f hf
  have hl := (h.headers f hf).1
  have hmem : f.2 ∈ valuesOf f.1 m.head.headers.fields := by
    unfold valuesOf
    refine List.mem_map.mpr ⟨f, List.mem_filter.mpr ⟨hf, ?_⟩, rfl⟩
    simp [hl.fold]
  refine ⟨hl, (h.headers f hf).2, ?_, ?_⟩
  · intro s hn k hk hb
    exact (hS s).1 f.2 (hn ▸ hmem) k hk (notNoBody hb)
  · intro s hn hcc
    exact (hS s).2 f.2 (hn ▸ hmem) (notNoBody (cc_true.mp hcc).2)

theorem serverEncode_full {S : Prop} {env : EncodeEnv} {m : EncodeMsg} {dst out : Bytes} {e : Encoder}
    (hwf : ResponseWf m) (hdate : DateOk env) (hS : S → UserFramingOk m)
    (h : serverEncode env m dst = (out, .ok e)) :
    ∃ line fs, StatusLine (if m.head.version = .h10 then 0 else 1) m.head.status line ∧
      statusLine env m.head = some line ∧ out = dst ++ line ++ lines fs ++ CRLF ∧
      HeadSays S env m (decide (EndsConnection m)) fs e := by
  unfold serverEncode at h
  have key : ∀ isLast wl, encodePrep m = (m, false, isLast, wl) →
      (wl = true → canHaveBody m.reqMethod m.head.status = false) → isLast = decide (EndsConnection m) →
      ∃ line fs, StatusLine (if m.head.version = .h10 then 0 else 1) m.head.status line ∧
        statusLine env m.head = some line ∧ out = dst ++ line ++ lines fs ++ CRLF ∧ HeadSays S env m (decide (EndsConnection m)) fs e := by
    intro isLast wl hp hwl hl
    rw [hp] at h
    simp only at h
    cases hs : statusLine env m.head with
    | none => rw [hs] at h; simp at h
    | some line =>
      rw [hs] at h
      simp only at h
      split at h
      · rename_i d e' he
        simp only [Bool.false_eq_true, if_false, Prod.mk.injEq, EncodeRes.ok.injEq] at h
        obtain ⟨rfl, rfl⟩ := h
        obtain ⟨fs, g1, g2⟩ := encodeHeaders_spec (S := S) (nameWriterOf_ok hwf.spelling) hdate
          (fieldOk_of hwf hS) hwl hwf.length he
        exact ⟨line, fs, statusLine_spec hs, rfl, g1, hl ▸ g2⟩
      · rename_i d r hne he
        simp only [Prod.mk.injEq] at h
        exact absurd h.2 (hne e)
  unfold encodePrep at h key
  split at key
  · rename_i h1
    exact key true false rfl (by simp) (by simp [EndsConnection, h1])
  · rename_i h1
    split at key
    · rename_i h2
      refine key true true rfl (fun _ => ?_) ?_
      · rw [← noBody_iff]
        unfold NoBody
        have := h2.2
        unfold isSuccess at this
        simp only [Bool.and_eq_true, decide_eq_true_eq] at this
        exact Or.inr (Or.inr (Or.inr (Or.inr ⟨h2.1, this⟩)))
      · have := h2.2
        unfold isSuccess at this
        simp only [Bool.and_eq_true, decide_eq_true_eq] at this
        symm
        rw [decide_eq_true_iff]
        exact Or.inr (Or.inl ⟨h2.1, this⟩)
    · rename_i h2
      split at key
      · rename_i h3
        rw [if_neg h1, if_neg h2, if_pos h3] at h
        simp only at h
        split at h
        · simp at h
        · split at h
          · simp at h
          · rename_i d r hne he
            simp only [Prod.mk.injEq] at h
            exact absurd h.2 (hne e)
      · refine key (!m.keepAlive) false rfl (by simp) ?_
        have hs : ¬ (m.reqMethod = some (ascii "CONNECT") ∧ 200 ≤ m.head.status ∧ m.head.status ≤ 299) := by
          intro hh
          apply h2
          refine ⟨hh.1, ?_⟩
          unfold isSuccess
          simp only [Bool.and_eq_true, decide_eq_true_eq]; exact hh.2
        have : EndsConnection m ↔ m.keepAlive = false := by
          unfold EndsConnection; simp [h1, hs]
        cases hk : m.keepAlive with
        | false => symm; simp [this, hk]
        | true => symm; simp [this, hk]

theorem serverEncode_spec {S : Prop} {env : EncodeEnv} {m : EncodeMsg} {dst out : Bytes} {e : Encoder}
    (hwf : ResponseWf m) (hdate : DateOk env) (hS : S → UserFramingOk m)
    (h : serverEncode env m dst = (out, .ok e)) :
    ∃ line fs, StatusLine (if m.head.version = .h10 then 0 else 1) m.head.status line ∧
      out = dst ++ line ++ lines fs ++ CRLF ∧
      HeadSays S env m (decide (EndsConnection m)) fs e := by
  obtain ⟨line, fs, h1, _, h2, h3⟩ := serverEncode_full hwf hdate hS h
  exact ⟨line, fs, h1, h2, h3⟩

theorem mem_fields_insert (h : HeaderMap) (n v : Bytes) : ∀ f ∈ (h.insert n v).fields,
    f = (n, v) ∨ f ∈ h.fields := by
  induction h with
  | nil => intro f hf; simp [HeaderMap.insert, HeaderMap.fields] at hf; exact Or.inl hf
  | cons g h ih =>
    obtain ⟨n', vs⟩ := g
    intro f hf
    simp only [HeaderMap.insert] at hf
    split at hf
    · rename_i he
      simp only [HeaderMap.fields, List.flatMap_cons, List.map_cons, List.map_nil, List.mem_append,
        List.mem_singleton] at hf ⊢
      rcases hf with hf | hf
      · left; rw [hf, he]
      · exact Or.inr (Or.inr hf)
    · simp only [HeaderMap.fields, List.flatMap_cons, List.mem_append] at hf ⊢
      rcases hf with hf | hf
      · exact Or.inr (Or.inl hf)
      · rcases ih f hf with h | h
        · exact Or.inl h
        · exact Or.inr (Or.inr h)

theorem fixKeepAlive_headers (ka : KA) (v : Version) (h : HeaderMap) :
    (fixKeepAlive ka v h).2 = h ∨ (fixKeepAlive ka v h).2 = h.insert hCONN (ascii "keep-alive") := by
  unfold fixKeepAlive
  simp only
  repeat' split
  all_goals first | exact Or.inl rfl | exact Or.inr rfl

theorem enforceVersion_headers (peer : Version) (ka : KA) (v : Version) (h : HeaderMap) :
    (enforceVersion peer ka v h).2.2 = h ∨
      ∃ w, (w = ascii "keep-alive" ∨ w = ascii "close") ∧ (enforceVersion peer ka v h).2.2 = h.insert hCONN w := by
  unfold enforceVersion
  split
  · rcases fixKeepAlive_headers ka v h with hh | hh
    · exact Or.inl hh
    · exact Or.inr ⟨_, Or.inl rfl, hh⟩
  · split
    · exact Or.inr ⟨_, Or.inr rfl, rfl⟩
    · exact Or.inl rfl
  · exact Or.inl rfl

theorem connMsg_wf {m : EncodeMsg} (h : ResponseWf m) (peer : Version) (ka : KA) :
    ResponseWf (connMsg peer ka m).2 := by
  refine ⟨?_, h.spelling, h.length⟩
  intro f hf
  have hf' : f ∈ (enforceVersion peer ka m.head.version m.head.headers).2.2.fields := hf
  rcases enforceVersion_headers peer ka m.head.version m.head.headers with e | ⟨w, hw, e⟩
  · rw [e] at hf'; exact h.headers f hf'
  · rw [e] at hf'
    rcases mem_fields_insert _ _ _ f hf' with rfl | hf'
    · refine ⟨lowerName_hCONN, ?_⟩
      rcases hw with rfl | rfl <;> decide +kernel
    · exact h.headers f hf'

/-! ## C21 -/

/-- C21, the kinds of framing: for every response that is encoded, what follows `dst` is a status
line and well-formed fields; at most one framing field is present, once; a chunked writer comes with
Transfer-Encoding and no Content-Length, a length writer with no Transfer-Encoding and, unless the
length is zero, with Content-Length, a writer that ends by closing with neither. -/
theorem C21_kinds_agree (env : EncodeEnv) (m : EncodeMsg) (dst out : Bytes) (e : Encoder)
    (hwf : ResponseWf m) (hdate : DateOk env) (h : serverEncode env m dst = (out, .ok e)) :
    ∃ line fs, out = dst ++ line ++ lines fs ++ CRLF ∧
      StatusLine (if m.head.version = .h10 then 0 else 1) m.head.status line ∧
      (∀ f ∈ fs, WireField f) ∧
      (teOf fs = [] ∨ clOf fs = []) ∧ (teOf fs).length ≤ 1 ∧ (clOf fs).length ≤ 1 ∧
      (match e.kind with
       | .chunked _ => teOf fs ≠ [] ∧ clOf fs = []
       | .length n => teOf fs = [] ∧ (n ≠ 0 → clOf fs ≠ [])
       | .closeDelimited => teOf fs = [] ∧ clOf fs = []) := by
  obtain ⟨line, fs, h1, h2, h3⟩ := serverEncode_spec (S := False) hwf hdate (by simp) h
  refine ⟨line, fs, h2, h1, h3.wire, ?_, ?_, ?_, h3.agree⟩
  · rcases h3.single with h | h | h
    · exact Or.inl h.1
    · exact Or.inl h.1
    · exact Or.inr h.2
  · rcases h3.single with h | h | h
    · rw [h.1]; simp
    · rw [h.1]; simp
    · omega
  · rcases h3.single with h | h | h
    · rw [h.2]; simp
    · omega
    · rw [h.2]; simp

/-- C21, under the assumption that the framing headers the user wrote are right (`UserFramingOk`; the
two theorems after this one show that the claim is false without it): the framing RFC 9112 gives to
the head is the one the body writer uses. -/
theorem C21_response_framing_partial (env : EncodeEnv) (m : EncodeMsg) (dst out : Bytes) (e : Encoder)
    (hwf : ResponseWf m) (hdate : DateOk env) (huser : UserFramingOk m)
    (h : serverEncode env m dst = (out, .ok e)) :
    ∃ line fs, out = dst ++ line ++ lines fs ++ CRLF ∧
      StatusLine (if m.head.version = .h10 then 0 else 1) m.head.status line ∧
      (∀ f ∈ fs, WireField f) ∧
      ResponseFraming m.reqMethod m.head.status (m.head.version = .h10) (teOf fs) (clOf fs)
        (framingOf e.kind) := by
  obtain ⟨line, fs, h1, h2, h3⟩ := serverEncode_spec (S := True) hwf hdate (fun _ => huser) h
  exact ⟨line, fs, h2, h1, h3.wire, h3.framing trivial⟩

/-- The environment of the examples. -/
def exEnv : EncodeEnv := ⟨fun _ => none, ascii "today"⟩

/-- A 200 response with the given headers and body, answering a GET. -/
def exMsg (headers : HeaderMap) (body : Option BodyLength) : EncodeMsg :=
  ⟨⟨.h11, 200, headers, none, none⟩, body, true, some mGET, false, false⟩

/-- C21 does not hold unconditionally: a Content-Length header that differs from the body's known
length is sent as it is while exactly the known length is written (in debug builds an assertion
fails instead). -/
theorem C21_wrong_length_announced :
    serverEncode exEnv (exMsg [(hCL, [ascii "5"])] (some (.known 3))) [] =
      (ascii "HTTP/1.1 200 OK\r\ncontent-length: 5\r\n\r\n", .ok (Encoder.length 3)) := by
  decide +kernel

/-- C21 does not hold unconditionally: hyper recognises its own `chunked` only in values that are
plain ASCII, so a Transfer-Encoding header with another byte gives a head whose framing (as read by
hyper's client) is not the chunked coding used. -/
theorem C21_unreadable_coding_announced :
    serverEncode exEnv (exMsg [(hTE, [[0xe9]])] (some .unknown)) [] =
      (ascii "HTTP/1.1 200 OK\r\ntransfer-encoding: " ++ [0xe9] ++ ascii ", chunked\r\n\r\n",
        .ok Encoder.chunked) ∧
    ¬ FinalChunked [[0xe9] ++ ascii ", chunked"] := by
  refine ⟨by decide +kernel, ?_⟩
  rw [← isChunkedValue_iff]
  decide +kernel

/-- C21, the bytes after the head, for the head and body together: a length writer sends the body cut
at the length, a chunked writer sends chunks that hold the body, and after a body that ends by
closing nothing more is written on the connection. -/
theorem C21_body_follows_head (env : EncodeEnv) (peer : Version) (ka : KA) (m : EncodeMsg) (allow : Bool)
    (dst out : Bytes) (frames : List UserFrame) (e : Encoder)
    (hok : userFails frames = false) (hfit : FramesFit frames)
    (h : serverEncode env (connMsg peer ka m).2 dst = (out, .ok e)) :
    match e.kind with
    | .length n => (respond env peer ka m allow dst frames).out = out ++ (userData frames).take n
    | .chunked _ => ∃ w cs tail, Chunks w cs 0 ∧ cs.flatten = userData frames ∧
        (respond env peer ka m allow dst frames).out = out ++ w ++ ascii "0\r\n" ++ tail ∧
        (respond env peer ka m allow dst frames).result = .ok
    | .closeDelimited => (respond env peer ka m allow dst frames).out = out ++ userData frames ∧
        (respond env peer ka m allow dst frames).writing = .closed := by
  unfold respond
  rw [h]
  simp only [Writing.ofHead]
  obtain ⟨k, last⟩ := e
  cases k with
  | length n =>
    cases n with
    | zero =>
      simp only [Encoder.isEof, List.take_zero, List.append_nil]
      unfold Writing.afterBody
      cases last <;> simp [writeFrames]
    | succ n => exact writeFrames_length_out allow m.titleCase last frames (n + 1) out
  | closeDelimited =>
    simp only [Encoder.isEof, Bool.not_false, if_true]
    rw [writeFrames_close allow m.titleCase last frames out hok]
    exact ⟨rfl, rfl⟩
  | chunked ts =>
    obtain ⟨w, cs, g1, g2, g3, g4⟩ := writeFrames_chunked allow m.titleCase ts last frames out hok hfit
    simp only [Encoder.isEof, Bool.not_false, if_true]
    rw [g1]
    have htail : ∃ tail, chunkedTail allow m.titleCase ts (userTrailers frames) = ascii "0\r\n" ++ tail := by
      have h0 : ascii "0\r\n\r\n" = ascii "0\r\n" ++ CRLF := by decide
      unfold chunkedTail
      cases userTrailers frames with
      | none => exact ⟨_, h0⟩
      | some t =>
        simp only
        split
        · unfold Encoder.encodeTrailers
          split
          · split
            · exact ⟨_, h0⟩
            · simp only
              generalize (if m.titleCase = true then writeHeadersTitleCase _ else writeHeaders _) = buf
              split
              · exact ⟨_, h0⟩
              · exact ⟨_, by simp only [Option.getD_some, List.append_assoc]; rfl⟩
          · exact ⟨_, h0⟩
        · exact ⟨_, h0⟩
    obtain ⟨tail, ht⟩ := htail
    exact ⟨w, cs, tail, g2, g3, by simp [ht], rfl⟩

/-- A response that cannot be encoded leaves no bytes behind. -/
theorem C21_failed_head_writes_nothing (env : EncodeEnv) (m : EncodeMsg) (dst out : Bytes)
    (h : serverEncode env m dst = (out, .userHeader)) : out = dst := by
  unfold serverEncode at h
  simp only at h
  split at h
  · simp at h
  · split at h
    · simp only [Prod.mk.injEq] at h
      exfalso
      obtain ⟨_, h⟩ := h
      split at h <;> simp at h
    · rename_i d r hne he
      simp only [Prod.mk.injEq] at h
      obtain ⟨rfl, rfl⟩ := h
      unfold encodeHeaders at he
      split at he
      · simp only [Prod.mk.injEq, and_true] at he
        rw [← he]; simp
      · simp at he
      · simp at he

/-- The hypotheses of the theorems above are satisfiable together: a chunked answer. -/
example : ResponseWf (exMsg [(hTE, [ascii "gzip"]), (ascii "x", [ascii "1"])] (some .unknown)) ∧
    UserFramingOk (exMsg [(hTE, [ascii "gzip"]), (ascii "x", [ascii "1"])] (some .unknown)) ∧ DateOk exEnv ∧
    serverEncode exEnv (exMsg [(hTE, [ascii "gzip"]), (ascii "x", [ascii "1"])] (some .unknown)) [] =
      (ascii "HTTP/1.1 200 OK\r\ntransfer-encoding: gzip, chunked\r\nx: 1\r\n\r\n", .ok Encoder.chunked) := by
  refine ⟨⟨?_, by simp [exMsg], by simp [exMsg]⟩, ⟨by simp [exMsg], ?_⟩, by unfold DateOk; decide +kernel,
    by decide +kernel⟩
  · intro f hf
    have : f = (hTE, ascii "gzip") ∨ f = (ascii "x", ascii "1") := by
      simpa [exMsg, HeaderMap.fields] using hf
    rcases this with rfl | rfl
    · exact ⟨lowerName_hTE, by decide +kernel⟩
    · exact ⟨⟨by decide, by decide +kernel, by decide +kernel⟩, by decide +kernel⟩
  · intro v hv
    have : v = ascii "gzip" := by
      have h2 : valuesOf hTE (exMsg [(hTE, [ascii "gzip"]), (ascii "x", [ascii "1"])] (some .unknown)).head.headers.fields
          = [ascii "gzip"] := by decide +kernel
      rw [h2] at hv; simpa using hv
    subst this
    intro _
    unfold Visible; decide +kernel

/-- A body of unknown length to an HTTP/1.0 peer ends by closing, one of known length does not. -/
example : (respond exEnv .h10 .busy (exMsg [] (some .unknown)) false [] [.data (ascii "hi") false]) =
      ⟨ascii "HTTP/1.0 200 <none>\r\nconnection: keep-alive\r\n\r\nhi", .closed, .ok⟩ ∧
    (respond exEnv .h11 .busy (exMsg [] (some .unknown)) false [] [.data (ascii "hi") false]) =
      ⟨ascii "HTTP/1.1 200 OK\r\ntransfer-encoding: chunked\r\n\r\n2\r\nhi\r\n0\r\n\r\n", .keepAlive, .ok⟩ := by
  decide +kernel

/-! ## What else the head says -/

/-- C11, the link with the head: the trailer names the writer lets through are names listed in the
Trailer field of the head, and every valid name the user listed there is let through. -/
theorem C11_declared_in_head (env : EncodeEnv) (m : EncodeMsg) (dst out : Bytes) (e : Encoder)
    (hwf : ResponseWf m) (hdate : DateOk env) (h : serverEncode env m dst = (out, .ok e)) :
    ∃ line fs, out = dst ++ line ++ lines fs ++ CRLF ∧ (∀ f ∈ fs, WireField f) ∧
      (∀ names, e.kind = .chunked (some names) → ∀ n ∈ names, Lists (valuesOf hTRAILER fs) n) ∧
      (∀ v ∈ valuesOf hTRAILER m.head.headers.fields, ∀ n ∈ trailerNames v, e.isChunked = true →
        ∃ names, e.kind = .chunked (some names) ∧ n ∈ names) := by
  obtain ⟨line, fs, h1, h2, h3⟩ := serverEncode_spec (S := False) hwf hdate (by simp) h
  exact ⟨line, fs, h2, h3.wire, h3.trailers, h3.allow⟩

example : serverEncode exEnv (exMsg [(hTRAILER, [ascii "X-A, x-b"])] (some .unknown)) [] =
    (ascii "HTTP/1.1 200 OK\r\ntrailer: X-A, x-b\r\ntransfer-encoding: chunked\r\n\r\n",
      .ok ⟨.chunked (some [ascii "x-a", ascii "x-b"]), false⟩) := by decide +kernel

/-- Every header other than the framing ones, Connection, Trailer and Date is sent with exactly the
values the user gave, in order; Date is the user's or the cached one; the options of the user's
Connection headers are all still there. -/
theorem C51_response_fields_sent (env : EncodeEnv) (m : EncodeMsg) (dst out : Bytes) (e : Encoder)
    (hwf : ResponseWf m) (hdate : DateOk env) (h : serverEncode env m dst = (out, .ok e)) :
    ∃ line fs, out = dst ++ line ++ lines fs ++ CRLF ∧ (∀ f ∈ fs, WireField f) ∧
      (∀ k, k ∉ [hCL, hTE, hCONN, hTRAILER, hDATE] → valuesOf k fs = valuesOf k m.head.headers.fields) ∧
      (valuesOf hDATE fs = if valuesOf hDATE m.head.headers.fields ≠ [] then
        valuesOf hDATE m.head.headers.fields else if m.dateHeader then [env.date] else []) ∧
      (∀ v ∈ valuesOf hCONN m.head.headers.fields, ∀ x, Element v x → ∃ t, Padded x t ∧
        ∃ w ∈ valuesOf hCONN fs, ∃ x', Element w x' ∧ Padded x' t) := by
  obtain ⟨line, fs, h1, h2, h3⟩ := serverEncode_spec (S := False) hwf hdate (by simp) h
  refine ⟨line, fs, h2, h3.wire, ?_, h3.date, h3.elems⟩
  intro k hk
  simp only [List.mem_cons, List.not_mem_nil, or_false, not_or] at hk
  exact h3.other k (by simp [joined, hk]) hk.2.2.2.2

example : serverEncode exEnv { exMsg [(hCONN, [ascii "close", ascii "x"]), (ascii "a", [ascii "1", ascii "2"])] none with
      titleCase := true, dateHeader := true } [] =
    (ascii "HTTP/1.1 200 OK\r\nConnection: close, x\r\nA: 1\r\nA: 2\r\nContent-Length: 0\r\nDate: today\r\n\r\n",
      .ok ⟨.length 0, true⟩) := by decide +kernel

/-! ## C22 -/

theorem encodeHeaders_supported (env : EncodeEnv) (m : EncodeMsg) (dst : Bytes) (l : Bool) (o : Nat) (wl : Bool)
    (w : NameWriter) : (encodeHeaders env m dst l o wl w).2 ≠ .unsupportedStatus := by
  unfold encodeHeaders; split <;> simp

theorem serverEncode_unsupported {env : EncodeEnv} {m : EncodeMsg} {dst out : Bytes}
    (h : serverEncode env m dst = (out, .unsupportedStatus)) : (encodePrep m).2.1 = true := by
  unfold serverEncode at h
  simp only at h
  split at h
  · simp at h
  · split at h
    · simp only [Prod.mk.injEq] at h
      have := h.2
      split at this
      · assumption
      · simp at this
    · rename_i hne he
      simp only [Prod.mk.injEq] at h
      exfalso
      obtain ⟨_, rfl⟩ := h
      have h1 := congrArg Prod.snd he
      exact encodeHeaders_supported _ _ _ _ _ _ _ h1

theorem implicitLen_none {m : EncodeMsg} {s : HSt} (hb : m.body = none) (hs : s.encoder = Encoder.length 0) :
    (implicitLen m s).encoder = Encoder.length 0 := by
  unfold implicitLen
  rw [hb]
  simp only
  split
  · exact hs
  · split <;> rfl

theorem serverEncode_1xx {env : EncodeEnv} {m : EncodeMsg} (dst : Bytes) (hdate : DateOk env)
    (h1 : m.head.status ≠ 101) (h2 : ¬ (m.reqMethod = some mCONNECT ∧ isSuccess m.head.status))
    (h3 : isInformational m.head.status) :
    ∃ line fs, StatusLine 1 500 line ∧ (∀ f ∈ fs, WireField f) ∧
      serverEncode env m dst = (dst ++ line ++ lines fs ++ CRLF, .unsupportedStatus) ∧
      ResponseFraming m.reqMethod 500 False (teOf fs) (clOf fs) (.length 0) := by
  have hp : encodePrep m = ({ m with head := head500, body := none }, true, true, false) := by
    unfold encodePrep; rw [if_neg h1, if_neg h2, if_pos h3]
  obtain ⟨line, hl⟩ : ∃ line, statusLine env head500 = some line := ⟨_, rfl⟩
  have hm : ∃ r, encodeHeaders env { m with head := head500, body := none } (dst ++ line) true dst.length false
      (nameWriterOf { m with head := head500, body := none }) = r := ⟨_, rfl⟩
  obtain ⟨⟨d, r⟩, hr⟩ := hm
  have hok : ∃ e, r = .ok e ∧ e.kind = .length 0 := by
    unfold encodeHeaders at hr
    simp only [head500, HeaderMap.drain, List.flatMap_nil, hrun] at hr
    simp only [Prod.mk.injEq] at hr
    refine ⟨_, hr.2.symm, ?_⟩
    generalize hmm : ({ m with head := ⟨.h11, 500, [], none, none⟩, body := none } : EncodeMsg) = m'
    generalize hss : (HSt.handle _) = s
    have e0 : (implicitLen m' s).encoder = Encoder.length 0 := by
      apply implicitLen_none
      · rw [← hmm]
      · rw [← hss]; rfl
    have e1 : (forceBody m' (implicitLen m' s)).encoder = Encoder.length 0 := by
      unfold forceBody; split
      · rfl
      · exact e0
    have e2 : (dateAndEnd env m' (forceBody m' (implicitLen m' s))).encoder = Encoder.length 0 := by
      rw [← e1]; unfold dateAndEnd; simp only; split <;> rfl
    unfold finalEncoder
    rw [e2]; rfl
  obtain ⟨e, rfl, he⟩ := hok
  obtain ⟨fs, g1, g2⟩ := encodeHeaders_spec (S := True)
    (m := { m with head := head500, body := none }) (nameWriterOf_ok (by simp [head500])) hdate
    (by intro f hf; simp [head500, HeaderMap.fields] at hf) (by simp) (by simp) hr
  have hline := statusLine_spec hl
  rw [if_neg (by decide)] at hline
  refine ⟨line, fs, hline, g2.wire, ?_, ?_⟩
  · unfold serverEncode
    rw [hp]
    simp only [hl, hr, if_true]
    rw [g1]
  · have := g2.framing trivial
    rw [he] at this
    simpa [head500, framingOf] using this

/-- C22.  Whatever body the service returned, a response to HEAD, to a successful CONNECT, with status
1xx, 204 or 304 puts on the wire its head (a 500 head in place of an unsupported 1xx) and not one
byte of the body; if it cannot be encoded it puts nothing. -/
theorem C22_no_body_bytes (env : EncodeEnv) (peer : Version) (ka : KA) (m : EncodeMsg) (allow : Bool)
    (dst : Bytes) (frames : List UserFrame) (hwf : ResponseWf m) (hdate : DateOk env)
    (hno : NoBody m.reqMethod m.head.status) :
    (respond env peer ka m allow dst frames).out = dst ∨
    ∃ version status line fs, StatusLine version status line ∧ (∀ f ∈ fs, WireField f) ∧
      (status = m.head.status ∨ (100 ≤ m.head.status ∧ m.head.status ≤ 199 ∧ status = 500 ∧
        ResponseFraming m.reqMethod 500 False (teOf fs) (clOf fs) (.length 0))) ∧
      (respond env peer ka m allow dst frames).out = dst ++ line ++ lines fs ++ CRLF := by
  have hwf' := connMsg_wf hwf peer ka
  have hclosed : ∀ out, writeFrames allow m.titleCase out .closed frames = ⟨out, .closed, .ok⟩ := by
    intro out; simp [writeFrames]
  unfold respond
  cases hs : serverEncode env (connMsg peer ka m).2 dst with
  | mk out r =>
    cases r with
    | ok e =>
      obtain ⟨line, fs, h1, h2, h3⟩ := serverEncode_spec (S := False) hwf' hdate (by simp) hs
      right
      have hk := h3.noBody hno
      refine ⟨_, _, line, fs, h1, h3.wire, Or.inl rfl, ?_⟩
      have : Writing.ofHead (.ok e) = .afterBody e.isLast := by
        have he : e.isEof = true := by unfold Encoder.isEof; rw [hk]; rfl
        simp [Writing.ofHead, he]
      simp only [this, ← h2]
      unfold Writing.afterBody
      cases e.isLast <;> simp [writeFrames]
    | userHeader =>
      left
      simp only [Writing.ofHead, hclosed]
      exact C21_failed_head_writes_nothing env _ dst out hs
    | panic =>
      left
      simp only [Writing.ofHead, hclosed]
      unfold serverEncode at hs
      simp only at hs
      split at hs
      · simp only [Prod.mk.injEq, and_true] at hs; exact hs.symm
      · exfalso
        split at hs
        · simp only [Prod.mk.injEq] at hs
          have := hs.2
          split at this <;> simp at this
        · rename_i hne he
          simp only [Prod.mk.injEq] at hs
          obtain ⟨rfl, rfl⟩ := hs
          unfold encodeHeaders at he
          split at he
          · simp at he
          · rename_i hh; exact hrun_no_panic _ _ _ hh
          · simp at he
    | unsupportedStatus =>
      right
      have hc : (connMsg peer ka m).2.head.status = m.head.status ∧
          (connMsg peer ka m).2.reqMethod = m.reqMethod := ⟨rfl, rfl⟩
      have key : (connMsg peer ka m).2.head.status ≠ 101 ∧
          ¬ ((connMsg peer ka m).2.reqMethod = some mCONNECT ∧ isSuccess (connMsg peer ka m).2.head.status) ∧
          isInformational (connMsg peer ka m).2.head.status = true := by
        have hb := serverEncode_unsupported hs
        unfold encodePrep at hb
        split at hb
        · simp at hb
        · rename_i a1
          split at hb
          · simp at hb
          · rename_i a2
            split at hb
            · rename_i a3; exact ⟨a1, a2, a3⟩
            · simp at hb
      obtain ⟨k1, k2, k3⟩ := key
      obtain ⟨line, fs, g1, g2, g3, g4⟩ := serverEncode_1xx dst hdate k1 k2 k3
      rw [hs] at g3
      simp only [Prod.mk.injEq, and_true] at g3
      refine ⟨1, 500, line, fs, g1, g2, Or.inr ?_, ?_⟩
      · rw [hc.1] at k3
        unfold isInformational at k3
        simp only [Bool.and_eq_true, decide_eq_true_eq] at k3
        exact ⟨k3.1, k3.2, rfl, g4⟩
      · simp only [Writing.ofHead, hclosed]; exact g3

/-- HEAD keeps the length in the head and drops the body; a 1xx answer becomes a 500. -/
example : NoBody (some (ascii "HEAD")) 200 ∧ ResponseWf (exMsg [] (some (.known 2))) ∧
    (respond exEnv .h11 .busy { exMsg [(hCL, [ascii "2"])] (some (.known 2)) with reqMethod := some mHEAD } false []
      [.data (ascii "hi") false]).out = ascii "HTTP/1.1 200 OK\r\ncontent-length: 2\r\n\r\n" := by
  refine ⟨Or.inl rfl, ⟨by simp [exMsg, HeaderMap.fields], by simp [exMsg], ?_⟩, by decide +kernel⟩
  intro n hn
  simp only [exMsg, Option.some.injEq, BodyLength.known.injEq] at hn
  subst hn; decide

/-! ## C23 -/

/-- C23, responses.  To a peer that speaks HTTP/1.0, or when the response is itself HTTP/1.0, the head
never has a Transfer-Encoding (not even one the user set), the body is never chunked, and the
status line says HTTP/1.0. -/
theorem C23_http10_never_chunked (env : EncodeEnv) (peer : Version) (ka : KA) (m : EncodeMsg)
    (dst out : Bytes) (e : Encoder) (hwf : ResponseWf m) (hdate : DateOk env)
    (hold : peer = .h10 ∨ m.head.version = .h10)
    (h : serverEncode env (connMsg peer ka m).2 dst = (out, .ok e)) :
    e.isChunked = false ∧
    ∃ line fs, out = dst ++ line ++ lines fs ++ CRLF ∧ StatusLine 0 m.head.status line ∧
      (∀ f ∈ fs, WireField f) ∧ teOf fs = [] := by
  have hv : (connMsg peer ka m).2.head.version = .h10 := by
    show (enforceVersion peer ka m.head.version m.head.headers).2.1 = .h10
    unfold enforceVersion
    rcases hold with rfl | hh
    · rfl
    · split
      · rfl
      · split <;> exact hh
      · exact hh
  have hcc : (connMsg peer ka m).2.cc = false := cc_false.mpr (Or.inl hv)
  obtain ⟨line, fs, h1, h2, h3⟩ := serverEncode_spec (S := False) (connMsg_wf hwf peer ka) hdate (by simp) h
  rw [if_pos hv] at h1
  refine ⟨?_, line, fs, h2, h1, h3.wire, h3.plain hcc⟩
  cases hc : e.isChunked with
  | false => rfl
  | true => rw [h3.chunkedCc hc] at hcc; simp at hcc

/-- Even an explicit request for chunked coding is dropped. -/
example : serverEncode exEnv (connMsg .h10 .busy (exMsg [(hTE, [ascii "chunked"])] (some .unknown))).2 [] =
    (ascii "HTTP/1.0 200 <none>\r\nconnection: keep-alive\r\n\r\n", .ok Encoder.closeDelimited) := by
  decide +kernel

end Hyper
