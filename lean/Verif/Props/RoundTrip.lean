import Verif.Proof.HeadParse
import Verif.Props.ClientEncode
import Verif.Props.ClientParse
import Verif.Props.Encode

/-! # Heads and bodies read back: C51, C25 -/

namespace Hyper

open Spec

/-! ## C51 -/

/-- C51.  In each casing mode, splitting the written header block at CRLF and each line at its first
colon gives back exactly the supplied fields, in order and with names equal up to case, and there is
no other way to split it: no value introduces a field. -/
theorem C51_block_splits_back (title : Bool) (caseMap : Option HeaderMap) (m : HeaderMap)
    (hnames : ∀ g ∈ m, LowerName g.1) (hcase : ∀ map, caseMap = some map → SpellingsOf map)
    (hvals : ∀ f ∈ m.fields, 13 ∉ f.2 ∧ 10 ∉ f.2) :
    ∃ fs, SplitBlock (clientHeaders title caseMap m) fs ∧
      fs.map (fun f => (f.1.map foldCase, f.2)) = m.fields ∧
      ∀ fs', SplitBlock (clientHeaders title caseMap m) fs' → fs' = fs := by
  obtain ⟨fs, h1, h2⟩ := clientHeaders_spec title caseMap hcase m hnames
  have hp : ∀ f ∈ fs, PlainField f := by
    intro f hf
    have hm : (f.1.map foldCase, f.2) ∈ m.fields := by
      rw [← h2]; exact List.mem_map_of_mem hf
    have hl : LowerName (f.1.map foldCase) := by
      simp only [HeaderMap.fields, List.mem_flatMap, List.mem_map, Prod.mk.injEq] at hm
      obtain ⟨g, hg, v, _, e, _⟩ := hm
      rw [← e]; exact hnames g hg
    have hw : WireField (f.1, []) := wireField_of_spelling rfl hl (by simp)
    exact ⟨hw.plain.1, hw.plain.2.1, (hvals _ hm).1⟩
  have h3 := splitBlock_written h1 hp
  exact ⟨fs, h3, h2, fun fs' h => h.unique h3⟩

/-- Every casing mode of the writers used for heads and trailers is one of the modes above. -/
example (m : HeaderMap) : clientHeaders false none m = writeHeaders m ∧
    clientHeaders true none m = writeHeadersTitleCase m := ⟨rfl, rfl⟩

example : SplitBlock (clientHeaders true (some [(ascii "x-a", [ascii "x-A"])])
      [(ascii "x-a", [ascii " 1: 2", []]), (ascii "b", [ascii "3"])])
    [(ascii "x-A", ascii " 1: 2"), (ascii "X-A", []), (ascii "B", ascii "3")] := by
  have h : clientHeaders true (some [(ascii "x-a", [ascii "x-A"])])
      [(ascii "x-a", [ascii " 1: 2", []]), (ascii "b", [ascii "3"])] =
      ascii "x-A:  1: 2\r\nX-A:\r\nB: 3\r\n" := by decide +kernel
  rw [h]
  refine .cons (l := ascii "x-A:  1: 2") (rest := ascii "X-A:\r\nB: 3\r\n") (name := ascii "x-A")
    (value := ascii "  1: 2") (by decide +kernel) (by decide +kernel) ?_
  refine .cons (l := ascii "X-A:") (rest := ascii "B: 3\r\n") (name := ascii "X-A")
    (value := []) (by decide +kernel) (by decide +kernel) ?_
  exact .cons (l := ascii "B: 3") (rest := []) (name := ascii "B") (value := ascii " 3")
    (by decide +kernel) (by decide +kernel) .nil

/-- C51, whole response heads: the block after the status line splits back, in one way only, into
fields that hold the user's values. -/
theorem C51_response_splits_back (env : EncodeEnv) (m : EncodeMsg) (dst out : Bytes) (e : Encoder)
    (hwf : ResponseWf m) (hdate : DateOk env) (h : serverEncode env m dst = (out, .ok e)) :
    ∃ line block fs, StatusLine (if m.head.version = .h10 then 0 else 1) m.head.status line ∧
      out = dst ++ line ++ block ++ CRLF ∧ SplitBlock block fs ∧
      (∀ fs', SplitBlock block fs' → fs' = fs) ∧
      (∀ k, k ∉ [hCL, hTE, hCONN, hTRAILER, hDATE] → valuesOf k fs = valuesOf k m.head.headers.fields) := by
  obtain ⟨line, fs, h1, h2, h3⟩ := serverEncode_spec (S := False) hwf hdate (by simp) h
  have hs := splitBlock_written (writtenLines_lines fs) (fun f hf => (h3.wire f hf).plain)
  refine ⟨line, lines fs, fs, h1, h2, hs, fun fs' h => h.unique hs, ?_⟩
  intro k hk
  simp only [List.mem_cons, List.not_mem_nil, or_false, not_or] at hk
  exact h3.other k (by simp [joined, hk]) hk.2.2.2.2

/-! ## Counting fields -/

/-- The header lines of a head: all its line feeds but those of the first and of the empty line. -/
def Spec.fieldCount (head : Bytes) : Nat := head.count 10 - 2

theorem count_lf_zero {bs : Bytes} (h : 10 ∉ bs) : bs.count 10 = 0 := List.count_eq_zero.mpr h

theorem tchar_not_lf {bs : Bytes} (h : ∀ b ∈ bs, isTchar b = true) : (10 : Byte) ∉ bs := by
  intro hh; have := h _ hh; revert this; decide

theorem value_not_lf {bs : Bytes} (h : ∀ b ∈ bs, isValueByte b = true) : (10 : Byte) ∉ bs := by
  intro hh; have := h _ hh; revert this; decide

theorem written_count {bs : Bytes} {fs : List (Bytes × Bytes)} (h : WrittenLines bs fs)
    (hf : ∀ f ∈ fs, WireField f) : bs.count 10 = fs.length := by
  have c1 : (CRLF : Bytes).count 10 = 1 := by decide
  have c2 : (ascii ": ").count 10 = 0 := by decide
  have c3 : (ascii ":").count 10 = 0 := by decide
  induction h with
  | nil => rfl
  | cons f _ ih =>
    have hw := hf f (by simp)
    rw [List.count_append, ih (fun g hg => hf g (by simp [hg]))]
    simp only [line, List.count_append, c1, c2, count_lf_zero (tchar_not_lf hw.name_ok),
      count_lf_zero (value_not_lf hw.value_ok), List.length_cons]
    omega
  | empty n _ ih =>
    have hw := hf (n, []) (by simp)
    rw [List.count_append, ih (fun g hg => hf g (by simp [hg]))]
    have := count_lf_zero (tchar_not_lf hw.name_ok)
    simp only at this
    simp only [List.count_append, c1, c3, this, List.length_cons]
    omega

/-! ## Bodies -/

/-- What the reader gets when the writer's frames are `frames`: all of it, or what fits the length. -/
def Spec.bodySent : EncKind → List UserFrame → Bytes
  | .length n, frames => (userData frames).take n
  | _, frames => userData frames

/-- The body written with an encoder of this kind is one message to the reader: enough data for a
length, no trailers, and for a body that ends by closing nothing after it. -/
def Spec.WholeBody (k : EncKind) (frames : List UserFrame) (rest : Bytes) (fin : NetEnd) : Prop :=
  match k with
  | .length n => n ≤ (userData frames).length
  | .chunked _ => userTrailers frames = none
  | .closeDelimited => rest = [] ∧ fin = .eof

theorem body_agreed (P : TrailerParser) (mh ms : Option Nat) (allow title : Bool) (e : Encoder)
    (frames : List UserFrame) (hok : userFails frames = false) (hfit : FramesFit frames)
    (r : Rd) (rest : Bytes) (hw : WholeBody e.kind frames rest r.fin)
    (hs : r.stream = (writeFrames allow title [] (Writing.ofHead (.ok e)) frames).out ++ rest) :
    ((readerFor mh ms (framingOf e.kind)).readAll P r).view = .complete (bodySent e.kind frames) none rest := by
  obtain ⟨k, last⟩ := e
  cases k with
  | length n =>
    have hout : (writeFrames allow title [] (Writing.ofHead (.ok ⟨.length n, last⟩)) frames).out =
        (userData frames).take n := by
      cases n with
      | zero =>
        simp only [Writing.ofHead, Encoder.isEof, List.take_zero]
        unfold Writing.afterBody
        cases last <;> simp [writeFrames]
      | succ n =>
        have := writeFrames_length_out allow title last frames (n + 1) []
        simpa [Writing.ofHead, Encoder.isEof] using this
    rw [hout] at hs
    have hn : n ≤ (userData frames).length := hw
    have hlen : ((userData frames).take n).length = n := by simp [hn]
    have h7 := (C07_content_length_body P n r).1 (by rw [hs]; simp; omega)
    show ((Decoder.length n).readAll P r).view = _
    rw [h7, hs]
    simp only [bodySent]
    rw [List.take_append_of_le_length (by omega), List.drop_append_of_le_length (by omega),
      List.take_of_length_le (by omega), List.drop_of_length_le (by omega), List.nil_append]
  | chunked ts =>
    exact C01_chunked_round_trip P mh ms allow title last ts frames hok hw hfit r rest hs
  | closeDelimited =>
    obtain ⟨rfl, hfin⟩ := hw
    have h8 := (C08_close_delimited_body P r).2.2 hfin
    show ((Decoder.eof false).readAll P r).view = _
    rw [h8]
    have hout := writeFrames_close allow title last frames [] hok
    have : Writing.ofHead (.ok ⟨.closeDelimited, last⟩) = .body ⟨.closeDelimited, last⟩ := rfl
    rw [this, hout] at hs
    rw [hs]
    simp [bodySent]

/-! ## C25, requests -/

/-- What `http::Method` and `http::Uri` guarantee about the request line, and the lengths hyper's server
takes. -/
structure Spec.LineOk (h : ReqHead) : Prop where
  method_ne : h.method ≠ []
  method : ∀ b ∈ h.method, isTchar b = true
  target_ne : h.target ≠ []
  target : ∀ b ∈ h.target, isValueByte b = true ∧ isBlankByte b = false
  short : h.target.length ≤ 65534
  utf8 : Utf8 h.target

/-- Names shorter than 2^16, which `http::HeaderName` guarantees. -/
def Spec.ShortNames (headers : HeaderMap) : Prop := ∀ f ∈ headers.fields, f.1.length < 2 ^ 16

theorem valuesOf_ne {f : Bytes × Bytes} {fs : List (Bytes × Bytes)} (h : f ∈ fs) :
    valuesOf (f.1.map foldCase) fs ≠ [] := by
  have : f.2 ∈ valuesOf (f.1.map foldCase) fs :=
    List.mem_map.mpr ⟨f, List.mem_filter.mpr ⟨h, by simp⟩, rfl⟩
  exact List.ne_nil_of_mem this

theorem mem_of_valuesOf {k : Bytes} {fs : List (Bytes × Bytes)} (h : valuesOf k fs ≠ []) :
    ∃ f ∈ fs, f.1.map foldCase = k := by
  obtain ⟨v, hv⟩ := List.exists_mem_of_ne_nil _ h
  obtain ⟨f, hf, _⟩ := List.mem_map.mp hv
  obtain ⟨h1, h2⟩ := List.mem_filter.mp hf
  exact ⟨f, h1, by simpa using h2⟩

theorem headerName_ok {n : Bytes} (h1 : n ≠ []) (h2 : ∀ b ∈ n, isTchar b = true) (h3 : n.length < 2 ^ 16) :
    headerName n ≠ none := by
  unfold headerName
  rw [if_pos ⟨h1, List.all_eq_true.mpr h2, h3⟩]
  simp

/-- What hyper's server reads of a head hyper's client wrote. -/
theorem client_to_server (max : Nat) (Q : Bytes → Option (RawRequest × Nat)) (hQ : ReadsRequests max Q)
    (methodOk uriOk : Bytes → Bool) (preserve title : Bool) (h : ReqHead) (body : Option BodyLength)
    (out rest : Bytes) (e : Encoder) (hwf : RequestWf h body) (hline : LineOk h) (hshort : ShortNames h.headers)
    (huser : UserRequestOk h.headers body)
    (hm : methodOk h.method = true) (hu : uriOk h.target = true)
    (hr : clientEncode title h body [] = some (out, e))
    (hcount : fieldCount out ≤ max) (hmax : ∀ n, e.kind = .length n → n ≤ 2 ^ 64 - 3) :
    ∃ raw msg, Q (out ++ rest) = some (raw, out.length) ∧ serverParse methodOk uriOk preserve raw = .ok msg ∧
      (∀ maxHeaders maxSize, Decoder.ofLength msg.decode maxHeaders maxSize =
        readerFor maxHeaders maxSize (framingOf e.kind)) ∧
      msg.method = h.method ∧ msg.target = h.target ∧
      (∀ k, k ∉ [hCL, hTE] → msg.headers.getAll k = (h.headers.getAll k).map trimBlanks) ∧
      raw.method = h.method ∧ raw.http11 = decide (h.version ≠ .h10) ∧
      (∀ k, valuesOf k raw.fields = ((setLength h.method h.version h.headers body).1.getAll k).map trimBlanks) := by
  obtain ⟨line, bs, fs, h1, h2, h3, h4, h5, h6⟩ := clientEncode_full (U := True) hwf (fun _ => huser) hr
  generalize hse : (setLength h.method h.version h.headers body).1 = hs at h5 h6 ⊢
  have hte : teOf fs = hs.getAll hTE := h5 hTE
  have hcl : clOf fs = hs.getAll hCL := h5 hCL
  have hfr := h6.framing trivial
  rw [← hte, ← hcl] at hfr
  have halone := h6.alone trivial
  rw [← hte, ← hcl] at halone
  have hd : decimal (lineVersion h.version) =
      if decide (h.version ≠ .h10) = true then ascii "1" else ascii "0" := by
    unfold lineVersion
    by_cases hv : h.version = .h10
    · simp [hv, decimal_zero]
    · simp [hv, decimal_one]
  have hcnt : fs.length ≤ max := by
    have c1 : (CRLF : Bytes).count 10 = 1 := by decide
    have c2 : (ascii " ").count 10 = 0 := by decide
    have c3 : (ascii " HTTP/1.").count 10 = 0 := by decide
    have c4 : (decimal (lineVersion h.version)).count 10 = 0 :=
      count_lf_zero (value_not_lf (decimal_valueBytes _))
    have c5 := count_lf_zero (tchar_not_lf hline.method)
    have c6 := count_lf_zero (value_not_lf (fun b hb => (hline.target b hb).1))
    have c7 := written_count h3 h4
    rw [h2, h1] at hcount
    simp only [fieldCount, List.count_append, c1, c2, c3, c4, c5, c6, c7, List.count_nil] at hcount
    omega
  have hq := hQ h.method h.target (decide (h.version ≠ .h10)) bs fs rest hline.method_ne hline.method
    hline.target_ne hline.target hline.utf8 h3 h4 hcnt
  simp only at hq
  rw [← hd] at hq
  have hout : out = h.method ++ ascii " " ++ h.target ++ ascii " HTTP/1." ++ decimal (lineVersion h.version) ++ CRLF ++
      bs ++ CRLF := by rw [h2, h1]; simp
  rw [← hout] at hq
  generalize hraw : (⟨h.method, h.target, decide (h.version ≠ .h10), fs.map (fun f => (f.1, trimBlanks f.2))⟩ :
    RawRequest) = raw at hq
  have r1 : raw.fields = fs.map (fun f => (f.1, trimBlanks f.2)) := by rw [← hraw]
  have r2 : raw.http11 = decide (h.version ≠ .h10) := by rw [← hraw]
  have r3 : raw.method = h.method := by rw [← hraw]
  have r4 : raw.target = h.target := by rw [← hraw]
  have rv : ∀ k, valuesOf k raw.fields = (valuesOf k fs).map trimBlanks := by
    intro k; rw [r1, valuesOf_trim]
  have hnames : ∀ f ∈ raw.fields, headerName f.1 ≠ none := by
    intro f hf
    rw [r1] at hf
    obtain ⟨g, hg, rfl⟩ := List.mem_map.mp hf
    have hw := h4 g hg
    refine headerName_ok hw.name_ne hw.name_ok ?_
    simp only
    have hne := valuesOf_ne hg
    rw [h5] at hne
    by_cases k1 : g.1.map foldCase = hTE
    · have := congrArg List.length k1; simp only [List.length_map] at this; rw [this]; decide
    · by_cases k2 : g.1.map foldCase = hCL
      · have := congrArg List.length k2; simp only [List.length_map] at this; rw [this]; decide
      · rw [h6.other _ k1 k2] at hne
        obtain ⟨v, hv⟩ := List.exists_mem_of_ne_nil _ hne
        have := hshort _ (getAll_mem_fields hv)
        simpa using this
  have hacc := (C17_accepted_iff methodOk uriOk preserve raw
    ⟨by rw [r4]; exact hline.short, by rw [r3]; exact hm, by rw [r4]; exact hu⟩ hnames).mpr
  have hframe : RequestFraming (raw.http11 = true) (teOf raw.fields) (clOf raw.fields) (framingOf e.kind) := by
    unfold teOf clOf
    rw [rv, rv]
    generalize framingOf e.kind = fr at hfr
    cases hfr with
    | chunked a b c =>
      exact .chunked (by simpa using a) (by rw [r2, b]; decide) (finalChunked_trim c)
    | length n a b c =>
      refine .length n (by simpa using a) (by simpa using b) ?_
      intro v hv
      obtain ⟨w, hw, rfl⟩ := List.mem_map.mp hv
      rw [digits_trim (c w hw)]
      exact c w hw
    | none a b => exact .none (by simpa using a) (by simpa using b)
  have hmsg : ∃ m, serverParse methodOk uriOk preserve raw = .ok m := by
    apply hacc
    have hsub : ∀ v ∈ clOf (beforeTe raw.fields), v ∈ clOf raw.fields := by
      intro v hv
      unfold clOf valuesOf beforeTe at *
      obtain ⟨f, hf, rfl⟩ := List.mem_map.mp hv
      obtain ⟨hf1, hf2⟩ := List.mem_filter.mp hf
      exact List.mem_map.mpr ⟨f, List.mem_filter.mpr ⟨(List.takeWhile_sublist _).mem hf1, hf2⟩, rfl⟩
    have hlen : ∀ n, framingOf e.kind = .length n → n ≤ 2 ^ 64 - 3 := by
      intro n hn
      apply hmax
      cases hk : e.kind with
      | chunked ts => rw [hk] at hn; simp [framingOf] at hn
      | closeDelimited => rw [hk] at hn; simp [framingOf] at hn
      | length k => rw [hk] at hn; simp only [framingOf, Framing.length.injEq] at hn; rw [hn]
    generalize framingOf e.kind = fr at hframe hlen
    cases hframe with
    | chunked a b c =>
      refine ⟨fun _ => ⟨b, c⟩, Or.inl ?_⟩
      have h0 : clOf fs = [] := by
        apply halone
        intro hh
        apply a
        unfold teOf
        rw [rv]; unfold teOf at hh; rw [hh]; rfl
      have h0' : clOf raw.fields = [] := by
        unfold clOf at h0 ⊢
        rw [rv, h0]; rfl
      exact List.eq_nil_iff_forall_not_mem.mpr (fun v hv => by have := hsub v hv; rw [h0'] at this; simp at this)
    | length n a b c =>
      exact ⟨fun hh => absurd a hh, Or.inr ⟨n, hlen n rfl, fun v hv => c v (hsub v hv)⟩⟩
    | none a b =>
      refine ⟨fun hh => absurd a hh, Or.inl ?_⟩
      exact List.eq_nil_iff_forall_not_mem.mpr (fun v hv => by have := hsub v hv; rw [b] at this; simp at this)
  obtain ⟨msg, hmsg⟩ := hmsg
  obtain ⟨⟨fr, g1, g2⟩, _⟩ := C17_request_framing _ _ _ raw msg hmsg
  have g3 := C17_fields_shown _ _ _ raw msg hmsg
  refine ⟨raw, msg, hq, hmsg, ?_, g3.2.2.1.trans r3, g3.2.2.2.trans r4, ?_, r3, r2, fun k => by rw [rv, h5]⟩
  · rw [g1.unique hframe] at g2; exact g2
  · intro k hk
    simp only [List.mem_cons, List.not_mem_nil, or_false, not_or] at hk
    rw [g3.1 k hk.1, rv, h5, h6.other k hk.2 hk.1]

/-- C25, requests, for framing headers of the user's that are right (`UserRequestOk`; without it
the claim is false, see `C25_disagreement`): hyper's server accepts the head hyper's client wrote,
reads its body with exactly the framing the client's body writer uses, and shows its service the
client's method, target and headers.  `Q` is any request parser that reads well-formed heads of
`max` fields, `methodOk` and `uriOk` are what the `http` crate accepts. -/
theorem C25_client_to_server_partial (max : Nat) (Q : Bytes → Option (RawRequest × Nat)) (hQ : ReadsRequests max Q)
    (methodOk uriOk : Bytes → Bool) (preserve title : Bool) (h : ReqHead) (body : Option BodyLength)
    (out rest : Bytes) (e : Encoder) (hwf : RequestWf h body) (hline : LineOk h) (hshort : ShortNames h.headers)
    (huser : UserRequestOk h.headers body)
    (hm : methodOk h.method = true) (hu : uriOk h.target = true)
    (hr : clientEncode title h body [] = some (out, e))
    (hcount : fieldCount out ≤ max) (hmax : ∀ n, e.kind = .length n → n ≤ 2 ^ 64 - 3) :
    ∃ raw msg, Q (out ++ rest) = some (raw, out.length) ∧ serverParse methodOk uriOk preserve raw = .ok msg ∧
      (∀ maxHeaders maxSize, Decoder.ofLength msg.decode maxHeaders maxSize =
        readerFor maxHeaders maxSize (framingOf e.kind)) ∧
      msg.method = h.method ∧ msg.target = h.target ∧
      (∀ k, k ∉ [hCL, hTE] → msg.headers.getAll k = (h.headers.getAll k).map trimBlanks) := by
  obtain ⟨raw, msg, g1, g2, g3, g4, g5, g6, _⟩ := client_to_server max Q hQ methodOk uriOk preserve title h body out rest e hwf hline hshort huser hm hu hr
    hcount hmax
  exact ⟨raw, msg, g1, g2, g3, g4, g5, g6⟩

/-- C25, requests, head and body together: what the client writes for one message, followed by anything,
is read by the server as that message, and exactly what follows is left. -/
theorem C25_request_end_to_end_partial (max : Nat) (Q : Bytes → Option (RawRequest × Nat)) (hQ : ReadsRequests max Q)
    (methodOk uriOk : Bytes → Bool) (preserve title allow : Bool) (h : ReqHead) (body : Option BodyLength)
    (frames : List UserFrame) (out rest : Bytes) (e : Encoder) (hwf : RequestWf h body) (hline : LineOk h)
    (hshort : ShortNames h.headers) (huser : UserRequestOk h.headers body)
    (hm : methodOk h.method = true) (hu : uriOk h.target = true)
    (hr : clientEncode title h body [] = some (out, e))
    (hcount : fieldCount out ≤ max) (hmax : ∀ n, e.kind = .length n → n ≤ 2 ^ 64 - 3)
    (hok : userFails frames = false) (hfit : FramesFit frames)
    (P : TrailerParser) (maxHeaders maxSize : Option Nat) (r : Rd) (hw : WholeBody e.kind frames rest r.fin)
    (hstream : r.stream = (writeFrames allow title [] (Writing.ofHead (.ok e)) frames).out ++ rest) :
    ∃ raw msg, Q (out ++ r.stream) = some (raw, out.length) ∧
      serverParse methodOk uriOk preserve raw = .ok msg ∧
      ((Decoder.ofLength msg.decode maxHeaders maxSize).readAll P r).view =
        .complete (bodySent e.kind frames) none rest := by
  obtain ⟨raw, msg, g1, g2, g3, _⟩ := C25_client_to_server_partial max Q hQ methodOk uriOk preserve title h body
    out r.stream e hwf hline hshort huser hm hu hr hcount hmax
  refine ⟨raw, msg, g1, g2, ?_⟩
  rw [g3]
  exact body_agreed P maxHeaders maxSize allow title e frames hok hfit r rest hw hstream

/-- The claim is false of the code for a Content-Length header on a request without a body: the client
writes no body and takes the request as finished, the server waits for five bytes (and will take them
from the next request on the connection). -/
theorem C25_disagreement :
    ∃ (out : Bytes) (raw : RawRequest) (msg : RequestMsg),
      clientEncode false (exReq (ascii "POST") .h11 [(hCL, [ascii "5"])]) none [] = some (out, Encoder.length 0) ∧
      refRequest 100 out = some (raw, out.length) ∧
      serverParse (fun _ => true) (fun _ => true) false raw = .ok msg ∧
      Decoder.ofLength msg.decode none none = .length 5 := by
  refine ⟨_, ⟨ascii "POST", ascii "/", true, [(hCL, ascii "5")]⟩,
    ⟨ascii "POST", ascii "/", .h11, [(hCL, [ascii "5"])], none, ⟨5⟩, false, true, false⟩,
    C24_length_without_body_announced, by decide +kernel, by decide +kernel, by decide +kernel⟩

/-! ## C25, responses -/

/-- Reason phrases are printable: guaranteed by `ReasonPhrase` for the user's, a table for the canonical
ones. -/
def Spec.ReasonsOk (env : EncodeEnv) (m : EncodeMsg) : Prop :=
  (∀ r, m.head.reason = some r → ∀ b ∈ r, isValueByte b = true) ∧
  (∀ s r, env.canonicalReason s = some r → ∀ b ∈ r, isValueByte b = true)

theorem statusLine_reason {env : EncodeEnv} {m : EncodeMsg} {line : Bytes} (hr : ReasonsOk env m)
    (h : statusLine env m.head = some line) :
    ∃ reason, (∀ b ∈ reason, isValueByte b = true) ∧
      line = ascii "HTTP/1." ++ (if decide (m.head.version ≠ .h10) = true then ascii "1" else ascii "0") ++ ascii " " ++
        decimal m.head.status ++ ascii " " ++ reason ++ CRLF := by
  unfold statusLine at h
  split at h
  · rename_i hh
    simp only [Option.some.injEq] at h
    subst h
    refine ⟨ascii "OK", by decide +kernel, ?_⟩
    rw [hh.1, hh.2.1]
    simp only [decimal_200]
    decide
  · simp only at h
    have e0 : ascii "HTTP/1.0 " = ascii "HTTP/1." ++ ascii "0" ++ ascii " " := by decide
    have e1 : ascii "HTTP/1.1 " = ascii "HTTP/1." ++ ascii "1" ++ ascii " " := by decide
    refine ⟨m.head.reason.getD ((env.canonicalReason m.head.status).getD (ascii "<none>")), ?_, ?_⟩
    · cases hh : m.head.reason with
      | some r => exact hr.1 r hh
      | none =>
        simp only [Option.getD_none]
        cases hc : env.canonicalReason m.head.status with
        | some r => exact hr.2 _ r hc
        | none => simp only [Option.getD_none]; decide +kernel
    · cases hr : m.head.reason <;> cases hv : m.head.version <;> rw [hv, hr] at h <;>
        simp only [Option.map_some, Option.map_none, reduceCtorEq, Option.some.injEq] at h
      all_goals subst h
      all_goals simp [e0, e1]

theorem obsFold_id {v : Bytes} (h : 10 ∉ v) : obsFold v = v := by
  unfold obsFold; rw [if_neg h]

/-- C25, responses, for framing headers of the user's that are right (`UserFramingOk`; without it the
claim is false, see `C21_wrong_length_announced`): hyper's client, having sent the same method,
delivers the response hyper's server wrote, with its status and headers, and reads its body with exactly the framing of the
server's body writer.  `H` is any response parser that reads well-formed heads of `max` fields. -/
theorem C25_server_to_client_partial (max : Nat) (H : Bytes → RespParse) (hH : ReadsResponses max H)
    (cfg : ClientCfg) (env : EncodeEnv) (m : EncodeMsg) (fuel : Nat) (out rest : Bytes) (e : Encoder)
    (hwf : ResponseWf m) (hdate : DateOk env) (hreason : ReasonsOk env m) (hshort : ShortNames m.head.headers)
    (huser : UserFramingOk m)
    (hstatus : 200 ≤ m.head.status ∧ m.head.status ≤ 999 ∨ m.head.status = 101)
    (hr : serverEncode env m [] = (out, .ok e))
    (hcount : fieldCount out ≤ max) (hmax : ∀ n, e.kind = .length n → n ≤ 2 ^ 64 - 3) :
    ∃ msg, (clientParse cfg H m.reqMethod (fuel + 1) (out ++ rest) []).res = .ok (some msg) ∧
      msg.head.status = m.head.status ∧
      (clientParse cfg H m.reqMethod (fuel + 1) (out ++ rest) []).buf = rest ∧
      (∀ maxHeaders maxSize, Decoder.ofLength msg.decode maxHeaders maxSize =
        readerFor maxHeaders maxSize (framingOf e.kind)) ∧
      (∀ k, k ∉ [hCL, hTE, hCONN, hTRAILER, hDATE] → msg.head.headers.getAll k = (valuesOf k m.head.headers.fields).map trimBlanks) := by
  obtain ⟨line, fs, _, hl, h2, h3⟩ := serverEncode_full (S := True) hwf hdate (fun _ => huser) hr
  obtain ⟨reason, hre, hline⟩ := statusLine_reason hreason hl
  have hfr := h3.framing trivial
  have hcnt : fs.length ≤ max := by
    have c1 : (CRLF : Bytes).count 10 = 1 := by decide
    have c2 : (ascii " ").count 10 = 0 := by decide
    have c3 : (ascii "HTTP/1.").count 10 = 0 := by decide
    have c4 : (decimal m.head.status).count 10 = 0 := count_lf_zero (value_not_lf (decimal_valueBytes _))
    have c5 := count_lf_zero (value_not_lf hre)
    have c7 := written_count (writtenLines_lines fs) h3.wire
    have c8 : (if decide (m.head.version ≠ .h10) = true then ascii "1" else ascii "0").count 10 = 0 := by
      split <;> decide
    rw [h2, hline] at hcount
    simp only [fieldCount, List.count_append, c1, c2, c3, c4, c5, c7, c8, List.count_nil] at hcount
    omega
  have hq := hH (decide (m.head.version ≠ .h10)) m.head.status reason (lines fs) fs rest (by omega) (by omega) hre
    (writtenLines_lines fs) h3.wire hcnt
  simp only at hq
  rw [← hline] at hq
  have hout : out = line ++ lines fs ++ CRLF := by rw [h2]; simp
  rw [← hout] at hq
  generalize hraw : (⟨m.head.status, decide (m.head.version ≠ .h10), if ∃ b ∈ reason, 128 ≤ b then [] else reason, fs.map (fun f => (f.1, trimBlanks f.2))⟩ :
    RawResponse) = raw at hq
  have r1 : raw.fields = fs.map (fun f => (f.1, trimBlanks f.2)) := by rw [← hraw]
  have r2 : raw.http11 = decide (m.head.version ≠ .h10) := by rw [← hraw]
  have r3 : raw.status = m.head.status := by rw [← hraw]
  have hun : cfg.unfold raw.fields = raw.fields := by
    unfold ClientCfg.unfold
    split
    · refine Eq.trans (List.map_congr_left (g := id) (fun f h => ?_)) (List.map_id _)
      rw [r1] at h
      obtain ⟨g, hg, rfl⟩ := List.mem_map.mp h
      simp only [id]
      rw [obsFold_id]
      intro hh
      exact value_not_lf (h3.wire g hg).value_ok (trim_mem _ hh)
    · rfl
  have rv : ∀ k, valuesOf k raw.fields = (valuesOf k fs).map trimBlanks := by
    intro k; rw [r1, valuesOf_trim]
  have hnames : ∀ f ∈ raw.fields, headerName f.1 ≠ none := by
    intro f hf
    rw [r1] at hf
    obtain ⟨g, hg, rfl⟩ := List.mem_map.mp hf
    have hw := h3.wire g hg
    refine headerName_ok hw.name_ne hw.name_ok ?_
    simp only
    by_cases hj : g.1.map foldCase ∈ joined ∨ g.1.map foldCase = hDATE
    · have hlen : ∀ k ∈ hDATE :: joined, k.length < 2 ^ 16 := by decide
      have := hlen (g.1.map foldCase) (by
        rcases hj with h | h
        · exact List.mem_cons_of_mem _ h
        · rw [h]; simp)
      simpa using this
    · simp only [not_or] at hj
      have hne := valuesOf_ne hg
      rw [h3.other _ hj.1 hj.2] at hne
      obtain ⟨f, hf, hfe⟩ := mem_of_valuesOf hne
      have := hshort f hf
      have h' := congrArg List.length hfe
      simp only [List.length_map] at h'
      rw [← h']; exact this
  have hframe : ResponseFraming m.reqMethod raw.status (raw.http11 = false)
      (teOf (cfg.unfold raw.fields)) (clOf (cfg.unfold raw.fields)) (framingOf e.kind) := by
    rw [hun]
    unfold teOf clOf
    rw [rv, rv, r3]
    have hv : raw.http11 = false ↔ m.head.version = .h10 := by rw [r2]; simp
    have hagree := h3.agree
    generalize hk : framingOf e.kind = fr at hfr
    cases hfr with
    | noBody a => exact .noBody a
    | chunked a b c d => exact .chunked a (by simpa using b) (fun h => c (hv.mp h)) (finalChunked_trim d)
    | otherCoding a b c d =>
      exfalso
      apply b
      cases hek : e.kind with
      | length n => rw [hek] at hk; simp [framingOf] at hk
      | chunked n => rw [hek] at hk; simp [framingOf] at hk
      | closeDelimited => rw [hek] at hagree; exact hagree.1
    | length n a b c => exact .length n a (by simpa using b) (agreed_trim c)
    | untilClose a b c => exact .untilClose a (by simpa using b) (by simpa using c)
  have h19 := (C19_response_framing cfg H m.reqMethod fuel (out ++ rest) out.length raw hq (by rw [r3]; exact hstatus)
    hnames).1 (framingOf e.kind) hframe (by
      intro n hn
      apply hmax
      cases hk : e.kind with
      | chunked ts => rw [hk] at hn; simp [framingOf] at hn
      | closeDelimited => rw [hk] at hn; simp [framingOf] at hn
      | length k => rw [hk] at hn; simp only [framingOf, Framing.length.injEq] at hn; rw [hn])
  obtain ⟨msg, g1, g2, g3, g4, _, g5⟩ := h19
  refine ⟨msg, g1, g2.trans r3, ?_, g4, ?_⟩
  · rw [g3]; simp
  · intro k hk
    simp only [List.mem_cons, List.not_mem_nil, or_false, not_or] at hk
    rw [g5, hun, rv, h3.other k (by simp [joined, hk]) hk.2.2.2.2]

/-- C25, responses, head and body together: what the server writes for one message, followed by
anything, is read by the client as that message, and exactly what follows is left. -/
theorem C25_response_end_to_end_partial (max : Nat) (H : Bytes → RespParse) (hH : ReadsResponses max H)
    (cfg : ClientCfg) (env : EncodeEnv) (m : EncodeMsg) (allow : Bool) (fuel : Nat) (frames : List UserFrame)
    (out rest : Bytes) (e : Encoder)
    (hwf : ResponseWf m) (hdate : DateOk env) (hreason : ReasonsOk env m) (hshort : ShortNames m.head.headers)
    (huser : UserFramingOk m)
    (hstatus : 200 ≤ m.head.status ∧ m.head.status ≤ 999 ∨ m.head.status = 101)
    (hr : serverEncode env m [] = (out, .ok e))
    (hcount : fieldCount out ≤ max) (hmax : ∀ n, e.kind = .length n → n ≤ 2 ^ 64 - 3)
    (hok : userFails frames = false) (hfit : FramesFit frames)
    (P : TrailerParser) (maxHeaders maxSize : Option Nat) (r : Rd) (hw : WholeBody e.kind frames rest r.fin)
    (hstream : r.stream = (writeFrames allow m.titleCase [] (Writing.ofHead (.ok e)) frames).out ++ rest) :
    ∃ msg, (clientParse cfg H m.reqMethod (fuel + 1) (out ++ r.stream) []).res = .ok (some msg) ∧
      msg.head.status = m.head.status ∧
      ((Decoder.ofLength msg.decode maxHeaders maxSize).readAll P r).view =
        .complete (bodySent e.kind frames) none rest := by
  obtain ⟨msg, g1, g2, _, g3, _⟩ := C25_server_to_client_partial max H hH cfg env m fuel out r.stream e hwf hdate
    hreason hshort huser hstatus hr hcount hmax
  refine ⟨msg, g1, g2, ?_⟩
  rw [g3]
  exact body_agreed P maxHeaders maxSize allow m.titleCase e frames hok hfit r rest hw hstream

/-- The assumptions about the external parsers can be met. -/
example : ReadsRequests 100 (refRequest 100) ∧ ReadsResponses 100 (refResponse 100) :=
  ⟨refRequest_reads 100, refResponse_reads 100⟩

/-- An instance of the request theorem: a chunked POST and the request after it. -/
example : ∃ raw msg, refRequest 100 (ascii "POST / HTTP/1.1\r\ntransfer-encoding: chunked\r\n\r\n" ++
      ascii "2\r\nhi\r\n0\r\n\r\nGET /") = some (raw, 47) ∧
    serverParse (fun _ => true) (fun _ => true) false raw = .ok msg ∧
    ((Decoder.ofLength msg.decode none none).readAll (fun _ _ => none) ⟨ascii "2\r\nhi\r\n0\r\n\r\nGET /", [], .silent⟩).view =
      .complete (ascii "hi") none (ascii "GET /") := by
  have hr : clientEncode false (exReq (ascii "POST") .h11 []) (some .unknown) [] =
      some (ascii "POST / HTTP/1.1\r\ntransfer-encoding: chunked\r\n\r\n", Encoder.chunked) := by decide +kernel
  have := C25_request_end_to_end_partial 100 _ (refRequest_reads 100) (fun _ => true) (fun _ => true) false false false
    (exReq (ascii "POST") .h11 []) (some .unknown) [.data (ascii "hi") true] _ (ascii "GET /") Encoder.chunked
    ⟨⟨⟨by decide, by decide⟩, by simp [exReq, HeaderMap.fields]⟩, by simp [exReq], by simp⟩
    ⟨by decide, by decide +kernel, by decide, by decide +kernel, by decide, ⟨"/", by decide +kernel⟩⟩
    (by intro f hf; simp [exReq, HeaderMap.fields] at hf)
    ⟨⟨0, by simp [exReq, HeaderMap.getAll], by simp⟩, by simp [exReq, HeaderMap.getAll]⟩ rfl rfl hr (by decide +kernel)
    (by simp [Encoder.chunked]) (by decide)
    (by intro f hf bs e he; simp only [List.mem_singleton] at hf; subst hf; simp only [UserFrame.data.injEq] at he; rw [← he.1]; decide)
    (fun _ _ => none) none none ⟨ascii "2\r\nhi\r\n0\r\n\r\nGET /", [], .silent⟩ (by show userTrailers _ = none; decide) (by decide +kernel)
  exact this

end Hyper
