import Verif.Props.Forward

/-!
# C102: trailers that are handed on

A proxy that reads a chunked body with trailers and gives its frames, unchanged, to a chunked body of its own.
-/

namespace Hyper

open Spec Wire

namespace Spec

/-- What the types of the `http` crate, and the blanks `httparse` strips, guarantee about trailers that were read. -/
def TrailerTokens (P : TrailerParser) : Prop :=
  ∀ t n fs, P t n = some fs → ∀ f ∈ fs, LowerName f.1 ∧ (∀ b ∈ f.2, isValueByte b = true) ∧ trimBlanks f.2 = f.2

/-- The values of a name that the next reader is to find: all of them, in order, if trailers may be sent, the name was announced, and it is not one of those that must not
be trailers; otherwise none. -/
def handedOn (allow : Bool) (declared : List Bytes) (fs : List (Bytes × Bytes)) (n : Bytes) : List Bytes :=
  if allow = true ∧ n ∈ declared ∧ n ∉ neverTrailer then valuesOf n fs else []

end Spec

namespace TrailerRelay

theorem fields_append_length (m : HeaderMap) (n v : Bytes) : (m.append n v).fields.length = m.fields.length + 1 := by
  induction m with
  | nil => rfl
  | cons g m ih =>
    obtain ⟨a, vs⟩ := g
    unfold HeaderMap.fields at ih ⊢
    by_cases h : a = n
    · simp only [HeaderMap.append, h, if_true, List.flatMap_cons, List.length_append, List.length_map, List.length_cons, List.length_nil]; omega
    · simp only [HeaderMap.append, h, if_false, List.flatMap_cons, List.length_append, ih]; omega

theorem lines_append_length (m : HeaderMap) (n v : Bytes) : (lines (m.append n v).fields).length = (lines m.fields).length + (line (n, v)).length := by
  induction m with
  | nil => simp [HeaderMap.append, HeaderMap.fields, lines]
  | cons g m ih =>
    obtain ⟨a, vs⟩ := g
    unfold HeaderMap.fields at ih ⊢
    by_cases h : a = n
    · subst h
      simp only [HeaderMap.append, if_true, List.flatMap_cons, lines, List.flatMap_append, List.length_append, List.map_append, List.map_cons, List.map_nil,
        List.flatMap_nil, List.length_nil]; omega
    · simp only [HeaderMap.append, h, if_false, List.flatMap_cons, lines, List.flatMap_append, List.length_append] at ih ⊢
      omega

/-- What appending fields to a map does to its fields. -/
structure Adds (m m' : HeaderMap) (fs : List (Bytes × Bytes)) : Prop where
  ok : MapOk m → MapOk m'
  mem : ∀ f ∈ m'.fields, f ∈ m.fields ∨ f ∈ fs
  count : m'.fields.length = m.fields.length + fs.length
  size : (lines m'.fields).length = (lines m.fields).length + (lines fs).length
  values : ∀ k, m'.getAll k = m.getAll k ++ valuesOf k fs

theorem adds (fs : List (Bytes × Bytes)) : ∀ (m : HeaderMap), (∀ f ∈ fs, LowerName f.1 ∧ ∀ b ∈ f.2, isValueByte b = true) →
    Adds m (fs.foldl (fun m f => m.append f.1 f.2) m) fs := by
  induction fs with
  | nil => intro m _; exact ⟨id, fun f hf => Or.inl hf, rfl, rfl, fun k => by simp [valuesOf]⟩
  | cons f fs ih =>
    intro m h
    obtain ⟨n, v⟩ := f
    have hf := h (n, v) (List.mem_cons_self ..)
    have a := ih (m.append n v) (fun f hf => h f (List.mem_cons_of_mem _ hf))
    rw [List.foldl_cons]
    refine ⟨fun hm => a.ok ⟨wf_append hm.wf n v, fun f hff => ?_⟩, fun f hff => ?_, ?_, ?_, fun k => ?_⟩
    · rcases mem_fields_append m n v f hff with rfl | h'
      · exact hf
      · exact hm.fields f h'
    · rcases a.mem f hff with h' | h'
      · rcases mem_fields_append m n v f h' with rfl | h''
        · exact Or.inr (List.mem_cons_self ..)
        · exact Or.inl h''
      · exact Or.inr (List.mem_cons_of_mem _ h')
    · rw [a.count, fields_append_length, List.length_cons]; omega
    · rw [a.size, lines_append_length]; simp only [lines, List.flatMap_cons, List.length_append]; omega
    · rw [a.values, getAll_append]
      have e : n.map foldCase = n := hf.1.fold
      by_cases hk : k = n
      · subst hk; simp [valuesOf, e]
      · have hk' : (n == k) = false := by simp; exact fun h => hk h.symm
        simp [valuesOf, e, hk, hk']

theorem valuesOf_sendable {fs : List (Bytes × Bytes)} (h : ∀ f ∈ fs, LowerName f.1) (declared : List Bytes) (n : Bytes) :
    valuesOf n (sendable declared fs) = if n ∈ declared ∧ n ∉ neverTrailer then valuesOf n fs else [] := by
  induction fs with
  | nil => simp [sendable, valuesOf]
  | cons f fs ih =>
    have ih := ih (fun g hg => h g (List.mem_cons_of_mem _ hg))
    have e : f.1.map foldCase = f.1 := (h f (List.mem_cons_self ..)).fold
    unfold valuesOf sendable at ih ⊢
    simp only [List.filter_cons, e]
    by_cases hn : f.1 = n
    · subst hn
      by_cases hd : f.1 ∈ declared ∧ f.1 ∉ neverTrailer
      · simp only [hd, if_true, not_false_eq_true, and_self, decide_true, List.filter_cons, e, beq_self_eq_true, List.map_cons] at ih ⊢
        simpa using ih
      · simp only [hd, if_false, decide_false] at ih ⊢
        simpa using ih
    · have hn' : (f.1 == n) = false := by simpa using hn
      by_cases hd : f.1 ∈ declared ∧ f.1 ∉ neverTrailer
      · simp only [hd, not_false_eq_true, and_self, decide_true, if_true, List.filter_cons, e, hn'] at ih ⊢
        simpa using ih
      · simp only [hd, decide_false, hn'] at ih ⊢
        simpa using ih

theorem sendable_length (declared : List Bytes) (fs : List (Bytes × Bytes)) :
    (sendable declared fs).length ≤ fs.length ∧ (lines (sendable declared fs)).length ≤ (lines fs).length := by
  induction fs with
  | nil => exact ⟨Nat.le_refl _, Nat.le_refl _⟩
  | cons f fs ih =>
    unfold sendable lines at ih ⊢
    rw [List.filter_cons]
    split <;> simp only [List.length_cons, List.flatMap_cons, List.length_append] <;> omega

/-- A body whose trailers are not sent, or of which none may be sent. -/
theorem none_sent (P : TrailerParser) (mh ms : Option Nat) (allow title last : Bool) (declared : Option (List Bytes)) (frames : List UserFrame)
    (hok : userFails frames = false) (hfit : FramesFit frames) (htail : chunkedTail allow title declared (userTrailers frames) = ascii "0\r\n\r\n") (r : Rd) (rest : Bytes)
    (hstream : r.stream = (writeFrames allow title [] (.body ⟨.chunked declared, last⟩) frames).out ++ rest) :
    ((Decoder.chunked (Chunked.new mh ms)).readAll P r).view = .complete (userData frames) none rest := by
  obtain ⟨w, cs, h1, h2, h3, h4⟩ := writeFrames_chunked allow title declared last frames [] hok hfit
  have e : ascii "0\r\n\r\n" = ascii "0\r\n" ++ [] ++ CRLF := by decide
  rw [h1, htail, e] at hstream
  have hbody := ChunkedBody.mk w _ [] cs 0 0 0 h2 lastChunk_line .nil
  refine (C03_chunked_grammar_exact P mh ms r _ none rest).2 ⟨_, cs, _, _, 0, ?_, hbody, ⟨h4, by omega, by omega, by simp⟩, h3.symm, Or.inl ⟨rfl, rfl⟩⟩
  rw [hstream]; simp

theorem read_tokens {P : TrailerParser} (hT : TrailerTokens P) {mh ms : Option Nat} {r : Rd} {data : Bytes} {fs : Fields} {rest : Bytes}
    (hr : ((Decoder.chunked (Chunked.new mh ms)).readAll P r).view = .complete data (some fs) rest) :
    ∀ f ∈ fs, LowerName f.1 ∧ (∀ b ∈ f.2, isValueByte b = true) ∧ trimBlanks f.2 = f.2 := by
  obtain ⟨_, _, _, tb, k, _, _, _, _, hor⟩ := (C03_chunked_grammar_exact P mh ms r _ _ rest).1 hr
  rcases hor with ⟨_, h⟩ | ⟨_, gs, h1, h2⟩
  · cases h
  · cases h2; exact hT tb k fs h1

end TrailerRelay

open TrailerRelay

/-- Trailers with tokens for names and values of the `http` crate, from wherever they came, given to a chunked body: what the reader at the other end finds. -/
theorem TrailerRelay.relay (P' : TrailerParser) (hP' : ReadsBlocks P') (mh' ms' : Option Nat) (fs : Fields)
    (htok : ∀ f ∈ fs, LowerName f.1 ∧ ∀ b ∈ f.2, isValueByte b = true)
    (allow title last : Bool) (declared : Option (List Bytes)) (frames : List UserFrame) (hok : userFails frames = false) (hfit : FramesFit frames)
    (htr : userTrailers frames = some (forwardTrailers fs))
    (hcount : fs.length ≤ mh'.getD 100) (hsize : (lines fs).length + 2 < ms'.getD 16384) (r' : Rd) (rest' : Bytes)
    (hstream : r'.stream = (writeFrames allow title [] (.body ⟨.chunked declared, last⟩) frames).out ++ rest') :
    ∃ t, ((Decoder.chunked (Chunked.new mh' ms')).readAll P' r').view = .complete (userData frames) t rest' ∧
      ∀ n, valuesOf n (t.getD []) = (handedOn allow (declared.getD []) fs n).map trimBlanks := by
  have a := adds fs [] htok
  have hm : MapOk (forwardTrailers fs) := a.ok ⟨⟨by simp, by simp⟩, by simp [HeaderMap.fields]⟩
  have hcnt : (forwardTrailers fs).fields.length = fs.length := by have := a.count; simpa [HeaderMap.fields, forwardTrailers] using this
  have hsz : (lines (forwardTrailers fs).fields).length = (lines fs).length := by have := a.size; simpa [HeaderMap.fields, forwardTrailers, lines] using this
  have hval : ∀ n, valuesOf n (forwardTrailers fs).fields = valuesOf n fs := fun n => by
    rw [hm.values]; have := a.values n; simpa [HeaderMap.getAll, forwardTrailers] using this
  cases allow with
  | false =>
    refine ⟨none, ?_, fun n => by simp [handedOn, valuesOf]⟩
    exact none_sent P' mh' ms' false title last declared frames hok hfit (by rw [htr]; rfl) r' rest' hstream
  | true =>
    cases declared with
    | none =>
      refine ⟨none, ?_, fun n => by simp [handedOn, valuesOf]⟩
      exact none_sent P' mh' ms' true title last none frames hok hfit (by rw [htr]; rfl) r' rest' hstream
    | some names =>
      have hv : ∀ n, valuesOf n (sendable names (forwardTrailers fs).fields) = handedOn true names fs n := fun n => by
        rw [valuesOf_sendable (fun f hf => (hm.fields f hf).1), hval]; simp [handedOn]
      by_cases hs : sendable names (forwardTrailers fs).fields = []
      · refine ⟨none, ?_, fun n => ?_⟩
        · refine none_sent P' mh' ms' true title last (some names) frames hok hfit ?_ r' rest' hstream
          rw [htr]
          simp only [chunkedTail, if_true, Encoder.encodeTrailers_spec names false title _ hm.wf, hs, Option.getD_none]
        · have := hv n
          rw [hs] at this
          rw [Option.getD_some, ← this]; rfl
      · have hl := sendable_length names (forwardTrailers fs).fields
        refine ⟨some ((sendable names (forwardTrailers fs).fields).map (fun f => (f.1, trimBlanks f.2))), ?_, ?_⟩
        · exact C12_trailers_round_trip P' hP' mh' ms' title last names frames hok hfit _ htr hm.wf (fun f hf => (hm.fields f hf).1) (fun f hf => (hm.fields f hf).2) hs
            (by omega) (by omega) r' rest' hstream
        · intro n
          rw [Option.getD_some, Option.getD_some, ← hv n]
          unfold valuesOf
          rw [List.filter_map, List.map_map, List.map_map]
          rfl

/-- C102, bodies.  A chunked body that hyper read with trailers, from any bytes and any transport, is given frame by frame, split in any way, to a chunked body of another connection.
The reader at its other end finds the same data, a clean end, and of every name the values that were read, in order, if trailers may be sent, the name was declared in the head and
may be a trailer, and none otherwise; what follows is left untouched.  The trailers as they are written must be within that reader's limits. -/
theorem C102_trailers_handed_on_partial (P : TrailerParser) (hT : TrailerTokens P) (P' : TrailerParser) (hP' : ReadsBlocks P') (mh ms mh' ms' : Option Nat)
    (r : Rd) (data : Bytes) (fs : Fields) (rest : Bytes) (hr : ((Decoder.chunked (Chunked.new mh ms)).readAll P r).view = .complete data (some fs) rest)
    (allow title last : Bool) (declared : Option (List Bytes)) (frames : List UserFrame) (hok : userFails frames = false) (hfit : FramesFit frames)
    (hdata : userData frames = data) (htr : userTrailers frames = some (forwardTrailers fs))
    (hcount : fs.length ≤ mh'.getD 100) (hsize : (lines fs).length + 2 < ms'.getD 16384) (r' : Rd) (rest' : Bytes)
    (hstream : r'.stream = (writeFrames allow title [] (.body ⟨.chunked declared, last⟩) frames).out ++ rest') :
    ∃ t, ((Decoder.chunked (Chunked.new mh' ms')).readAll P' r').view = .complete data t rest' ∧
      ∀ n, valuesOf n (t.getD []) = handedOn allow (declared.getD []) fs n := by
  have htok := read_tokens hT hr
  obtain ⟨t, h1, h2⟩ := relay P' hP' mh' ms' fs (fun f hf => ⟨(htok f hf).1, (htok f hf).2.1⟩) allow title last declared frames hok hfit htr hcount hsize r' rest' hstream
  refine ⟨t, by rw [h1, hdata], fun n => ?_⟩
  rw [h2]
  unfold handedOn
  split
  · exact map_trimmed (fun f hf => (htok f hf).2.2) n
  · rfl

/-- Two fields, one of them twice, one not announced and one that must not be a trailer. -/
example : handedOn true [ascii "x-a", ascii "host"] [(ascii "x-a", ascii "1"), (ascii "x-b", ascii "2"), (ascii "host", ascii "h"), (ascii "x-a", ascii "3")] (ascii "x-a") =
      [ascii "1", ascii "3"] ∧
    (writeFrames true false [] (.body ⟨.chunked (some [ascii "x-a", ascii "host"]), false⟩)
      [.data (ascii "hi") false, .trailers (forwardTrailers [(ascii "x-a", ascii "1"), (ascii "x-b", ascii "2"), (ascii "host", ascii "h"), (ascii "x-a", ascii "3")])]).out =
      ascii "2\r\nhi\r\n0\r\nx-a: 1\r\nx-a: 3\r\n\r\n" := by decide +kernel

/-- C102, requests.  A request with a chunked body and trailers that hyper's server accepted, handed on by hyper's client with its head and the frames of its body, is read by the next
server of hyper's as chunked too, with the same data; and of every name it finds the values that were read, in order, if the request's Trailer fields list it and it may be a trailer,
and none otherwise. -/
theorem C102_request_partial (max : Nat) (Q : Bytes → Option (RawRequest × Nat)) (hQ : ReadsRequests max Q) (mo uo : Bytes → Bool) (pc pc' title : Bool)
    (r : RawRequest) (m : RequestMsg) (hm : serverParse mo uo pc r = .ok m) (ht : RequestTokens r) (shown : Bytes → Bytes) (hshown : TargetOk uo (shown r.target))
    (P : TrailerParser) (hT : TrailerTokens P) (P' : TrailerParser) (hP' : ReadsBlocks P') (mh ms mh' ms' : Option Nat)
    (hchunked : m.decode = DecodedLength.CHUNKED) (rd : Rd) (data : Bytes) (fs : Fields) (rest : Bytes)
    (hr : ((Decoder.ofLength m.decode mh ms).readAll P rd).view = .complete data (some fs) rest)
    (frames : List UserFrame) (hok : userFails frames = false) (hfit : FramesFit frames)
    (hdata : userData frames = data) (htr : userTrailers frames = some (forwardTrailers fs))
    (hcount : fs.length ≤ mh'.getD 100) (hsize : (lines fs).length + 2 < ms'.getD 16384) :
    ∃ out e, clientEncode title (forwardRequest shown m) (forwardBody m.decode) [] = some (out, e) ∧
      ∀ rest', fieldCount out ≤ max → ∃ r' m', Q (out ++ rest') = some (r', out.length) ∧ serverParse mo uo pc' r' = .ok m' ∧
        ∀ (rd' : Rd) (after : Bytes), rd'.stream = (writeFrames true title [] (.body e) frames).out ++ after →
          ∃ t, ((Decoder.ofLength m'.decode mh' ms').readAll P' rd').view = .complete data t after ∧
            ∀ n, valuesOf n (t.getD []) = handedOn true ((m.headers.getAll hTRAILER).flatMap trailerNames) fs n := by
  have hreq := C92_request_ok mo uo pc r m hm ht shown hshown
  obtain ⟨out, e, henc, hreader, hagain⟩ := C92_request_read_again max Q hQ mo uo pc pc' title r m hm ht shown hshown
  refine ⟨out, e, henc, fun rest' hc => ?_⟩
  obtain ⟨r', m', g1, g2, _, _, _, _, g3, _⟩ := hagain rest' hc
  refine ⟨r', m', g1, g2, fun rd' after hs => ?_⟩
  rw [g3, hchunked]
  rw [hchunked] at hr
  have hk : ∃ ts, e.kind = .chunked ts := by
    have h := hreader none none
    rw [hchunked] at h
    cases hk : e.kind with
    | chunked ts => exact ⟨ts, rfl⟩
    | length n => rw [hk] at h; cases h
    | closeDelimited => rw [hk] at h; cases h
  obtain ⟨ts, hk⟩ := hk
  obtain ⟨line, bs, gs, hs', _, _, _, _, _, h6⟩ := clientEncode_spec (U := False) hreq.wf (by simp) henc
  have hts : ts.getD [] = (m.headers.getAll hTRAILER).flatMap trailerNames := h6.trailers _ hk
  obtain ⟨kind, last⟩ := e
  simp only at hk
  subst hk
  obtain ⟨t, t1, t2⟩ := C102_trailers_handed_on_partial P hT P' hP' mh ms mh' ms' rd data fs rest hr true title last ts frames hok hfit hdata htr hcount hsize rd' after hs
  exact ⟨t, t1, fun n => by rw [t2, hts]⟩

/-- C102, responses.  A response's head is written by hyper's server, with a chunked body, and the frames of a body that was read with trailers are given to it.  The reader at the other
end finds the same data; of every name that the user's Trailer fields list, the values that were read, in order, if the request allowed trailers (`allow`: it said `TE: trailers`) and
the name may be a trailer; and of no name anything that was not read, was not allowed, or is not listed in the Trailer fields of the head that was written. -/
theorem C102_response_partial (env : EncodeEnv) (m : EncodeMsg) (dst out : Bytes) (e : Encoder) (hwf : ResponseWf m) (hdate : DateOk env)
    (henc : serverEncode env m dst = (out, .ok e)) (hchunked : e.isChunked = true)
    (P : TrailerParser) (hT : TrailerTokens P) (P' : TrailerParser) (hP' : ReadsBlocks P') (mh ms mh' ms' : Option Nat)
    (r : Rd) (data : Bytes) (fs : Fields) (rest : Bytes) (hr : ((Decoder.chunked (Chunked.new mh ms)).readAll P r).view = .complete data (some fs) rest)
    (allow title : Bool) (frames : List UserFrame) (hok : userFails frames = false) (hfit : FramesFit frames)
    (hdata : userData frames = data) (htr : userTrailers frames = some (forwardTrailers fs))
    (hcount : fs.length ≤ mh'.getD 100) (hsize : (lines fs).length + 2 < ms'.getD 16384) (r' : Rd) (rest' : Bytes)
    (hstream : r'.stream = (writeFrames allow title [] (.body e) frames).out ++ rest') :
    ∃ t line hs, ((Decoder.chunked (Chunked.new mh' ms')).readAll P' r').view = .complete data t rest' ∧ out = dst ++ line ++ lines hs ++ CRLF ∧
      (∀ v ∈ valuesOf hTRAILER m.head.headers.fields, ∀ n ∈ trailerNames v, n ∉ neverTrailer → allow = true → valuesOf n (t.getD []) = valuesOf n fs) ∧
      (∀ n, valuesOf n (t.getD []) ≠ [] → allow = true ∧ Lists (valuesOf hTRAILER hs) n ∧ n ∉ neverTrailer ∧ valuesOf n (t.getD []) = valuesOf n fs) := by
  obtain ⟨line, hs, h1, _, h2, h3⟩ := C11_declared_in_head env m dst out e hwf hdate henc
  obtain ⟨kind, last⟩ := e
  cases kind with
  | length n => cases hchunked
  | closeDelimited => cases hchunked
  | chunked ts =>
    obtain ⟨t, t1, t2⟩ := C102_trailers_handed_on_partial P hT P' hP' mh ms mh' ms' r data fs rest hr allow title last ts frames hok hfit hdata htr hcount hsize r' rest' hstream
    refine ⟨t, line, hs, t1, h1, fun v hv n hn hnever hallow => ?_, fun n hn => ?_⟩
    · obtain ⟨names, hk, hmem⟩ := h3 v hv n hn rfl
      cases hk
      rw [t2]
      simp [handedOn, hallow, hmem, hnever]
    · rw [t2] at hn ⊢
      unfold handedOn at hn ⊢
      split at hn
      · rename_i hc
        rw [if_pos hc]
        cases ts with
        | none => exact absurd hc.2.1 (by simp)
        | some names => exact ⟨hc.1, h2 names rfl n hc.2.1, hc.2.2, rfl⟩
      · exact absurd rfl hn

/-- C102 fails at the limit: trailers that the proxy read within its limit are longer when it writes them, because a blank is put after the colon, and a server with the same limit
refuses the body.  `P` is any parser that reads a line without the blank. -/
theorem C102_refused_at_limit (P P' : TrailerParser) (v : Bytes) (hv : v.length = 16377) (hb : ∀ b ∈ v, isValueByte b = true)
    (hP : P (ascii "a:" ++ v ++ CRLF ++ CRLF) 1 = some [(ascii "a", v)]) (fin fin' : NetEnd) :
    ((Decoder.chunked (Chunked.new none none)).readAll P ⟨ascii "0\r\na:" ++ v ++ CRLF ++ CRLF, [], fin⟩).view = .complete [] (some [(ascii "a", v)]) [] ∧
    ∃ d er, ((Decoder.chunked (Chunked.new none none)).readAll P'
      ⟨(writeFrames true false [] (.body ⟨.chunked (some [ascii "a"]), false⟩) [.trailers (forwardTrailers [(ascii "a", v)])]).out, [], fin'⟩).view = .failed d er := by
  have hcr : CR ∉ v := fun h => by have := hb _ h; revert this; decide
  constructor
  · refine (C03_chunked_grammar_exact P none none _ _ _ []).2 ⟨ascii "0\r\na:" ++ v ++ CRLF ++ CRLF, [], 0 + 0, ascii "a:" ++ v ++ CRLF ++ CRLF, 1, ?_, ?_, ?_, rfl,
      Or.inr ⟨by decide, _, hP, rfl⟩⟩
    · simp [Rd.stream, segBytes]
    · have hl : TrailerLines (97 :: (58 :: v) ++ CRLF ++ []) (0 + 1) :=
        .cons 97 (58 :: v) [] 0 (by decide) (by intro h; rcases List.mem_cons.mp h with h | h; exact absurd h (by decide); exact hcr h) .nil
      have h := ChunkedBody.mk [] _ _ [] 0 0 1 .nil lastChunk_line hl
      have e1 : ascii "0\r\na:" = ascii "0\r\n" ++ [97, 58] := by decide
      have e2 : ascii "a:" = [97, 58] := by decide
      rw [e1, e2]
      simpa using h
    · refine ⟨by simp, by decide, by decide, fun _ => ?_⟩
      have e2 : ascii "a:" = [97, 58] := by decide
      simp [e2, CRLF, hv]
  · have hm : MapOk (forwardTrailers [(ascii "a", v)]) := (adds [(ascii "a", v)] [] (fun f hf => by
      rw [List.mem_singleton] at hf; subst hf; exact ⟨(show LowerName (ascii "a") by constructor <;> decide +kernel), hb⟩)).ok ⟨⟨by simp, by simp⟩, by simp [HeaderMap.fields]⟩
    obtain ⟨w, cs, h1, h2, _, _⟩ := writeFrames_chunked true false (some [ascii "a"]) false [.trailers (forwardTrailers [(ascii "a", v)])] [] rfl
      (by intro f hf bs e he; rw [List.mem_singleton] at hf; subst hf; cases he)
    have hf : (forwardTrailers [(ascii "a", v)]).fields = [(ascii "a", v)] := rfl
    have hs : sendable [ascii "a"] (forwardTrailers [(ascii "a", v)]).fields = [(ascii "a", v)] := by
      rw [hf]; simp only [sendable, List.filter_cons, List.filter_nil]
      rw [if_pos (show decide (ascii "a" ∈ [ascii "a"] ∧ ascii "a" ∉ neverTrailer) = true by decide +kernel)]
    have hne : ¬ ([(ascii "a", v)] : List (Bytes × Bytes)) = [] := by simp
    simp only [userTrailers, chunkedTail, if_true, Encoder.encodeTrailers_spec [ascii "a"] false false _ hm.wf, hs, if_neg hne, Option.getD_some] at h1
    have hl : TrailerLines (97 :: (58 :: 32 :: v) ++ CRLF ++ []) (0 + 1) :=
      .cons 97 (58 :: 32 :: v) [] 0 (by decide) (by
        intro h; rcases List.mem_cons.mp h with h | h
        · exact absurd h (by decide)
        · rcases List.mem_cons.mp h with h | h
          · exact absurd h (by decide)
          · exact hcr h) .nil
    have hbody := ChunkedBody.mk w _ _ cs 0 0 1 h2 lastChunk_line hl
    refine C06_trailers_rejected P' none none _ _ cs _ _ 1 [] hbody ?_ (Or.inr ⟨by decide, ?_⟩)
    · have e2 : ascii "a" = [97] := by decide
      have e3 : ascii ": " = [58, 32] := by decide
      rw [h1]
      simp [Rd.stream, segBytes, wireFields, wireName, lines, line, e2, e3]
    · simp [CRLF, hv]

theorem parseField_tokens {bs rest : Bytes} {f : Bytes × Bytes} (h : parseField bs = some (f, rest)) :
    LowerName f.1 ∧ (∀ b ∈ f.2, isValueByte b = true) ∧ trimBlanks f.2 = f.2 := by
  have key : bs.takeWhile isTchar ≠ [] → ∀ r : Bytes, LowerName ((bs.takeWhile isTchar).map lowerByte) ∧
      (∀ b ∈ trimBlanks (r.takeWhile isValueByte), isValueByte b = true) ∧ trimBlanks (trimBlanks (r.takeWhile isValueByte)) = trimBlanks (r.takeWhile isValueByte) := by
    intro hne r
    have ht : ∀ b ∈ bs.takeWhile isTchar, isTchar b = true := fun b hb => by
      have := List.all_takeWhile (p := isTchar) (l := bs); exact List.all_eq_true.mp this b hb
    refine ⟨⟨by simpa using hne, ?_, ?_⟩, ?_, trimBlanks_again _⟩
    · intro b hb
      obtain ⟨c, hc, rfl⟩ := List.mem_map.mp hb
      have := ht c hc
      clear hb hc
      revert this; revert c; apply byte_forall; decide +kernel
    · intro b hb
      obtain ⟨c, hc, rfl⟩ := List.mem_map.mp hb
      clear hc hb; revert c; apply byte_forall; decide +kernel
    · intro b hb
      have hm : b ∈ r.takeWhile isValueByte := by
        unfold trimBlanks at hb
        rw [List.mem_reverse] at hb
        have h1 := (List.dropWhile_suffix isBlankByte).subset hb
        rw [List.mem_reverse] at h1
        exact (List.dropWhile_suffix isBlankByte).subset h1
      have := List.all_takeWhile (p := isValueByte) (l := r)
      exact List.all_eq_true.mp this b hm
  unfold parseField at h
  simp only at h
  split at h
  · cases h
  · rename_i hne
    split at h
    · rename_i r _
      split at h
      · cases h; exact key hne r
      · cases h; exact key hne r
      · cases h
    · cases h

theorem parseBlock_tokens : TrailerTokens parseBlock := by
  intro t n
  induction n generalizing t with
  | zero =>
    intro fs h f hf
    unfold parseBlock at h
    split at h
    · cases h; cases hf
    · cases h; cases hf
    · cases h
    · rename_i hk; cases hk
  | succ n ih =>
    intro fs h f hf
    unfold parseBlock at h
    split at h
    · cases h; cases hf
    · cases h; cases hf
    · cases h
    · rename_i k _ _ hk
      cases hk
      split at h
      · cases h
      · rename_i g rest hg
        obtain ⟨gs, h1, rfl⟩ := Option.map_eq_some_iff.mp h
        rcases List.mem_cons.mp hf with rfl | hf
        · exact parseField_tokens hg
        · exact ih rest gs h1 f hf

/-- The reference parser meets what is assumed of parsers: what it reads are tokens, it reads well-formed blocks, and it reads a line without a blank. -/
example : TrailerTokens parseBlock ∧ ReadsBlocks parseBlock ∧
    parseBlock (ascii "a:" ++ ascii "bc" ++ CRLF ++ CRLF) 1 = some [(ascii "a", ascii "bc")] :=
  ⟨parseBlock_tokens, parseBlock_reads, by decide +kernel⟩

/-- A request with a declared trailer that was read. -/
example : ((Decoder.ofLength DecodedLength.CHUNKED none none).readAll parseBlock ⟨ascii "2\r\nhi\r\n0\r\nX-A:1\r\nX-A: 2 \r\n\r\nGET", [], .silent⟩).view =
    .complete (ascii "hi") (some [(ascii "x-a", ascii "1"), (ascii "x-a", ascii "2")]) (ascii "GET") ∧
    [ascii "X-A, X-B"].flatMap trailerNames = [ascii "x-a", ascii "x-b"] := by decide +kernel

end Hyper
