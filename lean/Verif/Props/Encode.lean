import Verif.Props.Decode
import Verif.Proof.EncodeMore

/-!
# C01, C10–C12, C53: writing message bodies

`writeFrames allow title [] (.body enc) frames` is the connection writing the frames a user's body
yields, using encoder `enc`; its `out` are the bytes put on the wire.
`userData frames` is the data the user supplied, `userTrailers frames` the trailers.
-/

namespace Hyper

open Spec

/-! ## C01: chunked round trip -/

/-- C01.  Whatever the user's body supplies, writing it chunked and reading it back gives the same
bytes, a clean end, no trailers, and leaves the bytes that follow untouched.  Holds for every
reader configuration, every segmentation and every transport ending. -/
theorem C01_chunked_round_trip (P : TrailerParser) (maxHeaders maxSize : Option Nat)
    (allow title last : Bool) (declared : Option (List Bytes)) (frames : List UserFrame)
    (hok : userFails frames = false) (hnt : userTrailers frames = none) (hfit : FramesFit frames)
    (r : Rd) (rest : Bytes)
    (hstream : r.stream =
      (writeFrames allow title [] (.body ⟨.chunked declared, last⟩) frames).out ++ rest) :
    ((Decoder.chunked (Chunked.new maxHeaders maxSize)).readAll P r).view =
      .complete (userData frames) none rest := by
  obtain ⟨w, cs, h1, h2, h3, h4⟩ := writeFrames_chunked allow title declared last frames [] hok hfit
  rw [h1, hnt] at hstream
  have htail : ascii "0\r\n\r\n" = ascii "0\r\n" ++ [] ++ CRLF := by decide
  simp only [chunkedTail, List.nil_append, htail] at hstream
  have hbody := ChunkedBody.mk w _ [] cs 0 0 0 h2 lastChunk_line .nil
  refine (C03_chunked_grammar_exact P maxHeaders maxSize r _ none rest).2
    ⟨_, cs, _, _, 0, ?_, hbody, ⟨h4, by omega, by omega, by simp⟩, h3.symm, Or.inl ⟨rfl, rfl⟩⟩
  rw [hstream]; simp

/-- A body of two frames, the second one signalling the end. -/
example : (writeFrames false false [] (.body ⟨.chunked none, false⟩)
      [.data (ascii "hello") false, .data [] false, .data (ascii " world!") true]).out =
    ascii "5\r\nhello\r\n7\r\n world!\r\n0\r\n\r\n" := by decide +kernel

/-! ## C10, C53: length-framed bodies -/

/-- C10 (partial).  With a Content-Length of `n`, the bytes written are exactly the first `n` bytes
the user supplied.  A body that ends short is reported as an error, *unless* its last frame is a
non-empty data frame that also announces the end of the body (see `C10_short_end_unreported`). -/
theorem C10_never_over_length_partial (allow title last : Bool) (n : Nat) (hn : 0 < n)
    (frames : List UserFrame) :
    let res := writeFrames allow title [] (.body ⟨.length n, last⟩) frames
    res.out = (userData frames).take n ∧ res.out.length ≤ n ∧ res.out <+: userData frames ∧
    (userFails frames = false → (userData frames).length < n → endsWithData frames = false →
      res.result = .aborted (n - (userData frames).length)) ∧
    (userFails frames = false → n ≤ (userData frames).length → res.result = .ok) := by
  have h1 := writeFrames_length_out allow title last frames n []
  simp only [List.nil_append] at h1
  simp only
  refine ⟨h1, ?_, ?_, ?_, ?_⟩
  · rw [h1]; simp; omega
  · rw [h1]; exact List.take_prefix _ _
  · intro hf hs he
    exact ((writeFrames_length_end allow title last frames n [] hf hn).2 hs).2.1 he
  · intro hf hs
    exact ((writeFrames_length_end allow title last frames n [] hf hn).1 hs).1

/-- The unrestricted claim "a body that ends short is reported as an error" is false of the code:
three bytes of an announced five, marked as the last, are written without any error. -/
theorem C10_short_end_unreported :
    ∃ frames : List UserFrame, userFails frames = false ∧ (userData frames).length < 5 ∧
      (writeFrames false false [] (.body ⟨.length 5, false⟩) frames).result = .ok :=
  ⟨[.data (ascii "abc") true], by decide +kernel⟩

/-- C53.  After a body shorter than announced the connection is never kept alive, in either case. -/
theorem C53_short_body_closes (allow title last : Bool) (n : Nat) (frames : List UserFrame)
    (hf : userFails frames = false) (hshort : (userData frames).length < n) :
    (writeFrames allow title [] (.body ⟨.length n, last⟩) frames).writing = .closed :=
  ((writeFrames_length_end allow title last frames n [] hf (by omega)).2 hshort).1

example : userFails [.data (ascii "ab") false, .unknown, .data (ascii "cdef") false] = false ∧
    (writeFrames false false [] (.body ⟨.length 4, false⟩)
      [.data (ascii "ab") false, .unknown, .data (ascii "cdef") false]) =
      ⟨ascii "abcd", .keepAlive, .ok⟩ ∧
    (writeFrames false false [] (.body ⟨.length 4, false⟩) [.data (ascii "ab") false]) =
      ⟨ascii "ab", .closed, .aborted 2⟩ := by decide +kernel

/-! ## C11: which trailers are sent -/

/-- C11 (chunked, with declared trailers, when trailers may be sent).  After the data comes the last
chunk, then exactly the supplied fields that were declared and are permitted, in order, each on its
own line (names possibly in title case), then the final empty line. -/
theorem C11_declared_trailers_only (title last : Bool) (declared : List Bytes)
    (frames : List UserFrame) (hok : userFails frames = false) (hfit : FramesFit frames)
    (m : HeaderMap) (htr : userTrailers frames = some m) (hm : m.Wf)
    (hnames : ∀ f ∈ m.fields, LowerName f.1) :
    ∃ w cs fs, Chunks w cs 0 ∧ cs.flatten = userData frames ∧
      (writeFrames true title [] (.body ⟨.chunked (some declared), last⟩) frames).out =
        w ++ ascii "0\r\n" ++ lines fs ++ CRLF ∧
      fs.map (fun f => (f.1.map lowerByte, f.2)) = sendable declared m.fields := by
  obtain ⟨w, cs, h1, h2, h3, _⟩ :=
    writeFrames_chunked true title (some declared) last frames [] hok hfit
  refine ⟨w, cs, wireFields title (sendable declared m.fields), h2, h3, ?_, ?_⟩
  · rw [h1, htr]
    simp only [chunkedTail, if_true, Encoder.encodeTrailers_spec declared false title m hm,
      List.nil_append]
    by_cases hs : sendable declared m.fields = []
    · have : ascii "0\r\n\r\n" = ascii "0\r\n" ++ CRLF := by decide
      simp [hs, lines, wireFields, this]
    · simp [hs]
  · simp only [wireFields, List.map_map]
    refine Eq.trans (List.map_congr_left (g := id) (fun f hf => ?_)) (List.map_id _)
    simp only [Function.comp]
    rw [wireName_lower title f.1 (hnames f (sendable_mem hf))]
    rfl

/-- C11 (every other case).  Without declared trailers, when trailers may not be sent, or when the
body is not chunked, no trailer field is written whatever the user's body supplies. -/
theorem C11_no_trailers_otherwise (allow title last : Bool) (frames : List UserFrame)
    (hok : userFails frames = false) (hfit : FramesFit frames) :
    (∀ declared, declared = none ∨ allow = false → ∃ w cs, Chunks w cs 0 ∧
      cs.flatten = userData frames ∧
      (writeFrames allow title [] (.body ⟨.chunked declared, last⟩) frames).out =
        w ++ ascii "0\r\n\r\n") ∧
    (∀ n, (writeFrames allow title [] (.body ⟨.length n, last⟩) frames).out =
      (userData frames).take n) ∧
    (writeFrames allow title [] (.body ⟨.closeDelimited, last⟩) frames).out = userData frames := by
  refine ⟨?_, ?_, ?_⟩
  · intro declared hd
    obtain ⟨w, cs, h1, h2, h3, _⟩ := writeFrames_chunked allow title declared last frames [] hok hfit
    refine ⟨w, cs, h2, h3, ?_⟩
    rw [h1]
    rcases hd with rfl | rfl
    · cases userTrailers frames <;> cases allow <;>
        simp [chunkedTail, Encoder.encodeTrailers]
    · cases userTrailers frames <;> simp [chunkedTail]
  · intro n
    simpa using writeFrames_length_out allow title last frames n []
  · rw [writeFrames_close allow title last frames [] hok]; simp

/-- Undeclared (`x-b`) and forbidden (`content-length`) fields are dropped. -/
example : (writeFrames true true [] (.body ⟨.chunked (some [ascii "x-a", ascii "content-length"]), false⟩)
      [.data (ascii "hi") false,
       .trailers [(ascii "x-b", [ascii "0"]), (ascii "x-a", [ascii "1", ascii "2"]),
                  (ascii "content-length", [ascii "7"])]]).out =
    ascii "2\r\nhi\r\n0\r\nX-A: 1\r\nX-A: 2\r\n\r\n" := by decide +kernel

/-! ## C12: trailers round trip -/

/-- C12.  A chunked body ended with trailers, of which at least one is sent, is read back as the same
data followed by exactly the fields that were sent (values without surrounding blanks), and what
follows on the connection is left untouched.  `P` is any trailer parser that reads blocks of
well-formed lines correctly; the limits are those of the reader. -/
theorem C12_trailers_round_trip (P : TrailerParser) (hP : ReadsBlocks P)
    (maxHeaders maxSize : Option Nat) (title last : Bool) (declared : List Bytes)
    (frames : List UserFrame) (hok : userFails frames = false) (hfit : FramesFit frames)
    (m : HeaderMap) (htr : userTrailers frames = some m) (hm : m.Wf)
    (hnames : ∀ f ∈ m.fields, LowerName f.1)
    (hvals : ∀ f ∈ m.fields, ∀ b ∈ f.2, isValueByte b = true)
    (hsome : sendable declared m.fields ≠ [])
    (hcount : (sendable declared m.fields).length ≤ maxHeaders.getD 100)
    (hsize : (lines (sendable declared m.fields)).length + 2 < maxSize.getD 16384)
    (r : Rd) (rest : Bytes)
    (hstream : r.stream =
      (writeFrames true title [] (.body ⟨.chunked (some declared), last⟩) frames).out ++ rest) :
    ((Decoder.chunked (Chunked.new maxHeaders maxSize)).readAll P r).view =
      .complete (userData frames)
        (some ((sendable declared m.fields).map (fun f => (f.1, trimBlanks f.2)))) rest := by
  obtain ⟨w, cs, h1, h2, h3, h4⟩ :=
    writeFrames_chunked true title (some declared) last frames [] hok hfit
  rw [h1, htr] at hstream
  simp only [chunkedTail, if_true, Encoder.encodeTrailers_spec declared false title m hm,
    List.nil_append, if_neg hsome, Option.getD_some] at hstream
  generalize hfs : wireFields title (sendable declared m.fields) = fs at hstream
  have hwire : ∀ f ∈ fs, WireField f := by
    rw [← hfs]
    exact wireFields_wire title _ (fun f hf => hnames f (sendable_mem hf))
      (fun f hf => hvals f (sendable_mem hf))
  have hlen : fs.length = (sendable declared m.fields).length := by rw [← hfs]; simp [wireFields]
  have hll : (lines fs).length = (lines (sendable declared m.fields)).length := by
    rw [← hfs]
    generalize sendable declared m.fields = gs
    have hw : ∀ n : Bytes, (wireName title n).length = n.length := by
      intro n
      cases title with
      | false => rfl
      | true =>
        have : ∀ (n : Bytes) p, (titleCaseFrom p n).length = n.length := by
          intro n; induction n with
          | nil => intro p; rfl
          | cons c n ih => intro p; simp [titleCaseFrom, ih]
        exact this n 45
    induction gs with
    | nil => rfl
    | cons g gs ih =>
      simp only [wireFields, List.map_cons, lines, List.flatMap_cons, List.length_append] at ih ⊢
      rw [ih]
      simp [line, hw]
  have hread : fs.map readField =
      (sendable declared m.fields).map (fun f => (f.1, trimBlanks f.2)) := by
    rw [← hfs]
    simp only [wireFields, List.map_map]
    refine List.map_congr_left (fun f hf => ?_)
    simp only [Function.comp, readField]
    rw [wireName_lower title f.1 (hnames f (sendable_mem hf))]
  have hne : fs.length ≠ 0 := by
    rw [hlen]; intro h; exact hsome (List.length_eq_zero_iff.mp h)
  have hbody := ChunkedBody.mk w _ (lines fs) cs 0 0 fs.length h2 lastChunk_line
    (lines_trailerLines fs hwire)
  refine (C03_chunked_grammar_exact P maxHeaders maxSize r _ _ rest).2
    ⟨_, cs, _, _, fs.length, ?_, hbody,
      ⟨h4, by omega, by omega, fun _ => ?_⟩, h3.symm, Or.inr ⟨hne, fs.map readField, hP fs hwire, ?_⟩⟩
  · rw [hstream]; simp
  · have : (lines fs ++ CRLF).length = (lines fs).length + 2 := by simp [CRLF]
    omega
  · rw [hread]

/-- The assumption about the parser is met by the reference parser, and the round trip happens. -/
example : ReadsBlocks parseBlock ∧
    ((Decoder.chunked (Chunked.new none none)).readAll parseBlock
      ⟨ascii "2\r\nhi\r\n0\r\nX-A: 1\r\nX-A: 2 \r\n\r\nGET", [], .silent⟩).view =
      .complete (ascii "hi") (some [(ascii "x-a", ascii "1"), (ascii "x-a", ascii "2")])
        (ascii "GET") :=
  ⟨parseBlock_reads, by decide +kernel⟩

/-! ## C29 -/

/-- C29, over a whole body: when the user's body fails before it is over (with a length, before that many bytes), the error is reported
and nothing is written for it: what was written are the bytes of the frames before, and the message is left unfinished. -/
theorem C29_frames_error (allow title : Bool) (pre rest : List UserFrame) : ∀ (e : Encoder) (out : Bytes),
    (∀ f ∈ pre, f = .unknown ∨ ∃ bs, f = .data bs false) → (∀ n, e.kind = .length n → (userData pre).length < n) →
    (writeFrames allow title out (.body e) (pre ++ .error :: rest)).result = .userError ∧
    (∃ e', (writeFrames allow title out (.body e) (pre ++ .error :: rest)).writing = .body e') ∧
    (∀ n, e.kind = .length n → (writeFrames allow title out (.body e) (pre ++ .error :: rest)).out = out ++ userData pre) := by
  induction pre with
  | nil => intro e out _ _; rw [List.nil_append, writeFrames]; exact ⟨rfl, ⟨e, rfl⟩, fun n _ => by simp [userData]⟩
  | cons f pre ih =>
    intro e out hp hl
    have hp' : ∀ f ∈ pre, f = .unknown ∨ ∃ bs, f = .data bs false := fun g hg => hp g (List.mem_cons_of_mem _ hg)
    rcases hp f (List.mem_cons_self ..) with rfl | ⟨bs, rfl⟩
    · rw [List.cons_append, writeFrames]
      exact ih e out hp' (by simpa [userData] using hl)
    · rw [List.cons_append, writeFrames]
      by_cases hb : bs = []
      · rw [if_pos hb]
        subst hb
        simpa [userData] using ih e out hp' (by simpa [userData] using hl)
      · rw [if_neg hb]
        have hlb : ∀ n, e.kind = .length n → bs.length + (userData pre).length < n := by
          intro n hn; have := hl n hn; simpa [userData] using this
        rcases e with ⟨k, last⟩
        cases k with
        | chunked t =>
          obtain ⟨x, y, _⟩ := ih ⟨.chunked t, last⟩ (out ++ (chunkSize bs.length ++ bs ++ CRLF)) hp' (by intro n hn; cases hn)
          exact ⟨x, y, fun n hn => by cases hn⟩
        | closeDelimited =>
          obtain ⟨x, y, _⟩ := ih ⟨.closeDelimited, last⟩ (out ++ bs) hp' (by intro n hn; cases hn)
          exact ⟨x, y, fun n hn => by cases hn⟩
        | length n =>
          have hn := hlb n rfl
          obtain ⟨x, y, z⟩ := ih ⟨.length (n - bs.length), last⟩ (out ++ bs) hp' (by intro m hm; cases hm; omega)
          have hw : (Writing.body ⟨.length n, last⟩).writeBody bs = (bs, .body ⟨.length (n - bs.length), last⟩) := by
            have h0 : (n - bs.length == 0) = false := by rw [beq_eq_false_iff_ne]; omega
            simp [Writing.writeBody, Encoder.encode, if_neg (show ¬ n < bs.length by omega), Encoder.isEof, h0]
          rw [hw]
          refine ⟨x, y, fun m hm => ?_⟩
          rw [z _ rfl]; simp [userData]

example : writeFrames false false [] (.body ⟨.length 5, false⟩) [.data (ascii "ab") false, .error, .data (ascii "cde") true] =
    ⟨ascii "ab", .body ⟨.length 3, false⟩, .userError⟩ := by decide +kernel

end Hyper
