import Verif.Proof.Limits
import Verif.Proof.TrailerBound
import Verif.Spec.Outcome

/-!
# C02–C09: reading message bodies

Throughout, `P` is an arbitrary trailer parser (the external `httparse`), `r : Rd` an arbitrary
transport: any bytes already buffered, any segmentation of the bytes to come, any number of pending
answers in between, and any ending (silence, end of file, I/O error).
`readAll` is a consumer that polls the body until nothing can change.
-/

namespace Hyper

open Spec

/-! ## C02: independence of segmentation -/

/-- Decoder states that occur: a content-length or close-delimited decoder, or any state a chunked
decoder passes through from its initial state on some transport. -/
inductive Spec.DecoderReachable : Decoder → Prop
  | length (n : Nat) : DecoderReachable (.length n)
  | eof (seen : Bool) : DecoderReachable (.eof seen)
  | chunked (a b : Option Nat) (r r' : Rd) (c : Chunked) (h : Visits (Chunked.new a b) r c r') :
      DecoderReachable (.chunked c)

theorem readAll_finished (P : TrailerParser) (c : Chunked) (hc : c.state = .finished) (n : Nat)
    (r : Rd) (acc : Bytes) :
    ((Decoder.chunked c).poll P (n + 1) r acc).view =
      match c.tbuf with
      | none => .complete acc none r.stream
      | some t =>
        match P t c.tcnt with
        | some fs => .complete acc (some fs) r.stream
        | none => .failed acc .badTrailers := by
  have hstep : c.step r = ⟨.ready (.ok .finished), c, none, r⟩ := by simp [Chunked.step, hc]
  simp only [Decoder.poll, Decoder.decode, Chunked.decodeLoop, hstep, if_true]
  cases ht : c.tbuf with
  | none => simp [Decoder.isEof, BodyOut.view]
  | some t =>
    simp only
    cases hp : P t c.tcnt with
    | none => simp [BodyOut.view]
    | some fs => simp [BodyOut.view]

/-- C02.  Two transports carrying the same bytes and ending the same way lead every decoder to the
same data, trailers, kind of end, and bytes left for the next message, for consumers polling any
sufficient number of times. -/
theorem C02_segmentation_independent (P : TrailerParser) (d : Decoder) (hd : DecoderReachable d)
    (r₁ r₂ : Rd) (hstream : r₁.stream = r₂.stream) (hend : r₁.fin = r₂.fin)
    (n₁ n₂ : Nat) (h₁ : r₁.size < n₁) (h₂ : r₂.size < n₂) (acc : Bytes) :
    (d.poll P n₁ r₁ acc).view = (d.poll P n₂ r₂ acc).view := by
  cases hd with
  | length n =>
    rw [Decoder.length_poll P n₁ n r₁ acc h₁, Decoder.length_poll P n₂ n r₂ acc h₂, hstream, hend]
  | eof seen =>
    cases seen with
    | false =>
      rw [Decoder.eof_poll P n₁ r₁ acc h₁, Decoder.eof_poll P n₂ r₂ acc h₂, hstream, hend]
    | true =>
      obtain ⟨m₁, rfl⟩ : ∃ m, n₁ = m + 1 := ⟨n₁ - 1, by omega⟩
      obtain ⟨m₂, rfl⟩ : ∃ m, n₂ = m + 1 := ⟨n₂ - 1, by omega⟩
      simp [Decoder.poll, Decoder.decode, Decoder.isEof, BodyOut.view, hstream]
  | chunked a b r r' c h =>
    have hlive := Visits.live (c := Chunked.new a b) (by simp [Chunked.new]) h
    by_cases hf : c.state = .finished
    · obtain ⟨m₁, rfl⟩ : ∃ m, n₁ = m + 1 := ⟨n₁ - 1, by omega⟩
      obtain ⟨m₂, rfl⟩ : ∃ m, n₂ = m + 1 := ⟨n₂ - 1, by omega⟩
      rw [readAll_finished P c hf, readAll_finished P c hf, hstream]
    · rw [Chunked.poll_run P n₁ c r₁ acc ⟨hf, hlive⟩ h₁,
        Chunked.poll_run P n₂ c r₂ acc ⟨hf, hlive⟩ h₂, hstream, hend]

/-- The same bytes in one read, or one by one with pendings. -/
example :
    let whole : Rd := ⟨ascii "3\r\nabc\r\n0\r\n\r\nX", [], .eof⟩
    let cut : Rd := ⟨[], [.pending, .data 51 [13], .pending, .pending, .data 10 (ascii "ab"),
      .data 99 (ascii "\r\n0"), .data 13 [10], .data 13 (ascii "\nX"), .pending], .eof⟩
    whole.stream = cut.stream ∧ whole.fin = cut.fin ∧
    ((Decoder.chunked (Chunked.new none none)).readAll (fun _ _ => none) cut).view =
      .complete (ascii "abc") none (ascii "X") := by decide +kernel

/-! ## C03: exactly the chunked grammar -/

/-- C03.  A chunked body is reported complete, with `data` and `tr` and `rest` left over, exactly
when the stream starts with a body of the chunked grammar within the limits, `data` is the
concatenation of the chunk contents, and `tr` is what the trailer parser makes of the trailer
section (no trailers if there are no trailer lines). -/
theorem C03_chunked_grammar_exact (P : TrailerParser) (maxHeaders maxSize : Option Nat) (r : Rd)
    (data : Bytes) (tr : Option Fields) (rest : Bytes) :
    ((Decoder.chunked (Chunked.new maxHeaders maxSize)).readAll P r).view = .complete data tr rest ↔
    ∃ w cs e t n, r.stream = w ++ rest ∧ ChunkedBody w cs e t n ∧
      WithinLimits (maxHeaders.getD 100) (maxSize.getD 16384) cs e t n ∧
      data = cs.flatten ∧
      ((n = 0 ∧ tr = none) ∨ (n ≠ 0 ∧ ∃ fs, P t n = some fs ∧ tr = some fs)) := by
  have hlim : CHUNKED_EXTENSIONS_LIMIT = 16384 := rfl
  have hmax : u64Max = 2 ^ 64 - 1 := rfl
  have hcnt : (Chunked.new maxHeaders maxSize).maxCnt = maxHeaders.getD 100 := rfl
  have hbytes : (Chunked.new maxHeaders maxSize).maxBytes = maxSize.getD 16384 := rfl
  have hext : (Chunked.new maxHeaders maxSize).ext = 0 := rfl
  rw [Chunked.readAll_run P _ r (Chunked.new_ok _ _)]
  constructor
  · intro h
    obtain ⟨w, cs, e, t, n, h1, h2, h3, h4, h5, h6, h7⟩ :=
      Chunked.inv_all r.stream.length (Nat.le_refl _) rfl rfl (by rw [hext]; omega) rfl rfl h
    refine ⟨w, cs, e, t, n, h1, h2, ⟨fun c hc => ?_, by omega, by rw [← hcnt]; exact h6, ?_⟩,
      by simpa using h3, ?_⟩
    · have := h4 c hc; omega
    · intro hn
      rcases h7 with ⟨h7, _⟩ | ⟨_, h7, _⟩
      · exact absurd h7 hn
      · rw [← hbytes]; exact h7
    · rcases h7 with h7 | ⟨h7, _, fs, h8, h9⟩
      · exact Or.inl h7
      · exact Or.inr ⟨h7, fs, h9, h8⟩
  · rintro ⟨w, cs, e, t, n, h1, h2, h3, h4, h5⟩
    rw [h1, Chunked.run_all P _ h2 _ rest [] rfl rfl rfl rfl
      (fun x hx => by have := h3.sizes x hx; omega) (by have := h3.exts; rw [hext]; omega)
      (by rw [hcnt]; exact h3.lines) (by rw [hbytes]; exact h3.bytes)]
    subst h4
    rcases h5 with ⟨h5, h6⟩ | ⟨h5, fs, h6, h7⟩
    · simp [h5, h6]
    · simp [h5, h6, h7]

/-- A body with an extension, two chunks and two trailer lines meets the right-hand side. -/
example : ∃ w cs e t n, ChunkedBody w cs e t n ∧
    w = ascii "3;x=1\r\nabc\r\n02 \t\r\nde\r\n0\r\nA: b\r\nC: d\r\n\r\n" ∧ cs.flatten = ascii "abcde" ∧
    e = 3 ∧ n = 2 ∧ t = ascii "A: b\r\nC: d\r\n\r\n" ∧ WithinLimits 100 16384 cs e t n := by
  have l1 : SizeLine (ascii "3" ++ [] ++ (59 :: ascii "x=1") ++ CRLF) (hexNum (ascii "3")) 3 :=
    SizeLine.mk (ascii "3") [] (59 :: ascii "x=1") 3 (by decide) (by decide) (by decide)
      (ChunkExt.some (ascii "x=1") (by decide) (by decide))
  have l2 : SizeLine (ascii "02" ++ ascii " \t" ++ [] ++ CRLF) (hexNum (ascii "02")) 0 :=
    SizeLine.mk (ascii "02") (ascii " \t") [] 0 (by decide) (by decide) (by decide) .none
  have l3 : SizeLine (ascii "0" ++ [] ++ [] ++ CRLF) (hexNum (ascii "0")) 0 :=
    SizeLine.mk (ascii "0") [] [] 0 (by decide) (by decide) (by decide) .none
  have e1 : hexNum (ascii "3") = (ascii "abc").length := by decide
  have e2 : hexNum (ascii "02") = (ascii "de").length := by decide
  have e3 : hexNum (ascii "0") = 0 := by decide
  rw [e1] at l1; rw [e2] at l2; rw [e3] at l3
  have hc := Chunks.cons _ (ascii "abc") _ _ _ _ l1 (by decide)
    (Chunks.cons _ (ascii "de") _ _ _ _ l2 (by decide) .nil)
  have ht := TrailerLines.cons 65 (ascii ": b") _ _ (by decide) (by decide)
    (TrailerLines.cons 67 (ascii ": d") _ _ (by decide) (by decide) .nil)
  refine ⟨_, _, _, _, _, ChunkedBody.mk _ _ _ _ _ _ _ hc l3 ht, by decide +kernel, by decide +kernel,
    by decide, by decide, by decide +kernel, ⟨by decide, by decide, by decide, by decide⟩⟩

/-! ## C04: chunk sizes -/

/-- C04 (overflow).  After any complete chunks, a size line whose hexadecimal value is 2^64 or more
makes the body fail, whatever follows. -/
theorem C04_overflow_rejected (P : TrailerParser) (maxHeaders maxSize : Option Nat) (r : Rd)
    (w ds rest : Bytes) (cs : List Bytes) (e : Nat) (hw : Chunks w cs e)
    (hne : ds ≠ []) (hhex : ∀ d ∈ ds, IsHex d) (hbig : 2 ^ 64 ≤ hexNum ds)
    (hstream : r.stream = w ++ (ds ++ rest)) :
    ∃ data er, ((Decoder.chunked (Chunked.new maxHeaders maxSize)).readAll P r).view =
      .failed data er ∧
      ((∀ c ∈ cs, c.length < 2 ^ 64) → e < 16384 → data = cs.flatten ∧ er = .overflow) := by
  have hlim : CHUNKED_EXTENSIONS_LIMIT = 16384 := rfl
  have hmax : u64Max = 2 ^ 64 - 1 := rfl
  have hext : (Chunked.new maxHeaders maxSize).ext = 0 := rfl
  rw [Chunked.readAll_run P _ r (Chunked.new_ok _ _), hstream]
  by_cases hok : (∀ d ∈ cs, d.length ≤ u64Max) ∧ e < CHUNKED_EXTENSIONS_LIMIT
  · rw [Chunked.run_chunks P _ hw _ _ _ rfl rfl hok.1 (by rw [hext]; omega)]
    rw [(Chunked.run_size P _ _ ds rest _ rfl rfl hne hhex).2 (by omega)]
    exact ⟨_, _, rfl, fun _ _ => ⟨by simp, rfl⟩⟩
  · obtain ⟨d, er, h1, h2⟩ := Chunked.run_chunks_bad P r.fin hw (Chunked.new maxHeaders maxSize)
      (ds ++ rest) [] rfl rfl (by rw [hext]; omega) (by
        rw [hext]
        by_cases h : ∀ d ∈ cs, d.length ≤ u64Max
        · right; by_contra hh; exact hok ⟨h, by omega⟩
        · left; exact h)
    refine ⟨d, er, h1, fun h3 h4 => absurd ⟨fun x hx => ?_, by omega⟩ hok⟩
    have := h3 x hx; omega

/-- C04 (exactness).  After a size line of value `n` (below 2^64, not zero), the reader takes the
next `n` bytes as data, however many digits and leading zeros were used: all of what follows if it is
shorter than `n`, and otherwise exactly its first `n` bytes, failing unless CRLF comes next. -/
theorem C04_size_exact (P : TrailerParser) (maxHeaders maxSize : Option Nat) (r : Rd)
    (ds s : Bytes) (hne : ds ≠ []) (hhex : ∀ d ∈ ds, IsHex d) (hsmall : hexNum ds < 2 ^ 64)
    (hpos : 0 < hexNum ds) (hstream : r.stream = ds ++ CRLF ++ s) :
    let out := ((Decoder.chunked (Chunked.new maxHeaders maxSize)).readAll P r).view
    (s.length ≤ hexNum ds → out.data = s ∧ ∀ d t rest, out ≠ .complete d t rest) ∧
    (hexNum ds ≤ s.length → ∀ d t rest, out = .complete d t rest →
      ∃ s', s = s.take (hexNum ds) ++ CRLF ++ s' ∧ s.take (hexNum ds) <+: d) := by
  have hmax : u64Max = 2 ^ 64 - 1 := rfl
  have hext : (Chunked.new maxHeaders maxSize).ext = 0 := rfl
  have hl : SizeLine (ds ++ CRLF) (hexNum ds) 0 := by
    have := SizeLine.mk ds [] [] 0 hne hhex (by simp) .none
    simpa using this
  have hrun : ∀ acc, Chunked.run P r.fin (Chunked.new maxHeaders maxSize) r.stream acc =
      Chunked.run P r.fin { Chunked.new maxHeaders maxSize with
        state := .body
        len := hexNum ds } s acc := by
    intro acc
    rw [hstream, Chunked.run_sizeLine P _ hl _ s acc rfl rfl (by omega) (by rw [hext]; decide)]
    have : ¬ hexNum ds = 0 := by omega
    simp only [this, if_false, hext]
  intro out
  have hout : out = Chunked.run P r.fin { Chunked.new maxHeaders maxSize with
        state := .body
        len := hexNum ds } s [] := by
    rw [← hrun]; exact Chunked.readAll_run P _ r (Chunked.new_ok _ _)
  clear_value out
  constructor
  · intro hle
    have hend : ∀ (c : Chunked) (acc : Bytes), (c.run P r.fin [] acc).data = acc ∧
        ∀ d t rest, c.run P r.fin [] acc ≠ .complete d t rest := by
      intro c acc; simp only [Chunked.run]; cases r.fin <;> simp [Outcome.data]
    by_cases hs : s = []
    · subst hs; rw [hout]; exact hend _ _
    · have := Chunked.run_body P r.fin s { Chunked.new maxHeaders maxSize with
        state := .body
        len := hexNum ds } [] [] rfl hs hle
      rw [List.append_nil] at this
      rw [hout, this]
      simpa using hend _ s
  · intro hle d t rest hc
    have hc' := hc
    rw [hout] at hc'
    obtain ⟨x, bs', h1, h2, h3⟩ := Chunked.inv_body s rfl (by exact hpos) hc'
    have h2' : x.length = hexNum ds := h2
    have htake : s.take (hexNum ds) = x := by
      rw [h1, List.append_assoc, ← h2', List.take_left']; rfl
    refine ⟨bs', by rw [htake]; exact h1, ?_⟩
    rw [htake]
    obtain ⟨w, cs, e, t', n, _, _, g3, _⟩ := Chunked.inv_all bs'.length (Nat.le_refl _) rfl rfl
      (by change (0:Nat) < _; decide) rfl rfl h3
    rw [g3]
    exact ⟨cs.flatten, by simp⟩

example : (∀ d ∈ ascii "000000000000000000000000000aF", IsHex d) ∧
    hexNum (ascii "000000000000000000000000000aF") = 175 ∧
    hexNum (ascii "10000000000000000") = 2 ^ 64 := by decide +kernel

/-! ## C05: chunk extensions -/

/-- C05.  A chunked body with 16384 or more extension bytes in total is rejected; one with fewer is
never rejected for its extensions. -/
theorem C05_extension_bound (P : TrailerParser) (maxHeaders maxSize : Option Nat) (r : Rd)
    (w : Bytes) (cs : List Bytes) (e : Nat) (t : Bytes) (n : Nat) (rest : Bytes)
    (hw : ChunkedBody w cs e t n) (hstream : r.stream = w ++ rest) :
    let out := ((Decoder.chunked (Chunked.new maxHeaders maxSize)).readAll P r).view
    (16384 ≤ e → ∃ d er, out = .failed d er) ∧
    (e < 16384 → ∀ d, out ≠ .failed d .extLimit) := by
  have hlim : CHUNKED_EXTENSIONS_LIMIT = 16384 := rfl
  have hmax : u64Max = 2 ^ 64 - 1 := rfl
  have hcnt : (Chunked.new maxHeaders maxSize).maxCnt = maxHeaders.getD 100 := rfl
  have hbytes : (Chunked.new maxHeaders maxSize).maxBytes = maxSize.getD 16384 := rfl
  have hext : (Chunked.new maxHeaders maxSize).ext = 0 := rfl
  simp only
  rw [Chunked.readAll_run P _ r (Chunked.new_ok _ _), hstream]
  by_cases hok : WithinLimits (maxHeaders.getD 100) (maxSize.getD 16384) cs e t n
  · rw [Chunked.run_all P _ hw _ rest [] rfl rfl rfl rfl
      (fun x hx => by have := hok.sizes x hx; omega) (by have := hok.exts; rw [hext]; omega)
      (by rw [hcnt]; exact hok.lines) (by rw [hbytes]; exact hok.bytes)]
    refine ⟨fun h => absurd hok.exts (by omega), fun _ d => ?_⟩
    split
    · simp
    · split <;> simp
  · obtain ⟨d, er, h1, h2⟩ := Chunked.run_all_bad P r.fin hw (Chunked.new maxHeaders maxSize) rest []
      rfl rfl rfl rfl rfl hok
    rw [h1]
    refine ⟨fun _ => ⟨d, er, rfl⟩, fun he d' => ?_⟩
    have := h2 he
    simp [this]

/-- Both sides occur: a chunk line may carry any number of extension bytes. -/
example (k : Nat) : ChunkedBody
    ([] ++ (ascii "0" ++ [] ++ (59 :: List.replicate k 97) ++ CRLF) ++ [] ++ CRLF) [] (0 + k)
    ([] ++ CRLF) 0 := by
  have hx : ChunkExt (59 :: List.replicate k 97) (List.replicate k (97 : Byte)).length :=
    ChunkExt.some _ (by simp [List.mem_replicate]; intro _; decide)
      (by simp [List.mem_replicate]; intro _; decide)
  rw [List.length_replicate] at hx
  have h0 : hexNum (ascii "0") = 0 := by decide
  have hl := SizeLine.mk (ascii "0") [] (59 :: List.replicate k 97) k (by decide) (by decide)
    (by decide) hx
  rw [h0] at hl
  exact ChunkedBody.mk [] _ [] [] 0 k 0 .nil hl .nil

/-! ## C06: trailers -/

/-- C06 (memory).  In every state a chunked reader passes through, on any transport, it holds at most
the configured number of trailer bytes; and a step that fails leaves at most that many (or two). -/
theorem C06_trailer_bytes_bounded (maxHeaders maxSize : Option Nat) (r r' : Rd) (c : Chunked)
    (hlimit : 1 ≤ maxSize.getD 16384) (hc : Visits (Chunked.new maxHeaders maxSize) r c r') :
    held c ≤ maxSize.getD 16384 ∧ held (c.step r').ch ≤ max (maxSize.getD 16384) 2 := by
  have h0 : (Chunked.new maxHeaders maxSize).Bounded (maxSize.getD 16384) :=
    ⟨rfl, Or.inr (by simp [held, Chunked.new])⟩
  have h := Visits.bounded h0 hc
  refine ⟨?_, (Chunked.step_bounded h).2.1⟩
  rcases h.2 with h | h <;> omega

/-- C06 (count and size).  A body with more trailer lines than allowed, or a trailer section of the
limit or more, is rejected. -/
theorem C06_trailers_rejected (P : TrailerParser) (maxHeaders maxSize : Option Nat) (r : Rd)
    (w : Bytes) (cs : List Bytes) (e : Nat) (t : Bytes) (n : Nat) (rest : Bytes)
    (hw : ChunkedBody w cs e t n) (hstream : r.stream = w ++ rest)
    (hbig : maxHeaders.getD 100 < n ∨ (n ≠ 0 ∧ maxSize.getD 16384 ≤ t.length)) :
    ∃ d er, ((Decoder.chunked (Chunked.new maxHeaders maxSize)).readAll P r).view =
      .failed d er := by
  rw [Chunked.readAll_run P _ r (Chunked.new_ok _ _), hstream]
  obtain ⟨d, er, h1, _⟩ := Chunked.run_all_bad P r.fin hw (Chunked.new maxHeaders maxSize) rest []
    rfl rfl rfl rfl rfl (by
      intro h
      have h1 := h.lines
      have h2 := h.bytes
      change n ≤ maxHeaders.getD 100 at h1
      change n ≠ 0 → t.length < maxSize.getD 16384 at h2
      rcases hbig with hb | ⟨hb, hb'⟩
      · omega
      · have := h2 hb; omega)
  exact ⟨d, er, h1⟩

/-- A reader that has buffered five trailer bytes. -/
example : ∃ c r', Visits (Chunked.new none none) ⟨ascii "0\r\nA: bc", [], .silent⟩ c r' ∧
    held c = 5 := by
  refine ⟨_, _, .next (.next (.next (.next (.next (.next (.next (.next .start rfl) rfl) rfl) rfl) rfl)
    rfl) rfl) rfl, by decide⟩

/-- Three lines where two are allowed. -/
example : ((Decoder.chunked (Chunked.new (some 2) none)).readAll (fun _ _ => some [])
    ⟨ascii "0\r\na: 1\r\nb: 2\r\nc: 3\r\n\r\n", [], .eof⟩).view = .failed [] .trailerCount := by
  decide +kernel

/-! ## C07: content-length bodies -/

/-- C07.  With `Content-Length: n` the reader delivers exactly the first `n` bytes and leaves the
rest; if the transport ends earlier, what arrived is delivered and then an error is reported. -/
theorem C07_content_length_body (P : TrailerParser) (n : Nat) (r : Rd) :
    let out := ((Decoder.length n).readAll P r).view
    (n ≤ r.stream.length → out = .complete (r.stream.take n) none (r.stream.drop n)) ∧
    (r.stream.length < n → out.data = r.stream ∧
      (r.fin = .silent → out = .waiting r.stream) ∧
      (r.fin ≠ .silent → ∃ er, out = .failed r.stream er)) := by
  simp only
  rw [Decoder.length_readAll P n r]
  constructor
  · intro h; simp [lengthOutcome, h]
  · intro h
    have h' : ¬ n ≤ r.stream.length := by omega
    simp only [lengthOutcome, h', if_false]
    cases r.fin <;> simp [Outcome.data]

example : ((Decoder.length 4).readAll (fun _ _ => none)
    ⟨[], [.data 97 [98], .pending, .data 99 [100, 101]], .eof⟩).view =
      .complete (ascii "abcd") none (ascii "e") := by decide

example : ((Decoder.length 4).readAll (fun _ _ => none) ⟨[], [.data 97 [98], .pending], .eof⟩).view =
      .failed (ascii "ab") .incompleteBody := by decide

/-! ## C08: close-delimited bodies -/

/-- C08.  A close-delimited body delivers every received byte in order, and ends cleanly exactly
when the transport reports end of stream. -/
theorem C08_close_delimited_body (P : TrailerParser) (r : Rd) :
    let out := ((Decoder.eof false).readAll P r).view
    out.data = r.stream ∧
    ((∃ d t rest, out = .complete d t rest) ↔ r.fin = .eof) ∧
    (r.fin = .eof → out = .complete r.stream none []) := by
  simp only
  rw [Decoder.eof_readAll P r]
  cases r.fin <;> simp [eofOutcome, Outcome.data]

example : ((Decoder.eof false).readAll (fun _ _ => none)
    ⟨[97], [.pending, .data 98 [99]], .eof⟩).view = .complete (ascii "abc") none [] := by decide

/-! ## C09: truncated chunked bodies -/

/-- C09.  If the stream ends (or stops) at a proper prefix of a chunked body, the reader never
reports a clean end; when the transport reports end of file it reports an error. -/
theorem C09_truncated_never_complete (P : TrailerParser) (maxHeaders maxSize : Option Nat) (r : Rd)
    (w : Bytes) (cs : List Bytes) (e : Nat) (t : Bytes) (n : Nat) (cut : Bytes)
    (hw : ChunkedBody w cs e t n) (hcut : cut ≠ []) (hstream : w = r.stream ++ cut) :
    let out := ((Decoder.chunked (Chunked.new maxHeaders maxSize)).readAll P r).view
    (∀ d tr rest, out ≠ .complete d tr rest) ∧
    (r.fin ≠ .silent → ∃ d er, out = .failed d er) := by
  have hmax : u64Max = 2 ^ 64 - 1 := rfl
  have hlim : CHUNKED_EXTENSIONS_LIMIT = 16384 := rfl
  have hext : (Chunked.new maxHeaders maxSize).ext = 0 := rfl
  have hcnt : (Chunked.new maxHeaders maxSize).maxCnt = maxHeaders.getD 100 := rfl
  have hbytes : (Chunked.new maxHeaders maxSize).maxBytes = maxSize.getD 16384 := rfl
  simp only
  have hnc : ∀ d tr rest,
      ((Decoder.chunked (Chunked.new maxHeaders maxSize)).readAll P r).view ≠
        .complete d tr rest := by
    intro d tr rest hc
    -- the same body with the missing bytes appended
    have hfull := (C03_chunked_grammar_exact P maxHeaders maxSize ⟨w, [], r.fin⟩ d tr (rest ++ cut)).2
      (by
        obtain ⟨w', cs', e', t', n', h1, h2⟩ :=
          (C03_chunked_grammar_exact P maxHeaders maxSize r d tr rest).1 hc
        exact ⟨w', cs', e', t', n', by
          rw [show (⟨w, [], r.fin⟩ : Rd).stream = w by simp [Rd.stream, segBytes], hstream, h1,
            List.append_assoc], h2⟩)
    rw [Chunked.readAll_run P _ _ (Chunked.new_ok _ _)] at hfull
    have hst : (⟨w, [], r.fin⟩ : Rd).stream = w ++ [] := by simp [Rd.stream, segBytes]
    rw [hst] at hfull
    by_cases hok : WithinLimits (maxHeaders.getD 100) (maxSize.getD 16384) cs e t n
    · rw [Chunked.run_all P _ hw _ [] [] rfl rfl rfl rfl
        (fun x hx => by have := hok.sizes x hx; omega) (by have := hok.exts; rw [hext]; omega)
        (by rw [hcnt]; exact hok.lines) (by rw [hbytes]; exact hok.bytes)] at hfull
      split at hfull
      · simp [hcut] at hfull
      · split at hfull <;> simp [hcut] at hfull
    · obtain ⟨d', er, h1, _⟩ := Chunked.run_all_bad P r.fin hw (Chunked.new maxHeaders maxSize) []
        [] rfl rfl rfl rfl rfl hok
      rw [h1] at hfull
      simp at hfull
  refine ⟨hnc, fun hfin => ?_⟩
  have hshape : ∀ (bs : Bytes) (c : Chunked) (acc : Bytes),
      (∃ d tr rest, c.run P r.fin bs acc = .complete d tr rest) ∨
      (∃ d er, c.run P r.fin bs acc = .failed d er) := by
    intro bs
    induction bs with
    | nil =>
      intro c acc
      right
      simp only [Chunked.run]
      cases hf : r.fin with
      | silent => exact absurd hf hfin
      | eof => exact ⟨_, _, rfl⟩
      | err => exact ⟨_, _, rfl⟩
    | cons b bs ih =>
      intro c acc
      simp only [Chunked.run]
      split
      · right; exact ⟨_, _, rfl⟩
      · split
        · split
          · split
            · left; exact ⟨_, _, _, rfl⟩
            · right; exact ⟨_, _, rfl⟩
          · left; exact ⟨_, _, _, rfl⟩
        · exact ih _ _
  rw [Chunked.readAll_run P _ r (Chunked.new_ok _ _)] at hnc ⊢
  rcases hshape r.stream (Chunked.new maxHeaders maxSize) [] with ⟨d, tr, rest, h⟩ | h
  · exact absurd h (hnc d tr rest)
  · exact h

/-- Cut just before the last byte. -/
example : ((Decoder.chunked (Chunked.new none none)).readAll (fun _ _ => none)
    ⟨ascii "1\r\na\r\n0\r\n\r", [], .eof⟩).view = .failed (ascii "a") .eofInLine := by decide +kernel

end Hyper
