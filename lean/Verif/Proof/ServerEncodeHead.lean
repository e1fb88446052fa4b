import Verif.Proof.ServerEncodeLoop

/-! # `Server::encode`: the head as a whole -/

namespace Hyper

open Spec

/-- How an encoder delimits the body it writes. -/
def Spec.framingOf : EncKind → Framing
  | .chunked _ => .chunked
  | .length n => .length n
  | .closeDelimited => .untilClose

theorem decNum_snoc (ds : Bytes) (d : Byte) : decNum (ds ++ [d]) = 10 * decNum ds + (d.toNat - 48) := by
  simp [decNum]

theorem decDigit_spec : ∀ n, n < 10 → IsDigit (UInt8.ofNat (48 + n)) ∧ (UInt8.ofNat (48 + n)).toNat - 48 = n := by
  unfold IsDigit; decide

theorem decimal_spec (n : Nat) : decimal n ≠ [] ∧ (∀ b ∈ decimal n, IsDigit b) ∧ decNum (decimal n) = n := by
  induction n using Nat.strongRecOn with
  | _ n ih =>
    rw [decimal]
    split
    · rename_i h
      obtain ⟨h1, h2⟩ := decDigit_spec n h
      refine ⟨by simp, by simpa using h1, ?_⟩
      show 10 * 0 + _ = n
      omega
    · rename_i h
      obtain ⟨i1, i2, i3⟩ := ih (n / 10) (by omega)
      obtain ⟨h1, h2⟩ := decDigit_spec (n % 10) (by omega)
      refine ⟨by simp, ?_, ?_⟩
      · intro b hb
        simp only [List.mem_append, List.mem_singleton] at hb
        rcases hb with hb | rfl
        · exact i2 b hb
        · exact h1
      · rw [decNum_snoc, i3, h2]; omega

theorem decimal_isLength {n : Nat} (h : n < 2 ^ 64) : IsLength (decimal n) n :=
  ⟨(decimal_spec n).1, (decimal_spec n).2.1, (decimal_spec n).2.2, h⟩

theorem noBody_iff (method : Option Bytes) (status : Nat) :
    NoBody method status ↔ canHaveBody method status = false := by
  unfold NoBody canHaveBody canChunked isInformational isSuccess mHEAD mCONNECT
  by_cases h1 : method = some (ascii "HEAD")
  · simp [h1]
  by_cases h2 : method = some (ascii "CONNECT")
  · simp only [h1, h2, false_or, true_and, Bool.and_eq_true, decide_eq_true_eq]
    split
    · rename_i h
      simp only [iff_true]; have : ¬ some (ascii "CONNECT") = some (ascii "HEAD") := by decide
      rcases h with h | h | h
      · exact absurd h this
      · omega
      · omega
    · rename_i h
      simp only [Bool.not_eq_false', Bool.or_eq_true, beq_iff_eq]
      have : ¬ some (ascii "CONNECT") = some (ascii "HEAD") := by decide
      simp only [this, false_or] at h ⊢
      omega
  · simp only [h1, h2, false_or, false_and, or_false, Bool.and_eq_true, decide_eq_true_eq]
    split
    · rename_i h; simp only [iff_true]; omega
    · rename_i h
      simp only [Bool.not_eq_false', Bool.or_eq_true, beq_iff_eq]
      omega

/-- The kind of framing announced is the kind of framing used. -/
def Agree (k : EncKind) (fs : List (Bytes × Bytes)) : Prop :=
  match k with
  | .chunked _ => teOf fs ≠ [] ∧ clOf fs = []
  | .length n => teOf fs = [] ∧ (n ≠ 0 → clOf fs ≠ [])
  | .closeDelimited => teOf fs = [] ∧ clOf fs = []

/-- What a written head says, and what its body writer does. -/
structure HeadSays (S : Prop) (env : EncodeEnv) (m : EncodeMsg) (l0 : Bool) (fs : List (Bytes × Bytes)) (e : Encoder) :
    Prop where
  wire : ∀ f ∈ fs, WireField f
  framing : S → ResponseFraming m.reqMethod m.head.status (m.head.version = .h10) (teOf fs) (clOf fs)
    (framingOf e.kind)
  noBody : NoBody m.reqMethod m.head.status → e.kind = .length 0
  agree : Agree e.kind fs
  chunkedCc : e.isChunked = true → m.cc = true
  single : (teOf fs = [] ∧ clOf fs = []) ∨ (teOf fs = [] ∧ (clOf fs).length = 1) ∨
    ((teOf fs).length = 1 ∧ clOf fs = [])
  plain : m.cc = false → teOf fs = []
  last : e.isLast = (l0 || (valuesOf hCONN m.head.headers.fields).any connectionClose)
  other : ∀ k, k ∉ joined → k ≠ hDATE → valuesOf k fs = valuesOf k m.head.headers.fields
  date : valuesOf hDATE fs = if valuesOf hDATE m.head.headers.fields ≠ [] then
    valuesOf hDATE m.head.headers.fields else if m.dateHeader then [env.date] else []
  trailers : ∀ names, e.kind = .chunked (some names) → ∀ n ∈ names, Lists (valuesOf hTRAILER fs) n
  allow : ∀ v ∈ valuesOf hTRAILER m.head.headers.fields, ∀ n ∈ trailerNames v, e.isChunked = true →
    ∃ names, e.kind = .chunked (some names) ∧ n ∈ names
  elems : ∀ v ∈ valuesOf hCONN m.head.headers.fields, ∀ x, Element v x → ∃ t, Padded x t ∧
    ∃ w ∈ valuesOf hCONN fs, ∃ x', Element w x' ∧ Padded x' t

/-- State after the loop and the implicit length line, before the date. -/
structure Mid (S : Prop) (m : EncodeMsg) (l0 : Bool) (base : Bytes) (fs : List (Bytes × Bytes)) (s : HSt) : Prop where
  dst : s.dst = base ++ lines fs
  writer : s.w.Ok
  wire : ∀ f ∈ fs, WireField f
  framing : S → canHaveBody m.reqMethod m.head.status = true →
    ResponseFraming m.reqMethod m.head.status (m.head.version = .h10) (teOf fs) (clOf fs)
      (framingOf s.encoder.kind)
  single : (teOf fs = [] ∧ clOf fs = []) ∨ (teOf fs = [] ∧ (clOf fs).length = 1) ∨
    ((teOf fs).length = 1 ∧ clOf fs = [])
  plain : m.cc = false → teOf fs = []
  chunkedNone : ∀ names, s.encoder.kind ≠ .chunked (some names)
  chunkedCc : s.encoder.isChunked = true → m.cc = true
  agree : Agree s.encoder.kind fs
  other : ∀ k, k ∉ joined → valuesOf k fs = valuesOf k m.head.headers.fields
  date : s.wroteDate = decide (valuesOf hDATE m.head.headers.fields ≠ [])
  last : s.isLast = (l0 || (valuesOf hCONN m.head.headers.fields).any connectionClose)
  allow : ∀ n, n ∈ s.allowed.getD [] ↔
    m.cc = true ∧ ∃ v ∈ valuesOf hTRAILER m.head.headers.fields, n ∈ trailerNames v
  lists : ∀ n ∈ s.allowed.getD [], Lists (valuesOf hTRAILER fs) n
  elems : ∀ v ∈ valuesOf hCONN m.head.headers.fields, ∀ e, Element v e → ∃ t, Padded e t ∧
    ∃ w ∈ valuesOf hCONN fs, ∃ e', Element w e' ∧ Padded e' t

theorem notNoBody {method : Option Bytes} {status : Nat} (h : canHaveBody method status = true) :
    ¬ NoBody method status := by
  rw [noBody_iff, h]; simp

/-- Adding an implicit length line. -/
theorem Content.implicit {S : Prop} {m : EncodeMsg} {l0 wl0 : Bool} {fs : List (Bytes × Bytes)} {base : Bytes} {s : HSt}
    (h : Content S m l0 wl0 m.head.headers.fields fs none s) (hd : s.dst = base ++ lines fs) (hw : s.w.Ok)
    (hwire : ∀ f ∈ fs, WireField f) (hA : PhaseA wl0 fs s) (n : Bytes) (hn : n = hCL ∨ n = hTE) (v : Bytes)
    (hv : ∀ b ∈ v, isValueByte b = true) (e : Encoder) (he : ∀ names, e.kind ≠ .chunked (some names))
    (hec : e.isChunked = true → m.cc = true) (hte : n = hTE → m.cc = true)
    (hag : (n = hTE ∧ e = Encoder.chunked) ∨ (n = hCL ∧ ∃ k, e = Encoder.length k))
    (hfr : S → canHaveBody m.reqMethod m.head.status = true →
      ResponseFraming m.reqMethod m.head.status (m.head.version = .h10)
        (if n = hTE then [v] else []) (if n = hCL then [v] else []) (framingOf e.kind)) :
    ∃ fs', Mid S m l0 base fs'
      { s with dst := s.dst ++ (s.w.writeName n).1 ++ ascii ": " ++ v ++ CRLF, w := (s.w.writeName n).2, encoder := e } := by
  have hl : LowerName n := by
    rcases hn with rfl | rfl
    · exact lowerName_hCL
    · exact lowerName_hTE
  obtain ⟨h1, h2⟩ := writeName_ok hw hl
  have hF : ∀ k, valuesOf k (fs ++ [((s.w.writeName n).1, v)]) =
      if n = k then valuesOf k fs ++ [v] else valuesOf k fs := by
    intro k; rw [valuesOf_snoc, h1]
  obtain ⟨a1, a2, a3, a4, a5⟩ := hA
  have hcl : clOf (fs ++ [((s.w.writeName n).1, v)]) = if n = hCL then [v] else [] := by
    refine (hF hCL).trans ?_
    have : valuesOf hCL fs = [] := a2
    rw [this]; rfl
  have hte' : teOf (fs ++ [((s.w.writeName n).1, v)]) = if n = hTE then [v] else [] := by
    refine (hF hTE).trans ?_
    have : valuesOf hTE fs = [] := a3
    rw [this]; rfl
  have hj : n ∈ joined := by rcases hn with rfl | rfl <;> decide
  have hC : n ≠ hCONN := by
    rcases hn with rfl | rfl
    · exact hne2
    · exact hne5
  have hT : n ≠ hTRAILER := by
    rcases hn with rfl | rfl
    · exact hne3
    · exact hne6
  refine ⟨fs ++ [((s.w.writeName n).1, v)], ?_, h2, ?_, ?_, ?_, ?_, he, hec, ?_, ?_, h.date, h.last, h.allow,
    ?_, ?_⟩
  · simp only [hd, lines_snoc, line_append]; simp
  · intro f hf
    simp only [List.mem_append, List.mem_singleton] at hf
    rcases hf with hf | rfl
    · exact hwire f hf
    · exact wireField_of_spelling h1 hl hv
  · intro hS hb; rw [hcl, hte']; exact hfr hS hb
  · rw [hcl, hte']
    rcases hn with rfl | rfl
    · rw [if_pos rfl, if_neg hne1]; exact Or.inr (Or.inl ⟨rfl, rfl⟩)
    · rw [if_pos rfl, if_neg hne1.symm]; exact Or.inr (Or.inr ⟨rfl, rfl⟩)
  · intro hcc
    rw [hte']
    split
    · rename_i hh; rw [hte hh] at hcc; simp at hcc
    · rfl
  · rcases hag with ⟨rfl, rfl⟩ | ⟨rfl, k, rfl⟩
    · refine ⟨?_, ?_⟩
      · rw [hte', if_pos rfl]; simp
      · rw [hcl, if_neg hne1.symm]
    · refine ⟨?_, fun _ => ?_⟩
      · rw [hte', if_neg hne1]
      · rw [hcl, if_pos rfl]; simp
  · intro k hk
    rw [hF, if_neg (by rintro rfl; exact hk hj)]
    exact h.other k hk
  · rw [hF, if_neg hT]; exact h.lists
  · rw [hF, if_neg hC]; exact h.elems

theorem midOf_implicit {S : Prop} {m : EncodeMsg} {l0 wl0 : Bool} {base : Bytes} {s : HSt}
    (h : Good S m l0 wl0 base m.head.headers.fields s)
    (hwl : wl0 = true → canHaveBody m.reqMethod m.head.status = false)
    (hk : ∀ n, m.body = some (.known n) → n < 2 ^ 64) :
    ∃ fs, Mid S m l0 base fs (implicitLen m s.handle) := by
  obtain ⟨fs0, op, h1, h2⟩ := h
  have hd := h1.handle
  have hwire := h1.closeWire s.mustChunked
  generalize closed fs0 op s.mustChunked = fs at hd hwire h2
  have hfields : s.handle = { s with dst := s.handle.dst } := by
    unfold HSt.handle; split <;> rfl
  have h2' : Content S m l0 wl0 m.head.headers.fields fs none s.handle := by
    have : Content S m l0 wl0 m.head.headers.fields fs none s := by
      refine ⟨h2.other, ?_, h2.date, h2.last, h2.allow, h2.lists, h2.elems, by simp⟩
      rcases h2.phase with p | p | ⟨p1, p2, p3, p4, v, p5, p6, p7⟩
      · exact Or.inl p
      · exact Or.inr (Or.inl p)
      · exact Or.inr (Or.inr ⟨p1, p2, p3, p4, v, p5, p6, by simp⟩)
    rw [hfields]
    exact this.congr rfl rfl rfl rfl rfl rfl rfl
  have hw : s.handle.w.Ok := by rw [hfields]; exact h1.writer
  generalize s.handle = t at hd h2' hw
  clear h1 h2 hfields
  -- a state that writes nothing more
  have keep : ∀ e : Encoder, (∀ names, e.kind ≠ .chunked (some names)) → (e.isChunked = true → m.cc = true) →
      (S → canHaveBody m.reqMethod m.head.status = true →
        ResponseFraming m.reqMethod m.head.status (m.head.version = .h10) (teOf fs) (clOf fs)
          (framingOf e.kind)) →
      ((teOf fs = [] ∧ clOf fs = []) ∨ (teOf fs = [] ∧ (clOf fs).length = 1) ∨
        ((teOf fs).length = 1 ∧ clOf fs = [])) →
      (m.cc = false → teOf fs = []) → Agree e.kind fs → Mid S m l0 base fs { t with encoder := e } := by
    intro e g1 g2 g3 g4 g5 g6
    exact ⟨hd, hw, hwire, g3, g4, g5, g1, g2, g6, h2'.other, h2'.date, h2'.last, h2'.allow, h2'.lists, h2'.elems⟩
  unfold implicitLen
  by_cases hwl' : t.wroteLen = true
  · rw [if_pos hwl']
    refine ⟨fs, ?_⟩
    have he : t = { t with encoder := t.encoder } := rfl
    rw [he]
    rcases h2'.phase with p | p | p
    · obtain ⟨a1, a2, a3, a4, a5⟩ := p
      have hnb := hwl (by rw [← a1, hwl'])
      refine keep _ (by rw [a4]; simp [Encoder.length]) (by rw [a4]; simp [Encoder.length, Encoder.isChunked])
        (by rw [hnb]; simp) (Or.inl ⟨a3, a2⟩) (fun _ => a3) (by rw [a4]; exact ⟨a3, by simp⟩)
    · obtain ⟨b1, b2, b3, v, n, b4, b5, b6, b7⟩ := p
      refine keep _ (by rw [b5]; simp [Encoder.length]) (by rw [b5]; simp [Encoder.length, Encoder.isChunked])
        ?_ (Or.inr (Or.inl ⟨b2, by rw [b4]; rfl⟩)) (fun _ => b2) (by rw [b5]; exact ⟨b2, by simp [b4]⟩)
      intro hS hb
      rw [b2, b4, b5]
      exact .length n (notNoBody hb) rfl (b6 hS hb)
    · obtain ⟨c1, c2, c3, c4, v, c5, c6, c7⟩ := p
      refine keep _ (by rw [c3]; simp [Encoder.chunked]) (fun _ => c4) ?_
        (Or.inr (Or.inr ⟨by rw [c5]; rfl, c2⟩)) (by rw [c4]; simp) (by rw [c3]; exact ⟨by simp [c5], c2⟩)
      intro hS hb
      rw [c2, c5, c3]
      exact .chunked (notNoBody hb) (by simp) (cc_true.mp c4).1 (c6 hS)
  · rw [if_neg hwl']
    have hwl' : t.wroteLen = false := by simpa using hwl'
    have hA := phaseA_of h2' hwl'
    obtain ⟨a1, a2, a3, a4, a5⟩ := hA
    have hz : Mid S m l0 base fs { t with encoder := Encoder.length 0 } ∨
        canHaveBody m.reqMethod m.head.status = true := by
      cases hb : canHaveBody m.reqMethod m.head.status with
      | true => exact Or.inr rfl
      | false =>
        refine Or.inl (keep _ (by simp [Encoder.length]) (by simp [Encoder.length, Encoder.isChunked])
          (by rw [hb]; simp) (Or.inl ⟨a3, a2⟩) (fun _ => a3) ⟨a3, by simp⟩)
    have himp : canHaveBody m.reqMethod m.head.status = true →
        canHaveImplicitZero m.reqMethod m.head.status = true ∧
        canHaveContentLength m.reqMethod m.head.status = true := by
      intro hb
      unfold canHaveBody canChunked at hb
      unfold canHaveImplicitZero canHaveContentLength
      split at hb
      · simp at hb
      · rename_i hn
        simp only [not_or] at hn
        obtain ⟨n1, n2, n3⟩ := hn
        rw [if_neg (by rintro (h | h); exact n3 h; exact n2 h)]
        exact ⟨by rw [hb]; simp [n1], hb⟩
    have zeroLine : ∃ fs', Mid S m l0 base fs'
        { t with dst := t.dst ++ (t.w.writeFullLine (ascii "content-length: 0\r\n") hCL (ascii ": 0\r\n")).1,
                 w := (t.w.writeFullLine (ascii "content-length: 0\r\n") hCL (ascii ": 0\r\n")).2,
                 encoder := Encoder.length 0 } := by
      rw [writeFullLine_eq t.w _ hCL _ (by decide)]
      have hz0 : IsLength (ascii "0") 0 := by
        have := decimal_isLength (n := 0) (by decide)
        have e : decimal 0 = ascii "0" := by rw [decimal]; decide
        rwa [e] at this
      obtain ⟨fs', hfs⟩ := h2'.implicit hd hw hwire ⟨a1, a2, a3, a4, a5⟩ hCL (Or.inl rfl) (ascii "0")
        (by decide +kernel) (Encoder.length 0) (by simp [Encoder.length])
        (by simp [Encoder.length, Encoder.isChunked]) (fun hh => absurd hh hne1)
        (Or.inr ⟨rfl, _, rfl⟩) (by
          intro hS hb
          rw [if_pos rfl, if_neg hne1]
          exact .length 0 (notNoBody hb) rfl (agreed_single hz0))
      refine ⟨fs', ?_⟩
      have e : ascii ": 0\r\n" = ascii ": " ++ ascii "0" ++ CRLF := by decide
      simp only [e]
      simpa only [List.append_assoc] using hfs
    have zero : ∃ fs', Mid S m l0 base fs'
        (if canHaveImplicitZero m.reqMethod m.head.status then
          { t with dst := t.dst ++ (t.w.writeFullLine (ascii "content-length: 0\r\n") hCL (ascii ": 0\r\n")).1,
                   w := (t.w.writeFullLine (ascii "content-length: 0\r\n") hCL (ascii ": 0\r\n")).2,
                   encoder := Encoder.length 0 }
        else { t with encoder := Encoder.length 0 }) := by
      cases hi : canHaveImplicitZero m.reqMethod m.head.status with
      | true => simpa using zeroLine
      | false =>
        rcases hz with hz | hz
        · exact ⟨fs, by simpa using hz⟩
        · rw [(himp hz).1] at hi; simp at hi
    cases hbody : m.body with
    | none => exact zero
    | some bl =>
      cases bl with
      | unknown =>
        simp only
        split
        · rename_i hcc
          refine ⟨fs, keep _ (by intro names hh; cases hh)
            (by intro hh; cases hh) ?_ (Or.inl ⟨a3, a2⟩) (fun _ => a3) ⟨a3, a2⟩⟩
          intro hS hb
          rw [a3, a2]
          exact .untilClose (notNoBody hb) rfl rfl
        · rename_i hcc
          have hcc' : m.cc = true := by
            cases hh : m.cc with
            | true => rfl
            | false => exact absurd (cc_false.mp hh) hcc
          rw [writeFullLine_eq t.w _ hTE _ (by decide)]
          obtain ⟨fs', hfs⟩ := h2'.implicit hd hw hwire ⟨a1, a2, a3, a4, a5⟩ hTE (Or.inr rfl)
            (ascii "chunked") (by decide +kernel) Encoder.chunked (by simp [Encoder.chunked])
            (fun _ => hcc') (fun _ => hcc') (Or.inl ⟨rfl, rfl⟩) (by
              intro hS hb
              rw [if_pos rfl, if_neg hne1.symm]
              refine .chunked (notNoBody hb) (by simp) (cc_true.mp hcc').1 ?_
              rw [← isChunkedValue_iff]; decide +kernel)
          refine ⟨fs', ?_⟩
          have e : ascii ": chunked\r\n" = ascii ": " ++ ascii "chunked" ++ CRLF := by decide
          simp only [e]
          simpa only [List.append_assoc] using hfs
      | known n =>
        cases n with
        | zero => exact zero
        | succ n =>
          simp only
          split
          · rename_i hc
            rcases hz with hz | hz
            · exact ⟨fs, hz⟩
            · rw [(himp hz).2] at hc; simp at hc
          · rw [writeNameColon_eq t.w _ hCL (by decide)]
            have hlen := decimal_isLength (hk (n + 1) hbody)
            obtain ⟨fs', hfs⟩ := h2'.implicit hd hw hwire ⟨a1, a2, a3, a4, a5⟩ hCL (Or.inl rfl)
              (decimal (n + 1)) (fun b hb => (digit_facts b (hlen.2.1 b hb)).2.2) (Encoder.length (n + 1))
              (by simp [Encoder.length])
              (by simp [Encoder.length, Encoder.isChunked]) (fun hh => absurd hh hne1)
              (Or.inr ⟨rfl, _, rfl⟩) (by
                intro hS hb
                rw [if_pos rfl, if_neg hne1]
                exact .length _ (notNoBody hb) rfl (agreed_single hlen))
            refine ⟨fs', ?_⟩
            simpa only [List.append_assoc] using hfs

theorem headSays_of_mid {S : Prop} {env : EncodeEnv} {m : EncodeMsg} {l0 : Bool} {base : Bytes}
    {fs : List (Bytes × Bytes)} {s : HSt} (h : Mid S m l0 base fs s)
    (hdate : ∀ b ∈ env.date, isValueByte b = true) :
    ∃ fs', (dateAndEnd env m (forceBody m s)).dst = base ++ lines fs' ++ CRLF ∧
      HeadSays S env m l0 fs' (finalEncoder (dateAndEnd env m (forceBody m s))) := by
  -- the date line
  have hD : ∃ fs', (dateAndEnd env m (forceBody m s)).dst = base ++ lines fs' ++ CRLF ∧
      (∀ f ∈ fs', WireField f) ∧
      (∀ k, k ≠ hDATE → valuesOf k fs' = valuesOf k fs) ∧
      valuesOf hDATE fs' = (if valuesOf hDATE m.head.headers.fields ≠ [] then
        valuesOf hDATE m.head.headers.fields else if m.dateHeader then [env.date] else []) := by
    have hfb : (forceBody m s).dst = s.dst ∧ (forceBody m s).w = s.w ∧
        (forceBody m s).wroteDate = s.wroteDate := by
      unfold forceBody; split <;> exact ⟨rfl, rfl, rfl⟩
    have hold := h.other hDATE hDATE_joined
    unfold dateAndEnd
    cases hc : (!(forceBody m s).wroteDate && m.dateHeader) with
    | false =>
      simp only [Bool.false_eq_true, if_false]
      refine ⟨fs, by rw [hfb.1, h.dst], h.wire, fun _ _ => rfl, ?_⟩
      rw [hold, hfb.2.2, h.date] at *
      split
      · rfl
      · rename_i hne
        simp only [hne, decide_false, Bool.not_false, Bool.true_and] at hc
        rw [hc]
        simpa using hne
    | true =>
      simp only [if_true]
      simp only [Bool.and_eq_true, Bool.not_eq_true', hfb.2.2, h.date, decide_eq_false_iff_not] at hc
      obtain ⟨w1, w2⟩ := writeName_ok h.writer lowerName_hDATE
      refine ⟨fs ++ [((s.w.writeName hDATE).1, env.date)], ?_, ?_, ?_, ?_⟩
      · rw [writeNameColon_eq _ _ hDATE (by decide)]
        simp only [hfb.1, hfb.2.1, h.dst, lines_snoc, line_append]
        simp
      · intro f hf
        simp only [List.mem_append, List.mem_singleton] at hf
        rcases hf with hf | rfl
        · exact h.wire f hf
        · exact wireField_of_spelling w1 lowerName_hDATE hdate
      · intro k hk
        rw [valuesOf_snoc, w1, if_neg (fun hh => hk hh.symm)]
      · rw [valuesOf_snoc, if_pos w1, hold, if_neg hc.1, hc.2]
        have : valuesOf hDATE m.head.headers.fields = [] := by simpa using hc.1
        rw [this]; rfl
  obtain ⟨fs', d1, d2, d3, d4⟩ := hD
  refine ⟨fs', d1, ?_⟩
  have hte : teOf fs' = teOf fs := d3 hTE hne7
  have hcl : clOf fs' = clOf fs := d3 hCL hne4
  have htr : valuesOf hTRAILER fs' = valuesOf hTRAILER fs := d3 hTRAILER hne10
  have hco : valuesOf hCONN fs' = valuesOf hCONN fs := d3 hCONN hne9
  -- the encoder
  have henc : (dateAndEnd env m (forceBody m s)).encoder = (forceBody m s).encoder ∧
      (dateAndEnd env m (forceBody m s)).allowed = s.allowed ∧
      (dateAndEnd env m (forceBody m s)).isLast = s.isLast := by
    unfold dateAndEnd forceBody
    split <;> split <;> exact ⟨rfl, rfl, rfl⟩
  generalize dateAndEnd env m (forceBody m s) = t at henc d1
  have hlastT : (finalEncoder t).isLast = s.isLast := by
    unfold finalEncoder Encoder.setLast; simp [henc.2.2]
  have hkind : framingOf (finalEncoder t).kind = framingOf (forceBody m s).encoder.kind := by
    unfold finalEncoder Encoder.setLast
    simp only [henc.1]
    split
    · split
      · unfold Encoder.intoChunkedWithTrailingFields
        split
        · rename_i hh; rw [hh]; rfl
        · rfl
      · rfl
    · rfl
  have hch : ∀ k, (finalEncoder t).kind = k → (∃ ts, k = .chunked ts) →
      s.encoder.isChunked = true ∧ (∀ names, k = .chunked (some names) → s.allowed = some names) ∧
      ((∃ n, n ∈ s.allowed.getD []) → ∃ names, k = .chunked (some names)) := by
    intro k hk hts
    unfold finalEncoder Encoder.setLast at hk
    simp only [henc.1, henc.2.1] at hk
    have hnc : ∀ names, (forceBody m s).encoder.kind ≠ .chunked (some names) := by
      unfold forceBody
      split
      · simp [Encoder.length]
      · exact h.chunkedNone
    have hfc : (forceBody m s).encoder.isChunked = true → s.encoder.isChunked = true := by
      unfold forceBody
      split
      · simp [Encoder.length, Encoder.isChunked]
      · exact id
    generalize (forceBody m s).encoder = enc at hk hnc hfc
    obtain ⟨ts, rfl⟩ := hts
    cases hi : enc.isChunked with
    | false =>
      exfalso
      rw [hi] at hk
      simp only [Bool.false_eq_true, if_false] at hk
      rw [Encoder.isChunked, hk] at hi
      simp at hi
    | true =>
      rw [hi] at hk
      simp only [if_true] at hk
      refine ⟨hfc hi, ?_, ?_⟩
      · rintro names hh
        simp only [EncKind.chunked.injEq] at hh
        subst hh
        cases ha : s.allowed with
        | none => rw [ha] at hk; exact absurd hk (hnc names)
        | some l =>
          rw [ha] at hk
          simp only [Encoder.intoChunkedWithTrailingFields] at hk
          split at hk
          · simpa using hk
          · exact absurd hk (hnc names)
      · rintro ⟨n, hn⟩
        cases ha : s.allowed with
        | none => rw [ha] at hn; simp at hn
        | some l =>
          rw [ha] at hk
          simp only [Encoder.intoChunkedWithTrailingFields] at hk
          split at hk
          · simp only [EncKind.chunked.injEq] at hk
            exact ⟨l, by rw [hk]⟩
          · rename_i h1 h2
            exact absurd hk (h2 ts)
  have hkind' : Agree (finalEncoder t).kind fs' ↔ Agree (forceBody m s).encoder.kind fs := by
    have : ∀ k k', framingOf k = framingOf k' → (Agree k fs' ↔ Agree k' fs) := by
      intro k k' hh
      cases k <;> cases k' <;> simp_all [framingOf, Agree]
    exact this _ _ hkind
  refine ⟨d2, ?_, ?_, ?_, ?_, by rw [hte, hcl]; exact h.single, by rw [hte]; exact h.plain,
    by rw [hlastT, h.last], ?_, d4, ?_, ?_, by rw [hco]; exact h.elems⟩
  · intro hS
    rw [hkind]
    cases hb : canHaveBody m.reqMethod m.head.status with
    | true =>
      have : (forceBody m s).encoder = s.encoder := by unfold forceBody; rw [hb]; simp
      rw [this, hte, hcl]
      exact h.framing hS hb
    | false =>
      have : (forceBody m s).encoder = Encoder.length 0 := by unfold forceBody; rw [hb]; simp
      rw [this]
      exact .noBody ((noBody_iff _ _).mpr hb)
  · intro hb
    have : (forceBody m s).encoder = Encoder.length 0 := by
      unfold forceBody; rw [(noBody_iff _ _).mp hb]; simp
    rw [this] at hkind
    cases hk : (finalEncoder t).kind <;> rw [hk] at hkind <;> simp_all [framingOf, Encoder.length]
  · rw [hkind']
    unfold forceBody
    split
    · rename_i hb
      refine ⟨h.plain ?_, by simp⟩
      rw [cc_false]; exact Or.inr hb
    · exact h.agree
  · intro hc
    have : ∃ ts, (finalEncoder t).kind = .chunked ts := by
      unfold Encoder.isChunked at hc
      split at hc
      · rename_i ts hh; exact ⟨ts, hh⟩
      · simp at hc
    obtain ⟨ts, hts⟩ := this
    exact h.chunkedCc (hch _ hts ⟨_, rfl⟩).1
  · intro k hk hkd
    rw [d3 k hkd]; exact h.other k hk
  · intro names hn n hmem
    obtain ⟨g1, g2, g3⟩ := hch _ hn ⟨_, rfl⟩
    rw [htr]
    exact h.lists n (by rw [g2 names rfl]; exact hmem)
  · intro v hv n hn hc
    obtain ⟨ts, hts⟩ : ∃ ts, (finalEncoder t).kind = .chunked ts := by
      unfold Encoder.isChunked at hc
      split at hc
      · rename_i ts hh; exact ⟨ts, hh⟩
      · simp at hc
    obtain ⟨g1, g2, g3⟩ := hch _ hts ⟨_, rfl⟩
    have hin : n ∈ s.allowed.getD [] := (h.allow n).mpr ⟨h.chunkedCc g1, v, hv, hn⟩
    obtain ⟨names, hnames⟩ := g3 ⟨n, hin⟩
    refine ⟨names, hts.trans hnames, ?_⟩
    rw [g2 names hnames] at hin
    exact hin

theorem encodeHeaders_spec {S : Prop} {env : EncodeEnv} {m : EncodeMsg} {base out : Bytes} {l0 wl0 : Bool}
    {origLen : Nat} {w : NameWriter} {e : Encoder} (hw : w.Ok)
    (hdate : ∀ b ∈ env.date, isValueByte b = true)
    (hf : ∀ f ∈ m.head.headers.fields, FieldOk S m f)
    (hwl : wl0 = true → canHaveBody m.reqMethod m.head.status = false)
    (hk : ∀ n, m.body = some (.known n) → n < 2 ^ 64)
    (he : encodeHeaders env m base l0 origLen wl0 w = (out, .ok e)) :
    ∃ fs, out = base ++ lines fs ++ CRLF ∧ HeadSays S env m l0 fs e := by
  unfold encodeHeaders at he
  split at he
  · simp at he
  · simp at he
  · rename_i s hs
    simp only [Prod.mk.injEq, EncodeRes.ok.injEq] at he
    obtain ⟨rfl, rfl⟩ := he
    have h0 : Good S m l0 wl0 base []
        ⟨base, w, Encoder.length 0, none, wl0, false, none, false, false, l0, none⟩ := by
      refine ⟨[], none, ⟨by simp [openBytes, lines], rfl, by simp, hw, by simp, by simp⟩, ?_⟩
      refine ⟨fun _ _ => rfl, Or.inl ⟨rfl, rfl, rfl, rfl, rfl⟩, by simp [valuesOf], by simp [valuesOf], ?_, by simp,
        by simp [valuesOf], by simp⟩
      simp [valuesOf]
    have h1 := h0.run m.head.headers.drain _ _ s (by rw [expand_drain]; exact hf) hs
    rw [expand_drain] at h1
    simp only [List.nil_append] at h1
    obtain ⟨fs, hm⟩ := midOf_implicit h1 hwl hk
    exact headSays_of_mid hm hdate

theorem hrun_no_panic (m : EncodeMsg) (hs : HeaderMap) (s : HSt) : hrun m s hs.drain ≠ .error .panic := by
  have arm : ∀ (t : HSt) n v, harm m t n v ≠ .error .panic := by
    intro t n v
    unfold harm clArm teArm
    repeat' split
    all_goals simp
  have armc : ∀ (t t' : HSt) n v, t.curName = some n → harm m t n v = .ok t' → t'.curName = some n := by
    intro t t' n v hc h
    have hjl : ∀ (t : HSt) lit nm v, (t.joinLine lit nm v).curName = t.curName := by
      intro t lit nm v
      unfold HSt.joinLine HSt.openLine
      cases t.isNameWritten <;> rfl
    unfold harm clArm teArm connArm trailerArm at h
    repeat' split at h
    all_goals (first
      | (simp at h; done)
      | (simp only [Except.ok.injEq] at h; subst h; first | exact hc | (simp only [hjl]; exact hc) | (simp only; rw [hjl]; split <;> exact hc) | skip))
    all_goals simp_all [hjl]
    all_goals (try (split <;> rfl))
  have vals : ∀ (vs : List Bytes) (rest : List (Option Bytes × Bytes)) (t : HSt) (n : Bytes),
      t.curName = some n → (∀ t : HSt, hrun m t rest ≠ .error .panic) →
      hrun m t (vs.map (fun v => (none, v)) ++ rest) ≠ .error .panic := by
    intro vs rest
    induction vs with
    | nil => intro t n _ hr; exact hr t
    | cons v vs ih =>
      intro t n hc hr
      simp only [List.map_cons, List.cons_append, hrun, hstep, HSt.enter, hc]
      cases ha : harm m t n v with
      | error e => simp only; intro hh; simp only [Except.error.injEq] at hh; rw [hh] at ha; exact arm _ _ _ ha
      | ok t' => exact ih t' n (armc _ _ _ _ hc ha) hr
  have enter : ∀ (s : HSt) n, (s.enter (some n)).curName = some n := by
    intro s n; unfold HSt.enter HSt.handle; simp only; split <;> rfl
  induction hs generalizing s with
  | nil => simp [HeaderMap.drain, hrun]
  | cons g hs ih =>
    obtain ⟨n, vs⟩ := g
    cases vs with
    | nil => simpa [HeaderMap.drain] using ih s
    | cons v vs =>
      rw [drain_cons]
      simp only [hrun, hstep, enter]
      cases ha : harm m (s.enter (some n)) n v with
      | error e => simp only; intro hh; simp only [Except.error.injEq] at hh; rw [hh] at ha; exact arm _ _ _ ha
      | ok t' => exact vals vs _ t' n (armc _ _ _ _ (enter s n) ha) (fun t => ih t)

end Hyper
