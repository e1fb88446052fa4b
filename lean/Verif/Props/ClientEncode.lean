import Verif.Proof.ClientEncode
import Verif.Props.ServerEncode

/-! # Properties of request heads: C24, C23, C51 -/

namespace Hyper

open Spec

/-- What the types of the `http` crate guarantee about a header map: distinct lower-case token names,
each with a value, no control bytes in the values. -/
structure Spec.MapOk (m : HeaderMap) : Prop where
  wf : m.Wf
  fields : ∀ f ∈ m.fields, LowerName f.1 ∧ ∀ b ∈ f.2, isValueByte b = true

theorem Spec.MapOk.names {m : HeaderMap} (h : MapOk m) : ∀ g ∈ m, LowerName g.1 := by
  intro g hg
  obtain ⟨v, hv⟩ := List.exists_mem_of_ne_nil _ (h.wf.nonempty g hg)
  refine (h.fields (g.1, v) ?_).1
  simp only [HeaderMap.fields, List.mem_flatMap, List.mem_map]
  exact ⟨g, hg, v, hv, rfl⟩

theorem Spec.MapOk.values {m : HeaderMap} (h : MapOk m) (k : Bytes) : valuesOf k m.fields = m.getAll k :=
  valuesOf_fields m h.wf.nodup (fun g hg => (h.names g hg).fold) k

theorem Spec.MapOk.insert {m : HeaderMap} (h : MapOk m) {n v : Bytes} (hn : LowerName n)
    (hv : ∀ b ∈ v, isValueByte b = true) : MapOk (m.insert n v) := by
  refine ⟨wf_insert h.wf n v, ?_⟩
  intro f hf
  rcases mem_fields_insert m n v f hf with rfl | hf
  · exact ⟨hn, hv⟩
  · exact h.fields f hf

theorem Spec.MapOk.remove {m : HeaderMap} (h : MapOk m) (n : Bytes) : MapOk (m.remove n) := by
  refine ⟨wf_remove h.wf n, ?_⟩
  intro f hf
  apply h.fields
  simp only [HeaderMap.fields, HeaderMap.remove, List.mem_flatMap, List.mem_filter] at hf ⊢
  obtain ⟨g, hg, hf⟩ := hf
  exact ⟨g, hg.1, hf⟩

theorem mem_fields_setAll (m : HeaderMap) (n : Bytes) (ws : List Bytes) : ∀ f ∈ (m.setAll n ws).fields,
    (f.1 = n ∧ f.2 ∈ ws ∧ n ∈ m.map Prod.fst) ∨ f ∈ m.fields := by
  induction m with
  | nil => intro f hf; simp [HeaderMap.setAll, HeaderMap.fields] at hf
  | cons g m ih =>
    obtain ⟨g1, g2⟩ := g
    intro f hf
    simp only [HeaderMap.setAll] at hf
    by_cases hg : g1 = n
    · rw [if_pos hg] at hf
      simp only [HeaderMap.fields, List.flatMap_cons, List.mem_append, List.mem_map] at hf ⊢
      rcases hf with ⟨v, hv, rfl⟩ | hf
      · left; exact ⟨hg, hv, ⟨(g1, g2), by simp, hg⟩⟩
      · exact Or.inr (Or.inr hf)
    · rw [if_neg hg] at hf
      have hc : HeaderMap.fields ((g1, g2) :: HeaderMap.setAll m n ws) =
        g2.map (fun v => (g1, v)) ++ HeaderMap.fields (HeaderMap.setAll m n ws) := rfl
      rw [hc, List.mem_append] at hf
      have hc' : HeaderMap.fields ((g1, g2) :: m) = g2.map (fun v => (g1, v)) ++ HeaderMap.fields m := rfl
      rw [hc', List.mem_append]
      rcases hf with hf | hf
      · exact Or.inr (Or.inl hf)
      · rcases ih f hf with h | h
        · left; exact ⟨h.1, h.2.1, by simp only [List.map_cons, List.mem_cons]; exact Or.inr h.2.2⟩
        · exact Or.inr (Or.inr h)

theorem Spec.MapOk.setAll {m : HeaderMap} (h : MapOk m) {n : Bytes} {ws : List Bytes} (hne : ws ≠ [])
    (hv : ∀ w ∈ ws, ∀ b ∈ w, isValueByte b = true) : MapOk (m.setAll n ws) := by
  refine ⟨wf_setAll h.wf n hne, ?_⟩
  intro f hf
  rcases mem_fields_setAll m n ws f hf with ⟨h1, h2, h3⟩ | hf
  · obtain ⟨g, hg, rfl⟩ := List.mem_map.mp h3
    rw [h1]
    exact ⟨h.names g hg, hv _ h2⟩
  · exact h.fields f hf

theorem Spec.MapOk.valueBytes {m : HeaderMap} (h : MapOk m) {k v : Bytes} (hv : v ∈ m.getAll k) :
    ∀ b ∈ v, isValueByte b = true := (h.fields _ (getAll_mem_fields hv)).2

theorem addChunked_spec {vs : List Bytes} (hne : vs ≠ []) :
    ∃ pre v, vs = pre ++ [v] ∧ addChunked vs = pre ++ [v ++ ascii ", " ++ ascii "chunked"] := by
  unfold addChunked
  rcases List.eq_nil_or_concat vs with h | ⟨pre, v, h⟩
  · exact absurd h hne
  · subst h
    refine ⟨pre, v, by simp, ?_⟩
    simp

theorem finalChunked_append (pre : List Bytes) {v : Bytes} (h : FinalChunked [v]) : FinalChunked (pre ++ [v]) := by
  obtain ⟨vs, w, e, t, h1, h2⟩ := h
  cases vs with
  | nil =>
    simp at h1; subst h1
    exact ⟨pre, v, e, t, rfl, h2⟩
  | cons x xs => simp at h1

theorem finalChunked_chunked : FinalChunked [ascii "chunked"] := by
  rw [← isChunkedValue_iff]; decide +kernel

theorem decimal_valueBytes (n : Nat) : ∀ b ∈ decimal n, isValueByte b = true :=
  fun b hb => (digit_facts b ((decimal_spec n).2.1 b hb)).2.2

/-- What `set_length` does to the headers, and the encoder it chooses. -/
structure LengthSet (U : Prop) (version : Version) (headers : HeaderMap) (body : Option BodyLength) (hs : HeaderMap) (e : Encoder) : Prop where
  ok : MapOk hs
  other : ∀ k, k ≠ hTE → k ≠ hCL → hs.getAll k = headers.getAll k
  kind : (∃ ts, e.kind = .chunked ts ∧ version = .h11 ∧ hs.getAll hTE ≠ [] ∧
      (∀ n, ¬ AgreedLength (hs.getAll hCL) n)) ∨
    (∃ n, e.kind = .length n ∧ hs.getAll hTE = [] ∧ (n ≠ 0 → AgreedLength (hs.getAll hCL) n))
  plain : e.isLast = false
  trailers : ∀ ts, e.kind = .chunked ts →
    ts.getD [] = (headers.getAll hTRAILER).flatMap trailerNames
  framing : U → RequestFraming (version = .h11) (hs.getAll hTE) (hs.getAll hCL) (framingOf e.kind)
  alone : U → hs.getAll hTE ≠ [] → hs.getAll hCL = []

/-- The framing headers the user put on a request are right: Content-Length values are the same plain
number, which is zero if there is no body, and the last Transfer-Encoding value is plain ASCII. -/
def Spec.UserRequestOk (headers : HeaderMap) (body : Option BodyLength) : Prop :=
  (∃ n, (∀ v ∈ headers.getAll hCL, IsLength v n) ∧ (body = none → n = 0)) ∧
  (∀ v, (headers.getAll hTE).getLast? = some v → ∀ b ∈ v, Visible b)

theorem isLength_unique {v : Bytes} {n k : Nat} (h : IsLength v n) (h' : IsLength v k) : n = k := by
  rw [← h.2.2.1, h'.2.2.1]

theorem agreed_of_all {vs : List Bytes} {n : Nat} (hne : vs ≠ []) (h : ∀ v ∈ vs, IsLength v n) :
    AgreedLength vs n := by
  refine ⟨hne, fun v hv => ?_⟩
  have := agreed_single (h v hv)
  exact this.2 v (by simp)

theorem withTrailers_spec (headers : HeaderMap) :
    ∃ ts, (withTrailers headers Encoder.chunked).kind = .chunked ts ∧
      (withTrailers headers Encoder.chunked).isLast = false ∧
      ts.getD [] = (headers.getAll hTRAILER).flatMap trailerNames := by
  unfold withTrailers
  simp only
  split
  · rename_i h; exact ⟨none, rfl, rfl, by rw [h]; rfl⟩
  · exact ⟨some _, rfl, rfl, rfl⟩

theorem setLength_spec (U : Prop) (method : Bytes) (version : Version) {headers : HeaderMap}
    (body : Option BodyLength) (hok : MapOk headers) (hlen : ∀ n, body = some (.known n) → n < 2 ^ 64)
    (hU : U → UserRequestOk headers body) :
    LengthSet U version headers body (setLength method version headers body).1
      (setLength method version headers body).2 := by
  have hne : hTE ≠ hCL := by decide
  have hT : hTRAILER ≠ hTE ∧ hTRAILER ≠ hCL := by decide
  have hex : ∀ n, contentLengthParseAll headers = some n ↔ AgreedLength (headers.getAll hCL) n :=
    fun n => contentLengthParseAllValues_iff _ n
  -- the three ways to use a length
  have useCl : ∀ (hs : HeaderMap) (n : Nat), MapOk hs → hs.getAll hTE = [] →
      (∀ k, k ≠ hTE → hs.getAll k = headers.getAll k) → AgreedLength (headers.getAll hCL) n →
      LengthSet U version headers body hs (Encoder.length n) := by
    intro hs n h1 h2 h3 h4
    have hc : hs.getAll hCL = headers.getAll hCL := h3 hCL (fun h => hne h.symm)
    refine ⟨h1, fun k hk _ => h3 k hk, Or.inr ⟨n, rfl, h2, fun _ => hc ▸ h4⟩, rfl, by simp [Encoder.length], ?_, fun _ h => absurd h2 h⟩
    intro u
    obtain ⟨⟨k, g1, g2⟩, _⟩ := hU u
    rw [hc]
    refine .length n h2 h4.1 ?_
    have : AgreedLength (headers.getAll hCL) k := agreed_of_all h4.1 g1
    have hkn : k = n := by
      have a := (hex k).mpr this
      have b := (hex n).mpr h4
      rw [a] at b; simpa using b
    exact hkn ▸ g1
  have setCl : ∀ (hs : HeaderMap) (n : Nat), MapOk hs → hs.getAll hTE = [] →
      (∀ k, k ≠ hTE → hs.getAll k = headers.getAll k) → n < 2 ^ 64 →
      LengthSet U version headers body (setContentLength hs n).1 (setContentLength hs n).2 := by
    intro hs n h1 h2 h3 h4
    have hl := decimal_isLength h4
    refine ⟨h1.insert lowerName_hCL (decimal_valueBytes n), ?_, Or.inr ⟨n, rfl, ?_, fun _ => ?_⟩, rfl,
      by simp [setContentLength, Encoder.length], fun _ => ?_, fun _ h => absurd ?_ h⟩
    · intro k hk hk'
      simp only [setContentLength, getAll_insert, if_neg hk']
      exact h3 k hk
    · simp only [setContentLength, getAll_insert, if_neg hne]; exact h2
    · simp only [setContentLength, getAll_insert, if_true]; exact agreed_single hl
    · simp only [setContentLength, getAll_insert, if_true, if_neg hne]
      refine .length n h2 (by simp) ?_
      intro v hv
      simp only [List.mem_singleton] at hv
      exact hv ▸ hl
    · simp only [setContentLength, getAll_insert, if_neg hne]; exact h2
  have noBody : ∀ (hs : HeaderMap), MapOk hs → hs.getAll hTE = [] →
      (∀ k, k ≠ hTE → hs.getAll k = headers.getAll k) →
      (U → headers.getAll hCL = [] ∨ ∀ v ∈ headers.getAll hCL, IsLength v 0) →
      LengthSet U version headers body hs (Encoder.length 0) := by
    intro hs h1 h2 h3 h4
    have hc : hs.getAll hCL = headers.getAll hCL := h3 hCL (fun h => hne h.symm)
    refine ⟨h1, fun k hk _ => h3 k hk, Or.inr ⟨0, rfl, h2, by simp⟩, rfl, by simp [Encoder.length], ?_, fun _ h => absurd h2 h⟩
    intro u
    rw [hc]
    by_cases h0 : headers.getAll hCL = []
    · exact .none h2 h0
    · rcases h4 u with h | h
      · exact absurd h h0
      · exact .length 0 h2 h0 h
  have hcNone : contentLengthParseAll headers = none → U → headers.getAll hCL = [] := by
    intro hn u
    obtain ⟨⟨k, g1, g2⟩, _⟩ := hU u
    by_cases h0 : headers.getAll hCL = []
    · exact h0
    · have := (hex k).mpr (agreed_of_all h0 g1)
      rw [hn] at this; simp at this
  have chunk : ∀ (hs : HeaderMap), version = .h11 → MapOk hs → hs.getAll hTE ≠ [] →
      (∀ k, k ≠ hTE → hs.getAll k = headers.getAll k) →
      (U → FinalChunked (hs.getAll hTE)) →
      LengthSet U version headers body (if (contentLengthParseAll headers).isSome then hs.remove hCL else hs)
        (withTrailers hs Encoder.chunked) := by
    intro hs hv h1 h2 h3 h4
    obtain ⟨ts, t1, t2, t3⟩ := withTrailers_spec hs
    have hg : ∀ k, k ≠ hCL → (if (contentLengthParseAll headers).isSome then hs.remove hCL else hs).getAll k =
        hs.getAll k := by
      intro k hk
      split
      · rw [getAll_remove, if_neg hk]
      · rfl
    refine ⟨?_, ?_, Or.inl ⟨ts, t1, hv, ?_, ?_⟩, t2, ?_, ?_, ?_⟩
    · split
      · exact h1.remove _
      · exact h1
    · intro k hk hk'
      rw [hg k hk']; exact h3 k hk
    · rw [hg _ hne]; exact h2
    · intro n hn
      split at hn
      · rw [getAll_remove, if_pos rfl] at hn
        exact hn.1 rfl
      · rename_i hs'
        rw [h3 hCL (fun h => hne h.symm)] at hn
        rw [(hex n).mpr hn] at hs'; simp at hs'
    · intro ts' ht'
      rw [t1] at ht'
      simp only [EncKind.chunked.injEq] at ht'
      rw [← ht', t3, h3 _ hT.1]
    · intro u
      rw [t1]
      refine .chunked ?_ hv ?_
      · rw [hg _ hne]; exact h2
      · rw [hg _ hne]; exact h4 u
    · intro u _
      split
      · rw [getAll_remove, if_pos rfl]
      · rename_i hs'
        rw [h3 hCL (fun h => hne h.symm)]
        exact hcNone (by simpa using hs') u
  have hrem : ∀ k, k ≠ hTE → (headers.remove hTE).getAll k = headers.getAll k := by
    intro k hk; rw [getAll_remove, if_neg hk]
  have hrem' : (headers.remove hTE).getAll hTE = [] := by rw [getAll_remove, if_pos rfl]
  unfold setLength
  cases body with
  | none =>
    refine noBody _ (hok.remove _) hrem' hrem ?_
    intro u
    obtain ⟨⟨k, g1, g2⟩, _⟩ := hU u
    exact Or.inr (g2 rfl ▸ g1)
  | some body =>
    simp only
    by_cases hv : version ≠ .h11
    · rw [if_pos hv]
      cases hc : contentLengthParseAll headers with
      | some n => exact useCl _ n (hok.remove _) hrem' hrem ((hex n).mp hc)
      | none =>
        cases body with
        | known n => exact setCl _ n (hok.remove _) hrem' hrem (hlen n rfl)
        | unknown => exact noBody _ (hok.remove _) hrem' hrem (fun u => Or.inl (hcNone hc u))
    · rw [if_neg hv]
      have hv' : version = .h11 := by simpa using hv
      by_cases hte : headers.contains hTE = true
      · rw [if_pos hte]
        have hte' := (contains_iff hok.wf.nonempty hTE).mp hte
        by_cases hch : isChunked (headers.getAll hTE) = true
        · rw [if_pos hch]
          exact chunk headers hv' hok hte' (fun _ _ => rfl) (fun _ => (isChunked_iff _).mp hch)
        · rw [if_neg hch]
          obtain ⟨pre, v, p1, p2⟩ := addChunked_spec hte'
          have hga : ∀ k, (headers.setAll hTE (addChunked (headers.getAll hTE))).getAll k =
              if k = hTE then addChunked (headers.getAll hTE) else headers.getAll k :=
            fun k => getAll_setAll headers hTE _ k hte
          refine chunk _ hv' (hok.setAll (by rw [p2]; simp) ?_) ?_ ?_ ?_
          · intro w hw
            rw [p2] at hw
            rcases List.mem_append.mp hw with hw | hw
            · exact hok.valueBytes (k := hTE) (by rw [p1]; simp [hw])
            · simp only [List.mem_singleton] at hw
              subst hw
              have hvb := hok.valueBytes (k := hTE) (v := v) (by rw [p1]; simp)
              intro b hb
              rcases List.mem_append.mp hb with hb | hb
              · rcases List.mem_append.mp hb with hb | hb
                · exact hvb b hb
                · exact (by decide +kernel : ∀ b ∈ ascii ", ", isValueByte b = true) b hb
              · exact (by decide +kernel : ∀ b ∈ ascii "chunked", isValueByte b = true) b hb
          · rw [hga, if_pos rfl, p2]; simp
          · intro k hk; rw [hga, if_neg hk]
          · intro u
            rw [hga, if_pos rfl, p2]
            obtain ⟨_, g⟩ := hU u
            exact finalChunked_append pre (finalChunked_join (g v (by rw [p1]; simp)) finalChunked_chunked)
      · rw [if_neg hte]
        have hte' : headers.getAll hTE = [] := (contains_false_iff hok.wf.nonempty hTE).mp (by simpa using hte)
        cases hc : contentLengthParseAll headers with
        | some n => exact useCl headers n hok hte' (fun _ _ => rfl) ((hex n).mp hc)
        | none =>
          cases body with
          | known n => exact setCl headers n hok hte' (fun _ _ => rfl) (hlen n rfl)
          | unknown =>
            simp only
            by_cases hm : method = mGET ∨ method = mHEAD ∨ method = mCONNECT
            · rw [if_pos hm]
              exact noBody headers hok hte' (fun _ _ => rfl) (fun u => Or.inl (hcNone hc u))
            · rw [if_neg hm]
              have := chunk (headers.insert hTE (ascii "chunked")) hv'
                (hok.insert lowerName_hTE (by decide +kernel)) (by rw [getAll_insert, if_pos rfl]; simp)
                (fun k hk => by rw [getAll_insert, if_neg hk])
                (fun _ => by rw [getAll_insert, if_pos rfl]; exact finalChunked_chunked)
              rw [hc] at this
              exact this

/-- What the types guarantee about a request handed to hyper. -/
structure Spec.RequestWf (h : ReqHead) (body : Option BodyLength) : Prop where
  headers : MapOk h.headers
  spelling : ∀ map, h.caseMap = some map → SpellingsOf map
  length : ∀ n, body = some (.known n) → n < 2 ^ 64

/-- The version a request line may carry. -/
def Spec.lineVersion (v : Version) : Nat := if v = .h10 then 0 else 1

/-- A request line. -/
def Spec.RequestLine (method target : Bytes) (version : Nat) (line : Bytes) : Prop :=
  line = method ++ ascii " " ++ target ++ ascii " HTTP/1." ++ decimal version ++ CRLF

theorem versionText_spec {v : Version} {t : Bytes} (h : versionText v = some t) :
    t = ascii "HTTP/1." ++ decimal (lineVersion v) ∧ (v = .h10 ∨ v = .h11 ∨ v = .h2) := by
  have e0 : ascii "HTTP/1.0" = ascii "HTTP/1." ++ ascii "0" := by decide
  have e1 : ascii "HTTP/1.1" = ascii "HTTP/1." ++ ascii "1" := by decide
  unfold versionText at h
  split at h <;> simp only [Option.some.injEq, reduceCtorEq] at h <;> subst h
  · refine ⟨?_, by simp⟩
    simp only [lineVersion, if_true, decimal_zero, e0]
  · refine ⟨?_, by simp⟩
    simp only [lineVersion, reduceCtorEq, if_false, decimal_one, e1]
  · refine ⟨?_, by simp⟩
    simp only [lineVersion, reduceCtorEq, if_false, decimal_one, e1]

theorem clientEncode_full {U : Prop} {title : Bool} {h : ReqHead} {body : Option BodyLength} {dst out : Bytes}
    {e : Encoder} (hwf : RequestWf h body) (hU : U → UserRequestOk h.headers body)
    (hr : clientEncode title h body dst = some (out, e)) :
    ∃ line bs fs, RequestLine h.method h.target (lineVersion h.version) line ∧
      out = dst ++ line ++ bs ++ CRLF ∧ WrittenLines bs fs ∧ (∀ f ∈ fs, WireField f) ∧
      (∀ k, valuesOf k fs = (setLength h.method h.version h.headers body).1.getAll k) ∧
      LengthSet U h.version h.headers body (setLength h.method h.version h.headers body).1 e := by
  unfold clientEncode at hr
  simp only [Option.map_eq_some_iff, Prod.mk.injEq] at hr
  obtain ⟨t, ht, hout, he⟩ := hr
  obtain ⟨ht, _⟩ := versionText_spec ht
  have hs := setLength_spec U h.method h.version body hwf.headers hwf.length hU
  obtain ⟨fs, g1, g2⟩ := clientHeaders_spec title h.caseMap hwf.spelling
    (setLength h.method h.version h.headers body).1 hs.ok.names
  refine ⟨_, _, fs, rfl, ?_, g1, g2.wire hs.ok.fields, ?_, he ▸ hs⟩
  · rw [← hout, ht]
    have : ascii " HTTP/1." = ascii " " ++ ascii "HTTP/1." := by decide
    simp only [this, List.append_assoc]
  · intro k
    rw [g2.valuesOf (fun g hg => (hs.ok.fields g hg).1), hs.ok.values]

theorem clientEncode_spec {U : Prop} {title : Bool} {h : ReqHead} {body : Option BodyLength} {dst out : Bytes}
    {e : Encoder} (hwf : RequestWf h body) (hU : U → UserRequestOk h.headers body)
    (hr : clientEncode title h body dst = some (out, e)) :
    ∃ line bs fs hs, RequestLine h.method h.target (lineVersion h.version) line ∧
      out = dst ++ line ++ bs ++ CRLF ∧ WrittenLines bs fs ∧ (∀ f ∈ fs, WireField f) ∧
      (∀ k, valuesOf k fs = hs.getAll k) ∧ LengthSet U h.version h.headers body hs e := by
  obtain ⟨line, bs, fs, h1, h2, h3, h4, h5, h6⟩ := clientEncode_full hwf hU hr
  exact ⟨line, bs, fs, _, h1, h2, h3, h4, h5, h6⟩

theorem connReq_wf {h : ReqHead} {body : Option BodyLength} (hwf : RequestWf h body) (peer : Version) (ka : KA) :
    RequestWf (connReq peer ka h).2 body := by
  refine ⟨?_, hwf.spelling, hwf.length⟩
  show MapOk (enforceVersion peer _ h.version h.headers).2.2
  rcases enforceVersion_headers peer
    (if connectionAnyClose h.headers then KA.disabled else if ka = .disabled then .disabled else .busy)
    h.version h.headers with e | ⟨w, hw, e⟩
  · rw [e]; exact hwf.headers
  · rw [e]
    refine hwf.headers.insert lowerName_hCONN ?_
    rcases hw with rfl | rfl <;> decide +kernel

/-! ## C24 -/

/-- C24, the kinds of framing: for every request that is encoded, what follows `dst` is a request line
and well-formed fields; a chunked writer comes with Transfer-Encoding on an HTTP/1.1 line and no
readable Content-Length, a length writer with no Transfer-Encoding and, unless the length is zero,
with Content-Length values that all say that length; a request never ends by closing. -/
theorem C24_kinds_agree (title : Bool) (h : ReqHead) (body : Option BodyLength) (dst out : Bytes) (e : Encoder)
    (hwf : RequestWf h body) (hr : clientEncode title h body dst = some (out, e)) :
    ∃ line bs fs, out = dst ++ line ++ bs ++ CRLF ∧
      RequestLine h.method h.target (lineVersion h.version) line ∧
      WrittenLines bs fs ∧ (∀ f ∈ fs, WireField f) ∧
      (match e.kind with
       | .chunked _ => h.version = .h11 ∧ teOf fs ≠ [] ∧ ∀ n, ¬ AgreedLength (clOf fs) n
       | .length n => teOf fs = [] ∧ (n ≠ 0 → AgreedLength (clOf fs) n)
       | .closeDelimited => False) := by
  obtain ⟨line, bs, fs, hs, h1, h2, h3, h4, h5, h6⟩ := clientEncode_spec (U := False) hwf (by simp) hr
  refine ⟨line, bs, fs, h2, h1, h3, h4, ?_⟩
  have hte : teOf fs = hs.getAll hTE := h5 hTE
  have hcl : clOf fs = hs.getAll hCL := h5 hCL
  rw [hte, hcl]
  rcases h6.kind with ⟨ts, k1, k2⟩ | ⟨n, k1, k2⟩
  · rw [k1]; exact k2
  · rw [k1]; exact k2

/-- C24, under the assumption that the framing headers the user wrote are right (`UserRequestOk`; the
four theorems after this one show that the claim is false without it): the framing RFC 9112 gives to
the request is the one the body writer uses. -/
theorem C24_request_framing_partial (title : Bool) (h : ReqHead) (body : Option BodyLength) (dst out : Bytes)
    (e : Encoder) (hwf : RequestWf h body) (huser : UserRequestOk h.headers body)
    (hr : clientEncode title h body dst = some (out, e)) :
    ∃ line bs fs, out = dst ++ line ++ bs ++ CRLF ∧
      RequestLine h.method h.target (lineVersion h.version) line ∧
      WrittenLines bs fs ∧ (∀ f ∈ fs, WireField f) ∧
      RequestFraming (lineVersion h.version = 1) (teOf fs) (clOf fs) (framingOf e.kind) := by
  obtain ⟨line, bs, fs, hs, h1, h2, h3, h4, h5, h6⟩ := clientEncode_spec (U := True) hwf (fun _ => huser) hr
  refine ⟨line, bs, fs, h2, h1, h3, h4, ?_⟩
  have hte : teOf fs = hs.getAll hTE := h5 hTE
  have hcl : clOf fs = hs.getAll hCL := h5 hCL
  rw [hte, hcl]
  have := h6.framing trivial
  generalize framingOf e.kind = fr at this
  cases this with
  | chunked a b c => exact .chunked a (by rw [b]; decide) c
  | length n a b c => exact .length n a b c
  | none a b => exact .none a b

/-- A request of the examples. -/
def exReq (method : Bytes) (version : Version) (headers : HeaderMap) : ReqHead :=
  ⟨method, ascii "/", version, headers, none⟩

/-- C24 does not hold unconditionally: a Content-Length header on a request whose body is already at
its end is sent as it is, and no body follows. -/
theorem C24_length_without_body_announced :
    clientEncode false (exReq (ascii "POST") .h11 [(hCL, [ascii "5"])]) none [] =
      some (ascii "POST / HTTP/1.1\r\ncontent-length: 5\r\n\r\n", Encoder.length 0) := by
  decide +kernel

/-- C24 does not hold unconditionally: a Content-Length that is not a number stays beside the
Transfer-Encoding, and is announced alone for a GET. -/
theorem C24_unreadable_length_announced :
    clientEncode false (exReq (ascii "POST") .h11 [(hCL, [ascii "x"])]) (some .unknown) [] =
      some (ascii "POST / HTTP/1.1\r\ncontent-length: x\r\ntransfer-encoding: chunked\r\n\r\n",
        Encoder.chunked) ∧
    clientEncode false (exReq (ascii "GET") .h11 [(hCL, [ascii "x"])]) (some .unknown) [] =
      some (ascii "GET / HTTP/1.1\r\ncontent-length: x\r\n\r\n", Encoder.length 0) := by
  decide +kernel

/-- C24 does not hold unconditionally: as for responses, hyper's reader finds `chunked` only in plain
ASCII values. -/
theorem C24_unreadable_coding_announced :
    clientEncode false (exReq (ascii "POST") .h11 [(hTE, [[0xe9]])]) (some .unknown) [] =
      some (ascii "POST / HTTP/1.1\r\ntransfer-encoding: " ++ [0xe9] ++ ascii ", chunked\r\n\r\n",
        Encoder.chunked) ∧
    ¬ FinalChunked [[0xe9] ++ ascii ", chunked"] := by
  refine ⟨by decide +kernel, ?_⟩
  rw [← isChunkedValue_iff]
  decide +kernel

/-- C24 does not hold unconditionally: a Content-Length written as a list is honoured by the writer and
sent as it is, though hyper's own server refuses such a request. -/
theorem C24_length_list_announced :
    clientEncode false (exReq (ascii "POST") .h11 [(hCL, [ascii "5, 5"])]) (some .unknown) [] =
      some (ascii "POST / HTTP/1.1\r\ncontent-length: 5, 5\r\n\r\n", Encoder.length 5) ∧
    ∀ f, ¬ RequestFraming True [] [ascii "5, 5"] f := by
  refine ⟨by decide +kernel, ?_⟩
  intro f hf
  cases hf with
  | length n _ _ c =>
    have := (c (ascii "5, 5") (by simp)).2.1
    exact absurd this (by unfold IsDigit; decide +kernel)
  | none _ b => exact absurd b (by simp)
  | chunked a => exact a rfl

/-- A request labelled HTTP/2 is sent as HTTP/1.1, but its body of unknown length is cut to nothing. -/
theorem C24_http2_body_dropped :
    clientEncode false (exReq (ascii "POST") .h2 []) (some .unknown) [] =
      some (ascii "POST / HTTP/1.1\r\n\r\n", Encoder.length 0) := by
  decide +kernel

/-- The hypotheses of C24 are satisfiable together. -/
example : RequestWf (exReq (ascii "POST") .h11 [(hTE, [ascii "gzip"]), (hCL, [ascii "7"])]) (some .unknown) ∧
    UserRequestOk (exReq (ascii "POST") .h11 [(hTE, [ascii "gzip"]), (hCL, [ascii "7"])]).headers (some .unknown) ∧
    clientEncode true (exReq (ascii "POST") .h11 [(hTE, [ascii "gzip"]), (hCL, [ascii "7"])]) (some .unknown) [] =
      some (ascii "POST / HTTP/1.1\r\nTransfer-Encoding: gzip, chunked\r\n\r\n", Encoder.chunked) := by
  refine ⟨⟨⟨⟨by decide, by decide⟩, ?_⟩, by simp [exReq], by simp⟩, ⟨⟨7, ?_, by simp⟩, ?_⟩, by decide +kernel⟩
  · intro f hf
    have : f = (hTE, ascii "gzip") ∨ f = (hCL, ascii "7") := by
      simpa [exReq, HeaderMap.fields] using hf
    rcases this with rfl | rfl
    · exact ⟨lowerName_hTE, by decide +kernel⟩
    · exact ⟨lowerName_hCL, by decide +kernel⟩
  · intro v hv
    have : v = ascii "7" := by
      have h2 : (exReq (ascii "POST") .h11 [(hTE, [ascii "gzip"]), (hCL, [ascii "7"])]).headers.getAll hCL
          = [ascii "7"] := by decide +kernel
      rw [h2] at hv; simpa using hv
    subst this
    exact ⟨by decide, by unfold IsDigit; decide +kernel, by decide +kernel, by decide⟩
  · intro v hv
    have : v = ascii "gzip" := by
      have h2 : (exReq (ascii "POST") .h11 [(hTE, [ascii "gzip"]), (hCL, [ascii "7"])]).headers.getAll hTE
          = [ascii "gzip"] := by decide +kernel
      rw [h2] at hv; simpa using hv.symm
    subst this
    unfold Visible; decide +kernel

/-! ## C23, C11 and C51 for requests -/

/-- C23, requests.  A request that is HTTP/1.0, or that goes to a peer known to speak HTTP/1.0, never
has a Transfer-Encoding (not even one the user set), its body is never chunked, and the request
line says HTTP/1.0. -/
theorem C23_http10_request_never_chunked (title : Bool) (peer : Version) (ka : KA) (h : ReqHead)
    (body : Option BodyLength) (dst out : Bytes) (e : Encoder) (hwf : RequestWf h body)
    (hold : peer = .h10 ∨ h.version = .h10)
    (hr : clientEncode title (connReq peer ka h).2 body dst = some (out, e)) :
    e.isChunked = false ∧
    ∃ line bs fs, out = dst ++ line ++ bs ++ CRLF ∧ RequestLine h.method h.target 0 line ∧
      WrittenLines bs fs ∧ (∀ f ∈ fs, WireField f) ∧ teOf fs = [] := by
  have hv : (connReq peer ka h).2.version = .h10 := by
    show (enforceVersion peer _ h.version h.headers).2.1 = .h10
    generalize (if connectionAnyClose h.headers then KA.disabled else if ka = .disabled then .disabled else .busy) = k
    unfold enforceVersion
    rcases hold with rfl | hh
    · rfl
    · split
      · rfl
      · split <;> exact hh
      · exact hh
  obtain ⟨line, bs, fs, hs, h1, h2, h3, h4, h5, h6⟩ :=
    clientEncode_spec (U := False) (connReq_wf hwf peer ka) (by simp) hr
  rw [hv] at h1
  have hte : teOf fs = hs.getAll hTE := h5 hTE
  rcases h6.kind with ⟨ts, _, k2, _⟩ | ⟨n, k1, k2, _⟩
  · rw [hv] at k2; simp at k2
  · exact ⟨by simp [Encoder.isChunked, k1], line, bs, fs, h2, h1, h3, h4, hte.trans k2⟩

example : clientEncode false (connReq .h10 .busy (exReq (ascii "POST") .h11 [(hTE, [ascii "chunked"])])).2
    (some .unknown) [] =
    some (ascii "POST / HTTP/1.0\r\nconnection: keep-alive\r\n\r\n", Encoder.length 0) := by
  decide +kernel

/-- C11, requests: the trailer names the writer lets through are exactly the valid names listed in the
Trailer field of the head. -/
theorem C11_declared_in_request_head (title : Bool) (h : ReqHead) (body : Option BodyLength) (dst out : Bytes)
    (e : Encoder) (hwf : RequestWf h body) (hr : clientEncode title h body dst = some (out, e)) :
    ∃ line bs fs, out = dst ++ line ++ bs ++ CRLF ∧ WrittenLines bs fs ∧ (∀ f ∈ fs, WireField f) ∧
      (∀ names, e.kind = .chunked (some names) → ∀ n ∈ names, Lists (valuesOf hTRAILER fs) n) ∧
      (∀ ts, e.kind = .chunked ts → ∀ v ∈ h.headers.getAll hTRAILER, ∀ n ∈ trailerNames v, n ∈ ts.getD []) := by
  obtain ⟨line, bs, fs, hs, h1, h2, h3, h4, h5, h6⟩ := clientEncode_spec (U := False) hwf (by simp) hr
  refine ⟨line, bs, fs, h2, h3, h4, ?_, ?_⟩
  · intro names hk n hn
    have := h6.trailers _ hk
    simp only [Option.getD_some] at this
    subst this
    obtain ⟨v, hv, hn⟩ := List.mem_flatMap.mp hn
    obtain ⟨x, t, g⟩ := trailerNames_lists hn
    refine ⟨v, ?_, x, t, g⟩
    rw [h5, h6.other _ (by decide) (by decide)]
    exact hv
  · intro ts hk v hv n hn
    rw [h6.trailers _ hk]
    exact List.mem_flatMap.mpr ⟨v, hv, hn⟩

example : clientEncode false (exReq (ascii "POST") .h11 [(hTRAILER, [ascii "X-A"])]) (some .unknown) [] =
    some (ascii "POST / HTTP/1.1\r\ntrailer: X-A\r\ntransfer-encoding: chunked\r\n\r\n",
      ⟨.chunked (some [ascii "x-a"]), false⟩) := by decide +kernel

/-- C51, requests: every header other than the framing ones is sent with exactly the values the user
gave, in order. -/
theorem C51_request_fields_sent (title : Bool) (h : ReqHead) (body : Option BodyLength) (dst out : Bytes)
    (e : Encoder) (hwf : RequestWf h body) (hr : clientEncode title h body dst = some (out, e)) :
    ∃ line bs fs, out = dst ++ line ++ bs ++ CRLF ∧
      RequestLine h.method h.target (lineVersion h.version) line ∧
      WrittenLines bs fs ∧ (∀ f ∈ fs, WireField f) ∧
      (∀ k, k ∉ [hCL, hTE] → valuesOf k fs = h.headers.getAll k) := by
  obtain ⟨line, bs, fs, hs, h1, h2, h3, h4, h5, h6⟩ := clientEncode_spec (U := False) hwf (by simp) hr
  refine ⟨line, bs, fs, h2, h1, h3, h4, ?_⟩
  intro k hk
  simp only [List.mem_cons, List.not_mem_nil, or_false, not_or] at hk
  rw [h5, h6.other k hk.2 hk.1]

example : clientEncode true { exReq (ascii "GET") .h11 [(ascii "x-a", [ascii "1", []]), (ascii "b", [[]])] with
      caseMap := some [(ascii "x-a", [ascii "x-A"])] } none [] =
    some (ascii "GET / HTTP/1.1\r\nx-A: 1\r\nX-A:\r\nB:\r\n\r\n", Encoder.length 0) := by
  decide +kernel

end Hyper
