import Verif.Spec.Forward
import Verif.Proof.ClosedLoop
import Verif.Props.EndToEnd

/-! # Handing a received message on: lemmas -/

namespace Hyper

open Spec Wire

theorem wf_append {m : HeaderMap} (h : m.Wf) (n v : Bytes) : (m.append n v).Wf := by
  refine ⟨?_, full_append h.nonempty n v⟩
  have hk : ∀ m : HeaderMap, (m.append n v).map Prod.fst = if n ∈ m.map Prod.fst then m.map Prod.fst else m.map Prod.fst ++ [n] := by
    intro m
    induction m with
    | nil => simp [HeaderMap.append]
    | cons g m ih =>
      obtain ⟨g1, g2⟩ := g
      simp only [HeaderMap.append]
      by_cases hg : g1 = n
      · rw [if_pos hg, if_pos (by simp [hg])]; rfl
      · rw [if_neg hg]
        simp only [List.map_cons, ih, List.mem_cons]
        have hng : ¬ n = g1 := fun e => hg e.symm
        by_cases hm : n ∈ m.map Prod.fst
        · rw [if_pos hm, if_pos (Or.inr hm)]
        · rw [if_neg hm, if_neg (by simp only [hng, false_or]; exact hm)]; rfl
  rw [hk]
  split
  · exact h.nodup
  · rename_i hn
    rw [List.nodup_append]
    refine ⟨h.nodup, by simp, ?_⟩
    intro a ha b hb e
    simp only [List.mem_singleton] at hb
    exact hn (hb ▸ e ▸ ha)

theorem mem_fields_append (m : HeaderMap) (n v : Bytes) : ∀ f ∈ (m.append n v).fields, f = (n, v) ∨ f ∈ m.fields := by
  induction m with
  | nil => intro f hf; simp [HeaderMap.append, HeaderMap.fields] at hf; exact .inl hf
  | cons g m ih =>
    obtain ⟨g1, g2⟩ := g
    intro f hf
    have hc : ∀ (x : Bytes × List Bytes) (xs : HeaderMap), HeaderMap.fields (x :: xs) = x.2.map (fun v => (x.1, v)) ++ HeaderMap.fields xs := fun _ _ => rfl
    simp only [HeaderMap.append] at hf
    rw [hc, List.mem_append]
    split at hf
    · rename_i hg
      rw [hc, List.map_append, List.mem_append, List.mem_append] at hf
      rcases hf with (hf | hf) | hf
      · exact .inr (.inl hf)
      · simp only [List.map_cons, List.map_nil, List.mem_singleton] at hf
        exact .inl (by rw [hf, hg])
      · exact .inr (.inr hf)
    · rw [hc, List.mem_append] at hf
      rcases hf with hf | hf
      · exact .inr (.inl hf)
      · rcases ih f hf with h | h
        · exact .inl h
        · exact .inr (.inr h)

theorem mem_fields_remove {m : HeaderMap} {n : Bytes} : ∀ f ∈ (m.remove n).fields, f ∈ m.fields := by
  intro f hf
  simp only [HeaderMap.fields, HeaderMap.remove, List.mem_flatMap, List.mem_filter] at hf ⊢
  obtain ⟨g, hg, hf⟩ := hf
  exact ⟨g, hg.1, hf⟩

theorem spellings_append {m : HeaderMap} (h : SpellingsOf m) {n v : Bytes} (hv : v.map foldCase = n) : SpellingsOf (m.append n v) := by
  induction m with
  | nil =>
    intro g hg w hw
    simp only [HeaderMap.append, List.mem_singleton] at hg
    subst hg
    simp only [List.mem_singleton] at hw
    rw [hw, hv]
  | cons g m ih =>
    obtain ⟨g1, g2⟩ := g
    simp only [HeaderMap.append]
    split
    · rename_i hg
      intro x hx w hw
      rcases List.mem_cons.mp hx with rfl | hx
      · rcases List.mem_append.mp hw with hw | hw
        · exact h (g1, g2) (by simp) w hw
        · simp only [List.mem_singleton] at hw; rw [hw, hv, hg]
      · exact h x (List.mem_cons_of_mem _ hx) w hw
    · intro x hx w hw
      rcases List.mem_cons.mp hx with rfl | hx
      · exact h (g1, g2) (by simp) w hw
      · exact ih (fun y hy => h y (List.mem_cons_of_mem _ hy)) x hx w hw

theorem lowered_byte : ∀ b : Byte, isTchar b = true → isTchar (foldCase b) = true ∧ ¬ (65 ≤ foldCase b ∧ foldCase b ≤ 90) := by
  apply byte_forall; decide +kernel

theorem headerName_lower {n m : Bytes} (h : headerName n = some m) : LowerName m ∧ m.length < 2 ^ 16 ∧ n.map foldCase = m := by
  have hm := headerName_some h
  unfold headerName at h
  split at h
  · rename_i hc
    have ht := List.all_eq_true.mp hc.2.1
    refine ⟨⟨?_, ?_, ?_⟩, ?_, hm.symm⟩
    · rw [hm]; simpa using hc.1
    · intro b hb
      rw [hm] at hb
      obtain ⟨a, ha, rfl⟩ := List.mem_map.mp hb
      exact (lowered_byte a (ht a ha)).1
    · intro b hb
      rw [hm] at hb
      obtain ⟨a, ha, rfl⟩ := List.mem_map.mp hb
      exact (lowered_byte a (ht a ha)).2
    · rw [hm]; simpa using hc.2.2
  · cases h

/-- What holds of the headers while fields are added to them. -/
structure Sound (hs : HeaderMap) (cm : Option HeaderMap) : Prop where
  map : MapOk hs
  short : ShortNames hs
  cases : ∀ m, cm = some m → SpellingsOf m

theorem Sound.empty (b : Bool) : Sound [] (if b then some [] else none) := by
  refine ⟨⟨⟨by simp, by intro g hg; simp at hg⟩, by intro f hf; simp [HeaderMap.fields] at hf⟩, by intro f hf; simp [HeaderMap.fields] at hf, ?_⟩
  intro m h g hg
  cases b with
  | false => simp at h
  | true => simp only [if_true, Option.some.injEq] at h; subst h; simp at hg

theorem Sound.add {hs : HeaderMap} {cm : Option HeaderMap} (h : Sound hs cm) {raw n v : Bytes} (hn : headerName raw = some n)
    (hv : ∀ b ∈ v, isValueByte b = true) : Sound (hs.append n v) (cm.map (fun m => m.append n raw)) := by
  obtain ⟨l1, l2, l3⟩ := headerName_lower hn
  refine ⟨⟨wf_append h.map.wf n v, ?_⟩, ?_, ?_⟩
  · intro f hf
    rcases mem_fields_append hs n v f hf with rfl | hf
    · exact ⟨l1, hv⟩
    · exact h.map.fields f hf
  · intro f hf
    rcases mem_fields_append hs n v f hf with rfl | hf
    · exact l2
    · exact h.short f hf
  · intro m hm
    cases hc : cm with
    | none => rw [hc] at hm; simp at hm
    | some m0 =>
      rw [hc] at hm
      simp only [Option.map_some, Option.some.injEq] at hm
      subst hm
      exact spellings_append (h.cases m0 hc) l3

theorem Sound.drop {hs : HeaderMap} {cm : Option HeaderMap} (h : Sound hs cm) (n : Bytes) : Sound (hs.remove n) cm :=
  ⟨h.map.remove n, fun f hf => h.short f (mem_fields_remove f hf), h.cases⟩

/-! ## Requests -/

theorem ReqSt.step_sound {http11 : Bool} {s s' : ReqSt} {f : Bytes × Bytes} (h : Sound s.headers s.caseMap) (hv : ∀ b ∈ f.2, isValueByte b = true)
    (hs : s.step http11 f = .ok s') : Sound s'.headers s'.caseMap := by
  unfold ReqSt.step at hs
  split at hs
  · cases hs
  rename_i name hn
  have push : ∀ t : ReqSt, Sound t.headers t.caseMap → Sound (t.push f.1 name f.2).headers (t.push f.1 name f.2).caseMap :=
    fun t ht => ht.add hn hv
  split at hs
  · split at hs
    · cases hs
    · rename_i t ht
      cases hs
      apply push
      unfold ReqSt.onTe at ht
      split at ht
      · cases ht
      · have hd := h.drop hCL
        dsimp only at ht
        repeat' split at ht
        all_goals (cases ht; first | exact h | exact hd)
  · split at hs
    · split at hs
      · cases hs
      · rename_i t ht
        cases hs
        apply push
        unfold ReqSt.onCl at ht
        dsimp only at ht
        repeat' split at ht
        all_goals (cases ht; try exact h)
      · rename_i t ht
        cases hs
        unfold ReqSt.onCl at ht
        dsimp only at ht
        repeat' split at ht
        all_goals (cases ht; try exact h)
    · repeat' split at hs
      all_goals (cases hs; exact push _ h)

theorem ReqSt.run_sound {http11 : Bool} : ∀ {fs : List (Bytes × Bytes)} {s s' : ReqSt}, Sound s.headers s.caseMap →
    (∀ f ∈ fs, ∀ b ∈ f.2, isValueByte b = true) → s.run http11 fs = .ok s' → Sound s'.headers s'.caseMap
  | [], s, s', h, _, hs => by simp only [ReqSt.run, Except.ok.injEq] at hs; subst hs; exact h
  | f :: fs, s, s', h, hv, hs => by
    simp only [ReqSt.run] at hs
    split at hs
    · cases hs
    · rename_i t ht
      exact ReqSt.run_sound (ReqSt.step_sound h (hv f (by simp)) ht) (fun g hg => hv g (List.mem_cons_of_mem _ hg)) hs

/-- The checks of the request line. -/
theorem serverParse_line {mo uo : Bytes → Bool} {pc : Bool} {r : RawRequest} {m : RequestMsg} (hm : serverParse mo uo pc r = .ok m) :
    mo r.method = true ∧ uo r.target = true := by
  unfold serverParse at hm
  split at hm
  · cases hm
  split at hm
  · cases hm
  rename_i h1
  split at hm
  · cases hm
  split at hm
  · cases hm
  rename_i h2
  exact ⟨by simpa using h1, by simpa using h2⟩

/-- What a request that was accepted says of its framing. -/
theorem accepted_cases {mo uo : Bytes → Bool} {pc : Bool} {r : RawRequest} {m : RequestMsg} (hm : serverParse mo uo pc r = .ok m) :
    (m.decode = DecodedLength.CHUNKED ∧ m.version = .h11 ∧ m.headers.getAll hTE ≠ [] ∧ isChunked (m.headers.getAll hTE) = true ∧ m.headers.getAll hCL = []) ∨
    (m.decode = DecodedLength.ZERO ∧ m.headers.getAll hTE = [] ∧ m.headers.getAll hCL = []) ∨
    (∃ n v, m.decode = ⟨n⟩ ∧ n ≤ 2 ^ 64 - 3 ∧ m.headers.getAll hTE = [] ∧ m.headers.getAll hCL = [v] ∧ IsLength v n) := by
  obtain ⟨s, hs, hte, rfl⟩ := serverParse_ok hm
  have h := reqInv_run pc r s hs
  have hne : hTE ≠ hCL := by decide
  have ote : s.headers.getAll hTE = teOf r.fields := h.others hTE hne
  by_cases ht : teOf r.fields = []
  · by_cases hc : clOf r.fields = []
    · obtain ⟨_, c2, c3⟩ := h.clNone ht hc
      exact .inr (.inl ⟨c2, ote.trans ht, c3⟩)
    · obtain ⟨n, c1, c2, c3, c4, c5⟩ := h.clSome ht hc
      obtain ⟨v, vs, hv⟩ := List.exists_cons_of_ne_nil hc
      refine .inr (.inr ⟨n, v, c2, c3, ote.trans ht, ?_, c4 v (by rw [hv]; simp)⟩)
      show s.headers.getAll hCL = [v]
      rw [c5, hv]; rfl
  · have hch := hte (h.isTe.mpr ht)
    refine .inl ⟨h.teDecoder hch, ?_, ?_, ?_, (h.teNoCl ht).1⟩
    · show (if r.http11 = true then Version.h11 else .h10) = .h11
      rw [if_pos (h.te11 ht)]
    · show s.headers.getAll hTE ≠ []
      rw [ote]; exact ht
    · show isChunked (s.headers.getAll hTE) = true
      rw [ote, ← h.teChunked ht]; exact hch

theorem forwardBody_chunked : forwardBody DecodedLength.CHUNKED = some .unknown := by decide
theorem forwardBody_close : forwardBody DecodedLength.CLOSE_DELIMITED = some .unknown := by decide
theorem forwardBody_zero : forwardBody DecodedLength.ZERO = none := by decide
theorem forwardBody_length {n : Nat} (h : n ≤ 2 ^ 64 - 3) : forwardBody ⟨n⟩ = if n = 0 then none else some (.known n) := by
  by_cases h0 : n = 0
  · subst h0; decide
  · rw [if_neg h0]
    have h1 : (⟨n⟩ : DecodedLength) ≠ DecodedLength.ZERO := by
      simp only [DecodedLength.ZERO, ne_eq, DecodedLength.mk.injEq]; exact h0
    have h2 : (⟨n⟩ : DecodedLength) ≠ DecodedLength.CHUNKED := by
      simp only [DecodedLength.CHUNKED, u64Max, ne_eq, DecodedLength.mk.injEq]; omega
    have h3 : (⟨n⟩ : DecodedLength) ≠ DecodedLength.CLOSE_DELIMITED := by
      simp only [DecodedLength.CLOSE_DELIMITED, u64Max, ne_eq, DecodedLength.mk.injEq]; omega
    simp [forwardBody, h1, ChanBody.isEndStream, ChanBody.sizeHint, optLen, DecodedLength.intoOpt, h2, h3]

theorem ofLength_chunked (mh ms : Option Nat) : Decoder.ofLength DecodedLength.CHUNKED mh ms = readerFor mh ms .chunked := rfl
theorem ofLength_length {n : Nat} (h : n ≤ 2 ^ 64 - 3) (mh ms : Option Nat) : Decoder.ofLength ⟨n⟩ mh ms = readerFor mh ms (.length n) := by
  unfold Decoder.ofLength
  rw [if_neg, if_neg]
  · rfl
  · simp only [DecodedLength.CLOSE_DELIMITED, DecodedLength.mk.injEq, u64Max]; omega
  · simp only [DecodedLength.CHUNKED, DecodedLength.mk.injEq, u64Max]; omega

/-- Handing a request on leaves its headers as they are and gives a writer with the framing of the reader. -/
theorem forward_setLength {mo uo : Bytes → Bool} {pc : Bool} {r : RawRequest} {m : RequestMsg} (hm : serverParse mo uo pc r = .ok m)
    (hok : MapOk m.headers) :
    (∀ k, (setLength m.method m.version m.headers (forwardBody m.decode)).1.getAll k = m.headers.getAll k) ∧
    (∀ mh ms, Decoder.ofLength m.decode mh ms = readerFor mh ms (framingOf (setLength m.method m.version m.headers (forwardBody m.decode)).2.kind)) := by
  have hrm : m.headers.getAll hTE = [] → ∀ k, (m.headers.remove hTE).getAll k = m.headers.getAll k := by
    intro h k
    rw [getAll_remove]
    split
    · rename_i e; rw [e, h]
    · rfl
  rcases accepted_cases hm with ⟨d, v, t, c, l⟩ | ⟨d, t, l⟩ | ⟨n, w, d, hn, t, l, hw⟩
  · rw [d, forwardBody_chunked]
    have hpa : contentLengthParseAll m.headers = none := by
      cases hp : contentLengthParseAll m.headers with
      | none => rfl
      | some k => exact absurd l ((contentLengthParseAllValues_iff _ k).mp hp).1
    have hct : m.headers.contains hTE = true := (contains_iff hok.wf.nonempty hTE).mpr t
    obtain ⟨ts, t1, _⟩ := withTrailers_spec m.headers
    have he : setLength m.method m.version m.headers (some .unknown) = (m.headers, withTrailers m.headers Encoder.chunked) := by
      unfold setLength
      simp [v, hct, c, hpa]
    rw [he]
    refine ⟨fun _ => rfl, fun mh ms => ?_⟩
    show _ = readerFor mh ms (framingOf (withTrailers m.headers Encoder.chunked).kind)
    rw [t1]; rfl
  · rw [d, forwardBody_zero]
    exact ⟨hrm t, fun mh ms => rfl⟩
  · rw [d, forwardBody_length hn]
    by_cases h0 : n = 0
    · rw [if_pos h0]
      refine ⟨hrm t, fun mh ms => ?_⟩
      rw [ofLength_length hn, h0]; rfl
    · rw [if_neg h0]
      have hpa : contentLengthParseAll m.headers = some n := by
        refine (contentLengthParseAllValues_iff _ n).mpr ?_
        show AgreedLength (m.headers.getAll hCL) n
        rw [l]; exact agreed_single hw
      have hct : m.headers.contains hTE = false := (contains_false_iff hok.wf.nonempty hTE).mpr t
      by_cases hv : m.version = .h11
      · have he : setLength m.method m.version m.headers (some (.known n)) = (m.headers, Encoder.length n) := by
          unfold setLength
          simp [hv, hct, hpa]
        rw [he]
        exact ⟨fun _ => rfl, fun mh ms => ofLength_length hn mh ms⟩
      · have he : setLength m.method m.version m.headers (some (.known n)) = (m.headers.remove hTE, Encoder.length n) := by
          unfold setLength
          simp [hv, hpa]
        rw [he]
        exact ⟨hrm t, fun mh ms => ofLength_length hn mh ms⟩

theorem forward_requestOk {mo uo : Bytes → Bool} {pc : Bool} {r : RawRequest} {m : RequestMsg} (hm : serverParse mo uo pc r = .ok m) (ht : RequestTokens r)
    {shown : Bytes → Bytes} (hshown : TargetOk uo (shown r.target)) : RequestOk mo uo (forwardRequest shown m) (forwardBody m.decode) := by
  have hl := serverParse_line hm
  have hc := accepted_cases hm
  obtain ⟨s, hs, hte, he⟩ := serverParse_ok hm
  have hsound : Sound s.headers s.caseMap := ReqSt.run_sound (Sound.empty pc) ht.values hs
  have e1 : m.method = r.method := by rw [he]
  have e2 : m.target = r.target := by rw [he]
  have e3 : m.headers = s.headers := by rw [he]
  have e4 : m.caseMap = s.caseMap := by rw [he]
  have e5 : m.version = if r.http11 then .h11 else .h10 := by rw [he]
  rw [← e3, ← e4] at hsound
  refine ⟨⟨hsound.map, hsound.cases, ?_⟩, ⟨?_, ?_, ?_, ?_, ?_, ?_⟩, hsound.short, ?_, ?_, ?_, ?_⟩
  · intro n hn
    rcases hc with ⟨d, _⟩ | ⟨d, _⟩ | ⟨k, v, d, hk, _⟩
    · rw [d, forwardBody_chunked] at hn; cases hn
    · rw [d, forwardBody_zero] at hn; cases hn
    · rw [d, forwardBody_length hk] at hn
      split at hn
      · cases hn
      · cases hn; omega
  · show m.method ≠ []
    rw [e1]; exact ht.method_ne
  · show ∀ b ∈ m.method, _
    rw [e1]; exact ht.method
  · show shown m.target ≠ []
    rw [e2]; exact hshown.ne
  · show ∀ b ∈ shown m.target, _
    rw [e2]; exact hshown.bytes
  · show (shown m.target).length ≤ _
    rw [e2]; exact hshown.short
  · show Utf8 (shown m.target)
    rw [e2]; exact hshown.utf8
  · show UserRequestOk m.headers _
    rcases hc with ⟨d, _, t, c, l⟩ | ⟨d, t, l⟩ | ⟨k, v, d, hk, t, l, hv⟩
    · refine ⟨⟨0, by rw [l]; simp, fun _ => rfl⟩, ?_⟩
      intro v hv
      rw [isChunked_iff] at c
      obtain ⟨vs, w, e, t', h1, h2⟩ := c
      rw [h1] at hv
      simp only [List.getLast?_append, List.getLast?_singleton, Option.some_or, Option.some.injEq] at hv
      subst hv
      exact h2.1
    · refine ⟨⟨0, by rw [l]; simp, fun _ => rfl⟩, ?_⟩
      intro v hv; rw [t] at hv; simp at hv
    · refine ⟨⟨k, by rw [l]; simpa using hv, ?_⟩, ?_⟩
      · intro hb
        rw [d, forwardBody_length hk] at hb
        split at hb
        · rename_i h0; exact h0
        · cases hb
      · intro v hv; rw [t] at hv; simp at hv
  · show m.version = .h10 ∨ m.version = .h11
    rw [e5]; cases r.http11 <;> simp
  · show mo m.method = true
    rw [e1]; exact hl.1
  · show uo (shown m.target) = true
    rw [e2]; exact hshown.again

/-! ## What a connection has read came out of its parser -/

theorem parseLoop_msg {α : Type} (p : Bytes → Except ParseErr (Option α) × Bytes) : ∀ (n : Nat) (x : Inlet) (m : α), (x.parseLoop p n).1 = .msg m →
    ∃ buf, (p buf).1 = .ok (some m)
  | 0, x, m, h => by simp [Inlet.parseLoop] at h
  | n + 1, x, m, h => by
    have hat : ∀ b, x.attempt p = (.ok (some m), b) → ∃ buf, (p buf).1 = .ok (some m) := by
      intro b hb
      unfold Inlet.attempt at hb
      repeat' split at hb
      all_goals first
        | (exact ⟨_, by rw [hb]⟩)
        | (simp at hb; done)
    simp only [Inlet.parseLoop] at h
    split at h
    · rename_i m' b hb
      simp only [ParseOut.msg.injEq] at h
      subst h
      exact hat b hb
    · cases h
    · split at h
      · cases h
      · split at h
        · cases h
        · cases h
        · cases h
        · exact parseLoop_msg p n _ m h

theorem mem_onLast {β : Type} (g : β → β) : ∀ (l : List β) (x : β), x ∈ onLast g l → x ∈ l ∨ ∃ y ∈ l, x = g y
  | [], x, h => by simp [onLast] at h
  | [a], x, h => by simp only [onLast, List.mem_singleton] at h; exact .inr ⟨a, by simp, h⟩
  | a :: b :: t, x, h => by
    simp only [onLast, List.mem_cons] at h
    rcases h with rfl | h
    · exact .inl (by simp)
    · rcases mem_onLast g (b :: t) x h with h | ⟨y, hy, e⟩
      · exact .inl (List.mem_cons_of_mem _ h)
      · exact .inr ⟨y, List.mem_cons_of_mem _ hy, e⟩

/-- Every head a connection has read came out of the parser. -/
theorem got_parsed {α : Type} (env : EncodeEnv) (P : TrailerParser) (H : HeadFn α) (as : List FAct) : ∀ (f : Fed α),
    (∀ r ∈ f.got, ∃ buf, (H.parse r.method buf).1 = .ok (some r.head)) → ∀ r ∈ (f.run env P H as).got, ∃ buf, (H.parse r.method buf).1 = .ok (some r.head) := by
  induction as with
  | nil => intro f h; exact h
  | cons a as ih =>
    intro f h
    refine ih (f.step env P H a) ?_
    intro r hr
    cases a with
    | pull => exact h r hr
    | act a =>
      cases a with
      | read i =>
        simp only [Fed.step, Fed.read] at hr
        split at hr
        · simp only [Fed.begin] at hr
          split at hr
          · rename_i m hm
            rcases List.mem_append.mp hr with hr | hr
            · exact h r hr
            · simp only [List.mem_singleton] at hr
              subst hr
              obtain ⟨buf, hb⟩ := parseLoop_msg _ _ _ _ hm
              exact ⟨buf, hb⟩
          · exact h r hr
        · split at hr
          · rcases mem_onLast _ _ _ hr with hr | ⟨y, hy, e⟩
            · exact h r hr
            · have : r.head = y.head ∧ r.method = y.method := by
                rw [e]; unfold Received.add; split <;> exact ⟨rfl, rfl⟩
              rw [this.1, this.2]; exact h y hy
          · exact h r hr
      | _ => exact h r hr

/-! ## Responses -/

theorem respLoop_sound : ∀ (fs : List (Bytes × Bytes)) (ka : Bool) (hs : HeaderMap) (cm : Option HeaderMap) (ka' : Bool) (hs' : HeaderMap) (cm' : Option HeaderMap),
    Sound hs cm → (∀ f ∈ fs, ∀ b ∈ f.2, isValueByte b = true) → respLoop ka hs cm fs = .ok (ka', hs', cm') → Sound hs' cm'
  | [], ka, hs, cm, ka', hs', cm', h, _, hr => by
    simp only [respLoop, Except.ok.injEq, Prod.mk.injEq] at hr
    obtain ⟨_, rfl, rfl⟩ := hr
    exact h
  | f :: fs, ka, hs, cm, ka', hs', cm', h, hv, hr => by
    simp only [respLoop] at hr
    cases hn : headerName f.1 with
    | none => rw [hn] at hr; simp at hr
    | some name =>
      rw [hn] at hr
      exact respLoop_sound fs _ _ _ _ _ _ (h.add hn (hv f (by simp))) (fun g hg => hv g (by simp [hg])) hr

theorem clientHead_sound {cfg : ClientCfg} {r : RawResponse} {head : RespHead} {ka : Bool} (h : clientHead cfg r = .ok (head, ka)) (ht : ResponseTokens cfg r) :
    Sound head.headers head.caseMap ∧ ∀ x, head.reason = some x → ∀ b ∈ x, isValueByte b = true := by
  unfold clientHead at h
  split at h
  · simp at h
  · split at h
    · simp at h
    · simp only at h
      split at h
      · simp at h
      · rename_i ka' hs cm hl
        simp only [Except.ok.injEq, Prod.mk.injEq] at h
        obtain ⟨rfl, _⟩ := h
        refine ⟨respLoop_sound _ _ _ _ _ _ _ (Sound.empty _) ht.values hl, ?_⟩
        intro x hx
        simp only at hx
        split at hx
        · cases hx; exact ht.reason
        · cases hx

/-- A response the client's parser delivers, HTTP/0.9 aside, is a head it read and a framing it found. -/
theorem clientParse_msg {cfg : ClientCfg} (h09 : cfg.h09 = false) {H : Bytes → RespParse} {method : Option Bytes} : ∀ (fuel : Nat) (buf : Bytes) (inf : List RespHead) (m : ResponseMsg),
    (clientParse cfg H method fuel buf inf).res = .ok (some m) →
    ∃ buf' len r ka up, H buf' = .complete len r ∧ clientHead cfg r = .ok (m.head, ka) ∧ clientDecoder m.head method = .ok (some (m.decode, up))
  | 0, buf, inf, m, h => by simp [clientParse] at h
  | fuel + 1, buf, inf, m, h => by
    simp only [clientParse] at h
    split at h
    · simp at h
    · simp at h
    · rw [h09] at h; simp at h
    · rename_i len r hH
      split at h
      · simp at h
      · rename_i head ka hh
        split at h
        · simp at h
        · rename_i d up hd
          simp only [Except.ok.injEq, Option.some.injEq] at h
          subst h
          exact ⟨buf, len, r, ka, up, hH, hh, hd⟩
        · split at h
          · simp at h
          · exact clientParse_msg h09 fuel _ _ m h

/-- How a response the client accepted is framed. -/
theorem delivered_cases {cfg : ClientCfg} {r : RawResponse} {head : RespHead} {ka up : Bool} {method : Option Bytes} {d : DecodedLength} (h : clientHead cfg r = .ok (head, ka))
    (hd : clientDecoder head method = .ok (some (d, up))) :
    (200 ≤ head.status ∧ head.status ≤ 999 ∨ head.status = 101) ∧
    ((NoBody method head.status ∧ d = DecodedLength.ZERO) ∨
      (¬ NoBody method head.status ∧ (d = DecodedLength.CHUNKED ∨ d = DecodedLength.CLOSE_DELIMITED) ∧ (head.headers.getAll hTE ≠ [] ∨ head.headers.getAll hCL = [])) ∨
      (¬ NoBody method head.status ∧ ∃ n, d = ⟨n⟩ ∧ n ≤ 2 ^ 64 - 3 ∧ head.headers.getAll hTE = [] ∧ AgreedLength (head.headers.getAll hCL) n)) := by
  obtain ⟨hf, hst, _, _, _, h1, h2, _⟩ := clientHead_ok h
  have hfin : head.status ≠ 100 ∧ ¬ (102 ≤ head.status ∧ head.status ≤ 199) := by
    constructor
    · intro e
      unfold clientDecoder at hd
      simp only at hd
      rw [if_neg (by omega), if_pos (by omega)] at hd
      cases hd
    · intro e
      unfold clientDecoder at hd
      simp only at hd
      rw [if_neg (by omega), if_pos (by omega)] at hd
      cases hd
  refine ⟨by omega, ?_⟩
  rcases clientDecoder_spec head method hf hfin with ⟨fr, hfr, hn, up', hd', _⟩ | ⟨_, e, he⟩
  · rw [hd'] at hd
    simp only [Except.ok.injEq, Option.some.injEq, Prod.mk.injEq] at hd
    obtain ⟨rfl, _⟩ := hd
    cases hfr with
    | noBody b => exact .inl ⟨b, rfl⟩
    | chunked b1 b2 b3 b4 => exact .inr (.inl ⟨b1, .inl rfl, .inl b2⟩)
    | otherCoding b1 b2 b3 b4 => exact .inr (.inl ⟨b1, .inr rfl, .inl b2⟩)
    | length n b1 b2 b3 => exact .inr (.inr ⟨b1, n, rfl, hn n rfl, b2, b3⟩)
    | untilClose b1 b2 b3 => exact .inr (.inl ⟨b1, .inr rfl, .inr b3⟩)
  · rw [he] at hd; cases hd

theorem forward_responseOk {cfg : ClientCfg} {r : RawResponse} {head : RespHead} {ka up : Bool} {method : Bytes} {d : DecodedLength} (h : clientHead cfg r = .ok (head, ka))
    (hd : clientDecoder head (some method) = .ok (some (d, up))) (ht : ResponseTokens cfg r) (env : EncodeEnv)
    (hte : ∀ v ∈ head.headers.getAll hTE, ¬ NoBody (some method) head.status → ∀ b ∈ v, Visible b) : ResponseOk env method ⟨head, forwardBody d⟩ := by
  obtain ⟨hs, hre⟩ := clientHead_sound h ht
  obtain ⟨hst, hc⟩ := delivered_cases h hd
  refine ⟨hs.map, hs.cases, ?_, hre, hs.short, ?_, hte, hst⟩
  · intro n hn
    simp only at hn
    rcases hc with ⟨_, rfl⟩ | ⟨_, rfl | rfl, _⟩ | ⟨_, k, rfl, hk, _⟩
    · rw [forwardBody_zero] at hn; cases hn
    · rw [forwardBody_chunked] at hn; cases hn
    · rw [forwardBody_close] at hn; cases hn
    · rw [forwardBody_length hk] at hn
      split at hn
      · cases hn
      · cases hn; omega
  · intro v hv k hk hnb
    simp only at hk
    rcases hc with ⟨_, rfl⟩ | ⟨_, rfl | rfl, _⟩ | ⟨_, n, rfl, hn, _, hag⟩
    · rw [forwardBody_zero] at hk; cases hk
    · rw [forwardBody_chunked] at hk; cases hk
    · rw [forwardBody_close] at hk; cases hk
    · rw [forwardBody_length hn] at hk
      split at hk
      · cases hk
      · cases hk
        exact ⟨by simp, by simpa using hag.2 v hv⟩

/-! ### The loop of the response's headers -/

theorem joinLine_keeps (s : HSt) (lit n v : Bytes) : (s.joinLine lit n v).wroteLen = s.wroteLen ∧ (s.joinLine lit n v).encoder = s.encoder ∧
    (s.joinLine lit n v).curName = s.curName ∧ (s.joinLine lit n v).isNameWritten = true := by
  unfold HSt.joinLine HSt.openLine
  cases h : s.isNameWritten
  · exact ⟨rfl, rfl, rfl, rfl⟩
  · exact ⟨rfl, rfl, rfl, rfl⟩

/-- Fields other than the two of framing leave framing alone and are never refused. -/
theorem other_arm (m : EncodeMsg) (s : HSt) {n : Bytes} (v : Bytes) (h1 : n ≠ hCL) (h2 : n ≠ hTE) :
    ∃ s', harm m s n v = .ok s' ∧ s'.wroteLen = s.wroteLen ∧ s'.encoder = s.encoder ∧ s'.curName = s.curName := by
  unfold harm
  rw [if_neg h1, if_neg h2]
  split
  · refine ⟨_, rfl, ?_⟩
    unfold connArm
    simp only
    split <;> exact ⟨(joinLine_keeps _ _ _ _).1, (joinLine_keeps _ _ _ _).2.1, (joinLine_keeps _ _ _ _).2.2.1⟩
  · split
    · exact ⟨_, rfl, rfl, rfl, rfl⟩
    · split
      · refine ⟨_, rfl, ?_⟩
        unfold trailerArm
        split
        · exact ⟨rfl, rfl, rfl⟩
        · simp only
          split
          · split <;> exact ⟨(joinLine_keeps _ _ _ _).1, (joinLine_keeps _ _ _ _).2.1, (joinLine_keeps _ _ _ _).2.2.1⟩
          · exact ⟨(joinLine_keeps _ _ _ _).1, (joinLine_keeps _ _ _ _).2.1, (joinLine_keeps _ _ _ _).2.2.1⟩
      · exact ⟨_, rfl, rfl, rfl, rfl⟩

theorem enter_keeps (s : HSt) (n : Bytes) : (s.enter (some n)).wroteLen = s.wroteLen ∧ (s.enter (some n)).encoder = s.encoder ∧
    (s.enter (some n)).curName = some n ∧ (s.enter (some n)).isNameWritten = false := by
  unfold HSt.enter HSt.handle
  dsimp only
  split <;> exact ⟨rfl, rfl, rfl, rfl⟩

/-- The further values of a group. -/
theorem values_ok (m : EncodeMsg) (n : Bytes) (W : HSt → Prop) (hW : ∀ s v, W s → ∃ s', harm m s n v = .ok s' ∧ W s' ∧ s'.curName = s.curName) (rest : List (Option Bytes × Bytes)) :
    ∀ (vs : List Bytes) (s : HSt), W s → s.curName = some n → ∃ s', W s' ∧ hrun m s (vs.map (fun v => (none, v)) ++ rest) = hrun m s' rest
  | [], s, h, _ => ⟨s, h, rfl⟩
  | v :: vs, s, h, hc => by
    obtain ⟨s1, e1, w1, c1⟩ := hW s v h
    obtain ⟨s2, w2, e2⟩ := values_ok m n W hW rest vs s1 w1 (by rw [c1, hc])
    refine ⟨s2, w2, ?_⟩
    simp only [List.map_cons, List.cons_append, hrun, hstep, HSt.enter, hc, e1]
    exact e2

/-- A loop over fields of which only those of `p` have to do with framing: it goes through, whatever the group of `p` does (`hp`). -/
theorem loop_ok (m : EncodeMsg) (p : Bytes) (I : HSt → Prop) (hI : ∀ s s', s'.wroteLen = s.wroteLen → s'.encoder = s.encoder → I s → I s') (fin : HSt → Prop)
    (hfin : ∀ s s', s'.wroteLen = s.wroteLen → s'.encoder = s.encoder → fin s → fin s') (hs : HeaderMap)
    (hp : ∀ v vs, (p, v :: vs) ∈ hs → p = hCL ∨ p = hTE → ∀ (s : HSt) rest, I s → s.curName = some p → s.isNameWritten = false →
      ∃ s', fin s' ∧ hrun m s ((none, v) :: (vs.map (fun v => (none, v)) ++ rest)) = hrun m s' rest)
    (hwf : hs.Wf) (hno : ∀ g ∈ hs, g.1 = hCL ∨ g.1 = hTE → g.1 = p) :
    ∀ s : HSt, (I s ∨ (fin s ∧ p ∉ hs.map Prod.fst)) → ∃ s', hrun m s hs.drain = .ok s' ∧ (I s' ∨ fin s') := by
  have hoth : ∀ n, n ≠ hCL → n ≠ hTE → ∀ (W : HSt → Prop), (∀ s s', s'.wroteLen = s.wroteLen → s'.encoder = s.encoder → W s → W s') → ∀ (v : Bytes) (vs : List Bytes) rest s, W s →
      ∃ s', W s' ∧ hrun m s ((some n, v) :: (vs.map (fun v => (none, v)) ++ rest)) = hrun m s' rest := by
    intro n h1 h2 W hW v vs rest s h
    obtain ⟨k1, k2, k3, _⟩ := enter_keeps s n
    obtain ⟨s1, e1, w1, w2, w3⟩ := other_arm m (s.enter (some n)) v h1 h2
    obtain ⟨s2, i2, e2⟩ := values_ok m n W (fun t u ht => by
      obtain ⟨t1, a1, a2, a3, a4⟩ := other_arm m t u h1 h2
      exact ⟨t1, a1, hW _ _ a2 a3 ht, a4⟩) rest vs s1 (hW _ _ (w1.trans k1) (w2.trans k2) h) (by rw [w3, k3])
    refine ⟨s2, i2, ?_⟩
    simp only [hrun, hstep, k3, e1]
    exact e2
  have hne := hwf.nonempty
  have hnd := hwf.nodup
  clear hwf
  induction hs with
  | nil => exact fun s h => ⟨s, rfl, h.imp id And.left⟩
  | cons g hs ih =>
    intro s h
    obtain ⟨n, vs⟩ := g
    cases vs with
    | nil => exact absurd rfl (hne (n, []) (by simp))
    | cons v vs =>
      simp only [List.map_cons, List.nodup_cons] at hnd
      have ih := ih (fun v vs hm => hp v vs (by simp [hm])) (fun g hg => hno g (by simp [hg])) (fun g hg => hne g (by simp [hg])) hnd.2
      rw [drain_cons]
      by_cases hsp : n = hCL ∨ n = hTE
      · have hnp : n = p := hno (n, v :: vs) (by simp) hsp
        subst hnp
        rcases h with h | ⟨_, h⟩
        · obtain ⟨k1, k2, k3, k4⟩ := enter_keeps s n
          obtain ⟨s1, f1, e1⟩ := hp v vs (by simp) hsp (s.enter (some n)) (HeaderMap.drain hs) (hI _ _ k1 k2 h) k3 k4
          obtain ⟨s2, e2, f2⟩ := ih s1 (.inr ⟨f1, hnd.1⟩)
          refine ⟨s2, ?_, f2⟩
          have : hrun m s ((some n, v) :: (vs.map (fun v => (none, v)) ++ HeaderMap.drain hs)) =
              hrun m (s.enter (some n)) ((none, v) :: (vs.map (fun v => (none, v)) ++ HeaderMap.drain hs)) := by
            simp only [hrun, hstep, HSt.enter]
          rw [this, e1, e2]
        · exact absurd (by simp) h
      · have h1 : n ≠ hCL := fun e => hsp (.inl e)
        have h2 : n ≠ hTE := fun e => hsp (.inr e)
        rcases h with h | ⟨f0, h⟩
        · obtain ⟨s1, i1, e1⟩ := hoth n h1 h2 I hI v vs (HeaderMap.drain hs) s h
          obtain ⟨s2, e2, f2⟩ := ih s1 (.inl i1)
          exact ⟨s2, by rw [e1, e2], f2⟩
        · obtain ⟨s1, i1, e1⟩ := hoth n h1 h2 fin hfin v vs (HeaderMap.drain hs) s f0
          obtain ⟨s2, e2, f2⟩ := ih s1 (.inr ⟨i1, fun hm => h (by simp [hm])⟩)
          exact ⟨s2, by rw [e1, e2], f2⟩

theorem getAll_group {m : HeaderMap} (hw : m.Wf) {p : Bytes} {vs : List Bytes} (h : (p, vs) ∈ m) : m.getAll p = vs := by
  have hnd := hw.nodup
  clear hw
  induction m with
  | nil => simp at h
  | cons g m ih =>
    obtain ⟨n, ws⟩ := g
    simp only [List.map_cons, List.nodup_cons] at hnd
    simp only [HeaderMap.getAll]
    rcases List.mem_cons.mp h with e | h
    · cases e; rw [if_pos rfl]
    · rw [if_neg (by intro e; subst e; exact hnd.1 (List.mem_map_of_mem (f := Prod.fst) h))]
      exact ih h hnd.2

theorem group_absent {m : HeaderMap} (hw : m.Wf) {g : Bytes × List Bytes} (h : g ∈ m) : m.getAll g.1 ≠ [] := by
  rw [getAll_group hw (vs := g.2) h]
  exact hw.nonempty g h

/-- What the body writer does with the body. -/
def Fits (body : Option BodyLength) (fr : Framing) : Prop :=
  (body = none → fr = .length 0) ∧ (∀ n, body = some (.known n) → fr = .length n) ∧ (body = some .unknown → ∀ n, fr ≠ .length n)

theorem finalEncoder_framing (s : HSt) : framingOf (finalEncoder s).kind = framingOf s.encoder.kind := by
  unfold finalEncoder Encoder.setLast Encoder.isChunked Encoder.intoChunkedWithTrailingFields
  simp only
  cases hk : s.encoder.kind <;> cases ha : s.allowed <;> simp [hk, framingOf]

theorem dateAndEnd_encoder (env : EncodeEnv) (m : EncodeMsg) (s : HSt) : (dateAndEnd env m s).encoder = s.encoder := by
  unfold dateAndEnd; split <;> rfl

theorem handle_keeps (s : HSt) : s.handle.wroteLen = s.wroteLen ∧ s.handle.encoder = s.encoder := by
  unfold HSt.handle; split <;> exact ⟨rfl, rfl⟩

/-- What `encode` does once the loop has gone through. -/
theorem serverEncode_of {env : EncodeEnv} {m : EncodeMsg} {dst : Bytes} (hver : m.head.version = .h10 ∨ m.head.version = .h11 ∨ m.head.version = .h2)
    (hst : 200 ≤ m.head.status ∧ m.head.status ≤ 999 ∨ m.head.status = 101) (R : Framing → Prop)
    (hloop : ∀ s : HSt, (s.wroteLen = true → m.reqMethod = some mCONNECT ∧ isSuccess m.head.status = true) → s.encoder = Encoder.length 0 →
      ∃ s', hrun m s m.head.headers.drain = .ok s' ∧ R (framingOf (forceBody m (implicitLen m s'.handle)).encoder.kind)) :
    ∃ out e, serverEncode env m dst = (out, .ok e) ∧ R (framingOf e.kind) := by
  have hline : ∃ line, statusLine env m.head = some line := by
    unfold statusLine
    split
    · exact ⟨_, rfl⟩
    · rcases hver with h | h | h <;> rw [h] <;> exact ⟨_, rfl⟩
  obtain ⟨line, hline⟩ := hline
  have hprep : ∃ isLast wl, encodePrep m = (m, false, isLast, wl) ∧ (wl = true → m.reqMethod = some mCONNECT ∧ isSuccess m.head.status = true) := by
    unfold encodePrep
    split
    · exact ⟨_, _, rfl, by simp⟩
    · split
      · rename_i h; exact ⟨_, _, rfl, fun _ => h⟩
      · split
        · rename_i h1 _ h3
          exfalso
          unfold isInformational at h3
          simp only [decide_eq_true_eq, Bool.and_eq_true] at h3
          omega
        · exact ⟨_, _, rfl, by simp⟩
  obtain ⟨isLast, wl, hprep, hwl⟩ := hprep
  obtain ⟨s', hs', hR⟩ := hloop ⟨dst ++ line, nameWriterOf m, Encoder.length 0, none, wl, false, none, false, false, isLast, none⟩ hwl rfl
  unfold serverEncode
  rw [hprep]
  simp only [hline, encodeHeaders, hs', Bool.false_eq_true, if_false]
  refine ⟨_, _, rfl, ?_⟩
  rw [finalEncoder_framing, dateAndEnd_encoder]
  exact hR

theorem mCONNECT_ne : mHEAD ≠ mCONNECT := by decide

/-- A head whose framing fields are the ones a received response had is written, and the body writer fits the body. -/
theorem encode_forward {env : EncodeEnv} {m : EncodeMsg} {dst : Bytes} (hwf : m.head.headers.Wf) (hver : m.head.version = .h10 ∨ m.head.version = .h11 ∨ m.head.version = .h2)
    (hst : 200 ≤ m.head.status ∧ m.head.status ≤ 999 ∨ m.head.status = 101)
    (hone : m.head.headers.getAll hTE = [] ∨ m.head.headers.getAll hCL = [])
    (hhead : m.reqMethod = some mHEAD → (m.head.headers.getAll hCL).length ≤ 1)
    (hcon : m.reqMethod = some mCONNECT ∧ isSuccess m.head.status = true → m.head.headers.getAll hTE = [] ∧ m.head.headers.getAll hCL = [])
    (hb : (NoBody m.reqMethod m.head.status ∧ m.body = none) ∨ (¬ NoBody m.reqMethod m.head.status ∧ m.body = some .unknown ∧ m.head.headers.getAll hCL = []) ∨
      (¬ NoBody m.reqMethod m.head.status ∧ (m.body = none ∨ ∃ n, m.body = some (.known n)) ∧ m.head.headers.getAll hTE = [])) :
    ∃ out e, serverEncode env m dst = (out, .ok e) ∧ Fits m.body (framingOf e.kind) := by
  have hCT : hCL ≠ hTE := by decide
  -- one of the two names does not occur
  have hno : ∀ p q, (p = hCL ∧ q = hTE ∨ p = hTE ∧ q = hCL) → m.head.headers.getAll q = [] → ∀ g ∈ m.head.headers, g.1 = hCL ∨ g.1 = hTE → g.1 = p := by
    intro p q hpq hq g hg hgn
    have hne := group_absent hwf hg
    rcases hpq with ⟨rfl, rfl⟩ | ⟨rfl, rfl⟩ <;> rcases hgn with h | h
    · exact h
    · exact absurd (h ▸ hq) hne
    · exact absurd (h ▸ hq) hne
    · exact h
  have hcb : ∀ {b}, canHaveBody m.reqMethod m.head.status = b → canChunked m.reqMethod m.head.status = b := fun h => h
  rcases hb with ⟨hnb, hbody⟩ | ⟨hnb, hbody, hcl⟩ | ⟨hnb, hbody, hte⟩
  · -- no body
    have hcan := (noBody_iff _ _).mp hnb
    refine serverEncode_of hver hst (Fits m.body) (fun s hwl he => ?_)
    have hend : ∀ s' : HSt, Fits m.body (framingOf (forceBody m (implicitLen m s'.handle)).encoder.kind) := by
      intro s'
      unfold forceBody
      rw [if_pos hcan]
      refine ⟨fun _ => rfl, ?_, ?_⟩
      · intro n h; rw [hbody] at h; cases h
      · intro h; rw [hbody] at h; cases h
    by_cases hc : m.reqMethod = some mCONNECT ∧ isSuccess m.head.status = true
    · obtain ⟨t0, c0⟩ := hcon hc
      obtain ⟨s', hs', _⟩ := loop_ok m hCL (fun _ => True) (fun _ _ _ _ h => h) (fun _ => True) (fun _ _ _ _ h => h) m.head.headers (by
        intro v vs hm _
        exact absurd c0 (group_absent hwf hm)) hwf (hno hCL hTE (.inl ⟨rfl, rfl⟩) t0) s (.inl trivial)
      exact ⟨s', hs', hend s'⟩
    · have hw0 : s.wroteLen = false := by
        cases h : s.wroteLen with
        | false => rfl
        | true => exact absurd (hwl h) hc
      rcases hone with t0 | c0
      · obtain ⟨s', hs', _⟩ := loop_ok m hCL (fun s => s.wroteLen = false) (fun _ _ h _ e => h.trans e) (fun _ => True) (fun _ _ _ _ h => h) m.head.headers (by
          intro v vs hm _ t rest ht hcur hnw
          by_cases hh : m.reqMethod = some mHEAD
          · have hlen := hhead hh
            rw [getAll_group hwf hm] at hlen
            have hlen : vs = [] := by
              cases vs with
              | nil => rfl
              | cons _ _ => simp at hlen
            subst hlen
            have harm1 : harm m t hCL v = .ok (({ t with wroteLen := true } : HSt).generic hCL v) := by
              unfold harm clArm
              rw [if_pos rfl, ht, hbody]
              simp only [Bool.false_and, Bool.false_eq_true, if_false]
              rw [if_pos hh]
            refine ⟨({ t with wroteLen := true } : HSt).generic hCL v, trivial, ?_⟩
            simp only [hrun, hstep, HSt.enter, hcur, harm1, List.map_nil, List.nil_append]
          · obtain ⟨s', _, e⟩ := values_ok m hCL (fun s => s.wroteLen = false) (fun u w hu => by
              refine ⟨u, ?_, hu, rfl⟩
              unfold harm clArm
              rw [if_pos rfl, hu, hbody]
              simp only [Bool.false_and, Bool.false_eq_true, if_false]
              rw [if_neg hh]) rest (v :: vs) t ht hcur
            exact ⟨s', trivial, e⟩) hwf (hno hCL hTE (.inl ⟨rfl, rfl⟩) t0) s (.inl hw0)
        exact ⟨s', hs', hend s'⟩
      · obtain ⟨s', hs', _⟩ := loop_ok m hTE (fun s => s.wroteLen = false) (fun _ _ h _ e => h.trans e) (fun _ => True) (fun _ _ _ _ h => h) m.head.headers (by
          intro v vs hm _ t rest ht hcur hnw
          obtain ⟨s', _, e⟩ := values_ok m hTE (fun s => s.wroteLen = false) (fun u w hu => by
            refine ⟨u, ?_, hu, rfl⟩
            unfold harm teArm
            rw [if_neg hCT.symm, if_pos rfl, hu]
            simp only [Bool.false_and, Bool.false_eq_true, if_false]
            rw [if_pos (.inr (hcb hcan))]) rest (v :: vs) t ht hcur
          exact ⟨s', trivial, e⟩) hwf (hno hTE hCL (.inr ⟨rfl, rfl⟩) c0) s (.inl hw0)
        exact ⟨s', hs', hend s'⟩
  · -- a body of unknown length
    have hcan : canHaveBody m.reqMethod m.head.status = true := by
      cases h : canHaveBody m.reqMethod m.head.status with
      | true => rfl
      | false => exact absurd ((noBody_iff _ _).mpr h) hnb
    refine serverEncode_of hver hst (Fits m.body) (fun s hwl he => ?_)
    have hw0 : s.wroteLen = false := by
      cases h : s.wroteLen with
      | false => rfl
      | true =>
        exfalso
        have := hwl h
        unfold canHaveBody canChunked at hcan
        rw [if_pos (.inr (.inl this))] at hcan
        cases hcan
    obtain ⟨s', hs', hf⟩ := loop_ok m hTE (fun s => s.wroteLen = false) (fun _ _ h _ e => h.trans e) (fun s => s.wroteLen = false ∨ s.encoder = Encoder.chunked)
      (fun _ _ h1 h2 e => e.imp h1.trans h2.trans) m.head.headers (by
        intro v vs hm _ t rest ht hcur hnw
        by_cases h10 : m.head.version = .h10
        · obtain ⟨s', w, e⟩ := values_ok m hTE (fun s => s.wroteLen = false) (fun u w hu => by
            refine ⟨u, ?_, hu, rfl⟩
            unfold harm teArm
            rw [if_neg hCT.symm, if_pos rfl, hu]
            simp only [Bool.false_and, Bool.false_eq_true, if_false]
            rw [if_pos (.inl h10)]) rest (v :: vs) t ht hcur
          exact ⟨s', .inl w, e⟩
        · have hcc : ¬ (m.head.version = .h10 ∨ canChunked m.reqMethod m.head.status = false) := by
            rintro (h | h)
            · exact h10 h
            · rw [hcb hcan] at h; cases h
          have harm1 : ∃ t', harm m t hTE v = .ok t' ∧ t'.isNameWritten = true ∧ t'.encoder = Encoder.chunked ∧ t'.curName = t.curName := by
            unfold harm teArm
            rw [if_neg hCT.symm, if_pos rfl, ht]
            simp only [Bool.false_and, Bool.false_eq_true, if_false]
            rw [if_neg hcc]
            refine ⟨_, rfl, (joinLine_keeps _ _ _ _).2.2.2, ?_, ?_⟩
            · rw [(joinLine_keeps _ _ _ _).2.1, hnw]; rfl
            · rw [(joinLine_keeps _ _ _ _).2.2.1, hnw]; rfl
          obtain ⟨t', a1, a2, a3, a4⟩ := harm1
          obtain ⟨s', w, e⟩ := values_ok m hTE (fun s => s.isNameWritten = true ∧ s.encoder = Encoder.chunked) (fun u w hu => by
            unfold harm teArm
            rw [if_neg hCT.symm, if_pos rfl, hu.1]
            simp only [Bool.not_true, Bool.and_false, Bool.false_eq_true, if_false]
            rw [if_neg hcc]
            refine ⟨_, rfl, ⟨(joinLine_keeps _ _ _ _).2.2.2, ?_⟩, ?_⟩
            · rw [(joinLine_keeps _ _ _ _).2.1]; exact hu.2
            · rw [(joinLine_keeps _ _ _ _).2.2.1]) rest vs t' ⟨a2, a3⟩ (by rw [a4, hcur])
          refine ⟨s', .inr w.2, ?_⟩
          simp only [hrun, hstep, HSt.enter, hcur, a1]
          exact e) hwf (hno hTE hCL (.inr ⟨rfl, rfl⟩) hcl) s (.inl hw0)
    refine ⟨s', hs', ?_⟩
    have hf : s'.wroteLen = false ∨ s'.encoder = Encoder.chunked := by
      rcases hf with h | h
      · exact .inl h
      · exact h
    obtain ⟨k1, k2⟩ := handle_keeps s'
    have hfb : ∀ t, forceBody m t = t := by intro t; unfold forceBody; rw [if_neg (by rw [hcan]; simp)]
    rw [hfb]
    refine ⟨(by intro h; rw [hbody] at h; cases h), (by intro n h; rw [hbody] at h; cases h), fun _ n => ?_⟩
    unfold implicitLen
    rw [k1]
    cases hw : s'.wroteLen with
    | true =>
      rw [hw] at hf
      simp only [if_true]
      rw [k2]
      rcases hf with h | h
      · cases h
      · rw [h]; intro e; cases e
    | false =>
      simp only [Bool.false_eq_true, if_false, hbody]
      split <;> (intro e; cases e)
  · -- a body of known length, or none
    have hcan : canHaveBody m.reqMethod m.head.status = true := by
      cases h : canHaveBody m.reqMethod m.head.status with
      | true => rfl
      | false => exact absurd ((noBody_iff _ _).mpr h) hnb
    have hH : m.reqMethod ≠ some mHEAD := by
      intro h
      unfold canHaveBody canChunked at hcan
      rw [if_pos (.inl h)] at hcan
      cases hcan
    have hccl : canHaveContentLength m.reqMethod m.head.status = true := by
      unfold canHaveBody canChunked at hcan
      unfold canHaveContentLength
      split at hcan
      · cases hcan
      · rename_i h
        rw [if_neg (fun h' => h (h'.elim (fun a => .inr (.inr a)) (fun a => .inr (.inl a))))]
        exact hcan
    refine serverEncode_of hver hst (Fits m.body) (fun s hwl he => ?_)
    have hw0 : s.wroteLen = false := by
      cases h : s.wroteLen with
      | false => rfl
      | true =>
        exfalso
        have := hwl h
        unfold canHaveBody canChunked at hcan
        rw [if_pos (.inr (.inl this))] at hcan
        cases hcan
    have hfb : ∀ t, forceBody m t = t := by intro t; unfold forceBody; rw [if_neg (by rw [hcan]; simp)]
    have himp : canHaveImplicitZero m.reqMethod m.head.status = true := by
      unfold canHaveImplicitZero
      rw [hccl]
      simp [hH]
    obtain ⟨s', hs', hf⟩ := loop_ok m hCL (fun s => s.wroteLen = false) (fun _ _ h _ e => h.trans e)
      (fun s => s.wroteLen = false ∨ ∃ n, m.body = some (.known n) ∧ s.encoder = Encoder.length n)
      (fun _ _ h1 h2 e => e.imp h1.trans (fun ⟨n, a, b⟩ => ⟨n, a, h2.trans b⟩)) m.head.headers (by
        intro v vs hm _ t rest ht hcur hnw
        rcases hbody with hbody | ⟨n, hbody⟩
        · obtain ⟨s', w, e⟩ := values_ok m hCL (fun s => s.wroteLen = false) (fun u w hu => by
            refine ⟨u, ?_, hu, rfl⟩
            unfold harm clArm
            rw [if_pos rfl, hu, hbody]
            simp only [Bool.false_and, Bool.false_eq_true, if_false]
            rw [if_neg hH]) rest (v :: vs) t ht hcur
          exact ⟨s', .inl w, e⟩
        · have harm1 : ∃ t', harm m t hCL v = .ok t' ∧ t'.isNameWritten = true ∧ t'.encoder = Encoder.length n ∧ t'.curName = t.curName := by
            unfold harm clArm
            rw [if_pos rfl, ht, hbody, hnw]
            simp only [Bool.false_and, Bool.false_eq_true, if_false, Bool.not_false, if_true]
            exact ⟨_, rfl, rfl, rfl, rfl⟩
          obtain ⟨t', a1, a2, a3, a4⟩ := harm1
          obtain ⟨s', w, e⟩ := values_ok m hCL (fun s => s.isNameWritten = true ∧ s.encoder = Encoder.length n) (fun u w hu => by
            refine ⟨u, ?_, hu, rfl⟩
            unfold harm clArm
            rw [if_pos rfl, hu.1, hbody]
            simp only [Bool.not_true, Bool.and_false, Bool.false_eq_true, if_false]) rest vs t' ⟨a2, a3⟩ (by rw [a4, hcur])
          refine ⟨s', .inr ⟨n, hbody, w.2⟩, ?_⟩
          simp only [hrun, hstep, HSt.enter, hcur, a1]
          exact e) hwf (hno hCL hTE (.inl ⟨rfl, rfl⟩) hte) s (.inl hw0)
    refine ⟨s', hs', ?_⟩
    have hf : s'.wroteLen = false ∨ ∃ n, m.body = some (.known n) ∧ s'.encoder = Encoder.length n := by
      rcases hf with h | h
      · exact .inl h
      · exact h
    obtain ⟨k1, k2⟩ := handle_keeps s'
    rw [hfb]
    rcases hbody with hbody | ⟨n, hbody⟩
    · refine ⟨fun _ => ?_, (by intro n h; rw [hbody] at h; cases h), (by intro h; rw [hbody] at h; cases h)⟩
      have hw : s'.wroteLen = false := by
        rcases hf with h | ⟨n, h, _⟩
        · exact h
        · rw [hbody] at h; cases h
      unfold implicitLen
      rw [k1, hw]
      simp only [Bool.false_eq_true, if_false, hbody]
      rw [if_pos himp]
      rfl
    · refine ⟨(by intro h; rw [hbody] at h; cases h), fun n' h => ?_, (by intro h; rw [hbody] at h; cases h)⟩
      rw [hbody] at h
      cases h
      unfold implicitLen
      rw [k1]
      cases hw : s'.wroteLen with
      | true =>
        rw [hw] at hf
        simp only [if_true]
        rw [k2]
        rcases hf with h | ⟨n', h1, h2⟩
        · cases h
        · rw [hbody] at h1; cases h1
          rw [h2]; rfl
      | false =>
        cases n with
        | zero =>
          simp only [Bool.false_eq_true, if_false, hbody]
          rw [if_pos himp]
          rfl
        | succ n =>
          simp only [Bool.false_eq_true, if_false, hbody]
          rw [if_neg (by rw [hccl]; simp)]
          rfl

end Hyper
