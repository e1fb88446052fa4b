import Verif.Proof.CutOff
import Verif.Proof.Forward
import Verif.Spec.CutReply

/-! # The lengths that responses announce, and the responses without a body -/

namespace Hyper.Wire

open Hyper.Spec Hyper.Input

/-! ## The body writer that the loop of the response's headers chooses -/

/-- The body writer is the one at the start, one in chunks, or one whose length is that of the body or of a field. -/
structure Meant (m : EncodeMsg) (V : Bytes → Prop) (s : HSt) : Prop where
  enc : (s.encoder = Encoder.length 0 ∧ (s.wroteLen = false ∨ m.body = none)) ∨ (∃ ts, s.encoder.kind = .chunked ts) ∨
    ∃ n, s.encoder.kind = .length n ∧ (m.body = some (.known n) ∨ (m.body = some .unknown ∧ ∃ v, V v ∧ contentLengthParse v = some n))
  open' : s.isNameWritten = true → s.curName = some hTE → ∃ ts, s.encoder.kind = .chunked ts

theorem Meant.other {m : EncodeMsg} {V : Bytes → Prop} {s s' : HSt} (h : Meant m V s) (h1 : s'.wroteLen = s.wroteLen) (h2 : s'.encoder = s.encoder)
    (h3 : s'.isNameWritten = true → s'.curName ≠ some hTE) : Meant m V s' :=
  ⟨by rw [h1, h2]; exact h.enc, fun a b => absurd b (h3 a)⟩

theorem Meant.arm {m : EncodeMsg} {V : Bytes → Prop} {s s' : HSt} (h : Meant m V s) {n v : Bytes} (hn : s.curName = some n) (hv : n = hCL → V v) (hs : harm m s n v = .ok s') :
    Meant m V s' ∧ s'.curName = s.curName := by
  by_cases h1 : n = hCL
  · subst h1
    have hne : s.curName ≠ some hTE := by rw [hn]; decide
    unfold harm clArm at hs
    rw [if_pos rfl] at hs
    split at hs
    · cases hs
    · split at hs
      · rename_i k hb
        split at hs
        · cases hs
          exact ⟨⟨.inr (.inr ⟨k, rfl, .inl hb⟩), fun _ b => absurd b hne⟩, rfl⟩
        · cases hs; exact ⟨h, rfl⟩
      · rename_i hb
        split at hs
        · rename_i len hlen
          split at hs
          · split at hs
            · cases hs
            · cases hs; exact ⟨h, rfl⟩
          · cases hs
            exact ⟨⟨.inr (.inr ⟨len, rfl, .inr ⟨hb, v, hv rfl, hlen⟩⟩), fun _ b => absurd b hne⟩, rfl⟩
        · cases hs
      · rename_i hb
        split at hs
        · cases hs
          refine ⟨⟨?_, fun _ b => absurd b hne⟩, rfl⟩
          rcases h.enc with ⟨a, _⟩ | a | a
          · exact .inl ⟨a, .inr hb⟩
          · exact .inr (.inl a)
          · exact .inr (.inr a)
        · cases hs; exact ⟨h, rfl⟩
  · by_cases h2 : n = hTE
    · subst h2
      unfold harm teArm at hs
      rw [if_neg h1, if_pos rfl] at hs
      split at hs
      · cases hs
      · split at hs
        · cases hs; exact ⟨h, rfl⟩
        · simp only [Except.ok.injEq] at hs
          have hch : ∃ ts, s'.encoder.kind = .chunked ts := by
            rw [← hs, (joinLine_keeps _ _ _ _).2.1]
            cases hw : s.isNameWritten with
            | true => simp only [Bool.not_true, Bool.false_eq_true, if_false]; exact h.open' hw hn
            | false => exact ⟨none, rfl⟩
          refine ⟨⟨.inr (.inl hch), fun _ _ => hch⟩, ?_⟩
          rw [← hs, (joinLine_keeps _ _ _ _).2.2.1]
          split <;> rfl
    · obtain ⟨s1, e1, e2, e3, e4⟩ := other_arm m s v h1 h2
      rw [hs] at e1
      cases e1
      refine ⟨h.other e2 e3 (fun _ => ?_), e4⟩
      rw [e4, hn]
      simpa using h2

theorem Meant.run {m : EncodeMsg} {V : Bytes → Prop} : ∀ (items : List (Option Bytes × Bytes)) {s s' : HSt}, Meant m V s → (∀ f ∈ expand s.curName items, f.1 = hCL → V f.2) →
    hrun m s items = .ok s' → Meant m V s' := by
  intro items
  induction items with
  | nil => intro s s' h _ hs; simp only [hrun, Except.ok.injEq] at hs; exact hs ▸ h
  | cons f items ih =>
    intro s s' h hV hs
    obtain ⟨o, v⟩ := f
    simp only [hrun] at hs
    cases hst : hstep m s (o, v) with
    | error e => rw [hst] at hs; cases hs
    | ok s1 =>
      rw [hst] at hs
      have key : Meant m V s1 ∧ s1.curName = o.or s.curName := by
        unfold hstep at hst
        cases o with
        | none =>
          simp only [HSt.enter] at hst
          cases hc : s.curName with
          | none => rw [hc] at hst; cases hst
          | some n =>
            rw [hc] at hst
            simp only at hst
            have := h.arm hc (fun e => hV (n, v) (by simp [expand, hc]) e) hst
            exact ⟨this.1, by rw [this.2, hc]; rfl⟩
        | some n =>
          obtain ⟨k1, k2, k3, k4⟩ := enter_keeps s n
          simp only [k3] at hst
          have h0 : Meant m V (s.enter (some n)) := h.other k1 k2 (by rw [k4]; simp)
          have := h0.arm k3 (fun e => hV (n, v) (by simp [expand]) e) hst
          exact ⟨this.1, by rw [this.2, k3]; rfl⟩
      refine ih key.1 (fun f hf e => hV f ?_ e) hs
      rw [key.2] at hf
      cases ho : o.or s.curName with
      | none => rw [ho] at hf; simp only [expand, ho]; exact hf
      | some n => rw [ho] at hf; simp only [expand, ho]; exact List.mem_cons_of_mem _ hf

/-- The length of a response's body writer. -/
theorem serverEncode_length {env : EncodeEnv} {m : EncodeMsg} {out : Bytes} {e : Encoder} (h : serverEncode env m [] = (out, .ok e)) {n : Nat} (hk : e.kind = .length n) :
    (NoBody m.reqMethod m.head.status ∧ n = 0) ∨ (m.body = none ∧ n = 0) ∨ m.body = some (.known n) ∨
      (m.body = some .unknown ∧ ∃ v, (hCL, v) ∈ m.head.headers.fields ∧ contentLengthParse v = some n) := by
  have hprep : ∃ m' bad l w, encodePrep m = (m', bad, l, w) ∧ (bad = false → m' = m ∧ (w = true → NoBody m.reqMethod m.head.status)) := by
    unfold encodePrep
    split
    · exact ⟨_, _, _, _, rfl, fun _ => ⟨rfl, by simp⟩⟩
    · split
      · rename_i hc
        refine ⟨_, _, _, _, rfl, fun _ => ⟨rfl, fun _ => (noBody_iff _ _).2 ?_⟩⟩
        unfold canHaveBody canChunked
        simp [hc.1, hc.2]
      · split
        · exact ⟨_, _, _, _, rfl, by simp⟩
        · exact ⟨_, _, _, _, rfl, fun _ => ⟨rfl, by simp⟩⟩
  obtain ⟨m', bad, l, w, hprep, hbad⟩ := hprep
  unfold serverEncode at h
  rw [hprep] at h
  simp only at h
  split at h
  · simp at h
  · rename_i line _
    split at h
    · rename_i out' e' he
      cases bad with
      | true => simp at h
      | false =>
        obtain ⟨rfl, hw⟩ := hbad rfl
        simp only [Bool.false_eq_true, if_false, Prod.mk.injEq, EncodeRes.ok.injEq] at h
        obtain ⟨rfl, rfl⟩ := h
        unfold encodeHeaders at he
        split at he
        · simp at he
        · simp at he
        · rename_i s hrun'
          simp only [Prod.mk.injEq, EncodeRes.ok.injEq] at he
          have hfr := finalEncoder_framing (dateAndEnd env m' (forceBody m' (implicitLen m' s.handle)))
          rw [he.2, dateAndEnd_encoder, hk] at hfr
          have hkind : (forceBody m' (implicitLen m' s.handle)).encoder.kind = .length n := by
            generalize (forceBody m' (implicitLen m' s.handle)).encoder.kind = k at hfr
            cases k <;> simp_all [framingOf]
          clear hfr he
          cases hcb : canHaveBody m'.reqMethod m'.head.status with
          | false =>
            unfold forceBody at hkind
            rw [if_pos hcb] at hkind
            cases hkind
            exact .inl ⟨(noBody_iff _ _).2 hcb, rfl⟩
          | true =>
            right
            unfold forceBody at hkind
            rw [if_neg (by simp [hcb])] at hkind
            have hw0 : w = false := by
              cases w with
              | false => rfl
              | true => have := (noBody_iff _ _).1 (hw rfl); rw [this] at hcb; cases hcb
            subst hw0
            have hm := Meant.run (m := m') (V := fun v => (hCL, v) ∈ m'.head.headers.fields) m'.head.headers.drain
              ⟨.inl ⟨rfl, .inl rfl⟩, by simp⟩ (fun f hf e => by rw [expand_drain] at hf; rw [← e]; exact hf) hrun'
            obtain ⟨q1, q2⟩ := handle_keeps s
            unfold implicitLen at hkind
            rw [q1] at hkind
            split at hkind
            · rename_i hwl
              rw [q2] at hkind
              rcases hm.enc with ⟨a, b⟩ | ⟨ts, a⟩ | ⟨k, a, b⟩
              · rw [a] at hkind
                cases hkind
                rcases b with b | b
                · rw [hwl] at b; cases b
                · exact .inl ⟨b, rfl⟩
              · rw [a] at hkind; cases hkind
              · rw [a] at hkind; cases hkind
                rcases b with b | b
                · exact .inr (.inl b)
                · exact .inr (.inr b)
            · split at hkind
              · split at hkind <;> cases hkind
              · rename_i hb
                split at hkind <;> (cases hkind; exact .inl ⟨hb, rfl⟩)
              · rename_i hb
                split at hkind <;> (cases hkind; exact .inr (.inl hb))
              · rename_i len _ hb
                split at hkind
                · rename_i hcc
                  exfalso
                  unfold canHaveContentLength at hcc
                  unfold canHaveBody canChunked at hcb
                  revert hcc hcb
                  grind
                · cases hkind
                  exact .inr (.inl hb)
    · rename_i hne he
      simp only [Prod.mk.injEq] at h
      obtain ⟨rfl, rfl⟩ := h
      exact absurd rfl (hne _)

/-- How the body of a response is read: in chunks if it was sent in chunks, otherwise the length was announced. -/
theorem response_framing {cfg : ClientCfg} {Q : Bytes → RespParse} {max : Nat} (hS : PrefixStable Q) (hQ : ReadsResponses max Q)
    (mh : Option Nat) {env : EncodeEnv} (henv : EnvOk env) {m : Message} {a : RespOut} {μ : Bytes} (hm : m.OfResponse env a μ)
    (hok : ResponseOk env μ a) (fair : m.Fair max mh) {x : ResponseMsg} (hx : (clientHeads cfg Q).parse (some μ) m.head = (.ok (some x), []))
    (hne : ∀ b, (clientHeads cfg Q).parse (some μ) [] ≠ (.ok (some x), b)) (hcd : x.decode ≠ DecodedLength.CLOSE_DELIMITED) :
    (x.decode = DecodedLength.CHUNKED ∧ InChunks m) ∨ (x.decode ≠ DecodedLength.CHUNKED ∧ (a.body = none ∨ ReplyAnnounces μ a x.decode.val)) := by
  obtain ⟨c, ev, frames, hc, hμ, rfl⟩ := hm
  obtain ⟨f1, f2, f3⟩ := respMsg_facts c a hok.headers hok.names
  have hreq : (c.respMsg a).2.reqMethod = some μ := hμ
  have hsta : (c.respMsg a).2.head.status = a.head.status := rfl
  have hbody : (c.respMsg a).2.body = a.body := rfl
  have hwf : ResponseWf (c.respMsg a).2 := ⟨f1.fields, hok.spelling, hok.length⟩
  have huser : UserFramingOk (c.respMsg a).2 := by
    constructor
    · intro v hv k hk hn
      rw [f1.values, f3 hCL (by decide)] at hv
      rw [hreq, hsta] at hn
      exact hok.contentLength v hv k hk hn
    · intro v hv hn
      rw [f1.values, f3 hTE (by decide)] at hv
      rw [hreq, hsta] at hn
      exact hok.coding v hv hn
  have hst : isInformational (c.respMsg a).2.head.status = false ∨ (c.respMsg a).2.head.status = 101 := by
    rw [hsta]
    rcases hok.status with h | h
    · left; simp only [isInformational, Bool.and_eq_false_iff, decide_eq_false_iff_not]; omega
    · exact .inr h
  cases hs : serverEncode env (c.respMsg a).2 [] with
  | mk out r =>
    rcases encode_mute hs hst with ⟨e, rfl⟩ | ⟨ho, hr⟩
    · have hmsg : ({ respMessage env c a ev with frames := frames } : Message) =
          { ev := ev, head := out, framing := Writing.ofHead (.ok e), trailers := c.client || c.allowTrailers, titleCase := c.titleCase, frames := frames } := by
        simp only [respMessage, hs]
      rw [hmsg] at fair hx ⊢
      have hmax : ∀ n, e.kind = .length n → n ≤ 2 ^ 64 - 3 := by
        intro n hn
        cases n with
        | zero => omega
        | succ n => exact fair.length e (n + 1) (by simp [Writing.ofHead, Encoder.isEof, hn]) hn
      obtain ⟨msg, k1, k2, k3, k4, k5⟩ := C25_server_to_client_partial max Q hQ cfg env (c.respMsg a).2 out.length out [] e hwf henv.1 ⟨hok.reason, henv.2⟩ f2 huser hok.status hs
        fair.fields hmax
      rw [hreq, List.append_nil] at k1 k3
      have hp : (clientHeads cfg Q).parse (some μ) out = (.ok (some msg), []) := by simp only [clientHeads, k1, k3]
      have hxm : msg = x := by
        have := hp.symm.trans hx
        simp only [Prod.mk.injEq, Except.ok.injEq, Option.some.injEq] at this
        exact this.1
      subst hxm
      have hd := k4 none none
      cases hk : e.kind with
      | closeDelimited =>
        rw [hk] at hd
        unfold Decoder.ofLength at hd
        rw [if_neg hcd] at hd
        split at hd <;> cases hd
      | chunked ts =>
        left
        rw [hk] at hd
        refine ⟨?_, e, ts, by simp [Writing.ofHead, Encoder.isEof, hk], hk⟩
        unfold Decoder.ofLength at hd
        rw [if_neg hcd] at hd
        split at hd
        · assumption
        · cases hd
      | length n =>
        right
        rw [hk] at hd
        have hn : msg.decode ≠ DecodedLength.CHUNKED ∧ msg.decode.val = n := by
          unfold Decoder.ofLength at hd
          rw [if_neg hcd] at hd
          split at hd
          · cases hd
          · rename_i g; cases hd; exact ⟨g, rfl⟩
        refine ⟨hn.1, ?_⟩
        rw [hn.2]
        have hl := serverEncode_length hs hk
        rw [hreq, hsta, hbody] at hl
        rcases hl with b | b | b | ⟨b, v, b1, b2⟩
        · exact .inr (.inl b)
        · exact .inl b.1
        · exact .inr (.inr (.inl b))
        · refine .inr (.inr (.inr ⟨b, v, ?_, agreed_single ((fromDigits_iff _ _).1 b2)⟩))
          rw [← f3 hCL (by decide), ← f1.values]
          unfold valuesOf
          exact List.mem_map.2 ⟨_, List.mem_filter.2 ⟨b1, show (List.map foldCase hCL == hCL) = true by decide⟩, rfl⟩
    · exfalso
      have : ({ respMessage env c a ev with frames := frames } : Message).head = [] := by
        show (serverEncode env (c.respMsg a).2 []).1 = []
        rw [hs]; exact ho
      rw [this] at hx
      exact hne _ hx

/-! ## The responses without a body -/

theorem Replies.length {env : EncodeEnv} {b : Bool} {ps : List Piece} {as : List RespOut} {μs : List Bytes} (h : Replies env b ps as μs) :
    (Wire.messages ps).length = as.length + (if b then 1 else 0) := by
  induction h with
  | nil => rfl
  | interim h ih => rw [messages_append]; simpa [Wire.messages] using ih
  | answer h hm he ih => rw [messages_append, List.length_append, ih]; simp [Wire.messages]
  | error h hm ih => rw [messages_append, List.length_append, ih]; simp [Wire.messages]

theorem Replies.reframe {env : EncodeEnv} {b : Bool} {pre : List Piece} {m : Message} {as : List RespOut} {μs : List Bytes} (h : Replies env b (pre ++ [.message m]) as μs)
    (fs : List UserFrame) : Replies env b (pre ++ [.message { m with frames := fs }]) as μs := by
  generalize hs : pre ++ [Piece.message m] = st at h
  cases h with
  | nil => simp at hs
  | interim h =>
    have := (List.append_inj' hs rfl).2
    simp at this
  | answer h hm he =>
    obtain ⟨rfl, e⟩ := List.append_inj' hs rfl
    cases e
    obtain ⟨c, ev, frames, hc, hmt, rfl⟩ := hm
    exact .answer h ⟨c, ev, _, hc, hmt, rfl⟩ he
  | error h hm =>
    obtain ⟨rfl, e⟩ := List.append_inj' hs rfl
    cases e
    obtain ⟨hst, c, frames, hc, hmt, rfl⟩ := hm
    exact .error h ⟨hst, c, _, hc, hmt, rfl⟩

theorem bares_append (env : EncodeEnv) (P : TrailerParser) (bs : List Act) : ∀ (as : List Act) (d : Disp) (st : List Piece),
    bares env P d st (as ++ bs) = bares env P d st as ++ bares env P (d.run env P as) (story env P d st as) bs := by
  intro as
  induction as with
  | nil => intro d st; rfl
  | cons a as ih => intro d st; simp only [List.cons_append, bares, ih, List.append_assoc]; rfl

/-- The places are those of answers without a body. -/
theorem bares_answers (env : EncodeEnv) (P : TrailerParser) (H : HeadFn RequestMsg) (hS : Stable H) (hview : ∀ μ m, (H.view μ m).method = some m.method)
    (f : Fed RequestMsg) (hf : Fresh f.disp) (hm0 : f.disp.conn.method = none) (hc : f.disp.conn.client = false) (hg : f.got = []) (as : List FAct)
    (hgate : Wire.Gated env P f.disp (acts env P H f as)) (k : Nat) (hk : k ∈ bares env P f.disp [] (acts env P H f as)) :
    ∃ a, (answers env P f.disp (acts env P H f as))[k]? = some a ∧ a.body = none := by
  induction as using snoc_induction with
  | h0 => simp [acts, bares] at hk
  | h1 as a ih =>
    rw [acts_snoc] at hgate hk ⊢
    have hgate := gated_append env P _ _ _ hgate
    have ih := ih hgate
    obtain ⟨b, μs, said, _⟩ := (server_answers env P H hS hview f hf hm0 hc hg as hgate).said
    have hist := server_hist env P (acts env P H f as) f.disp hf.start hc
    have hlog := (C65_wire_partial env P f.disp hf _ hgate).1
    rw [bares_append, List.mem_append] at hk
    rw [answers_append]
    rcases hk with hk | hk
    · obtain ⟨a', h1, h2⟩ := ih hk
      exact ⟨a', by rw [List.getElem?_append_left (List.getElem?_eq_some_iff.1 h1).1]; exact h1, h2⟩
    · clear ih
      cases hu : underlying H (f.run env P H as) a with
      | none => rw [hu] at hk; simp [bares] at hk
      | some c =>
        rw [hu] at hk
        simp only [Option.toList, bares, answers, List.append_nil] at hk ⊢
        unfold bare at hk
        split at hk
        · rename_i r hr
          split at hk
          · rename_i hb
            rw [hr]
            simp only [List.mem_singleton] at hk
            have ht : takes (f.disp.run env P (acts env P H f as)) = true := by
              unfold answered at hr
              split at hr
              · split at hr
                · rename_i h; simp only [Bool.and_eq_true] at h; exact h.1
                · cases hr
              · cases hr
            have hbf : b = false := by
              cases hb' : b with
              | false => rfl
              | true =>
                exfalso
                have := said.count.2.2 hb'
                rw [hlog] at this
                simp only [takes, Bool.and_eq_true, Bool.not_eq_true'] at ht
                have hinv := hist.inv
                rw [view_live ht.1.1.1.1] at hinv
                have hbad := hinv.bad (wasBad_mem (List.mem_filter.1 this).1)
                have hw : (f.disp.run env P (acts env P H f as)).conn.writing = .init := by
                  have := ht.1.2
                  simp only [Conn.canWriteHead, Bool.and_eq_true] at this
                  grind
                exact hbad.1 (Poll.wtag_init.2 hw)
            subst hbf
            have hl := said.length
            simp only [Bool.false_eq_true, if_false, Nat.add_zero] at hl
            rw [hk, hl]
            exact ⟨r, by simp, by simpa using hb⟩
          · simp at hk
        · simp at hk

end Hyper.Wire
