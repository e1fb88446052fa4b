import Verif.Proof.Input
import Verif.Props.ClientParse
import Verif.Props.Conn

/-!
# C66: the bytes a connection receives are its messages

`Model/Inlet.lean` puts the connection of `Model/Dispatch.lean` on one read buffer and one transport.  `Spec/Input.lean` says which messages
a stream of bytes is: a head, the body its framing gives it, and directly after that the next head.  The theorems say that the connection, however
the bytes are cut into reads and whatever happens meanwhile on the connection, finds exactly those messages: no byte of a body is taken for a
head, none is lost or read twice.
-/

namespace Hyper

namespace Input

open Hyper.Spec

/-! ## One message at one place -/

theorem complete_of_body {P : TrailerParser} {mh : Option Nat} {fin : NetEnd} {len : DecodedLength} {s data rest : Bytes} {tr : Option Fields}
    (h : Body P mh fin len s data tr rest) : outc P (Decoder.ofLength len mh none) ⟨s, [], fin⟩ [] = .complete data tr rest := by
  have hs : ∀ s : Bytes, Rd.stream ⟨s, [], fin⟩ = s := by intro s; simp [Rd.stream, segBytes]
  cases h with
  | length _ _ h1 h2 h3 =>
    have : Decoder.ofLength len mh none = .length len.val := by simp [Decoder.ofLength, h1, h2]
    rw [this]
    have h7 := (C07_content_length_body P len.val ⟨data ++ rest, [], fin⟩).1
    rw [hs] at h7
    have := h7 (by rw [List.length_append]; omega)
    rw [← h3, List.take_left, List.drop_left] at this
    rw [← h3]
    exact this
  | chunked w _ cs e n t _ h1 h2 h3 h4 =>
    have : Decoder.ofLength len mh none = .chunked (Chunked.new mh none) := by simp [Decoder.ofLength, h1]
    rw [this]
    exact (C03_chunked_grammar_exact P mh none _ _ _ _).2 ⟨w, cs, e, t, n, by rw [hs], h2, h3, rfl, h4⟩
  | close _ h1 h2 =>
    have hne : len ≠ DecodedLength.CHUNKED := by rw [h1]; decide
    have : Decoder.ofLength len mh none = .eof false := by
      unfold Decoder.ofLength
      rw [if_neg hne, if_pos h1]
    rw [this]
    have h8 := (C08_close_delimited_body P ⟨s, [], fin⟩).2.2 h2
    rw [hs] at h8
    exact h8

/-- The framing leaves one reading of the bytes. -/
theorem Body.unique {P : TrailerParser} {mh : Option Nat} {fin : NetEnd} {len : DecodedLength} {s data data' rest rest' : Bytes}
    {tr tr' : Option Fields} (h : Body P mh fin len s data tr rest) (h' : Body P mh fin len s data' tr' rest') :
    data = data' ∧ tr = tr' ∧ rest = rest' := by
  have e := (complete_of_body h).symm.trans (complete_of_body h')
  injection e with e1 e2 e3
  exact ⟨e1, e2, e3⟩

/-- What a message at the front of `s` can be. -/
structure At {α : Type} (H : HeadFn α) (P : TrailerParser) (mh : Option Nat) (fin : NetEnd) (s : Bytes) (r : Received α) (body : Bytes) : Prop where
  head : H.parse r.method s = (.ok (some r.head), body)
  data : r.data <+: (outc P (Decoder.ofLength (H.view r.method r.head).decode mh none) ⟨body, [], fin⟩ []).data
  whole : r.whole = true → ∃ next, outc P (Decoder.ofLength (H.view r.method r.head).decode mh none) ⟨body, [], fin⟩ [] = .complete r.data r.trailers next

theorem reads_append {α : Type} {H : HeadFn α} {P : TrailerParser} {mh : Option Nat} {fin : NetEnd} {s t u : Bytes} {ws rs : List (Received α)}
    (h : Reads H P mh fin s ws t) (h' : Reads H P mh fin t rs u) : Reads H P mh fin s (ws ++ rs) u := by
  induction h with
  | nil => exact h'
  | cons a b c d _ ih => exact .cons a b c d (ih h')

theorem reads_at {α : Type} {H : HeadFn α} {P : TrailerParser} {mh : Option Nat} {fin : NetEnd} :
    ∀ (k : Nat) {s rest : Bytes} {rs : List (Received α)} {r : Received α}, Reads H P mh fin s rs rest → rs[k]? = some r →
      r.whole = true ∧ ∃ t body, Reads H P mh fin s (rs.take k) t ∧ At H P mh fin t r body := by
  intro k
  induction k with
  | zero =>
    intro s rest rs r h hk
    cases h with
    | nil => simp at hk
    | cons h1 h2 h3 h4 h5 =>
      simp only [List.getElem?_cons_zero, Option.some.injEq] at hk
      subst hk
      have hc := complete_of_body h4
      exact ⟨h1, _, _, .nil _, h2, by rw [hc]; exact List.prefix_refl _, fun _ => ⟨_, hc⟩⟩
  | succ k ih =>
    intro s rest rs r h hk
    cases h with
    | nil => simp at hk
    | cons h1 h2 h3 h4 h5 =>
      simp only [List.getElem?_cons_succ] at hk
      obtain ⟨g1, t, body, g2, g3⟩ := ih h5 hk
      exact ⟨g1, t, body, .cons h1 h2 h3 h4 g2, g3⟩

theorem told_at {α : Type} {H : HeadFn α} {P : TrailerParser} {mh : Option Nat} {fin : NetEnd} {s : Bytes} {rs : List (Received α)}
    (h : Told H P mh fin s rs) (k : Nat) (r : Received α) (hk : rs[k]? = some r) :
    (k + 1 < rs.length → r.whole = true) ∧ ∃ t body, Reads H P mh fin s (rs.take k) t ∧ At H P mh fin t r body := by
  rcases h with ⟨rest, h⟩ | ⟨ws, x, rest, rfl, h, hb⟩
  · obtain ⟨g1, g2⟩ := reads_at k h hk
    exact ⟨fun _ => g1, g2⟩
  · by_cases hl : k < ws.length
    · rw [List.getElem?_append_left hl] at hk
      obtain ⟨g1, g2⟩ := reads_at k h hk
      rw [List.take_append_of_le_length (Nat.le_of_lt hl)]
      exact ⟨fun _ => g1, g2⟩
    · have hkl : k = ws.length := by
        have := (List.getElem?_eq_some_iff.1 hk).1
        simp only [List.length_append, List.length_cons, List.length_nil] at this
        omega
      subst hkl
      rw [List.getElem?_append_right (Nat.le_refl _), Nat.sub_self] at hk
      simp only [List.getElem?_cons_zero, Option.some.injEq] at hk
      subst hk
      obtain ⟨b1, b2, body, b3, b4, b5⟩ := hb
      refine ⟨fun hc => by simp at hc, rest, body, by simpa using h, b3, b5, fun hw => by rw [b1] at hw; cases hw⟩

/-- Two readings of the same bytes agree, as far as the parser does not tell the remembered methods apart. -/
theorem reads_unique {α : Type} {H : HeadFn α} {P : TrailerParser} {mh : Option Nat} {fin : NetEnd} :
    ∀ (rs rs' : List (Received α)) {s t t' : Bytes}, Reads H P mh fin s rs t → Reads H P mh fin s rs' t' → rs.length = rs'.length →
      (∀ (k : Nat) (r r' : Received α), rs[k]? = some r → rs'[k]? = some r' → H.parse r.method = H.parse r'.method ∧ H.view r.method = H.view r'.method) →
      t = t' := by
  intro rs
  induction rs with
  | nil =>
    intro rs' s t t' h h' hl _
    have : rs' = [] := by simpa using hl.symm
    subst this
    cases h; cases h'; rfl
  | cons r rs ih =>
    intro rs' s t t' h h' hl hm
    cases rs' with
    | nil => simp at hl
    | cons r' rs' =>
      cases h with
      | cons h1 h2 h3 h4 h5 =>
        cases h' with
        | cons g1 g2 g3 g4 g5 =>
          obtain ⟨m1, m2⟩ := hm 0 r r' (by simp) (by simp)
          rw [m1] at h2
          have e := h2.symm.trans g2
          simp only [Prod.mk.injEq, Except.ok.injEq, Option.some.injEq] at e
          obtain ⟨e1, e2⟩ := e
          subst e2
          rw [m2, e1] at h4
          obtain ⟨_, _, e3⟩ := h4.unique g4
          subst e3
          exact ih rs' h5 g5 (by simpa using hl) (fun k a b ha hb => hm (k + 1) a b (by simpa using ha) (by simpa using hb))

theorem at_unique {α : Type} {H : HeadFn α} {P : TrailerParser} {mh : Option Nat} {fin : NetEnd} {t body body' : Bytes} {r r' : Received α}
    (h : At H P mh fin t r body) (h' : At H P mh fin t r' body')
    (hm : H.parse r.method = H.parse r'.method ∧ H.view r.method = H.view r'.method) :
    r.head = r'.head ∧ (r.data <+: r'.data ∨ r'.data <+: r.data) ∧ (r.whole = true → r'.data <+: r.data) ∧
      (r.whole = true → r'.whole = true → r.data = r'.data ∧ r.trailers = r'.trailers) := by
  have h2 := h.head
  rw [hm.1] at h2
  have e := h2.symm.trans h'.head
  simp only [Prod.mk.injEq, Except.ok.injEq, Option.some.injEq] at e
  obtain ⟨e1, e2⟩ := e
  subst e2
  have hd := h.data
  have hw := h.whole
  rw [hm.2, e1] at hd hw
  refine ⟨e1, List.prefix_or_prefix_of_prefix hd h'.data, ?_, ?_⟩
  · intro w
    obtain ⟨n, hn⟩ := hw w
    have := h'.data
    rw [hn] at this
    exact this
  · intro w w'
    obtain ⟨n, hn⟩ := hw w
    obtain ⟨n', hn'⟩ := h'.whole w'
    rw [hn] at hn'
    injection hn' with a b c
    exact ⟨a, b⟩

/-! ## The two parsers -/

theorem client_fuel {cfg : ClientCfg} {Q : Bytes → RespParse} (hst : PrefixStable Q) (m : Option Bytes) :
    ∀ (n fuel fuel' : Nat) (buf : Bytes) (inf inf' : List RespHead), buf.length < n → n ≤ fuel → n ≤ fuel' →
      (clientParse cfg Q m fuel buf inf).res = (clientParse cfg Q m fuel' buf inf').res ∧
      (clientParse cfg Q m fuel buf inf).buf = (clientParse cfg Q m fuel' buf inf').buf := by
  intro n
  induction n with
  | zero => intro fuel fuel' buf inf inf' h; omega
  | succ n ih =>
    intro fuel fuel' buf inf inf' h h1 h2
    obtain ⟨fuel, rfl⟩ : ∃ k, fuel = k + 1 := ⟨fuel - 1, by omega⟩
    obtain ⟨fuel', rfl⟩ : ∃ k, fuel' = k + 1 := ⟨fuel' - 1, by omega⟩
    simp only [clientParse]
    cases hq : Q buf with
    | incomplete => exact ⟨rfl, rfl⟩
    | err e => exact ⟨rfl, rfl⟩
    | versionErr =>
      dsimp only
      split
      · cases clientDecoder (h09Head cfg) m with
        | error e => exact ⟨rfl, rfl⟩
        | ok o => cases o <;> exact ⟨rfl, rfl⟩
      · exact ⟨rfl, rfl⟩
    | complete len r =>
      dsimp only
      cases clientHead cfg r with
      | error e => exact ⟨rfl, rfl⟩
      | ok hk =>
        obtain ⟨head, ka⟩ := hk
        dsimp only
        cases clientDecoder head m with
        | error e => exact ⟨rfl, rfl⟩
        | ok o =>
          cases o with
          | some du => exact ⟨rfl, rfl⟩
          | none =>
            dsimp only
            by_cases he : buf.drop len = []
            · rw [if_pos he, if_pos he]; exact ⟨rfl, rfl⟩
            · rw [if_neg he, if_neg he]
              obtain ⟨p1, p2, _⟩ := hst _ _ _ hq
              exact ih fuel fuel' _ _ _ (by rw [List.length_drop]; omega) (by omega) (by omega)

theorem client_msg {cfg : ClientCfg} (h09 : cfg.h09 = false) {Q : Bytes → RespParse} (hst : PrefixStable Q) (m : Option Bytes) (more : Bytes) :
    ∀ (fuel : Nat) (buf : Bytes) (inf : List RespHead) (x : ResponseMsg), (clientParse cfg Q m fuel buf inf).res = .ok (some x) →
      (clientParse cfg Q m fuel buf inf).buf <:+ buf ∧
      (clientParse cfg Q m fuel (buf ++ more) inf).res = .ok (some x) ∧
      (clientParse cfg Q m fuel (buf ++ more) inf).buf = (clientParse cfg Q m fuel buf inf).buf ++ more := by
  intro fuel
  induction fuel with
  | zero => intro buf inf x h; simp [clientParse] at h
  | succ fuel ih =>
    intro buf inf x h
    simp only [clientParse] at h ⊢
    cases hq : Q buf with
    | incomplete => rw [hq] at h; simp at h
    | err e => rw [hq] at h; simp at h
    | versionErr => rw [hq] at h; simp [h09] at h
    | complete len r =>
      obtain ⟨p1, p2, p3⟩ := hst _ _ _ hq
      rw [hq] at h
      rw [p3 more]
      dsimp only at h ⊢
      have hdrop : (buf ++ more).drop len = buf.drop len ++ more := List.drop_append_of_le_length p2
      rw [hdrop]
      cases hh : clientHead cfg r with
      | error e => rw [hh] at h; simp at h
      | ok hk =>
        obtain ⟨head, ka⟩ := hk
        rw [hh] at h
        dsimp only at h ⊢
        cases hd : clientDecoder head m with
        | error e => rw [hd] at h; simp at h
        | ok o =>
          rw [hd] at h
          cases o with
          | some du => exact ⟨List.drop_suffix _ _, h, rfl⟩
          | none =>
            dsimp only at h ⊢
            by_cases he : buf.drop len = []
            · rw [if_pos he] at h; simp at h
            · rw [if_neg he] at h
              have hne : ¬ (buf.drop len ++ more = []) := by simp [he]
              simp only [if_neg he, if_neg hne]
              obtain ⟨i1, i2, i3⟩ := ih _ _ _ h
              exact ⟨i1.trans (List.drop_suffix _ _), i2, i3⟩

theorem client_skip {cfg : ClientCfg} (h09 : cfg.h09 = false) {Q : Bytes → RespParse} (hst : PrefixStable Q) (m m' : Option Bytes) (more : Bytes) :
    ∀ (fuel : Nat) (buf : Bytes) (inf : List RespHead), buf.length < fuel → (clientParse cfg Q m fuel buf inf).res = .ok none →
      (clientParse cfg Q m fuel buf inf).buf <:+ buf ∧
      ((clientParse cfg Q m fuel buf inf).buf ++ more ≠ [] → ∀ fuel1 fuel2, (buf ++ more).length < fuel1 → (buf ++ more).length < fuel2 →
        ∀ inf1 inf2,
        (clientParse cfg Q m' fuel1 (buf ++ more) inf1).res = (clientParse cfg Q m' fuel2 ((clientParse cfg Q m fuel buf inf).buf ++ more) inf2).res ∧
        (clientParse cfg Q m' fuel1 (buf ++ more) inf1).buf = (clientParse cfg Q m' fuel2 ((clientParse cfg Q m fuel buf inf).buf ++ more) inf2).buf) := by
  intro fuel
  induction fuel with
  | zero => intro buf inf h; omega
  | succ fuel ih =>
    intro buf inf hlt h
    simp only [clientParse] at h
    conv => congr <;> simp only [clientParse]
    cases hq : Q buf with
    | incomplete =>
      dsimp only
      refine ⟨List.suffix_refl _, fun _ f1 f2 l1 l2 i1 i2 => ?_⟩
      exact client_fuel hst m' ((buf ++ more).length + 1) f1 f2 _ _ _ (by omega) (by omega) (by omega)
    | err e => rw [hq] at h; simp at h
    | versionErr => rw [hq] at h; simp [h09] at h
    | complete len r =>
      obtain ⟨p1, p2, p3⟩ := hst _ _ _ hq
      rw [hq] at h
      dsimp only at h ⊢
      have hdrop : (buf ++ more).drop len = buf.drop len ++ more := List.drop_append_of_le_length p2
      cases hh : clientHead cfg r with
      | error e => rw [hh] at h; simp at h
      | ok hk =>
        obtain ⟨head, ka⟩ := hk
        rw [hh] at h
        dsimp only at h ⊢
        cases hd : clientDecoder head m with
        | error e => rw [hd] at h; simp at h
        | ok o =>
          rw [hd] at h
          cases o with
          | some du => simp at h
          | none =>
            have hd' := clientDecoder_interim m' (clientDecoder_none hd)
            dsimp only at h ⊢
            have turn : buf.drop len ++ more ≠ [] → ∀ f1 inf1, ∃ inf1', clientParse cfg Q m' (f1 + 1) (buf ++ more) inf1 =
                clientParse cfg Q m' f1 (buf.drop len ++ more) inf1' := by
              intro hne f1 inf1
              refine ⟨if isInformational head.status then inf1 ++ [head] else inf1, ?_⟩
              simp only [clientParse]
              rw [p3 more]
              dsimp only
              rw [hh]
              dsimp only
              rw [hd']
              dsimp only
              rw [hdrop]
              simp only [if_neg hne]
            have hlen : (buf.drop len ++ more).length < (buf ++ more).length := by
              simp only [List.length_append, List.length_drop]; omega
            by_cases he : buf.drop len = []
            · rw [if_pos he]
              dsimp only
              refine ⟨List.nil_suffix, fun hne f1 f2 l1 l2 i1 i2 => ?_⟩
              obtain ⟨f1, rfl⟩ : ∃ k, f1 = k + 1 := ⟨f1 - 1, by omega⟩
              obtain ⟨i1', e1⟩ := turn (by rw [he]; exact hne) f1 i1
              rw [e1, he]
              rw [he] at hlen
              exact client_fuel hst m' ((buf ++ more).length) f1 f2 _ _ _ hlen (by omega) (by omega)
            · rw [if_neg he] at h ⊢
              obtain ⟨g1, g2⟩ := ih (buf.drop len) _ (by rw [List.length_drop]; omega) h
              refine ⟨g1.trans (List.drop_suffix _ _), fun hne f1 f2 l1 l2 i1 i2 => ?_⟩
              obtain ⟨f1, rfl⟩ : ∃ k, f1 = k + 1 := ⟨f1 - 1, by omega⟩
              obtain ⟨i1', e1⟩ := turn (by simp [he]) f1 i1
              rw [e1]
              exact g2 hne f1 f2 (by omega) (by omega) _ _

end Input

open Input

/-- The assumption about the tokeniser of requests: a head it has recognised it recognises whatever follows. -/
def Spec.RequestStable (Q : Bytes → Except ParseErr (Option (RawRequest × Nat))) : Prop :=
  ∀ buf r n, Q buf = .ok (some (r, n)) → n ≤ buf.length ∧ ∀ more, Q (buf ++ more) = .ok (some (r, n))

/-- C66: the parser of requests reads a head the same whatever follows it. -/
theorem C66_server_stable (Q : Bytes → Except ParseErr (Option (RawRequest × Nat))) (hQ : Spec.RequestStable Q) (mo uo : Bytes → Bool) (pc : Bool) :
    Stable (serverHeads Q mo uo pc) := by
  constructor
  · intro m b x b' h
    simp only [serverHeads] at h ⊢
    cases hq : Q b with
    | error e => rw [hq] at h; simp at h
    | ok o =>
      rw [hq] at h
      cases o with
      | none => simp at h
      | some rn =>
        obtain ⟨raw, n⟩ := rn
        obtain ⟨q1, q2⟩ := hQ _ _ _ hq
        dsimp only at h
        cases hp : serverParse mo uo pc raw with
        | error e => rw [hp] at h; simp at h
        | ok y =>
          rw [hp] at h
          simp only [Prod.mk.injEq, Except.ok.injEq, Option.some.injEq] at h
          obtain ⟨rfl, rfl⟩ := h
          refine ⟨List.drop_suffix _ _, fun more => ?_⟩
          rw [q2 more]
          dsimp only
          rw [hp, List.drop_append_of_le_length q1]
  · intro m b b' _ h
    simp only [serverHeads] at h ⊢
    cases hq : Q b with
    | error e => rw [hq] at h; simp at h
    | ok o =>
      rw [hq] at h
      cases o with
      | none =>
        simp only [Prod.mk.injEq, true_and] at h
        subst h
        exact ⟨List.suffix_refl _, fun _ _ _ => rfl⟩
      | some rn =>
        obtain ⟨raw, n⟩ := rn
        dsimp only at h
        cases hp : serverParse mo uo pc raw with
        | error e => rw [hp] at h; simp at h
        | ok y => rw [hp] at h; simp at h

/-- C66: the parser of responses too, also when interim responses come before it.  (Reading HTTP/0.9 is off, as it is by default: there every
prefix of the bytes is a response.) -/
theorem C66_client_stable (cfg : ClientCfg) (h09 : cfg.h09 = false) (Q : Bytes → RespParse) (hQ : Spec.PrefixStable Q) : Stable (clientHeads cfg Q) := by
  constructor
  · intro m b x b' h
    simp only [clientHeads, Prod.mk.injEq] at h ⊢
    obtain ⟨h1, h2⟩ := h
    refine ⟨by rw [← h2]; exact (client_msg h09 hQ m [] _ _ _ _ h1).1, fun more => ?_⟩
    obtain ⟨_, g2, g3⟩ := client_msg h09 hQ m more _ _ _ _ h1
    obtain ⟨f1, f2⟩ := client_fuel (cfg := cfg) hQ m ((b ++ more).length + 1) ((b ++ more).length + 1) ((b ++ more).length + 1 + (b.length + 1)) (b ++ more) [] []
      (by omega) (by omega) (by omega)
    have hmono : ∀ (fuel k : Nat) (buf : Bytes) (inf : List RespHead) (y : ResponseMsg), (clientParse cfg Q m fuel buf inf).res = .ok (some y) →
        clientParse cfg Q m (fuel + k) buf inf = clientParse cfg Q m fuel buf inf := by
      intro fuel
      induction fuel with
      | zero => intro k buf inf y h; simp [clientParse] at h
      | succ fuel ih =>
        intro k buf inf y h
        rw [show fuel + 1 + k = (fuel + k) + 1 by omega]
        simp only [clientParse] at h ⊢
        cases hq : Q buf with
        | incomplete => rfl
        | err e => rfl
        | versionErr => rfl
        | complete len r =>
          rw [hq] at h
          dsimp only at h ⊢
          cases hh : clientHead cfg r with
          | error e => rfl
          | ok hk =>
            obtain ⟨head, ka⟩ := hk
            rw [hh] at h
            dsimp only at h ⊢
            cases hd : clientDecoder head m with
            | error e => rfl
            | ok o =>
              rw [hd] at h
              cases o with
              | some du => rfl
              | none =>
                dsimp only at h ⊢
                by_cases he : buf.drop len = []
                · rw [if_pos he, if_pos he]
                · rw [if_neg he] at h
                  rw [if_neg he, if_neg he]
                  exact ih k _ _ _ h
    have := hmono (b.length + 1) more.length (b ++ more) [] x g2
    rw [show b.length + 1 + more.length = (b ++ more).length + 1 by rw [List.length_append]; omega] at this
    rw [this, ← h2]
    exact ⟨g2, g3⟩
  · intro m b b' _ h
    simp only [clientHeads, Prod.mk.injEq] at h ⊢
    obtain ⟨h1, h2⟩ := h
    have g := client_skip h09 hQ m m [] _ _ _ (Nat.lt_succ_self _) h1
    refine ⟨by rw [← h2]; exact g.1, fun m' more hne => ?_⟩
    have g' := (client_skip h09 hQ m m' more _ _ _ (Nat.lt_succ_self _) h1).2
    rw [h2] at g'
    have := g' hne ((b ++ more).length + 1) ((b ++ more).length + 1) (by omega) (by omega) [] []
    have hl : b'.length ≤ b.length := by rw [← h2]; exact g.1.length_le
    have hf := client_fuel (cfg := cfg) hQ m' ((b' ++ more).length + 1) ((b ++ more).length + 1) ((b' ++ more).length + 1) (b' ++ more) [] []
      (by omega) (by simp only [List.length_append]; omega) (by omega)
    exact ⟨this.1.trans hf.1, this.2.trans hf.2⟩

/-! ## The messages of a connection -/

/-- C66.  However the bytes arrive and whatever happens on the connection, the messages read are those the bytes are: one directly after the
other, each read to its end but possibly the last, of which the data read so far begins what its body is.  They are the heads the connection has
logged, and the readers of the bodies have been sent what was read of theirs, in order: everything, unless they were dropped. -/
theorem C66_messages {α : Type} (env : EncodeEnv) (P : TrailerParser) (H : HeadFn α) (hS : Stable H) (f : Fed α) (hd : f.disp.Start) (hg : f.got = [])
    (as : List FAct) :
    Told H P f.disp.conn.maxHeaders f.inlet.rd.fin f.inlet.rd.stream (f.run env P H as).got ∧
    (f.run env P H as).disp.conn.log.filter isHead = (f.run env P H as).got.map (headEv H) ∧
    (f.run env P H as).disp.chans.length = ((f.run env P H as).got.filter (hasBody H)).length ∧
    ∀ (k : Nat) (ch : Chan), (f.run env P H as).disp.chans[k]? = some ch →
      ∃ r, ((f.run env P H as).got.filter (hasBody H))[k]? = some r ∧ Carries H ch r := by
  have h := fi_run hS env as (fi_start (H := H) (P := P) hd hg)
  refine ⟨?_, h.heads, h.carried.1, h.carried.2⟩
  cases h.pos with
  | between t hr _ _ => exact .inl ⟨t, hr⟩
  | within ws r t body dec h1 h2 h3 h4 h5 h6 h7 h8 h9 h10 =>
    refine .inr ⟨ws, r, t, h1, h2, h3, h4, body, h5, h6, ?_⟩
    have : ((Decoder.ofLength (H.view r.method r.head).decode f.disp.conn.maxHeaders none).readAll P ⟨body, [], f.inlet.rd.fin⟩).view =
      outc P (Decoder.ofLength (H.view r.method r.head).decode f.disp.conn.maxHeaders none) ⟨body, [], f.inlet.rd.fin⟩ [] := rfl
    rw [this, ← h10]
    exact outc_prefix P _ _ _
  | stopped ws r t h1 h2 h3 h4 => exact .inr ⟨ws, r, t, h1, h2, h3⟩

/-- C66: whenever the connection waits for a head, or for its turn to be read again, all messages so far have been read to their ends and the bytes not yet taken are the ones after the last;
or they are what remains of them after interim responses have been passed over, which makes no difference to the parser. -/
theorem C66_next_head {α : Type} (env : EncodeEnv) (P : TrailerParser) (H : HeadFn α) (hS : Stable H) (f : Fed α) (hd : f.disp.Start) (hg : f.got = [])
    (as : List FAct) (hc : (f.run env P H as).disp.conn.reading = .init ∨ (f.run env P H as).disp.conn.reading = .keepAlive) :
    ∃ rest, Reads H P f.disp.conn.maxHeaders f.inlet.rd.fin f.inlet.rd.stream (f.run env P H as).got rest ∧
      (f.run env P H as).inlet.rd.stream <:+ rest ∧
      ((f.run env P H as).inlet.rd.stream ≠ [] → ∀ m, H.parse m rest = H.parse m (f.run env P H as).inlet.rd.stream) := by
  have h := fi_run hS env as (fi_start (H := H) (P := P) hd hg)
  cases h.pos with
  | between t hr hn _ =>
    rcases hn with hn | hn
    · rcases hc with hc | hc <;> rw [hc] at hn <;> cases hn
    · exact ⟨t, hr, hn.1, hn.parse⟩
  | within ws r t body dec h1 h2 h3 h4 h5 h6 h7 h8 h9 h10 => rcases hc with hc | hc <;> rw [hc] at h8 <;> cases h8
  | stopped ws r t h1 h2 h3 h4 => rcases hc with hc | hc <;> rw [hc] at h4 <;> cases h4

/-- C66: how the bytes are cut makes no difference.  Two connections that receive the same bytes read the same messages, however the bytes arrive and
whatever else happens on the two: the heads at the same place are equal, so are the bodies and trailers if both were read to their ends, and
otherwise one has read a beginning of what the other has read. -/
theorem C66_segmentation {α : Type} (env env' : EncodeEnv) (P : TrailerParser) (H : HeadFn α) (hS : Stable H) (f f' : Fed α)
    (hd : f.disp.Start) (hg : f.got = []) (hd' : f'.disp.Start) (hg' : f'.got = [])
    (hs : f.inlet.rd.stream = f'.inlet.rd.stream) (hf : f.inlet.rd.fin = f'.inlet.rd.fin) (hmh : f.disp.conn.maxHeaders = f'.disp.conn.maxHeaders)
    (as as' : List FAct)
    (hm : ∀ (k : Nat) (r r' : Received α), (f.run env P H as).got[k]? = some r → (f'.run env' P H as').got[k]? = some r' →
      H.parse r.method = H.parse r'.method ∧ H.view r.method = H.view r'.method)
    (k : Nat) (r r' : Received α) (hr : (f.run env P H as).got[k]? = some r) (hr' : (f'.run env' P H as').got[k]? = some r') :
    r.head = r'.head ∧ (r.data <+: r'.data ∨ r'.data <+: r.data) ∧ (r.whole = true → r'.data <+: r.data) ∧
      (r.whole = true → r'.whole = true → r.data = r'.data ∧ r.trailers = r'.trailers) := by
  have h1 := (C66_messages env P H hS f hd hg as).1
  have h2 := (C66_messages env' P H hS f' hd' hg' as').1
  rw [← hs, ← hf, ← hmh] at h2
  obtain ⟨_, t, body, a1, a2⟩ := told_at h1 k r hr
  obtain ⟨_, t', body', b1, b2⟩ := told_at h2 k r' hr'
  have hl : k < (f.run env P H as).got.length := (List.getElem?_eq_some_iff.1 hr).1
  have hl' : k < (f'.run env' P H as').got.length := (List.getElem?_eq_some_iff.1 hr').1
  have ht : t = t' := by
    refine reads_unique _ _ a1 b1 (by rw [List.length_take, List.length_take]; omega) ?_
    intro j x y hx hy
    have e1 := List.getElem?_eq_some_iff.1 hx
    have e2 := List.getElem?_eq_some_iff.1 hy
    have hj : j < k := by have := e1.1; rw [List.length_take] at this; omega
    rw [List.getElem?_take_of_lt hj] at hx hy
    exact hm j x y hx hy
  subst ht
  exact at_unique a2 b2 (hm k r r' hr hr')

/-- C66: on a server it needs no condition; a request is read alike whatever was read before. -/
theorem C66_server_segmentation (env env' : EncodeEnv) (P : TrailerParser) (Q : Bytes → Except ParseErr (Option (RawRequest × Nat)))
    (hQ : Spec.RequestStable Q) (mo uo : Bytes → Bool) (pc : Bool) (f f' : Fed RequestMsg)
    (hd : f.disp.Start) (hg : f.got = []) (hd' : f'.disp.Start) (hg' : f'.got = [])
    (hs : f.inlet.rd.stream = f'.inlet.rd.stream) (hf : f.inlet.rd.fin = f'.inlet.rd.fin) (hmh : f.disp.conn.maxHeaders = f'.disp.conn.maxHeaders)
    (as as' : List FAct) (k : Nat) (r r' : Received RequestMsg)
    (hr : (f.run env P (serverHeads Q mo uo pc) as).got[k]? = some r) (hr' : (f'.run env' P (serverHeads Q mo uo pc) as').got[k]? = some r') :
    r.head = r'.head ∧ (r.data <+: r'.data ∨ r'.data <+: r.data) ∧ (r.whole = true → r'.data <+: r.data) ∧
      (r.whole = true → r'.whole = true → r.data = r'.data ∧ r.trailers = r'.trailers) :=
  C66_segmentation env env' P _ (C66_server_stable Q hQ mo uo pc) f f' hd hg hd' hg' hs hf hmh as as' (fun _ _ _ _ _ => ⟨rfl, rfl⟩) k r r' hr hr'

/-! ## Examples -/

namespace Input

/-- A tokeniser for heads of one byte. -/
def exQ : Bytes → Except ParseErr (Option (RawRequest × Nat))
  | [] => .ok none
  | 1 :: _ => .ok (some (⟨mGET, ascii "/", true, []⟩, 1))
  | 2 :: _ => .ok (some (⟨ascii "POST", ascii "/", true, [(hCL, ascii "3")]⟩, 1))
  | 3 :: _ => .ok (some (⟨ascii "POST", ascii "/", true, [(hTE, ascii "chunked")]⟩, 1))
  | _ => .error .method

theorem exQ_stable : Spec.RequestStable exQ := by
  intro buf r n h
  unfold exQ at h
  split at h <;> simp at h <;> obtain ⟨rfl, rfl⟩ := h <;> exact ⟨by simp, fun more => rfl⟩

def exHeads : HeadFn RequestMsg := serverHeads exQ (fun _ => true) (fun _ => true) false

/-- A server with these bytes to come. -/
def exFed (net : List Seg) : Fed RequestMsg := ⟨exDisp false, { rd := ⟨[], net, .silent⟩, max := 8192 }, []⟩

/-- A request with the body `1 2 1` (which look like heads), a chunked one, and another, in one read or in several. -/
def exOnce : Fed RequestMsg := exFed [.data 2 ([1, 2, 1, 3] ++ ascii "1\r\nx\r\n0\r\n\r\n" ++ [1])]

def exCut : Fed RequestMsg :=
  exFed [.data 2 [1], .pending, .data 2 [1, 3] , .data 49 (ascii "\r"), .pending, .data 10 (ascii "x\r\n0\r\n\r"), .data 10 [1]]

/-- Every request is read to its end and answered. -/
def exServe (n : Nat) : List FAct :=
  [0, 1, 2].flatMap (fun k => [.act (exRead .pending exNo), .act (.want k)] ++ List.replicate n (.act (exRead .pending exNo)) ++
    [.act (exWrite (exResp [] none) .pending), .act (.flush exFlushIn .pending)])

example : exOnce.disp.Start ∧ exCut.disp.Start ∧ exOnce.inlet.rd.stream = exCut.inlet.rd.stream ∧
    ((exOnce.run exEnv exP exHeads (exServe 5)).got.map (fun r => (r.head.method, r.data, r.whole)) =
      [(ascii "POST", [1, 2, 1], true), (ascii "POST", ascii "x", true), (mGET, [], true)]) ∧
    (exCut.run exEnv exP exHeads (exServe 5)).got.map (fun r => (r.head, r.data, r.whole)) =
      (exOnce.run exEnv exP exHeads (exServe 5)).got.map (fun r => (r.head, r.data, r.whole)) ∧
    (exCut.run exEnv exP exHeads (exServe 5)).disp.chans.map sentData = [[1, 2, 1], ascii "x"] ∧
    (exCut.run exEnv exP exHeads (exServe 5)).inlet.rd.stream = [] :=
  ⟨exDisp_start _ _, exDisp_start _ _, by decide +kernel, by decide +kernel, by decide +kernel, by decide +kernel, by decide +kernel⟩

/-- An interim response is passed over, also in pieces. -/
example : Stable (clientHeads exCfg exH) := C66_client_stable exCfg rfl exH (by
  intro buf len r h
  unfold exH at h
  split at h <;> simp at h <;> obtain ⟨rfl, rfl⟩ := h <;> exact ⟨by decide, by simp, fun more => rfl⟩)

end Input

end Hyper
