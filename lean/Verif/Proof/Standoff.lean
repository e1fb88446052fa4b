import Verif.Spec.Standoff
import Verif.Props.Prompt

/-! # What is known of a connection that waits when everything has arrived -/

namespace Hyper.Input

open Hyper.Spec Hyper.Wire

variable {α : Type} {H : HeadFn α} {P : TrailerParser} {mh : Option Nat}

theorem stream_drained {r : Rd} (h : segBytes r.net = []) : r.stream = r.buf := by simp [Rd.stream, h]

/-- If what is left of some bytes holds no head, the bytes hold none. -/
theorem near_noHead (hS : Stable H) (hE : Ending H) {t u : Bytes} (hn : Near H t u) (hu : NoHead H u) : NoHead H t := by
  by_cases he : u = []
  · subst he
    intro m x b' h
    have h1 := (hS.msg h).2 [0]
    rw [hn.2 [0] (by simp) m] at h1
    obtain ⟨_, pre, e, g1, g2⟩ := hE.ends h1
    simp only [List.nil_append, List.length_singleton, List.length_append, show 1 - (b'.length + 1) = 0 by omega, List.take_zero] at g2
    rcases g1 with rfl | rfl <;> simp at g2
  · intro m x b' h
    rw [hn.parse he m] at h
    exact hu m x b' h

/-- While a head is awaited, the messages read are all there are. -/
theorem awaits_head (hS : Stable H) (hE : Ending H) (env : EncodeEnv) (f : Fed α) (hf : f.disp.Start) (hg : f.got = []) (hp : f.inlet.partialLen = none)
    (as : List FAct) (i : ReadIn) (h : AwaitsHead H (f.run env P H as) i) :
    ∃ t, Reads H P f.disp.conn.maxHeaders .silent f.inlet.rd.stream (f.run env P H as).got t ∧ NoHead H t := by
  obtain ⟨h1, h2, h3, h4⟩ := h
  have fi := fi_run hS env as (fi_start (H := H) (P := P) hf hg)
  have hno := (C69_head env P H hS hE f hp as i h1 h2).1
  generalize f.run env P H as = g at *
  have hrd : (g.read env P H i).inlet = (g.inlet.parse (H.parse g.disp.conn.method)).2 := by
    unfold Fed.read
    rw [if_pos h1]
  have hpf := (parse_facts hS g.disp.conn.method (g.inlet.rd.net.length + 1) g.inlet)
  have hinit := (step_parses env P g.disp i i rfl h1).2
  have hfin : f.inlet.rd.fin = .silent := fi.finEq.symm.trans h3
  have hnear : Near H g.inlet.rd.stream (g.inlet.parse (H.parse g.disp.conn.method)).2.rd.stream := by
    have := hpf.2
    have h2' : (g.inlet.parseLoop (H.parse g.disp.conn.method) (g.inlet.rd.net.length + 1)).1 = .pending := h2
    rw [h2'] at this
    exact this
  rw [hrd] at hno
  rw [stream_drained h4] at hnear
  cases fi.pos with
  | between t hr hn hk =>
    rw [hfin] at hr
    refine ⟨t, hr, ?_⟩
    rcases hn with hn | hn
    · rw [hinit] at hn; cases hn
    · exact near_noHead hS hE (hn.trans hnear) hno
  | within ws r t body dec _ _ _ _ _ _ _ hk => rw [hinit] at hk; cases hk
  | stopped ws r t _ _ _ hk => rw [hinit] at hk; cases hk

theorem waiting_nothing (P : TrailerParser) {d : Decoder} (hd : DOk d) (r : Rd) (hr : r.stream = []) (hfin : r.fin = .silent) (acc : Bytes)
    (hne : d.isEof = false) : outc P d r acc = .waiting acc := by
  rw [outc_congr P hd (r₂ := ⟨[], [], .silent⟩) (by rw [hr]; rfl) hfin]
  unfold outc
  cases d with
  | length n =>
    rw [Decoder.length_poll P _ _ _ _ (by omega), stream_one]
    cases n with
    | zero => cases hne
    | succ n => simp [lengthOutcome]
  | eof b =>
    cases b with
    | true => cases hne
    | false => rw [Decoder.eof_poll P _ _ _ (by omega), stream_one]; simp [eofOutcome]
  | chunked c =>
    have hc : c.Ok := ⟨(fun h => by rw [Decoder.isEof, h] at hne; simp at hne), hd⟩
    rw [Chunked.poll_run P _ c _ _ hc (by omega), stream_one]
    rfl

theorem decode_pending_more (P : TrailerParser) (d : Decoder) (r : Rd) (hd : DOk d) (h : (d.decode P r).1 = .pending) : (d.decode P r).2.1.isEof = false := by
  cases d with
  | length n =>
    simp only [Decoder.decode] at h ⊢
    split at h
    · cases h
    · rename_i hn
      rw [if_neg hn]
      split at h
      · cases n with
        | zero => exact absurd rfl hn
        | succ n => rfl
      · cases h
      · split at h
        · cases h
        · split at h <;> cases h
  | eof b =>
    simp only [Decoder.decode] at h ⊢
    split at h
    · cases h
    · rename_i hn
      rw [if_neg hn]
      split at h
      · cases b with
        | true => exact absurd rfl hn
        | false => rfl
      · cases h
      · cases h
  | chunked c =>
    simp only [Decoder.decode] at h ⊢
    have hc : c.Ok := by
      refine ⟨fun hf => ?_, hd⟩
      simp only [Chunked.decodeLoop, Chunked.step, hf, if_true] at h
      split at h
      · split at h <;> cases h
      · cases h
    have hspec := Chunked.decodeLoop_spec P (r.size + 1) c r hc (by omega)
    generalize Chunked.decodeLoop P (r.size + 1) c r = out at hspec h
    have key : ∀ c' : Chunked, c'.Ok → (Decoder.chunked c').isEof = false := by
      intro c' h2
      have := h2.1
      simp only [Decoder.isEof]
      cases hs : c'.state <;> simp_all
    cases hspec with
    | wait c' r' h1 h2 h3 => exact key _ h2
    | stuck c' r' h1 h2 => exact key _ h2
    | _ => cases h

/-- While more of a body is awaited, what was read of it is all that can be read. -/
theorem awaits_body (hS : Stable H) (env : EncodeEnv) (f : Fed α) (hf : f.disp.Start) (hg : f.got = [])
    (as : List FAct) (i : ReadIn) (h : AwaitsBody P (f.run env P H as) i) :
    ∃ ws r t body, (f.run env P H as).got = ws ++ [r] ∧ Reads H P f.disp.conn.maxHeaders .silent f.inlet.rd.stream ws t ∧
      H.parse r.method t = (.ok (some r.head), body) ∧ reading P f.disp.conn.maxHeaders .silent (H.view r.method r.head).decode body = .waiting r.data := by
  obtain ⟨dec, h1, h2, h3, h4⟩ := h
  have fi := fi_run hS env as (fi_start (H := H) (P := P) hf hg)
  have hbuf := (decode_pending P dec (f.run env P H as).inlet.rd h2).1
  generalize f.run env P H as = g at *
  have hk : rk g.disp.conn.reading = .dec dec := by
    unfold Disp.decodes at h1
    rw [← decoder_rk]
    repeat' split at h1
    all_goals first | exact h1 | cases h1
  have hfin : f.inlet.rd.fin = .silent := fi.finEq.symm.trans h3
  cases fi.pos with
  | between t hr hn hk' => exact absurd hk (hk' dec)
  | stopped ws r t _ _ _ hk' => rw [hk] at hk'; cases hk'
  | within ws r t body dec' hgot hr hw htr hp hs hb hk' hd ho =>
    rw [hk] at hk'
    cases hk'
    rw [hfin] at hr ho
    refine ⟨ws, r, t, body, hgot, hr, hp, ?_⟩
    unfold reading
    rw [← ho, outc_step P dec hd, h2]
    have hdf := decode_facts P dec g.inlet.rd hd
    refine waiting_nothing P (hdf.2 (by rw [h2]; simp)) _ ?_ ?_ _ (decode_pending_more P dec _ hd h2)
    · rw [stream_drained h4, hbuf]
    · rw [hdf.1, h3]

end Hyper.Input

namespace Hyper.Wire

open Hyper.Spec Hyper.Input

variable {α : Type} {H : HeadFn α} {P : TrailerParser} {mh : Option Nat}

/-- The parser passes over `100 Continue`, in front of a head too. -/
def Skips (H : HeadFn α) : Prop := Passes H ∧ ∀ m rest x b, H.parse m rest = (.ok (some x), b) → H.parse m (Conn.continueLine ++ rest) = (.ok (some x), b)

theorem Skips.noHead (h : Skips H) {t : Bytes} (hn : NoHead H (Conn.continueLine ++ t)) : NoHead H t := fun m x b e => hn m x b (h.2 m t x b e)

/-- Reading along a sequence of complete pieces to where there is no head. -/
theorem walk_all (hS : Stable H) (T : Bytes) : ∀ (pre : List Piece) (ws : List (Received α)) (t : Bytes),
    (∀ p ∈ pre, p.Whole) → (Piece.interim ∈ pre → Skips H) →
    (∀ (k : Nat) (m : Message) (r : Received α), (messages pre)[k]? = some m → ws[k]? = some r → Mute m ∨ ∃ x, Readable H P mh r.method m x) →
    (∀ m, (messages pre)[ws.length]? = some m → Mute m ∨ ∃ μ x, Readable H P mh μ m x) →
    Reads H P mh .silent (pre.flatMap Piece.bytes ++ T) ws t → NoHead H t →
    ∃ t', (messages pre).length ≤ ws.length ∧ Reads H P mh .silent T (ws.drop (messages pre).length) t' ∧ NoHead H t' := by
  intro pre
  induction pre with
  | nil => intro ws t _ _ _ _ hr hp; exact ⟨t, Nat.zero_le _, by simpa [messages] using hr, hp⟩
  | cons p pre ih =>
    intro ws t hw hi hk hl hr hp
    have hw' : ∀ p ∈ pre, p.Whole := fun q hq => hw q (by simp [hq])
    have hi' : Piece.interim ∈ pre → Skips H := fun h => hi (by simp [h])
    cases p with
    | interim =>
      have hpass := hi (by simp)
      rw [messages_cons_interim] at hk hl ⊢
      rw [List.flatMap_cons, List.append_assoc] at hr
      cases hr with
      | nil => exact ih [] _ hw' hi' (by simp) hl (.nil _) (hpass.noHead hp)
      | cons a b' c d e =>
        have hp' := hpass.1 _ _ _ _ b'
        exact ih _ t hw' hi' hk hl (.cons a hp' (hS.msg hp').1 d e) hp
    | message m =>
      rw [messages_cons_message] at hk hl ⊢
      rw [List.flatMap_cons, List.append_assoc] at hr
      have hwm := hw (.message m) (by simp)
      have hb : Piece.bytes (.message m) = m.head ++ (m.written []).out := rfl
      rw [hb, List.append_assoc] at hr
      have hnm : ¬ Mute m := by
        intro h
        have := hwm.1
        rw [h.written] at this
        cases this
      cases hr with
      | nil =>
        obtain ⟨μ, x', hx⟩ := (hl m rfl).resolve_left hnm
        exact absurd (hx.head _) (hp _ _ _)
      | @cons _ body next _ w ws a b' c d e =>
        obtain ⟨x', hx⟩ := (hk 0 m w rfl rfl).resolve_left hnm
        have := (hx.head _).symm.trans b'
        simp only [Prod.mk.injEq, Except.ok.injEq, Option.some.injEq] at this
        obtain ⟨rfl, rfl⟩ := this
        obtain ⟨_, _, rfl⟩ := (hx.whole hwm _).unique d
        obtain ⟨t', g1, g2, g3⟩ := ih ws t hw' hi' (fun k m r h1 h2 => hk (k + 1) m r (by simpa using h1) (by simpa using h2)) (fun m hm => hl m (by simpa using hm)) e hp
        exact ⟨t', by simpa using g1, by simpa using g2, g3⟩

/-- Where all that another connection has put on the wire was read up to where there is no head, all its messages were read, but possibly a last one of which
nothing was written. -/
theorem all_read (hS : Stable H) (hne : ∀ m x b, H.parse m [] ≠ (.ok (some x), b)) {d : Disp} {st : List Piece} (hw : OnWire d st)
    (hi : Piece.interim ∈ st → Skips H) {ws : List (Received α)} {t : Bytes} (h : Reads H P mh .silent (wire d.conn) ws t) (ht : NoHead H t)
    (hread : ∀ (k : Nat) (m : Message) (r : Received α), (messages st)[k]? = some m → ws[k]? = some r → Mute m ∨ ∃ x, Readable H P mh r.method m x)
    (hnext : ∀ m, (messages st)[ws.length]? = some m → Mute m ∨ ∃ μ x, Readable H P mh μ m x) :
    ws.length = (messages st).length ∨
    (ws.length + 1 = (messages st).length ∧ ((∃ e, d.conn.writing = .body e) ∨ d.conn.writing = .closed ∨ d.done = true) ∧ ∃ m, (messages st)[ws.length]? = some m ∧ Mute m) := by
  have stuck : ∀ {ws : List (Received α)} {t' : Bytes}, Reads H P mh .silent [] ws t' → ws = [] := by
    intro ws t' hr
    cases hr with
    | nil => rfl
    | cons a b => exact absurd b (hne _ _ _)
  cases hw with
  | whole a b =>
    rw [b] at h
    obtain ⟨t', g1, g2, g3⟩ := walk_all hS [] _ ws t a hi hread hnext (by rw [List.append_nil]; exact h) ht
    have := congrArg List.length (stuck g2)
    rw [List.length_drop, List.length_nil] at this
    exact .inl (by omega)
  | @last pre m bd a b c e =>
    rw [b] at h
    have hmsg : messages (pre ++ [.message m]) = messages pre ++ [m] := messages_append _ _
    rw [hmsg] at hread hnext ⊢
    have hpre : ∀ (j : Nat) (m' : Message), (messages pre)[j]? = some m' → (messages pre ++ [m])[j]? = some m' := by
      intro j m' hj
      rw [List.getElem?_append_left (List.getElem?_eq_some_iff.1 hj).1]; exact hj
    have hbd : bd <+: (m.written []).out := by
      rcases c with c | c
      · rw [c]; exact List.prefix_refl _
      · exact c []
    obtain ⟨t', g1, g2, g3⟩ := walk_all hS (m.head ++ bd) pre ws t a (fun h => hi (by simp [h])) (fun j m' r' e1 e2 => hread j m' r' (hpre j m' e1) e2)
      (fun m' hm => hnext m' (hpre _ _ hm)) h ht
    generalize hdrop : ws.drop (messages pre).length = ws2 at g2
    have hlen := congrArg List.length hdrop
    rw [List.length_drop] at hlen
    rw [List.length_append, List.length_singleton]
    by_cases hmu : Mute m
    · have hb0 : m.head ++ bd = [] := by
        rw [hmu.written] at hbd
        rw [hmu.1, List.eq_nil_of_prefix_nil hbd]; rfl
      rw [hb0] at g2
      have := stuck g2
      rw [this, List.length_nil] at hlen
      exact .inr ⟨by omega, e, m, by rw [show ws.length = (messages pre).length by omega]; simp, hmu⟩
    · left
      cases g2 with
      | nil =>
        exfalso
        rw [List.length_nil] at hlen
        obtain ⟨μ, x, hx⟩ := (hnext m (by rw [show ws.length = (messages pre).length by omega]; simp)).resolve_left hmu
        exact g3 _ _ _ (hx.head _)
      | @cons _ body' next _ w ws' a' b' c' d' e' =>
        have hwk : ws[(messages pre).length]? = some w := by
          have := congrArg (fun l : List (Received α) => l[0]?) hdrop
          simp only [List.getElem?_drop, Nat.add_zero, List.getElem?_cons_zero] at this
          exact this
        obtain ⟨x, hx⟩ := (hread _ m w (by simp) hwk).resolve_left hmu
        have := (hx.head _).symm.trans b'
        simp only [Prod.mk.injEq, Except.ok.injEq, Option.some.injEq] at this
        obtain ⟨rfl, rfl⟩ := this
        obtain ⟨rfl, _⟩ := (hx.part _ hbd).2 _ _ _ (complete_of_body d')
        have := stuck e'
        subst this
        simp only [List.length_cons, List.length_nil] at hlen
        omega

/-- Where all that another connection has put on the wire was read and a body is not complete, this is the body of its last message, which it has not ended;
and if it is still polling the user's body, all data this has yielded was read. -/
theorem part_read (hS : Stable H) (hne : ∀ m x b, H.parse m [] ≠ (.ok (some x), b)) {s : WriteStrategy} {d : Disp} {st : List Piece} (hw : WI s d st)
    (hi : Piece.interim ∈ st → Skips H) {ws : List (Received α)} {r : Received α} {t body : Bytes} (h : Reads H P mh .silent (wire d.conn) ws t)
    (hp : H.parse r.method t = (.ok (some r.head), body)) (ho : reading P mh .silent (H.view r.method r.head).decode body = .waiting r.data)
    (hread : ∀ (k : Nat) (m : Message) (r' : Received α), (messages st)[k]? = some m → (ws ++ [r])[k]? = some r' → Mute m ∨ ∃ x, Readable H P mh r'.method m x) :
    ∃ pre m, st = pre ++ [.message m] ∧ (ws ++ [r]).length = (messages st).length ∧ Readable H P mh r.method m r.head ∧
      ((∃ e, d.conn.writing = .body e) ∨ d.conn.writing = .closed ∨ d.done = true) ∧
      ((∃ e, d.conn.writing = .body e) → d.bodyRx = true → d.done = false → r.data = m.data) := by
  have hws : ∀ (k : Nat) (r' : Received α), ws[k]? = some r' → (ws ++ [r])[k]? = some r' := by
    intro k r' hk
    rw [List.getElem?_append_left (List.getElem?_eq_some_iff.1 hk).1]; exact hk
  have hlastr : (ws ++ [r])[ws.length]? = some r := by simp
  have stuck : ∀ (ws : List (Received α)) (t' : Bytes), Reads H P mh .silent [] ws t' → H.parse r.method t' = (.ok (some r.head), body) → False := by
    intro ws t' hr hp
    cases hr with
    | nil => exact hne _ _ _ hp
    | cons a b => exact hne _ _ _ b
  have found : ∀ m rest, Piece.Whole (.message m) → Readable H P mh r.method m r.head → body = (m.written []).out ++ rest → False := by
    intro m rest w1 w2 w3
    have w4 := w2.whole w1 rest
    rw [← w3] at w4
    have := complete_of_body w4
    rw [show reading P mh .silent (H.view r.method r.head).decode body = _ from this] at ho
    cases ho
  -- the last message is being written
  have key : ∀ pre m bd, (∀ p ∈ pre, Piece.Whole p) → st = pre ++ [.message m] → wire d.conn = pre.flatMap Piece.bytes ++ (m.head ++ bd) → bd <+: (m.written []).out →
      (ws ++ [r]).length = (messages st).length ∧ Readable H P mh r.method m r.head ∧ body = bd := by
    intro pre m bd a hst b hbd
    rw [b] at h
    subst hst
    have hmsg : messages (pre ++ [.message m]) = messages pre ++ [m] := messages_append _ _
    rw [hmsg] at hread ⊢
    have hpre : ∀ (j : Nat) (m' : Message), (messages pre)[j]? = some m' → (messages pre ++ [m])[j]? = some m' := by
      intro j m' hj
      rw [List.getElem?_append_left (List.getElem?_eq_some_iff.1 hj).1]; exact hj
    have := walk hS (m.head ++ bd) r.method r.head body pre ws t a (fun h => (hi (by simp [h])).1) (fun j m' r' e1 e2 => hread j m' r' (hpre j m' e1) (hws j r' e2))
      (fun m' hm => hread _ m' r (hpre _ _ hm) hlastr) h hp
    rcases this with ⟨m', rest, e1, e2, e3, e4⟩ | ⟨t', e1, e2, e3⟩
    · exact absurd e4 (fun e4 => found m' rest e2 e3 e4)
    · generalize hdrop : ws.drop (messages pre).length = ws2 at e2
      have hnm : ¬ Mute m := by
        intro hmu
        rw [hmu.written] at hbd
        rw [hmu.1, List.eq_nil_of_prefix_nil hbd] at e2
        exact stuck _ _ e2 e3
      cases e2 with
      | nil =>
        have hkn : ws.length = (messages pre).length := by
          have := congrArg List.length hdrop
          rw [List.length_drop] at this
          simp only [List.length_nil] at this
          omega
        have hm : (messages pre ++ [m])[ws.length]? = some m := by rw [hkn]; simp
        obtain ⟨x, hx⟩ := (hread _ m r hm hlastr).resolve_left hnm
        have := (hx.head _).symm.trans e3
        simp only [Prod.mk.injEq, Except.ok.injEq, Option.some.injEq] at this
        obtain ⟨rfl, rfl⟩ := this
        exact ⟨by simp [hkn], hx, rfl⟩
      | @cons _ body' next _ w ws' a' b' c' d' e' =>
        exfalso
        have hwk : ws[(messages pre).length]? = some w := by
          have := congrArg (fun l : List (Received α) => l[0]?) hdrop
          simp only [List.getElem?_drop, Nat.add_zero, List.getElem?_cons_zero] at this
          exact this
        obtain ⟨x, hx⟩ := (hread _ m w (by simp) (hws _ _ hwk)).resolve_left hnm
        have := (hx.head _).symm.trans b'
        simp only [Prod.mk.injEq, Except.ok.injEq, Option.some.injEq] at this
        obtain ⟨rfl, rfl⟩ := this
        obtain ⟨rfl, _⟩ := (hx.part _ hbd).2 _ _ _ (complete_of_body d')
        exact stuck _ _ e' e3
  cases hw.st with
  | whole a b c =>
    exfalso
    rw [b] at h
    have := walk hS [] r.method r.head body _ ws t a (fun h => (hi h).1) (fun j m r' e1 e2 => hread j m r' e1 (hws j r' e2))
      (fun m hm => hread _ m r hm hlastr) (by rw [List.append_nil]; exact h) hp
    rcases this with ⟨m, rest, e1, e2, e3, e4⟩ | ⟨t', _, e2, e3⟩
    · exact found m rest e2 e3 e4
    · exact stuck _ _ e2 e3
  | stopped pre m bd hs a b c hc =>
    have hbd : bd <+: (m.written []).out := by
      rcases c with c | c
      · rw [c]; exact List.prefix_refl _
      · exact c []
    obtain ⟨g1, g2, rfl⟩ := key pre m bd a hs (by rw [b, List.append_assoc]) hbd
    refine ⟨pre, m, hs, g1, g2, .inr hc, ?_⟩
    intro ⟨e, he⟩ _ hd
    rw [he, hd] at hc
    rcases hc with hc | hc <;> cases hc
  | going pre m bd e hs a b hpt hb h1 h2 h3 h4 =>
    obtain ⟨g1, g2, rfl⟩ := key pre m bd a hs (by rw [b, List.append_assoc]) (hpt [])
    refine ⟨pre, m, hs, g1, g2, .inl ⟨e, hb⟩, ?_⟩
    intro _ hrx _
    refine g2.going _ ?_
    rw [h3 hrx [.error]]
    have : (writeFrames m.trailers m.titleCase body (.body e) [.error]).out = body := by rw [writeFrames]
    rw [this]
    exact ho

/-- A client's parser passes over `100 Continue`. -/
theorem client_skips {cfg : ClientCfg} (h09 : cfg.h09 = false) {Q : Bytes → RespParse} {max : Nat} (hst : PrefixStable Q) (hQ : ReadsResponses max Q) : Skips (clientHeads cfg Q) := by
  refine ⟨client_passes hst hQ, fun m rest x b h => ?_⟩
  have hne : rest ≠ [] := by
    intro e; subst e
    exact client_nothing h09 hst _ _ _ h
  have h0 : (clientHeads cfg Q).parse m Conn.continueLine = (.ok none, []) := by
    have hq := hQ true 100 (ascii "Continue") [] [] [] (by omega) (by omega) (by decide +kernel) .nil (by simp) (by simp)
    simp only [decimal_100, show ¬ ∃ b ∈ ascii "Continue", (128 : Byte) ≤ b from by decide +kernel, if_false] at hq
    rw [show ascii "HTTP/1." ++ (if True then ascii "1" else ascii "0") ++ ascii " " ++ ascii "100" ++ ascii " " ++ ascii "Continue" ++ CRLF ++ [] ++ CRLF =
      Conn.continueLine from by decide +kernel, List.append_nil] at hq
    have hh : ∃ hd ka, clientHead cfg ⟨100, true, ascii "Continue", []⟩ = .ok (hd, ka) ∧ hd.status = 100 := by
      have hu : cfg.unfold [] = [] := by unfold ClientCfg.unfold; split <;> rfl
      simp only [clientHead, namesTooLong, hu, respLoop]
      exact ⟨_, _, rfl, rfl⟩
    obtain ⟨hd, ka, hh, hs⟩ := hh
    have hdec : clientDecoder hd m = .ok none := by simp [clientDecoder, hs]
    simp only [clientHeads, clientParse, hq, List.map_nil, hh, hdec, List.drop_length]
    rfl
  have := ((C66_client_stable cfg h09 Q hst).skip (by decide +kernel) h0).2 m rest (by simpa using hne)
  rw [this]
  exact h

end Hyper.Wire
