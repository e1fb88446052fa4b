import Verif.Spec.CutOff
import Verif.Proof.ClosedLoop

/-! # A body that its user has not ended is open on the wire -/

namespace Hyper.Wire

open Hyper.Spec Hyper.Input

variable {s : WriteStrategy}

/-- The message's body is chunked. -/
def InChunks (m : Message) : Prop := ∃ e ts, m.framing = .body e ∧ e.kind = .chunked ts

/-- A frame after which the body goes on. -/
def GoesOn : UserFrame → Prop
  | .data _ false => True
  | .unknown => True
  | _ => False

/-- The body of the last message is open: the user has not ended it, and what is on the wire is all that can be said of it. -/
inductive Unended (d : Disp) (st : List Piece) (m : Message) : Prop where
  | going (pre : List Piece) (e : Encoder) (ts : Option (List Bytes)) (hs : st = pre ++ [.message m]) (hf : ∀ f ∈ m.frames, GoesOn f) (hd : d.done = false)
      (hr : d.bodyRx = true) (hb : d.conn.writing = .body e) (hk : e.kind = .chunked ts)
  | stopped (pre : List Piece) (body : Bytes) (fs : List UserFrame) (hs : st = pre ++ [.message m]) (h : ∀ p ∈ pre, p.Whole)
      (hw : wire d.conn = pre.flatMap Piece.bytes ++ m.head ++ body) (hf : ∀ f ∈ fs, GoesOn f) (hm : m.frames = fs ∨ m.frames = fs ++ [.error])
      (hp : Partly { m with frames := fs } body) (hc : d.conn.writing = .closed ∨ d.done = true)

/-- Chunked bodies that have not been ended, at the places `E`, are open. -/
def Cut (d : Disp) (st : List Piece) (E : List Nat) : Prop :=
  ∀ (k : Nat) (m : Message), (messages st)[k]? = some m → InChunks m → k ∈ E ∨ (k + 1 = (messages st).length ∧ Unended d st m)

theorem Cut.mono {d : Disp} {st : List Piece} {E E' : List Nat} (h : Cut d st E) (hE : ∀ k ∈ E, k ∈ E') : Cut d st E' := by
  intro k m hk hm
  rcases h k m hk hm with a | a
  · exact .inl (hE k a)
  · exact .inr a

theorem Unended.quiet {d d' : Disp} {st : List Piece} {m : Message} (w : WI s d st) (h : Unended d st m) (q : Qd d d') : Unended d' st m := by
  have hwire := (q.conn.ok w.ok).2
  cases h with
  | going pre e ts hs hf hd hr hb hk =>
    obtain ⟨pre', m', body, hs', a, hw, hp, _⟩ := w.going_of hd hb
    obtain ⟨rfl, hm⟩ := List.append_inj' (hs.symm.trans hs') rfl
    cases hm
    rcases q.conn.writing with e1 | e1 | ⟨e1, _⟩
    · cases hd' : d'.done with
      | true => exact .stopped pre body m.frames hs a (hwire.trans hw) hf (.inl rfl) hp (.inr hd')
      | false => exact .going pre e ts hs hf hd' ((q.rx ⟨e, e1.trans hb⟩).trans hr) (e1.trans hb) hk
    · exact .stopped pre body m.frames hs a (hwire.trans hw) hf (.inl rfl) hp (.inl e1)
    · rw [hb] at e1; cases e1
  | stopped pre body fs hs h hw hf hm hp hc =>
    refine .stopped pre body fs hs h (hwire.trans hw) hf hm hp ?_
    rcases hc with hc | hc
    · rcases q.conn.writing with e1 | e1 | ⟨e1, _⟩
      · exact .inl (e1.trans hc)
      · exact .inl e1
      · rw [hc] at e1; cases e1
    · exact .inr (q.done hc)

theorem Cut.quiet {d d' : Disp} {st : List Piece} {E : List Nat} (w : WI s d st) (h : Cut d st E) (q : Qd d d') : Cut d' st E := by
  intro k m hk hm
  rcases h k m hk hm with a | ⟨a, b⟩
  · exact .inl a
  · exact .inr ⟨a, b.quiet w q⟩

theorem Cut.step_quiet (env : EncodeEnv) (P : TrailerParser) {d : Disp} {st : List Piece} {E : List Nat} {a : Act} (w : WI s d st) (h : Cut d st E)
    (hf : frameOf d a = none) (q : Qd d (d.step env P a)) : Cut (d.step env P a) (record env P d a st) E := by
  obtain ⟨evs, he, he'⟩ := q.conn.log
  rw [record_none env P hf evs he he']
  exact h.quiet w q

/-- Turns of reading put nothing on the wire once a message has been begun. -/
theorem qd_read_busy (env : EncodeEnv) (P : TrailerParser) {d : Disp} (hv : Poll.CI d) (hw : d.conn.writing ≠ .init) (i : ReadIn) : Qd d (d.readTurn env P i) := by
  unfold Disp.readTurn
  split
  · exact .refl _
  · split
    · rename_i hr
      have hrd : d.conn.reading = .init := by
        simp only [Conn.canReadHead, Bool.and_eq_true, beq_iff_eq] at hr; exact hr.1
      have hx : Qd d (d.readHeadReady env i) := by
        unfold Disp.readHeadReady
        rcases pollReadHead_cases env d.conn i.t0 i.t1 i.parse i.notify d.headId (fun hc => hv.init hc hrd) with q | ⟨_, _, _, _, _, _, _, hi, _⟩
        · exact (Qd.conn_only d q).trans (qd_afterHead _ _)
        · exact absurd hi hw
      unfold Disp.readHead
      repeat' split
      all_goals first
        | exact hx
        | exact .refl _
        | exact qd_close _
    · split
      · have hb : Qd d { d with conn := (d.conn.pollReadBody P i.rd i.notify).2 } := by
          unfold Conn.pollReadBody
          split
          · exact .conn_only d (qc_decodeBody ..)
          · have hs : d.conn.sendContinue = d.conn := by
              unfold Conn.sendContinue
              split
              · rename_i h; exact absurd h hw
              · rfl
            rw [hs]; exact .conn_only d (qc_decodeBody ..)
          · exact .conn_only d (.refl _)
        unfold Disp.readBody
        repeat' split
        · exact .refl _
        · exact (hb.trans (qd_maybeLose _ _ _)).trans (qd_afterPiece _ _ _ _)
        · exact .refl _
        · exact ⟨qc_drain .., fun _ => rfl, id⟩
        · exact ⟨.refl _, fun _ => rfl, id⟩
      · have hq := Qd.conn_only d (qc_keepAlive d.conn i.bufEmpty i.io)
        unfold Disp.readIdle
        simp only
        split
        · exact hq.trans (qd_fail _)
        · exact hq

/-- A request without a body is not sent in chunks. -/
theorem chunked_body {c : Conn} {h : ReqHead} {body : Option BodyLength} {ev : Ev} (hm : InChunks (reqMessage c h body ev)) : body.isSome = true := by
  obtain ⟨e, ts, h1, h2⟩ := hm
  cases body with
  | some b => rfl
  | none =>
    unfold reqMessage at h1
    cases hc : clientEncode c.titleCase (connReq c.version c.ka h).2 none [] with
    | none => rw [hc] at h1; cases h1
    | some r =>
      rw [hc] at h1
      have hr : r.2 = Encoder.length 0 := by
        unfold clientEncode at hc
        simp only [Option.map_eq_some_iff] at hc
        obtain ⟨t, _, rfl⟩ := hc
        rfl
      simp only [hr] at h1
      cases h1

theorem messages_last (pre : List Piece) (m : Message) : messages (pre ++ [.message m]) = messages pre ++ [m] := messages_append _ _

theorem reqEnc_framing (c : Conn) (h : ReqHead) (body : Option BodyLength) (ev : Ev) : Writing.ofHead (c.reqEnc h body).2 = (reqMessage c h body ev).framing := by
  unfold Conn.reqEnc reqMessage
  rw [clientEncode_pre]
  cases clientEncode c.titleCase (connReq c.version c.ka h).2 body [] with
  | none => simp [Writing.ofHead]
  | some r => simp

/-- The head of a request. -/
theorem Cut.head (env : EncodeEnv) {d : Disp} {st : List Piece} {E : List Nat} (h : Cut d st E) (hd : d.done = false) (hw : d.conn.writing = .init)
    (hc : d.conn.client = true) (q : ReqHead) (body : Option BodyLength) (ev : Ev) :
    Cut (d.writeHead env (.req q body)) (st ++ [.message (reqMessage d.conn q body ev)]) E := by
  intro k m hk hm
  rw [messages_last] at hk ⊢
  by_cases hlt : k < (messages st).length
  · rw [List.getElem?_append_left hlt] at hk
    rcases h k m hk hm with a | ⟨_, a⟩
    · exact .inl a
    · cases a with
      | going pre e ts hs hf hd hr hb hk => rw [hw] at hb; cases hb
      | stopped pre body fs hs h' hw' hf hm hp hc => rw [hw, hd] at hc; rcases hc with hc | hc <;> cases hc
  · rw [List.getElem?_append_right (by omega)] at hk
    have hk0 : k - (messages st).length = 0 := by
      have := (List.getElem?_eq_some_iff.1 hk).1
      simp only [List.length_singleton] at this; omega
    rw [hk0] at hk
    simp only [List.getElem?_cons_zero, Option.some.injEq] at hk
    subst hk
    refine .inr ⟨by rw [List.length_append, List.length_singleton]; omega, ?_⟩
    obtain ⟨e, ts, h1, h2⟩ := id hm
    simp only [Disp.writeHead, hc, if_true]
    refine .going st e ts rfl ?_ hd (chunked_body hm) ?_ h2
    · intro f hf
      have : (reqMessage d.conn q body ev).frames = [] := by unfold reqMessage; split <;> rfl
      rw [this] at hf; cases hf
    · rw [← h1, ← reqEnc_framing]; rfl

theorem respEnc_framing (env : EncodeEnv) (c : Conn) (a : RespOut) (ev : Ev) : Writing.ofHead (c.respEnc env a).2 = (respMessage env c a ev).framing := by
  have hr : c.respEnc env a = (c.out.wbuf.headers.bytes ++ (serverEncode env (c.respMsg a).2 []).1, (serverEncode env (c.respMsg a).2 []).2) :=
    serverEncode_pre env _ _
  rw [hr]; rfl

/-- The head of a response. -/
theorem Cut.reply (env : EncodeEnv) {d : Disp} {st : List Piece} {E : List Nat} (h : Cut d st E) (hd : d.done = false) (hw : d.conn.writing = .init)
    (hc : d.conn.client = false) (a : RespOut) (ev : Ev) :
    Cut (d.writeHead env (.resp a)) (st ++ [.message (respMessage env d.conn a ev)]) (E ++ (if a.body.isNone then [(messages st).length] else [])) := by
  intro k m hk hm
  rw [messages_last] at hk ⊢
  by_cases hlt : k < (messages st).length
  · rw [List.getElem?_append_left hlt] at hk
    rcases h k m hk hm with a | ⟨_, a⟩
    · exact .inl (List.mem_append_left _ a)
    · cases a with
      | going pre e ts hs hf hd hr hb hk => rw [hw] at hb; cases hb
      | stopped pre body fs hs h' hw' hf hm hp hc => rw [hw, hd] at hc; rcases hc with hc | hc <;> cases hc
  · rw [List.getElem?_append_right (by omega)] at hk
    have hlen := (List.getElem?_eq_some_iff.1 hk).1
    simp only [List.length_singleton] at hlen
    have hk0 : k - (messages st).length = 0 := by omega
    rw [hk0] at hk
    simp only [List.getElem?_cons_zero, Option.some.injEq] at hk
    subst hk
    cases hb : a.body with
    | none => exact .inl (List.mem_append_right _ (by simp; omega))
    | some body =>
      refine .inr ⟨by rw [List.length_append, List.length_singleton]; omega, ?_⟩
      obtain ⟨e, ts, h1, h2⟩ := id hm
      simp only [Disp.writeHead, hc, Bool.false_eq_true, if_false]
      refine .going st e ts rfl ?_ hd (by simp [hb]) ?_ h2
      · intro f hf; cases hf
      · rw [← h1]
        exact respEnc_framing env d.conn a ev

/-- The last frame of a body. -/
def isFinal : UserFrame → Bool
  | .data _ true => true
  | .trailers _ => true
  | _ => false

/-- A frame of the user's body. -/
theorem Cut.frame {d : Disp} {st : List Piece} {E : List Nat} (w : WI s d st) (h : Cut d st E) (hp : polls d = true) (f : UserFrame) :
    Cut (d.writeFrame (.frame f)) (addFrame f st) (E ++ (if isFinal f then [(messages st).length - 1] else [])) := by
  obtain ⟨hd, hcl, hrx, hbb, hwb⟩ := polls_iff.1 hp
  obtain ⟨e, hb⟩ := canWriteBody_iff.1 hwb
  obtain ⟨pre, m, body, rfl, a, hw, hpa, h1, h2, h3, h4⟩ := w.going_of hd hb
  rw [addFrame_last]
  intro k m' hk hm
  rw [messages_last] at hk
  by_cases hlt : k < (messages pre).length
  · rw [List.getElem?_append_left hlt] at hk
    rcases h k m' (by rw [messages_last, List.getElem?_append_left hlt]; exact hk) hm with b | ⟨b, _⟩
    · exact .inl (List.mem_append_left _ b)
    · rw [messages_last, List.length_append, List.length_singleton] at b; omega
  · rw [List.getElem?_append_right (by omega)] at hk
    have hk0 : k - (messages pre).length = 0 := by
      have := (List.getElem?_eq_some_iff.1 hk).1
      simp only [List.length_singleton] at this; omega
    rw [hk0] at hk
    simp only [List.getElem?_cons_zero, Option.some.injEq] at hk
    subst hk
    have hkl : k + 1 = (messages (pre ++ [Piece.message { m with frames := m.frames ++ [f] }])).length := by
      rw [messages_last, List.length_append, List.length_singleton]; omega
    have hend : k ∈ E ++ [(messages (pre ++ [Piece.message m])).length - 1] := by
      rw [messages_last, List.length_append, List.length_singleton]
      simp only [List.mem_append, List.mem_singleton]
      right; omega
    rcases h k m (by rw [messages_last, List.getElem?_append_right (by omega), hk0]; rfl) hm with b | ⟨_, b⟩
    · exact .inl (List.mem_append_left _ b)
    · cases b with
      | stopped _ _ _ _ _ _ _ _ _ hc => rw [hb, hd] at hc; rcases hc with hc | hc <;> cases hc
      | going pre' e' ts hs hf _ _ hb' hk' =>
        rw [hb] at hb'; cases hb'
        have hfs : GoesOn f → ∀ g ∈ m.frames ++ [f], GoesOn g := by
          intro hg g hm
          rcases List.mem_append.1 hm with hm | hm
          · exact hf g hm
          · rw [List.mem_singleton.1 hm]; exact hg
        cases f with
        | trailers t => exact .inl hend
        | unknown => exact .inr ⟨hkl, .going pre e ts rfl (hfs trivial) hd hrx hb hk'⟩
        | error =>
          refine .inr ⟨hkl, .stopped pre body m.frames rfl a ?_ hf (.inr rfl) hpa (.inr rfl)⟩
          simp only [Disp.writeFrame]
          have hx : ({ d with bodyRx := false } : Disp).fail.conn = d.conn := Poll.out_fail _
          rw [hx]; exact hw
        | data bs es =>
          cases es with
          | true => exact .inl hend
          | false =>
            refine .inr ⟨hkl, ?_⟩
            simp only [Disp.writeFrame]
            by_cases hbs : bs = []
            · rw [if_pos hbs]; exact .going pre e ts rfl (hfs trivial) hd hrx hb hk'
            · rw [if_neg hbs]
              have hwr : ∃ e', (d.conn.writeBody bs).writing = .body e' ∧ e'.kind = .chunked ts := by
                have he : (e.encode bs).2.kind = .chunked ts := by
                  unfold Encoder.encode; rw [hk']; exact hk'
                refine ⟨(e.encode bs).2, ?_, he⟩
                show (d.conn.writeBody bs).writing = _
                unfold Conn.writeBody
                rw [hb]
                simp [Writing.writeBody, Encoder.isEof, he, Conn.setWriting]
              obtain ⟨e', g1, g2⟩ := hwr
              exact .going pre e' ts rfl (hfs trivial) hd hrx g1 g2

/-- What an act adds to the places of ended bodies. -/
def ending (d : Disp) (st : List Piece) (a : Act) : List Nat := if endsBody d a then [(messages st).length - 1] else []

/-- What an act adds to the places of responses without a body. -/
def bare (d : Disp) (st : List Piece) (a : Act) : List Nat :=
  match answered d a with
  | some r => if r.body.isNone then [(messages st).length] else []
  | none => []

theorem Cut.told {d d' : Disp} {st : List Piece} {E : List Nat} (h : Cut d st E) : Cut d' st (E ++ [(messages st).length - 1]) := by
  intro k m hk hm
  rcases h k m hk hm with a | ⟨a, _⟩
  · exact .inl (List.mem_append_left _ a)
  · exact .inl (List.mem_append_right _ (by rw [← a]; simp))

/-- A turn of writing. -/
theorem Cut.write (env : EncodeEnv) (P : TrailerParser) {d : Disp} {st : List Piece} {E : List Nat} (w : WI s d st) (h : Cut d st E) (i : WriteIn) :
    Cut (d.step env P (.write i)) (record env P d (.write i) st) (E ++ ending d st (.write i) ++ bare d st (.write i)) := by
  have hadd : ∀ {d' st'}, Cut d' st' E → Cut d' st' (E ++ ending d st (.write i) ++ bare d st (.write i)) :=
    fun h => h.mono (fun k hk => List.mem_append_left _ (List.mem_append_left _ hk))
  have hadd' : ∀ {d' st'}, Cut d' st' (E ++ ending d st (.write i)) → Cut d' st' (E ++ ending d st (.write i) ++ bare d st (.write i)) :=
    fun h => h.mono (fun k hk => List.mem_append_left _ hk)
  have hnp : polls d = false → frameOf d (.write i) = none := by
    intro hp
    rcases i with ⟨m, fr, fl, nt⟩
    cases fr <;> simp [frameOf, hp]
  cases hd : d.done with
  | true =>
    have he : d.step env P (.write i) = d := by simp only [Disp.step, hd, if_true]
    exact hadd (h.step_quiet env P w (hnp (by simp [polls, hd])) (by rw [he]; exact .refl _))
  | false =>
    have hs : d.step env P (.write i) = d.writeTurn env i := by simp [Disp.step, hd]
    cases hcl : d.closing with
    | true =>
      have he : d.step env P (.write i) = d := by rw [hs]; unfold Disp.writeTurn; simp only [hcl, if_true]
      exact hadd (h.step_quiet env P w (hnp (by simp [polls, hcl])) (by rw [he]; exact .refl _))
    | false =>
      by_cases hh : (!d.bodyRx && d.conn.canWriteHead && d.shouldPoll) = true
      · have ht : d.writeTurn env i = d.writeHead env i.msg := by
          unfold Disp.writeTurn; simp only [hcl, Bool.false_eq_true, if_false]; rw [if_pos hh]
        simp only [Bool.and_eq_true, Bool.not_eq_true'] at hh
        have hf := hnp (by simp [polls, hh.1.1])
        rcases w.writeHead env hd hh.1.2 i with ⟨ev, _, evs, l1, l2⟩ | q
        · have hw : d.conn.writing = .init := by
            have := hh.1.2
            simp only [Conn.canWriteHead, Bool.and_eq_true, beq_iff_eq] at this
            exact this.2.1
          have hin : isOut ev = true := by
            have : ev ∈ evs.filter isOut := by rw [l2]; simp
            exact (List.mem_filter.1 this).2
          rw [record_one env P hf evs ev (by rw [hs, ht]; exact l1) l2, hs, ht]
          rcases i with ⟨m, fr, fl, nt⟩
          have hlog : ∀ d' : Disp, d'.conn.log = d.conn.log → d.writeHead env m = d' → False := by
            intro d' e1 e2
            simp only [e2, e1] at l1
            have := List.append_cancel_left ((List.append_nil _).trans l1)
            rw [← this] at l2; cases l2
          cases m with
          | pending => exact absurd (hlog d rfl rfl) id
          | none =>
            have hcl : ∀ x : Disp, x.close.conn.log = x.conn.log := by intro x; rfl
            cases hc : d.conn.client with
            | true => exact absurd (hlog d.close (hcl d) (by simp only [Disp.writeHead, hc, if_true])) id
            | false => exact absurd (hlog d rfl (by simp [Disp.writeHead, hc])) id
          | err =>
            cases hc : d.conn.client with
            | true => exact absurd (hlog d rfl (by simp only [Disp.writeHead, hc, if_true])) id
            | false => exact absurd (hlog d.fail (by rw [show d.fail.conn = d.conn from Poll.out_fail _]) (by simp [Disp.writeHead, hc])) id
          | resp a =>
            cases hc : d.conn.client with
            | true => exact absurd (hlog d rfl (by simp only [Disp.writeHead, hc, if_true])) id
            | false =>
              have hev : ev ≠ .continue100 := by
                rintro rfl
                have hm : Ev.continue100 ∈ evs.filter isOut := by rw [l2]; simp
                have hl := l1
                simp only [Disp.writeHead, hc, Bool.false_eq_true, if_false] at hl
                obtain ⟨evs', k1, k2⟩ := head_log (c := d.conn) (c' := { d.conn.putHeaders (d.conn.respEnc env a).1 with
                  ka := (d.conn.respMsg a).1, error := d.conn.error || !(d.conn.respEnc env a).2.isOk,
                  log := d.conn.log ++ [Ev.writeHead (d.inFlight.getD d.next) ((d.conn.respEnc env a).2.isLast || (d.conn.respMsg a).1 == KA.disabled)] })
                  (Writing.ofHead (d.conn.respEnc env a).2) rfl rfl
                have := List.append_cancel_left (k1.symm.trans hl)
                rw [← this, k2] at hm
                simp at hm
              have hp : pieceOf env d.conn (.write ⟨.resp a, fr, fl, nt⟩) ev = .message (respMessage env d.conn a ev) := by
                unfold pieceOf; cases ev <;> first | rfl | exact absurd rfl hev
              rw [hp]
              have htk : takes d = true := by simp [takes, hd, hcl, hh.1.1, hh.1.2, hh.2]
              have hbare : bare d st (.write ⟨.resp a, fr, fl, nt⟩) = if a.body.isNone then [(messages st).length] else [] := by
                simp [bare, answered, htk, hc]
              rw [hbare]
              refine (h.reply env hd hw hc a ev).mono (fun k hk => ?_)
              rcases List.mem_append.1 hk with hk | hk
              · exact List.mem_append_left _ (List.mem_append_left _ hk)
              · exact List.mem_append_right _ hk
          | req q body =>
            cases hc : d.conn.client with
            | false => exact absurd (hlog d rfl (by simp [Disp.writeHead, hc])) id
            | true =>
            refine hadd ?_
            have hev : ev ≠ .continue100 := by
              rintro rfl
              have hm : Ev.continue100 ∈ evs.filter isOut := by rw [l2]; simp
              have hl := l1
              simp only [Disp.writeHead, hc, if_true] at hl
              obtain ⟨evs', k1, k2⟩ := head_log (c := d.conn) (c' := { d.conn.putHeaders (d.conn.reqEnc q body).1 with
                ka := (connReq d.conn.version d.conn.ka q).1, method := some q.method, error := d.conn.error || !(d.conn.reqEnc q body).2.isOk,
                log := d.conn.log ++ [Ev.writeHead d.next ((d.conn.reqEnc q body).2.isLast || (connReq d.conn.version d.conn.ka q).1 == KA.disabled)] })
                (Writing.ofHead (d.conn.reqEnc q body).2) rfl rfl
              have := List.append_cancel_left (k1.symm.trans hl)
              rw [← this, k2] at hm
              simp at hm
            have hp : pieceOf env d.conn (.write ⟨.req q body, fr, fl, nt⟩) ev = .message (reqMessage d.conn q body ev) := by
              unfold pieceOf; cases ev <;> first | rfl | exact absurd rfl hev
            rw [hp]
            exact h.head env hd hw hc q body ev
        · exact hadd (h.step_quiet env P w hf (by rw [hs, ht]; exact q))
      · by_cases hbb : (!d.conn.canBufferBody) = true
        · have ht : d.writeTurn env i = d.flushTurn i.flush i.notify := by
            unfold Disp.writeTurn; simp only [hcl, Bool.false_eq_true, if_false]; rw [if_neg hh, if_pos hbb]
          simp only [Bool.not_eq_true'] at hbb
          exact hadd (h.step_quiet env P w (hnp (by simp [polls, hbb])) (by rw [hs, ht]; exact qd_flushTurn _ _ _))
        · cases hrx : d.bodyRx with
          | true =>
            cases hwb : d.conn.canWriteBody with
            | true =>
              have ht : d.writeTurn env i = d.writeFrame i.frame := by
                unfold Disp.writeTurn; simp only [hcl, Bool.false_eq_true, if_false]; rw [if_neg hh, if_neg hbb, if_pos hrx, if_pos hwb]
              have hp : polls d = true := polls_iff.2 ⟨hd, hcl, hrx, by simpa using hbb, hwb⟩
              rcases i with ⟨m, fr, fl, nt⟩
              cases fr with
              | pending => exact hadd (h.step_quiet env P w rfl (by rw [hs, ht]; exact .refl _))
              | eof =>
                obtain ⟨evs, e1, e2⟩ := endBody_log (d := { d with bodyRx := false })
                rw [record_none env P rfl evs (by rw [hs, ht]; exact e1) e2]
                have : ending d st (.write ⟨m, .eof, fl, nt⟩) = [(messages st).length - 1] := by simp [ending, endsBody, hp]
                exact hadd' (by rw [this]; exact h.told)
              | frame f =>
                have hf : frameOf d (.write ⟨m, .frame f, fl, nt⟩) = some f := by simp [frameOf, hp]
                simp only [record, hf]
                rw [hs, ht]
                have hx := h.frame w hp f
                have : ending d st (.write ⟨m, .frame f, fl, nt⟩) = if isFinal f then [(messages st).length - 1] else [] := by
                  cases f with
                  | data bs e => cases e <;> simp [ending, endsBody, isFinal, hp]
                  | _ => simp [ending, endsBody, isFinal, hp]
                exact hadd' (by rw [this]; exact hx)
            | false =>
              have ht : d.writeTurn env i = { d with bodyRx := false } := by
                unfold Disp.writeTurn; simp only [hcl, Bool.false_eq_true, if_false]; rw [if_neg hh, if_neg hbb, if_pos hrx, if_neg (by simp [hwb])]
              refine hadd (h.step_quiet env P w (hnp (by simp [polls, hwb])) ?_)
              rw [hs, ht]
              refine ⟨.refl _, fun ⟨e, he⟩ => ?_, id⟩
              have := canWriteBody_iff.2 ⟨e, he⟩
              rw [show d.conn.canWriteBody = true from this] at hwb; cases hwb
          | false =>
            have hf := hnp (by simp [polls, hrx])
            cases hwb : d.conn.canWriteBody with
            | true =>
              have ht : d.writeTurn env i = d.endBody := by
                unfold Disp.writeTurn; simp only [hcl, Bool.false_eq_true, if_false]
                rw [if_neg hh, if_neg hbb, if_neg (by simp [hrx]), if_pos hwb]
              obtain ⟨evs, e1, e2⟩ := endBody_log (d := d)
              rw [record_none env P hf evs (by rw [hs, ht]; exact e1) e2]
              obtain ⟨e, hb⟩ := canWriteBody_iff.1 hwb
              intro k m hk hm
              rcases h k m hk hm with b | ⟨_, b⟩
              · exact .inl (List.mem_append_left _ (List.mem_append_left _ b))
              · cases b with
                | going _ _ _ _ _ _ hr => rw [hrx] at hr; cases hr
                | stopped _ _ _ _ _ _ _ _ _ hc => rw [hb, hd] at hc; rcases hc with hc | hc <;> cases hc
            | false =>
              have ht : d.writeTurn env i = d := by
                unfold Disp.writeTurn; simp only [hcl, Bool.false_eq_true, if_false]
                rw [if_neg hh, if_neg hbb, if_neg (by simp [hrx]), if_neg (by simp [hwb])]
              exact hadd (h.step_quiet env P w hf (by rw [hs, ht]; exact .refl _))

/-- The answer to bytes that are no request is not sent in chunks. -/
theorem error_unchunked {env : EncodeEnv} {c : Conn} {x : ParseErr} {status : Nat} {ev : Ev} (hs : serverOnError x = some status) {e : Encoder} {ts : Option (List Bytes)}
    (hf : (respMessage env c (Conn.errorResp status) ev).framing = .body e) (hk : e.kind = .chunked ts) : False := by
  have hst : status ∈ [400, 414, 431] := by
    cases x <;> simp [serverOnError] at hs <;> subst hs <;> decide
  cases hr : serverEncode env (c.respMsg (Conn.errorResp status)).2 [] with
  | mk o r =>
    simp only [respMessage, hr] at hf
    cases r with
    | ok e' =>
      have hz := error_kind hst hr
      simp only [Writing.ofHead] at hf
      split at hf
      · cases hf; rw [hz] at hk; cases hk
      · unfold Writing.afterBody at hf; split at hf <;> cases hf
    | _ => cases hf

/-- A turn of reading. -/
theorem Cut.read (env : EncodeEnv) (P : TrailerParser) {d : Disp} {st : List Piece} {E : List Nat} (hv : Poll.CI d) (hd : d.done = false) (w : WI s d st)
    (h : Cut d st E) (i : ReadIn) : Cut (d.step env P (.read i)) (record env P d (.read i) st) E := by
  have hs : d.step env P (.read i) = d.readTurn env P i := by simp [Disp.step, hd]
  have hnone : d.conn.writing = .init → ∀ (k : Nat) (m : Message), (messages st)[k]? = some m → InChunks m → k ∈ E := by
    intro hw k m hk hm
    rcases h k m hk hm with a | ⟨_, a⟩
    · exact a
    · cases a with
      | going _ _ _ _ _ _ _ hb => rw [hw] at hb; cases hb
      | stopped _ _ _ _ _ _ _ _ _ hc => rw [hw, hd] at hc; rcases hc with hc | hc <;> cases hc
  by_cases hw : d.conn.writing = .init
  · obtain ⟨out, hn, hnews⟩ := read_news env P hv i
    rw [News.record (by rw [hs]; exact hnews) rfl st]
    cases hn with
    | quiet =>
      intro k m hk hm
      rw [List.map_nil, List.append_nil] at hk
      exact .inl (hnone hw k m hk hm)
    | interim _ _ =>
      intro k m hk hm
      rw [messages_append] at hk
      simp only [List.map_cons, List.map_nil, pieceOf, messages, List.filterMap_cons, List.filterMap_nil, List.append_nil] at hk
      exact .inl (hnone hw k m hk hm)
    | @error e rest h2 status hc hp hse _ =>
      intro k m hk hm
      have hpiece : pieceOf env d.conn (.read i) .errorHead = .message (respMessage env d.conn.closeRead (Conn.errorResp status) .errorHead) := by
        simp only [pieceOf, hp, errMessage, hse, Option.getD_some]
      simp only [List.map_cons, List.map_nil, hpiece] at hk
      rw [messages_last] at hk
      by_cases hlt : k < (messages st).length
      · rw [List.getElem?_append_left hlt] at hk
        exact .inl (hnone hw k m hk hm)
      · rw [List.getElem?_append_right (by omega)] at hk
        have hlen := (List.getElem?_eq_some_iff.1 hk).1
        simp only [List.length_singleton] at hlen
        have hk0 : k - (messages st).length = 0 := by omega
        rw [hk0] at hk
        simp only [List.getElem?_cons_zero, Option.some.injEq] at hk
        subst hk
        obtain ⟨e', ts, g1, g2⟩ := hm
        exfalso
        exact error_unchunked hse g1 g2
  · refine h.step_quiet env P w rfl ?_
    rw [hs]
    exact qd_read_busy env P hv hw i

/-- One act. -/
theorem Cut.step (env : EncodeEnv) (P : TrailerParser) {d : Disp} {st : List Piece} {E : List Nat} (hv : Poll.VI d.view) (w : WI s d st)
    (h : Cut d st E) (a : Act) : Cut (d.step env P a) (record env P d a st) (E ++ ending d st a ++ bare d st a) := by
  have other : ∀ a : Act, (∀ i, a ≠ .read i) → (∀ i, a ≠ .write i) → Cut (d.step env P a) (Wire.record env P d a st) (E ++ ending d st a ++ bare d st a) := by
    intro a h1 h2
    refine (h.step_quiet env P w ?_ (qd_other env P d a h1 h2)).mono (fun k hk => List.mem_append_left _ (List.mem_append_left _ hk))
    cases a <;> first | rfl | exact absurd rfl (h2 _)
  cases a with
  | write i => exact h.write env P w i
  | read i =>
    refine Cut.mono ?_ (fun k hk => List.mem_append_left _ (List.mem_append_left _ hk))
    cases hd : d.done with
    | true => exact h.step_quiet env P w rfl (by simp only [Disp.step, hd, if_true]; exact .refl _)
    | false => exact h.read env P (Poll.ci_of_view hd hv) hd w i
  | _ => exact other _ (by intro i h; cases h) (by intro i h; cases h)

/-- The places of the responses without a body. -/
def bares (env : EncodeEnv) (P : TrailerParser) : Disp → List Piece → List Act → List Nat
  | _, _, [] => []
  | d, st, a :: as => bare d st a ++ bares env P (d.step env P a) (record env P d a st) as

theorem Cut.run (env : EncodeEnv) (P : TrailerParser) : ∀ (as : List Act) {d : Disp} {st : List Piece} {E : List Nat}, Poll.VI d.view → WI s d st → Gated env P d as →
    Cut d st E → Cut (d.run env P as) (story env P d st as) (E ++ endings env P d st as ++ bares env P d st as) := by
  intro as
  induction as with
  | nil => intro d st E _ _ _ h; simp only [endings, bares, List.append_nil]; exact h
  | cons a as ih =>
    intro d st E hv w hg h
    refine (ih (Poll.vi_run env P [a] hv) (w.step env P hv a hg.1) hg.2 (h.step env P hv w a)).mono (fun k hk => ?_)
    simp only [endings, bares, List.mem_append, ending] at hk ⊢
    rcases hk with (((hk | hk) | hk) | hk) | hk
    · exact .inl (.inl hk)
    · exact .inl (.inr (.inl hk))
    · exact .inr (.inl hk)
    · exact .inl (.inr (.inr hk))
    · exact .inr (.inr hk)

theorem bares_client (env : EncodeEnv) (P : TrailerParser) : ∀ (as : List Act) (d : Disp) (st : List Piece), d.conn.client = true → bares env P d st as = [] := by
  intro as
  induction as with
  | nil => intro d st _; rfl
  | cons a as ih =>
    intro d st hc
    have : bare d st a = [] := by
      unfold bare answered
      split
      · rename_i r hr
        split at hr
        · simp [hc] at hr
        · cases hr
      · rfl
    rw [bares, this, ih _ _ ((step_client env P d a).trans hc)]
    rfl

/-! ## The length a request is sent with -/

theorem setLength_length {method : Bytes} {version : Version} {headers : HeaderMap} (hfull : headers.Full) {body : Option BodyLength} {n : Nat} (he : (setLength method version headers body).2.kind = .length n) :
    (body = none ∧ n = 0) ∨ body = some (.known n) ∨ (body ≠ none ∧ AgreedLength (headers.getAll hCL) n) ∨
      (body = some .unknown ∧ n = 0 ∧ (version ≠ .h11 ∨ (headers.getAll hTE = [] ∧ (method = mGET ∨ method = mHEAD ∨ method = mCONNECT)))) := by
  have hcl : ∀ m k, contentLengthParseAll headers = some m → (Encoder.length m).kind = .length k → AgreedLength (headers.getAll hCL) k := by
    intro m k h1 h2
    cases h2
    exact (contentLengthParseAllValues_iff _ _).1 h1
  have hset : ∀ hs m, (setContentLength hs m).2.kind = .length n → m = n := by
    intro hs m h
    simp only [setContentLength, Encoder.length, EncKind.length.injEq] at h
    exact h
  have htr : ∀ hs, (withTrailers hs Encoder.chunked).kind ≠ .length n := by
    intro hs h
    unfold withTrailers Encoder.chunked at h
    simp only at h
    split at h <;> cases h
  unfold setLength at he
  cases body with
  | none =>
    cases he
    exact .inl ⟨rfl, rfl⟩
  | some b =>
    right
    simp only at he
    split at he
    · rename_i hv
      cases hp : contentLengthParseAll headers with
      | some m => rw [hp] at he; exact .inr (.inl ⟨by simp, hcl m n hp he⟩)
      | none =>
        rw [hp] at he
        cases b with
        | known len => rw [hset _ _ he]; exact .inl rfl
        | unknown => cases he; exact .inr (.inr ⟨rfl, rfl, .inl hv⟩)
    · split at he
      · exact absurd he (htr _)
      · rename_i hte
        cases hp : contentLengthParseAll headers with
        | some m => rw [hp] at he; exact .inr (.inl ⟨by simp, hcl m n hp he⟩)
        | none =>
          rw [hp] at he
          cases b with
          | known len => rw [hset _ _ he]; exact .inl rfl
          | unknown =>
            simp only at he
            split at he
            · rename_i hm
              cases he
              exact .inr (.inr ⟨rfl, rfl, .inr ⟨(contains_false_iff hfull _).1 (by simpa using hte), hm⟩⟩)
            · exact absurd he (htr _)

/-- The length that a server reads off a request that is not sent in chunks. -/
theorem request_length {Q : Bytes → Except ParseErr (Option (RawRequest × Nat))} {max : Nat} (hQ : ReadsRequests max (tokens Q)) (methodOk uriOk : Bytes → Bool) (preserve : Bool)
    (mh : Option Nat) {m : Message} {h : ReqHead} {body : Option BodyLength} (hm : m.Of h body)
    (hok : RequestOk methodOk uriOk h body) (fair : m.Fair max mh) (μ : Option Bytes) {x : RequestMsg}
    (hx : (serverHeads Q methodOk uriOk preserve).parse μ m.head = (.ok (some x), [])) (hch : x.decode ≠ DecodedLength.CHUNKED) :
    Announces h body x.decode.val ∨ (Unsent h body x.version ∧ x.decode.val = 0) := by
  obtain ⟨c, ev, frames, hc, rfl⟩ := hm
  obtain ⟨rok, rget, rm, rt⟩ := connReq_ok hok c.version c.ka
  have henc : ∃ out e, clientEncode c.titleCase (connReq c.version c.ka h).2 body [] = some (out, e) := by
    rcases rok.version with e | e <;> simp [clientEncode, versionText, e]
  obtain ⟨out, e, henc⟩ := henc
  have hmsg : ({ reqMessage c h body ev with frames := frames } : Message) =
      { ev := ev, head := out, framing := Writing.ofHead (.ok e), trailers := c.client || c.allowTrailers, titleCase := c.titleCase, frames := frames } := by
    simp only [reqMessage, henc]
  rw [hmsg] at fair hx
  have hmax : ∀ n, e.kind = .length n → n ≤ 2 ^ 64 - 3 := by
    intro n hn
    cases n with
    | zero => omega
    | succ n => exact fair.length e (n + 1) (by simp [Writing.ofHead, Encoder.isEof, hn]) hn
  obtain ⟨raw, msg, k1, k2, k3, _, _, _, _, k4, _⟩ := client_to_server max (tokens Q) hQ methodOk uriOk preserve c.titleCase _ body out [] e rok.wf rok.line rok.names rok.user
    rok.method rok.uri henc fair.fields hmax
  have hq : Q out = .ok (some (raw, out.length)) := by
    rw [List.append_nil] at k1
    unfold tokens at k1
    cases hq : Q out with
    | error e => rw [hq] at k1; cases k1
    | ok o => rw [hq] at k1; simp only at k1; rw [k1]
  simp only [serverHeads, hq, k2, Prod.mk.injEq, Except.ok.injEq, Option.some.injEq] at hx
  obtain ⟨rfl, _⟩ := hx
  have hver : (connReq c.version c.ka h).2.version ≠ .h11 → msg.version = .h10 := by
    intro hv
    obtain ⟨_, _, _, he⟩ := serverParse_ok k2
    rw [he]
    have : (connReq c.version c.ka h).2.version = .h10 := rok.version.resolve_right hv
    simp [k4, this]
  have he : (setLength (connReq c.version c.ka h).2.method (connReq c.version c.ka h).2.version (connReq c.version c.ka h).2.headers body).2 = e := by
    have := henc
    unfold clientEncode at this
    simp only [Option.map_eq_some_iff, Prod.mk.injEq] at this
    obtain ⟨_, _, _, g⟩ := this
    exact g
  cases hk : e.kind with
  | closeDelimited =>
    obtain ⟨_, _, _, _, _, _, _, hh⟩ := C24_kinds_agree c.titleCase _ body [] out e rok.wf henc
    rw [hk] at hh; exact absurd hh id
  | chunked ts =>
    have := k3 none none
    rw [hk] at this
    unfold Decoder.ofLength at this
    rw [if_neg hch] at this
    split at this <;> cases this
  | length n =>
    have hn : msg.decode.val = n := by
      have := k3 none none
      rw [hk] at this
      unfold Decoder.ofLength at this
      rw [if_neg hch] at this
      split at this
      · cases this
      · cases this; rfl
    have hl := setLength_length (rok.wf.headers.wf.nonempty) (he ▸ hk)
    rw [rget hCL (by decide), rget hTE (by decide), rm] at hl
    rw [hn]
    rcases hl with a | a | a | ⟨a, b, d⟩
    · exact .inl (.inl a)
    · exact .inl (.inr (.inl a))
    · exact .inl (.inr (.inr a))
    · refine .inr ⟨⟨a, ?_⟩, b⟩
      rcases d with d | d
      · exact .inl (hver d)
      · exact .inr d

end Hyper.Wire
