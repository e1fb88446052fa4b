import Verif.Model.H2Relay
import Verif.Props.H2Reader
import Verif.Props.H2Pipe
import Verif.Model.H2Server

/-!
# C96: an HTTP/2 body that was cut off is never read as complete

One hyper's `PipeToSendStream` writes a body, another's `Incoming` reads it; between them the crate `h2` and the network, of which `Spec.Arrives` says what is assumed.
-/

namespace Hyper

open Spec Pipe

namespace Spec

/-- The bytes the stream was told. -/
def dataOf (out : List OFrame) : Bytes := (payloadsOut out).flatten

/-- The stream was told its end. -/
def Closed (out : List OFrame) : Prop := ∃ f ∈ out, f.ends = true

/-- `evs` is what a receiver may see of a stream that was told `out`: the data in order, cut into other pieces and perhaps not all of it; the end only if it was told and
after everything; a reset at any point, as connections fail and streams are dropped, but with the reason `NO_ERROR` (0) only if the stream was told so or, which
HTTP/2 allows, after everything, or if `gaveUp`: the receiver itself called `abrupt_shutdown(NO_ERROR)` on its connection, which tells all streams the reason. -/
structure Arrives (out : List OFrame) (gaveUp : Prop) (evs : List RecvEv) : Prop where
  stream : Stream evs
  data : (pieces evs).flatten <+: dataOf out
  ended : (∀ b, RecvEv.reset b ∉ evs) → Closed out ∧ (pieces evs).flatten = dataOf out ∧ sections evs = trailersOut out
  noError : RecvEv.reset true ∈ evs → OFrame.reset 0 ∈ out ∨ gaveUp ∨ (Closed out ∧ (pieces evs).flatten = dataOf out ∧ sections evs = trailersOut out)

/-- What the user's body gave. -/
def bodyData (given : List UFrame) : Bytes := (payloadsIn given).flatten

end Spec

namespace H2Cut

theorem poll_outs (r : H2Reader) : r.poll.outs = r.outs ++ [r.answer] := by
  have : ∃ o, r.poll.outs = r.outs ++ [o] := by
    unfold H2Reader.poll H2Reader.pollTrailers
    split
    · exact ⟨_, rfl⟩
    · split <;> exact ⟨_, rfl⟩
  obtain ⟨o, h⟩ := this
  unfold H2Reader.answer
  rw [h]
  simp

/-- After the end nothing is left, whatever made it. -/
theorem none_poll {evs : List RecvEv} {r : H2Reader} (h : Stream2.Follows evs r) (hi : FrameOut.none ∈ r.outs → pieces r.recv = [] ∧ sections r.recv = []) :
    (FrameOut.none ∈ r.poll.outs → pieces r.poll.recv = [] ∧ sections r.poll.recv = []) := by
  intro hn
  have hst := h.stream
  have hdn := h.done
  have htr : ∀ l, Stream l → pieces l = [] → (FrameOut.none ∈ r.outs → pieces l = [] ∧ sections l = []) → FrameOut.none ∈ (r.pollTrailers l).outs →
      pieces (r.pollTrailers l).recv = [] ∧ sections (r.pollTrailers l).recv = [] := by
    intro l hs hp hi hn
    unfold H2Reader.pollTrailers at hn ⊢
    cases hs with
    | ended => simp [recvTrailers, pieces, sections]
    | trailers fs => simp [recvTrailers, pieces, sections]
    | reset b => cases b <;> simp [recvTrailers, pieces, sections]
    | data bs hs => simp [pieces] at hp
    | pending hs =>
      simp only [recvTrailers, Stream2.poll_none, Stream2.answerOf, List.mem_append, List.mem_singleton, reduceCtorEq, or_false] at hn ⊢
      simpa [pieces, sections] using hi hn
  unfold H2Reader.poll at hn ⊢
  cases hd : r.body.dataDone with
  | true =>
    rw [hd] at hn
    simp only [if_true] at hn ⊢
    exact htr _ hst (hdn hd) hi hn
  | false =>
    rw [hd] at hn
    simp only [Bool.false_eq_true, if_false] at hn ⊢
    cases hl : r.recv with
    | nil =>
      rw [hl] at hn hi
      exact htr _ .ended rfl hi hn
    | cons e t =>
      rw [hl] at hst hn hi
      cases hst with
      | trailers fs => exact htr _ (.trailers fs) rfl hi hn
      | reset b => cases b <;> simp [recvData, pieces, sections]
      | data bs hs =>
        have hne : FrameOut.none ∉ r.outs := fun hx => by simpa [pieces] using (hi hx).1
        have hen := h.enough
        rw [hl] at hen
        obtain ⟨len', he, _⟩ := Stream2.subIf_enough hen
        simp [recvData, H2Body.poll, hd, he, hne] at hn
      | pending hs =>
        simp only [recvData, H2Body.poll, hd, Bool.false_eq_true, if_false, List.mem_append, List.mem_singleton, reduceCtorEq, or_false] at hn ⊢
        simpa [pieces, sections] using hi hn

theorem none_polls {len : DecodedLength} {eos : Bool} {evs : List RecvEv} (hs : Stream evs) (he : Enough (H2Body.new len eos).len evs) (n : Nat) :
    FrameOut.none ∈ ((H2Reader.start len eos evs).polls n).outs →
      pieces ((H2Reader.start len eos evs).polls n).recv = [] ∧ sections ((H2Reader.start len eos evs).polls n).recv = [] := by
  induction n with
  | zero => intro h; simp [H2Reader.polls, H2Reader.start] at h
  | succ n ih => exact none_poll (Stream2.follows_polls hs he n) ih

/-- A pipe that told the stream its end has ended well. -/
theorem closed_ok {s : St} (h : Inv s) (hc : Closed s.out) : s.res = some .ok := by
  obtain ⟨f, hf, he⟩ := hc
  cases hr : s.res with
  | none => have := (h.running hr).2.2.2.1 f hf; rw [he] at this; cases this
  | some x =>
    cases x with
    | ok => rfl
    | writeErr => have := (h.writeErr hr).open_ f hf; rw [he] at this; cases this
    | userErr =>
      obtain ⟨pre, k, e, hp⟩ := (h.userErr hr).last
      rw [e] at hf
      rcases List.mem_append.1 hf with hf | hf
      · rw [(hp f hf).1] at he; cases he
      · rw [List.mem_singleton.1 hf] at he; cases he

theorem whole_data {s : St} (h : Inv s) (hr : s.res = some .ok) : dataOf s.out = bodyData s.given := by
  unfold dataOf bodyData
  rcases (h.ok hr).data with e | e <;> rw [e] <;> simp

theorem flatten_prefix {a b : List Bytes} (h : a <+: b) : a.flatten <+: b.flatten := by
  obtain ⟨t, rfl⟩ := h
  exact ⟨t.flatten, by simp⟩

theorem part_data {s : St} (h : Inv s) : dataOf s.out <+: bodyData s.given := by
  cases hr : s.res with
  | none => exact flatten_prefix ⟨_, (h.running hr).1⟩
  | some x =>
    cases x with
    | ok => rw [whole_data h hr]; exact List.prefix_refl _
    | writeErr => exact flatten_prefix (h.writeErr hr).data
    | userErr => unfold dataOf bodyData; rw [(h.userErr hr).data]; exact List.prefix_refl _

/-- What makes a pipe reset its stream with `NO_ERROR`. -/
theorem reset_step {s : St} {i : In} (h : OFrame.reset 0 ∈ (s.step i).out) : OFrame.reset 0 ∈ s.out ∨ ∃ causes, i.body = .error causes ∧ h2Reason causes = 0 := by
  have send : ∀ (s : St) bs eos ok, OFrame.reset 0 ∈ (s.send bs eos ok).out → OFrame.reset 0 ∈ s.out := by
    intro s bs eos ok hx
    unfold St.send at hx
    split at hx
    · simpa using hx
    · exact hx
  unfold St.step at h
  split at h
  · exact .inl h
  · split at h
    · exact .inl h
    · exact .inl h
    · split at h
      · unfold St.sendBuffered at h
        split at h
        · split at h
          · exact .inl h
          · exact .inl h
          · exact .inl (by have := send _ _ _ _ h; exact this)
        · exact .inl (by have := send _ _ _ _ h; exact this)
      · unfold St.pollBody at h
        split at h
        · exact .inl h
        · split at h
          · exact .inl (by have := send _ _ _ _ h; exact this)
          · exact .inl h
        · split at h
          · exact .inl (by simpa using h)
          · exact .inl h
        · exact .inl h
        · rename_i causes hb
          rcases List.mem_append.1 h with h | h
          · exact .inl h
          · simp only [List.mem_singleton, OFrame.reset.injEq] at h
            exact .inr ⟨causes, hb, h.symm⟩
        · exact .inl (by have := send _ _ _ _ h; exact this)

/-- If all that was told arrived, the sender's body ended, and is what the reader has. -/
theorem complete {s : St} (h : Inv s) {evs : List RecvEv} {r : H2Reader} (hf : Stream2.Follows evs r) (hl : pieces r.recv = [] ∧ sections r.recv = [])
    (hc : Closed s.out ∧ (pieces evs).flatten = dataOf s.out ∧ sections evs = trailersOut s.out) :
    s.res = some .ok ∧ (piecesRead r.outs).flatten = bodyData s.given ∧ sectionsRead r.outs = trailersIn s.given := by
  have hr := closed_ok h hc.1
  have hd := hf.data
  have ht := hf.trailers
  rw [hl.1, List.append_nil] at hd
  rw [hl.2, List.append_nil] at ht
  refine ⟨hr, ?_, ?_⟩
  · rw [hd, hc.2.1, whole_data h hr]
  · rw [ht, hc.2.2, (h.ok hr).trailers]

end H2Cut

/-- C96: at every moment what the reader has is the beginning of what the sender's body gave. -/
theorem C96_in_order (is : List In) (evs : List RecvEv) (gaveUp : Prop) (ha : Arrives (Pipe.init.run is).out gaveUp evs) (len : DecodedLength) (eos : Bool)
    (he : Enough (H2Body.new len eos).len evs) (n : Nat) :
    (piecesRead ((H2Reader.start len eos evs).polls n).outs).flatten <+: bodyData (Pipe.init.run is).given := by
  have hf := (Stream2.follows_polls ha.stream he n).data
  have h1 : (piecesRead ((H2Reader.start len eos evs).polls n).outs).flatten <+: (pieces evs).flatten := H2Cut.flatten_prefix ⟨_, hf⟩
  exact h1.trans (ha.data.trans (H2Cut.part_data (Inv.init.run is)))

/-- C96 in part: if the reader is told the end, the sender's body had ended without an error and the reader has all of it, with its trailers; or the sender reset the
stream with `NO_ERROR`, or the reader's own server gave its connection up.  Missing: that these last are not so; they are (`C96_torn`, `C96_gave_up`). -/
theorem C96_complete_partial (is : List In) (evs : List RecvEv) (gaveUp : Prop) (ha : Arrives (Pipe.init.run is).out gaveUp evs) (len : DecodedLength) (eos : Bool)
    (he : Enough (H2Body.new len eos).len evs) (n : Nat) (r : H2Reader) (hr : r = (H2Reader.start len eos evs).polls n) (hn : .none ∈ r.outs) :
    OFrame.reset 0 ∈ (Pipe.init.run is).out ∨ gaveUp ∨
      ((Pipe.init.run is).res = some .ok ∧ (piecesRead r.outs).flatten = bodyData (Pipe.init.run is).given ∧ sectionsRead r.outs = trailersIn (Pipe.init.run is).given) := by
  subst hr
  have hf := Stream2.follows_polls ha.stream he n
  have hl := H2Cut.none_polls ha.stream he n hn
  by_cases ht : RecvEv.reset true ∈ evs
  · rcases ha.noError ht with h | h | h
    · exact .inl h
    · exact .inr (.inl h)
    · exact .inr (.inr (H2Cut.complete (Inv.init.run is) hf hl h))
  · exact .inr (.inr (H2Cut.complete (Inv.init.run is) hf hl (ha.ended (fun b => by cases b; exact hf.clean hn; exact ht))))

/-- Only an HTTP/2 error with `NO_ERROR` gives this reason. -/
theorem H2Cut.reason_zero {cs : List Cause} (h : h2Reason cs = 0) : Cause.h2 (some 0) ∈ cs := by
  induction cs with
  | nil => cases h
  | cons c cs ih =>
    cases c with
    | other => exact List.mem_cons_of_mem _ (ih h)
    | h2 r =>
      cases r with
      | none => cases h
      | some k =>
        have : k = 0 := h
        subst this
        exact List.mem_cons_self

/-- C96: the sender does that only if the sender's body failed, with an error that has an HTTP/2 error with the reason `NO_ERROR` among its causes. -/
theorem C96_reset_only_if (is : List In) (h : OFrame.reset 0 ∈ (Pipe.init.run is).out) :
    (Pipe.init.run is).res = some .userErr ∧ ∃ i ∈ is, ∃ causes, i.body = .error causes ∧ Cause.h2 (some 0) ∈ causes := by
  constructor
  · have hv := Inv.init.run is
    cases hr : (Pipe.init.run is).res with
    | none => have := (hv.running hr).2.2.2.2 _ h; cases this
    | some x =>
      cases x with
      | ok => have := (hv.ok hr).noReset _ h; cases this
      | writeErr => have := (hv.writeErr hr).noReset _ h; cases this
      | userErr => rfl
  · have key : ∀ (is : List In) (s : St), OFrame.reset 0 ∈ (s.run is).out → OFrame.reset 0 ∈ s.out ∨ ∃ i ∈ is, ∃ causes, i.body = .error causes ∧ h2Reason causes = 0 := by
      intro is
      induction is with
      | nil => intro s h; exact .inl h
      | cons i is ih =>
        intro s h
        rcases ih (s.step i) h with h | ⟨j, hj, h⟩
        · rcases H2Cut.reset_step h with h | h
          · exact .inl h
          · exact .inr ⟨i, by simp, h⟩
        · exact .inr ⟨j, by simp [hj], h⟩
    rcases key is Pipe.init h with h | ⟨i, hi, causes, h, hz⟩
    · simp [Pipe.init] at h
    · exact ⟨i, hi, causes, h, H2Cut.reason_zero hz⟩

/-- C96 does not hold of every body: if one fails after five bytes with an error caused by an HTTP/2 error with `NO_ERROR`, as a request to a server that is
shutting down ends, its stream is reset with `NO_ERROR`, and the reader is told the end after the five bytes. -/
theorem C96_torn :
    let is : List In := [{ body := .frame (.data (ascii "hello") false) }, { capacity := 5 }, { body := .error [.other, .h2 (some 0)] }]
    let r := (H2Reader.start DecodedLength.CHUNKED false [.data (ascii "hello"), .reset true]).polls 2
    (Pipe.init.run is).res = some .userErr ∧ Arrives (Pipe.init.run is).out False [.data (ascii "hello"), .reset true] ∧ r.outs = [.data (ascii "hello"), .none] := by
  have ho : (Pipe.init.run [{ body := .frame (.data (ascii "hello") false) }, { capacity := 5 }, { body := .error [.other, .h2 (some 0)] }]).out =
      [.data (ascii "hello") false, .reset 0] := by decide +kernel
  refine ⟨by decide +kernel, ?_, by decide +kernel⟩
  rw [ho]
  refine ⟨.data _ (.reset _), ⟨[], by decide +kernel⟩, fun h => ?_, fun _ => .inl (by simp)⟩
  exact absurd (h true) (by simp)

/-- C96 does not hold on a server whose keep-alive timed out: it ends its connection with `NO_ERROR`, and the body of a request of which five bytes had come, and
whose sender is still at it, ends there. -/
theorem C96_gave_up :
    let is : List In := [{ body := .frame (.data (ascii "hello") false) }, { capacity := 5 }]
    let r := (H2Reader.start DecodedLength.CHUNKED false [.data (ascii "hello"), .reset true]).polls 2
    .abrupt ∈ (Srv.init.run [.poll .ok [{ ping := .timedOut, accept := .none }]]).log ∧ (Pipe.init.run is).res = none ∧
      Arrives (Pipe.init.run is).out (.abrupt ∈ (Srv.init.run [.poll .ok [{ ping := .timedOut, accept := .none }]]).log) [.data (ascii "hello"), .reset true] ∧
      r.outs = [.data (ascii "hello"), .none] := by
  have ho : (Pipe.init.run [{ body := .frame (.data (ascii "hello") false) }, { capacity := 5 }]).out = [.data (ascii "hello") false] := by decide +kernel
  have hs : Srv.Ev.abrupt ∈ (Srv.init.run [.poll .ok [{ ping := .timedOut, accept := .none }]]).log := by decide +kernel
  refine ⟨hs, by decide +kernel, ?_, by decide +kernel⟩
  rw [ho]
  refine ⟨.data _ (.reset _), ⟨[], by decide +kernel⟩, fun h => ?_, fun _ => .inr (.inl hs)⟩
  exact absurd (h true) (by simp)

/-! ## Handed on -/

namespace H2Cut

/-- What holds of a relay between iterations. -/
structure RInv (evs : List RecvEv) (x : Relay) : Prop where
  follows : Stream2.Follows evs x.reader
  pipe : Inv x.pipe
  none : FrameOut.none ∈ x.reader.outs → pieces x.reader.recv = [] ∧ sections x.reader.recv = []
  data : payloadsIn x.pipe.given = piecesRead x.reader.outs
  trailers : trailersIn x.pipe.given = sectionsRead x.reader.outs
  waits : ∀ bs, x.pipe.buffered = some (bs, true) → x.reader.recv = []
  ok : x.pipe.res = some .ok → FrameOut.none ∈ x.reader.outs ∨ x.reader.recv = []
  reset : OFrame.reset 0 ∉ x.pipe.out

theorem start_rinv {len : DecodedLength} {eos : Bool} {evs : List RecvEv} (hs : Stream evs) (he : Enough (H2Body.new len eos).len evs) : RInv evs (Relay.start len eos evs) := by
  constructor
  · exact Stream2.follows_start hs he
  · exact Inv.init
  all_goals simp [Relay.start, H2Reader.start, Pipe.init, payloadsIn, trailersIn, piecesRead, sectionsRead]

/-- With trailers a stream has ended. -/
theorem trailers_recv {evs : List RecvEv} {r : H2Reader} (h : Stream2.Follows evs r) {fs : Fields} (ha : r.answer = .trailers fs) : r.poll.recv = [] := by
  have hst := h.stream
  have ho := poll_outs r
  rw [ha] at ho
  have htr : ∀ l, Stream l → pieces l = [] → (r.pollTrailers l).outs = r.outs ++ [.trailers fs] → (r.pollTrailers l).recv = [] := by
    intro l hs hp hn
    unfold H2Reader.pollTrailers at hn ⊢
    cases hs with
    | ended => rfl
    | trailers fs => rfl
    | reset b => cases b <;> simp [recvTrailers, Stream2.poll_none, Stream2.answerOf] at hn
    | data bs hs => simp [pieces] at hp
    | pending hs => simp [recvTrailers, Stream2.poll_none, Stream2.answerOf] at hn
  unfold H2Reader.poll at ho ⊢
  cases hd : r.body.dataDone with
  | true =>
    rw [hd] at ho
    simp only [if_true] at ho ⊢
    exact htr _ hst (h.done hd) ho
  | false =>
    rw [hd] at ho
    simp only [Bool.false_eq_true, if_false] at ho ⊢
    cases hl : r.recv with
    | nil =>
      rw [hl] at ho
      exact htr _ .ended rfl ho
    | cons e t =>
      rw [hl] at hst ho
      cases hst with
      | trailers fs => exact htr _ (.trailers fs) rfl ho
      | reset b => cases b <;> simp [recvData, H2Body.poll, hd] at ho
      | data bs hs =>
        have hen := h.enough
        rw [hl] at hen
        obtain ⟨len', he, _⟩ := Stream2.subIf_enough hen
        simp [recvData, H2Body.poll, hd, he] at ho
      | pending hs => simp [recvData, H2Body.poll, hd] at ho

/-- While something waits, or the pipe has ended, the reader is left alone. -/
theorem rest_rinv {evs : List RecvEv} {x : Relay} (h : RInv evs x) (i : In) (hc : ¬ (x.pipe.res = none ∧ i.reset = .pending ∧ x.pipe.buffered = none)) :
    RInv evs { x with pipe := x.pipe.step i } := by
  obtain ⟨hf, hp, hn, hd, ht, hw, hk, hz⟩ := h
  have hpi := hp.step i
  cases hr : x.pipe.res with
  | some y =>
    have he : x.pipe.step i = x.pipe := by simp [St.step, hr]
    rw [he]
    exact ⟨hf, hp, hn, hd, ht, hw, hk, hz⟩
  | none =>
    cases hi : i.reset with
    | reset k =>
      have he : x.pipe.step i = { x.pipe with res := some .writeErr } := by simp [St.step, hr, hi]
      rw [he] at hpi ⊢
      exact ⟨hf, hpi, hn, hd, ht, hw, by simp, hz⟩
    | err =>
      have he : x.pipe.step i = { x.pipe with res := some .writeErr } := by simp [St.step, hr, hi]
      rw [he] at hpi ⊢
      exact ⟨hf, hpi, hn, hd, ht, hw, by simp, hz⟩
    | pending =>
      cases hb : x.pipe.buffered with
      | none => exact absurd ⟨hr, hi, hb⟩ hc
      | some y =>
        obtain ⟨bs, eos⟩ := y
        have he : x.pipe.step i = x.pipe.sendBuffered i bs eos := by simp [St.step, hr, hi, hb]
        have hrecv : eos = true → x.reader.recv = [] := fun e => hw bs (by rw [hb, e])
        rw [he] at hpi ⊢
        have hx : (x.pipe.sendBuffered i bs eos).given = x.pipe.given ∧ ((x.pipe.sendBuffered i bs eos).buffered = some (bs, eos) ∨ (x.pipe.sendBuffered i bs eos).buffered = none) ∧
            ((x.pipe.sendBuffered i bs eos).res = some .ok → eos = true) ∧ OFrame.reset 0 ∉ (x.pipe.sendBuffered i bs eos).out := by
          clear hpi he hc hrecv hn hd ht hw hk
          unfold St.sendBuffered St.send
          cases i.sendOk <;> cases eos <;> (repeat' split) <;> first | contradiction | (simp [hr, hb, hz]; done) | (exfalso; simp at *; done)
        obtain ⟨h1, h2, h3, h4⟩ := hx
        refine ⟨hf, hpi, hn, by rw [h1]; exact hd, by rw [h1]; exact ht, ?_, fun e => .inr (hrecv (h3 e)), h4⟩
        intro bs' e
        rcases h2 with h2 | h2
        · simp only [h2, Option.some.injEq, Prod.mk.injEq] at e
          exact hrecv e.2
        · simp only [h2, reduceCtorEq] at e

/-- What polling the body does. -/
theorem pollBody_facts (s : St) (i : In) (hr : s.res = none) (hb : s.buffered = none) (hz : OFrame.reset 0 ∉ s.out) (hg : ∀ causes, i.body = .error causes → h2Reason causes ≠ 0) :
    (s.pollBody i).given = s.given ++ (match i.body with | .frame f => [f] | _ => []) ∧ (∀ y, (s.pollBody i).buffered = some y → i.body = .frame (.data y.1 y.2)) ∧
      ((s.pollBody i).res = some .ok → i.body = .none ∨ (∃ t, i.body = .frame (.trailers t)) ∨ ∃ bs, i.body = .frame (.data bs true)) ∧ OFrame.reset 0 ∉ (s.pollBody i).out := by
  unfold St.pollBody
  cases he : i.body with
  | pending => simp [hr, hb, hz]
  | error causes => simp [hb, hz]; exact fun e => hg causes he e.symm
  | none => unfold St.send; cases i.sendOk <;> simp [hb, hz]
  | frame f =>
    cases f with
    | other => simp [hr, hb, hz]
    | trailers t => cases i.sendOk <;> simp [hb, hz]
    | data bs eos =>
      unfold St.send
      dsimp only
      split
      · cases i.sendOk <;> cases eos <;> simp [hb, hz]
      · simp [hr, hz]

/-- The reader is polled, and its answer is the body's. -/
theorem poll_rinv {evs : List RecvEv} {x : Relay} (h : RInv evs x) (i : In) (sees : Bool) (causes : List Cause) (hg : h2Reason causes ≠ 0)
    (hr : x.pipe.res = none) (hi : i.reset = .pending) (hb : x.pipe.buffered = none) :
    RInv evs { reader := x.reader.poll, pipe := x.pipe.step { i with body := Relay.bodyOf x.reader.answer (sees && x.reader.poll.recv.isEmpty) causes } } := by
  obtain ⟨hf, hp, hn, hd, ht, hw, hk, hz⟩ := h
  have hpi := hp.step { i with body := Relay.bodyOf x.reader.answer (sees && x.reader.poll.recv.isEmpty) causes }
  have hf' := hf.poll
  have hn' := none_poll hf hn
  have htr : ∀ fs, x.reader.answer = .trailers fs → x.reader.poll.recv = [] := fun fs => trailers_recv hf
  have ho := poll_outs x.reader
  have he : x.pipe.step { i with body := Relay.bodyOf x.reader.answer (sees && x.reader.poll.recv.isEmpty) causes } =
      x.pipe.pollBody { i with body := Relay.bodyOf x.reader.answer (sees && x.reader.poll.recv.isEmpty) causes } := by simp [St.step, hr, hi, hb]
  rw [he] at hpi ⊢
  generalize heos : (sees && x.reader.poll.recv.isEmpty) = eos at *
  have hrecv : eos = true → x.reader.poll.recv = [] := by intro e; rw [e] at heos; simp at heos; exact heos.2
  obtain ⟨h1, h2, h3, h4⟩ := pollBody_facts x.pipe { i with body := Relay.bodyOf x.reader.answer eos causes } hr hb hz (by
    intro cs e
    dsimp only at e
    cases ha : x.reader.answer <;> rw [ha] at e <;> simp [Relay.bodyOf] at e
    rw [← e]; exact hg)
  refine ⟨hf', hpi, hn', ?_, ?_, ?_, ?_, h4⟩
  · rw [ho, h1]
    have hd' : List.filterMap UFrame.payload? x.pipe.given = piecesRead x.reader.outs := hd
    cases ha : x.reader.answer <;> simp [Relay.bodyOf, payloadsIn, Stream2.piecesRead_append, piecesRead, UFrame.payload?, hd']
  · rw [ho, h1]
    have ht' : List.filterMap UFrame.trailers? x.pipe.given = sectionsRead x.reader.outs := ht
    cases ha : x.reader.answer <;> simp [Relay.bodyOf, trailersIn, Stream2.sectionsRead_append, sectionsRead, UFrame.trailers?, ht']
  · intro bs e
    have := h2 _ e
    dsimp only at this
    cases ha : x.reader.answer <;> rw [ha] at this <;> simp [Relay.bodyOf] at this
    exact hrecv this.2
  · intro e
    rw [ho]
    have := h3 e
    dsimp only at this
    cases ha : x.reader.answer <;> rw [ha] at this <;> simp [Relay.bodyOf] at this
    · exact .inr (hrecv this)
    · exact .inr (htr _ ha)
    · exact .inl (by simp)

theorem rinv_run {evs : List RecvEv} (is : List RelayIn) (hg : ∀ i ∈ is, h2Reason i.causes ≠ 0) (x : Relay) (h : RInv evs x) : RInv evs (x.run is) := by
  induction is generalizing x with
  | nil => exact h
  | cons i is ih =>
    refine ih (fun j hj => hg j (by simp [hj])) _ ?_
    unfold Relay.step
    split
    · rename_i hc
      exact poll_rinv h i.inp i.sees i.causes (hg i (by simp)) hc.1 hc.2.1 hc.2.2
    · rename_i hc
      exact rest_rinv h i.inp hc

end H2Cut

/-- C96: a relay that has sent the end of its stream was told the end of the one it reads, or reset with `NO_ERROR`, and has sent all that there was. -/
theorem C96_relay (len : DecodedLength) (eos : Bool) (evs : List RecvEv) (hs : Stream evs) (he : Enough (H2Body.new len eos).len evs) (is : List RelayIn)
    (hg : ∀ i ∈ is, Cause.h2 (some 0) ∉ i.causes) (p : St) (hp : p = ((Relay.start len eos evs).run is).pipe) (hc : Closed p.out) :
    RecvEv.reset false ∉ evs ∧ dataOf p.out = (pieces evs).flatten ∧ trailersOut p.out = sections evs := by
  subst hp
  have h := H2Cut.rinv_run is (fun i hi e => hg i hi (H2Cut.reason_zero e)) _ (H2Cut.start_rinv (len := len) (eos := eos) hs he)
  have hok := H2Cut.closed_ok h.pipe hc
  have hl : pieces ((Relay.start len eos evs).run is).reader.recv = [] ∧ sections ((Relay.start len eos evs).run is).reader.recv = [] := by
    rcases h.ok hok with hn | hn
    · exact h.none hn
    · rw [hn]; exact ⟨rfl, rfl⟩
  have hd := h.follows.data
  have ht := h.follows.trailers
  rw [hl.1, List.append_nil, ← h.data] at hd
  rw [hl.2, List.append_nil, ← h.trailers] at ht
  refine ⟨?_, ?_, ?_⟩
  · rcases h.ok hok with hn | hn
    · exact h.follows.clean hn
    · rw [← h.follows.reset false, hn]; simp
  · rw [H2Cut.whole_data h.pipe hok, ← hd]; rfl
  · rw [(h.pipe.ok hok).trailers, ← ht]

/-- C96 in part, through a proxy: if the second reader is told the end, the sender's body had ended without an error and the reader has all of it, with its trailers;
or the sender reset the stream with `NO_ERROR`, or the reader's or the proxy's own server gave its connection up.  The proxy never adds such a reset.  Missing: as in `C96_complete_partial`; then the proxy even makes an end of it
(`C96_torn_on`). -/
theorem C96_through_a_proxy_partial (is : List In) (evs : List RecvEv) (gaveUp : Prop) (ha : Arrives (Pipe.init.run is).out gaveUp evs) (len : DecodedLength) (eos : Bool)
    (he : Enough (H2Body.new len eos).len evs) (js : List RelayIn) (hg : ∀ j ∈ js, Cause.h2 (some 0) ∉ j.causes)
    (evs2 : List RecvEv) (gaveUp2 : Prop) (ha2 : Arrives ((Relay.start len eos evs).run js).pipe.out gaveUp2 evs2) (len2 : DecodedLength) (eos2 : Bool)
    (he2 : Enough (H2Body.new len2 eos2).len evs2) (n : Nat) (r : H2Reader) (hr : r = (H2Reader.start len2 eos2 evs2).polls n) (hn : .none ∈ r.outs) :
    OFrame.reset 0 ∈ (Pipe.init.run is).out ∨ gaveUp ∨ gaveUp2 ∨
      ((Pipe.init.run is).res = some .ok ∧ (piecesRead r.outs).flatten = bodyData (Pipe.init.run is).given ∧ sectionsRead r.outs = trailersIn (Pipe.init.run is).given) := by
  subst hr
  have h := H2Cut.rinv_run js (fun i hi e => hg i hi (H2Cut.reason_zero e)) _ (H2Cut.start_rinv (len := len) (eos := eos) ha.stream he)
  have hf := Stream2.follows_polls ha2.stream he2 n
  have hl := H2Cut.none_polls ha2.stream he2 n hn
  by_cases hg2 : gaveUp2
  · exact .inr (.inr (.inl hg2))
  have hall : Closed ((Relay.start len eos evs).run js).pipe.out ∧ (pieces evs2).flatten = dataOf ((Relay.start len eos evs).run js).pipe.out ∧
      sections evs2 = trailersOut ((Relay.start len eos evs).run js).pipe.out := by
    by_cases ht : RecvEv.reset true ∈ evs2
    · rcases ha2.noError ht with h0 | h0 | h0
      · exact absurd h0 h.reset
      · exact absurd h0 hg2
      · exact h0
    · exact ha2.ended (fun b => by cases b; exact hf.clean hn; exact ht)
  obtain ⟨hcl, hd2, ht2⟩ := hall
  obtain ⟨hrf, hd, ht⟩ := C96_relay len eos evs ha.stream he js hg _ rfl hcl
  have hdr := hf.data
  have htr := hf.trailers
  rw [hl.1, List.append_nil] at hdr
  rw [hl.2, List.append_nil] at htr
  have fin : (Closed (Pipe.init.run is).out ∧ (pieces evs).flatten = dataOf (Pipe.init.run is).out ∧ sections evs = trailersOut (Pipe.init.run is).out) →
      (Pipe.init.run is).res = some .ok ∧ (piecesRead ((H2Reader.start len2 eos2 evs2).polls n).outs).flatten = bodyData (Pipe.init.run is).given ∧
        sectionsRead ((H2Reader.start len2 eos2 evs2).polls n).outs = trailersIn (Pipe.init.run is).given := by
    intro hc
    have hv := Inv.init.run is
    have hok := H2Cut.closed_ok hv hc.1
    refine ⟨hok, ?_, ?_⟩
    · rw [hdr, hd2, hd, hc.2.1, H2Cut.whole_data hv hok]
    · rw [htr, ht2, ht, hc.2.2, (hv.ok hok).trailers]
  by_cases ht : RecvEv.reset true ∈ evs
  · rcases ha.noError ht with h0 | h0 | h0
    · exact .inl h0
    · exact .inr (.inl h0)
    · exact .inr (.inr (.inr (fin h0)))
  · exact .inr (.inr (.inr (fin (ha.ended (fun b => by cases b; exact hrf; exact ht)))))

/-- C96: of a stream that was reset with `NO_ERROR` after five bytes a relay makes one that ends after five bytes. -/
theorem C96_torn_on :
    let x := (Relay.start DecodedLength.CHUNKED false [.data (ascii "hello"), .reset true]).run [{ inp := {} }, { inp := { capacity := 5 } }, { inp := {} }]
    x.pipe.res = some .ok ∧ x.pipe.out = [.data (ascii "hello") false, .data [] true] := by decide +kernel

/-- A body of two pieces with trailers, handed on. -/
example :
    let is : List In := [{ body := .frame (.data (ascii "he") false) }, { capacity := 2 }, { body := .frame (.data (ascii "llo") false) }, { capacity := 3 },
      { body := .frame (.trailers [(ascii "a", ascii "b")]) }]
    let x := (Relay.start DecodedLength.CHUNKED false [.data (ascii "hell"), .pending, .data (ascii "o"), .trailers [(ascii "a", ascii "b")]]).run
      [{ inp := {} }, { inp := {} }, { inp := { capacity := 9 } }, { inp := {} }, { inp := {} }, { inp := { caps := [.ok 0, .ok 2] } }, { inp := {} }]
    let r := (H2Reader.start DecodedLength.CHUNKED false [.data (ascii "hello"), .trailers [(ascii "a", ascii "b")]]).polls 3
    (Pipe.init.run is).res = some .ok ∧ x.pipe.out = [.data (ascii "hell") false, .data (ascii "o") false, .trailers [(ascii "a", ascii "b")]] ∧
      r.outs = [.data (ascii "hello"), .trailers [(ascii "a", ascii "b")], .none] := by decide +kernel

/-- What the second reader sees is what may arrive of what the relay told. -/
example : Arrives [.data (ascii "hell") false, .data (ascii "o") false, .trailers [(ascii "a", ascii "b")]] False [.data (ascii "hello"), .trailers [(ascii "a", ascii "b")]] := by
  refine ⟨.data _ (.trailers _), ⟨[], by decide +kernel⟩, fun _ => ⟨⟨.trailers [(ascii "a", ascii "b")], by simp, rfl⟩, by decide +kernel, by decide +kernel⟩, fun h => ?_⟩
  simp at h

/-- A stream whose connection failed in the middle is not handed on as a whole one. -/
example : ((Relay.start DecodedLength.CHUNKED false [.data (ascii "hello"), .reset false]).run [{ inp := {} }, { inp := { capacity := 5 } }, { inp := {} }]).pipe.out =
    [.data (ascii "hello") false, .reset 2] := by decide +kernel

end Hyper
