import Verif.Model.ClientChan

/-!
# Accounting of the requests of a client connection
-/

namespace Hyper

/-- How often the caller of request `i` was answered. -/
def answersTo (i : Nat) (log : List CEv) : Nat :=
  log.countP fun e => match e with | .outcome j _ => j == i | _ => false

theorem answersTo_append (i : Nat) (a b : List CEv) : answersTo i (a ++ b) = answersTo i a + answersTo i b := by
  simp [answersTo]

@[simp] theorem answersTo_nil (i : Nat) : answersTo i [] = 0 := rfl
theorem answersTo_done (i : Nat) (r : CReq) (o : Answer) : answersTo i [r.done o] = if r.id = i then 1 else 0 := by
  simp [answersTo, CReq.done, List.countP_cons]
theorem answersTo_drop (i : Nat) (r : CReq) : answersTo i [r.drop] = if r.id = i then 1 else 0 := answersTo_done i r _
@[simp] theorem answersTo_submitted (i j : Nat) (l : List CEv) : answersTo i (.submitted j :: l) = answersTo i l := by
  simp [answersTo]
@[simp] theorem answersTo_accepted (i j : Nat) (l : List CEv) : answersTo i (.accepted j :: l) = answersTo i l := by
  simp [answersTo]
@[simp] theorem answersTo_encoded (i j : Nat) (l : List CEv) : answersTo i (.encoded j :: l) = answersTo i l := by
  simp [answersTo]
@[simp] theorem answersTo_asked (i : Nat) (l : List CEv) : answersTo i (.asked :: l) = answersTo i l := by
  simp [answersTo]

/-- Callbacks of request `i` in a list. -/
def holds (i : Nat) (l : List CReq) : Nat := l.countP fun r => r.id == i

@[simp] theorem holds_nil (i : Nat) : holds i [] = 0 := rfl
theorem holds_append (i : Nat) (a b : List CReq) : holds i (a ++ b) = holds i a + holds i b := by simp [holds]
theorem holds_cons (i : Nat) (r : CReq) (l : List CReq) : holds i (r :: l) = holds i l + if r.id = i then 1 else 0 := by
  simp [holds, List.countP_cons]
theorem holds_erase (i : Nat) {r : CReq} {l : List CReq} (h : r ∈ l) :
    holds i l = holds i (l.erase r) + if r.id = i then 1 else 0 := by
  have := (List.perm_cons_erase h).countP_eq (fun r : CReq => r.id == i)
  rw [holds, this]
  simp [holds, List.countP_cons]
theorem holds_pos {i : Nat} {l : List CReq} {r : CReq} (h : r ∈ l) (e : r.id = i) : 0 < holds i l :=
  List.countP_pos_iff.2 ⟨r, h, by simp [e]⟩

theorem answersTo_map (i : Nat) (l : List CReq) (o : Answer) : answersTo i (l.map fun r => r.done o) = holds i l := by
  induction l with
  | nil => rfl
  | cons r l ih =>
    rw [List.map_cons, show r.done o :: List.map (fun r => CReq.done r o) l = [r.done o] ++ List.map (fun r => CReq.done r o) l from rfl,
      answersTo_append, ih, answersTo_done, holds_cons, Nat.add_comm]

theorem answersTo_drops (i : Nat) (l : List CReq) : answersTo i (l.map CReq.drop) = holds i l := answersTo_map i l _
theorem answersTo_envelopes (i : Nat) (l : List CReq) : answersTo i (l.map CReq.dropEnvelope) = holds i l := answersTo_map i l _

namespace CSt

/-- The callbacks of request `i` that somebody holds. -/
def held (s : CSt) (i : Nat) : Nat :=
  holds i s.granted + holds i s.sending + holds i s.queue + holds i s.callback.toList + holds i s.tasks

/-- Whether request `i` was handed over, when `n` were. -/
def handed (n i : Nat) : Nat := if i < n then 1 else 0

theorem handed_succ (i n : Nat) : handed (n + 1) i = handed n i + if n = i then 1 else 0 := by grind [handed]

/-- Every request handed over has one callback, or one answer. -/
structure Acc (s : CSt) : Prop where
  one : ∀ i, s.held i + answersTo i s.log = handed s.next i
  tx : s.txGone = true → s.granted = [] ∧ s.sending = []
  rx : s.phase = .gone → s.callback = none
  dropping : s.phase = .dropping → s.callback = none
  both : s.phase = .gone → s.txGone = true → s.queue = []

theorem Acc.init : Acc {} := ⟨fun i => by simp [held, holds, handed], by simp, by simp, by simp, by simp⟩

set_option maxHeartbeats 2000000 in
theorem Acc.step {s : CSt} (h : s.Acc) (a : CAct) : (s.step a).Acc := by
  obtain ⟨h1, h2, h3, h4, h5⟩ := h
  cases a <;> simp only [CSt.step]
  case submit b =>
    unfold submit
    split
    · exact ⟨h1, h2, h3, h4, h5⟩
    · rename_i hn
      dsimp only
      split <;> refine ⟨fun i => ?_, by grind, by grind, by grind, by grind⟩ <;> have := h1 i <;>
        simp only [held, holds_append, holds_cons, holds_nil, answersTo_append, answersTo_submitted, answersTo_accepted, answersTo_nil,
          answersTo_done, handed_succ] at this ⊢ <;> omega
  case submitUnbounded b =>
    unfold submitUnbounded
    split
    · exact ⟨h1, h2, h3, h4, h5⟩
    · refine ⟨fun i => ?_, by grind, by grind, by grind, by grind⟩
      have := h1 i
      simp only [held, holds_append, holds_cons, holds_nil, answersTo_append, answersTo_submitted, answersTo_accepted, answersTo_nil,
          handed_succ] at this ⊢
      omega
  case permit r =>
    unfold permit
    split
    · rename_i hr
      have ht : s.txGone = false := by
        cases hx : s.txGone
        · rfl
        · rw [(h2 hx).1] at hr
          cases hr
      split <;> refine ⟨fun i => ?_, by simp [ht], h3, h4, by simp [ht]⟩ <;> have := h1 i <;> have he := holds_erase i hr <;>
        simp only [held, holds_append, holds_cons, holds_nil, answersTo_append, answersTo_nil, answersTo_done] at this ⊢ <;> omega
    · exact ⟨h1, h2, h3, h4, h5⟩
  case push r =>
    unfold push
    split
    · rename_i hr
      have ht : s.txGone = false := by
        cases hx : s.txGone
        · rfl
        · rw [(h2 hx).2] at hr
          cases hr
      refine ⟨fun i => ?_, by simp [ht], h3, h4, by simp [ht]⟩
      have := h1 i
      have he := holds_erase i hr
      simp only [held, holds_append, holds_cons, holds_nil] at this ⊢
      omega
    · exact ⟨h1, h2, h3, h4, h5⟩
  case dropTx =>
    split
    · exact ⟨h1, h2, h3, h4, h5⟩
    · unfold dropTx
      split
      · rename_i hg
        split
        · refine ⟨fun i => ?_, fun _ => hg, h3, h4, fun _ _ => rfl⟩
          have := h1 i
          simp only [held, drain, holds_nil, answersTo_append, answersTo_envelopes] at this ⊢
          omega
        · rename_i hp
          exact ⟨h1, fun _ => hg, h3, h4, fun x => absurd x hp⟩
      · exact ⟨h1, h2, h3, h4, h5⟩
  case pollMsg c =>
    split
    · rename_i hp
      unfold pollMsg
      split
      · rename_i r q hq
        split
        · refine ⟨fun i => ?_, h2, h3, h4, by simp [hp]⟩
          have := h1 i
          simp only [held, hq, holds_cons, answersTo_append, answersTo_drop] at this ⊢
          omega
        · refine ⟨fun i => ?_, h2, by simp [setCallback, hp], by simp [setCallback, hp], by simp [setCallback, hp]⟩
          have := h1 i
          simp only [held, setCallback, hq, holds_cons, holds_nil, answersTo_append, answersTo_drops, answersTo_encoded, answersTo_nil,
            Option.toList_some] at this ⊢
          omega
      · split
        · exact ⟨h1, h2, h3, h4, h5⟩
        · exact ⟨h1, h2, by simp, by simp, by simp⟩
    · exact ⟨h1, h2, h3, h4, h5⟩
  case pollTask c f =>
    split
    · rename_i hp
      unfold pollTask
      split
      · rename_i r q hq
        split
        · refine ⟨fun i => ?_, h2, h3, h4, by simp [hp]⟩
          have := h1 i
          simp only [held, hq, holds_cons, answersTo_append, answersTo_drop] at this ⊢
          omega
        · split
          · refine ⟨fun i => ?_, h2, h3, h4, by simp [hp]⟩
            have := h1 i
            simp only [held, hq, holds_cons, answersTo_append, answersTo_done] at this ⊢
            omega
          · refine ⟨fun i => ?_, h2, h3, h4, by simp [hp]⟩
            have := h1 i
            simp only [held, hq, holds_cons, holds_append, holds_nil, answersTo_append, answersTo_encoded, answersTo_nil] at this ⊢
            omega
      · split
        · exact ⟨h1, h2, h3, h4, h5⟩
        · exact ⟨h1, h2, by simp, by simp, by simp⟩
    · exact ⟨h1, h2, h3, h4, h5⟩
  case pollSpurious =>
    split
    · exact ⟨h1, h2, by simp, by simp, by simp⟩
    · exact ⟨h1, h2, h3, h4, h5⟩
  case trySpurious =>
    split
    · exact ⟨h1, h2, by simp, by simp, by simp⟩
    · exact ⟨h1, h2, h3, h4, h5⟩
  case finishTask r o =>
    unfold finishTask
    split
    · rename_i hr
      refine ⟨fun i => ?_, h2, h3, h4, h5⟩
      have := h1 i
      have he := holds_erase i hr
      rcases o with _ | _ | _ <;>
        simp only [held, holds_append, answersTo_append, answersTo_drop, answersTo_done] at this ⊢ <;> omega
    · exact ⟨h1, h2, h3, h4, h5⟩
  case recvOk =>
    split
    · rename_i hp
      unfold recvOk
      split
      · rename_i r hc
        refine ⟨fun i => ?_, h2, by simp, by simp, by simp [hp]⟩
        have := h1 i
        simp only [held, hc, Option.toList_some, Option.toList_none, holds_cons, holds_nil, answersTo_append, answersTo_done] at this ⊢
        omega
      · exact ⟨h1, h2, h3, h4, h5⟩
    · exact ⟨h1, h2, h3, h4, h5⟩
  case recvErr =>
    split
    · rename_i hp
      unfold recvErr
      split
      · rename_i r hc
        refine ⟨fun i => ?_, h2, by simp, by simp, by simp [hp]⟩
        have := h1 i
        simp only [held, hc, Option.toList_some, Option.toList_none, holds_cons, holds_nil, answersTo_append, answersTo_done] at this ⊢
        omega
      · split
        · exact ⟨h1, h2, h3, h4, h5⟩
        · exact ⟨h1, h2, by simp, by simp, by simp⟩
    · exact ⟨h1, h2, h3, h4, h5⟩
  case dropRx =>
    split
    · refine ⟨fun i => ?_, h2, by simp [dropRx], by simp [dropRx], by simp [dropRx]⟩
      have := h1 i
      simp only [held, dropRx, Option.toList_none, holds_nil, answersTo_append, answersTo_drops] at this ⊢
      omega
    · exact ⟨h1, h2, h3, h4, h5⟩
  case «continue» =>
    split
    · refine ⟨fun i => ?_, h2, by simp [asksFor], by simp [asksFor], by simp [asksFor]⟩
      have := h1 i
      simp only [held, asksFor, answersTo_append, answersTo_asked, answersTo_nil] at this ⊢
      omega
    · exact ⟨h1, h2, by simp [closeInner], by simp [closeInner], by simp [closeInner]⟩
    · unfold tryRecv
      split
      · rename_i r q hq
        refine ⟨fun i => ?_, h2, by simp, by simp, by simp⟩
        have := h1 i
        simp only [held, hq, holds_cons, answersTo_append, answersTo_done] at this ⊢
        omega
      · exact ⟨h1, h2, by simp, by simp, by simp⟩
    · rename_i hp
      refine ⟨fun i => ?_, h2, fun _ => h4 hp, by simp [dropInner], fun _ _ => rfl⟩
      have := h1 i
      simp only [held, dropInner, drain, holds_nil, answersTo_append, answersTo_envelopes] at this ⊢
      omega
    · exact ⟨h1, h2, h3, h4, h5⟩

theorem Acc.run {s : CSt} (h : s.Acc) (as : List CAct) : (s.run as).Acc := by
  induction as generalizing s with
  | nil => exact h
  | cons a as ih => exact ih (h.step a)

theorem Acc.no_more {s : CSt} (h : s.Acc) {r : CReq} {q : List CReq} (hq : s.queue = r :: q) :
    answersTo r.id s.log = 0 ∧ r.id < s.next ∧ ∀ r' ∈ s.granted ++ s.sending ++ q, r'.id ≠ r.id := by
  have h1 := h.one r.id
  have hle : handed s.next r.id ≤ 1 := by grind [handed]
  simp only [held, hq, holds_cons, if_true] at h1
  refine ⟨by omega, by grind [handed], fun r' hr' he => ?_⟩
  simp only [List.mem_append] at hr'
  rcases hr' with (hr' | hr') | hr' <;> have := holds_pos hr' he <;> omega

theorem mem_answered {i : Nat} {o : Answer} {l : List CEv} (h : .outcome i o ∈ l) : 0 < answersTo i l :=
  List.countP_pos_iff.2 ⟨_, h, by simp⟩

/-- What waits was not encoded, nor what was given back. -/
structure Unsent (s : CSt) : Prop where
  fresh : ∀ r ∈ s.granted ++ s.sending ++ s.queue, CEv.encoded r.id ∉ s.log
  back : ∀ i, CEv.outcome i (.error true) ∈ s.log → CEv.encoded i ∉ s.log
  old : ∀ i, CEv.encoded i ∈ s.log → i < s.next

theorem Unsent.init : Unsent {} := ⟨by simp, by simp, by simp⟩

theorem done_ne (r : CReq) (o : Answer) (i : Nat) : CEv.encoded i ≠ r.done o := by simp [CReq.done]

theorem done_back {r : CReq} {o : Answer} {i : Nat} (h : CEv.outcome i (.error true) = r.done o) : i = r.id := by
  simp only [CReq.done, CEv.outcome.injEq] at h
  exact h.1

theorem done_kept {r : CReq} {o : Answer} {i : Nat} (ho : o ≠ .error true) : CEv.outcome i (.error true) ≠ r.done o := by
  rcases o with _ | _ | _ <;> simp_all [CReq.done]

theorem mem_drops {l : List CReq} {e : CEv} (h : e ∈ l.map CReq.drop) : ∃ i, e = .outcome i (.error false) := by
  obtain ⟨r, _, rfl⟩ := List.mem_map.1 h
  exact ⟨r.id, by simp [CReq.drop, CReq.done]⟩

theorem mem_envelopes {l : List CReq} {e : CEv} (h : e ∈ l.map CReq.dropEnvelope) : ∃ r ∈ l, ∃ b, e = .outcome r.id (.error b) := by
  obtain ⟨r, hr, rfl⟩ := List.mem_map.1 h
  exact ⟨r, hr, r.retry, by simp [CReq.dropEnvelope, CReq.done]⟩

/-- More in the log that encodes nothing, less that waits. -/
theorem Unsent.mono {s t : CSt} (h : s.Unsent) {l : List CEv} (hl : t.log = s.log ++ l) (hn : s.next ≤ t.next)
    (he : ∀ i, CEv.encoded i ∉ l)
    (hr : ∀ r ∈ t.granted ++ t.sending ++ t.queue, r ∈ s.granted ++ s.sending ++ s.queue ∨ s.next ≤ r.id)
    (hb : ∀ i, CEv.outcome i (.error true) ∈ l → CEv.encoded i ∉ s.log) : t.Unsent := by
  obtain ⟨h1, h2, h3⟩ := h
  refine ⟨fun r hr' => ?_, fun i hi => ?_, fun i hi => ?_⟩
  · rw [hl, List.mem_append]
    rintro (h | h)
    · rcases hr r hr' with h' | h'
      · exact h1 r h' h
      · exact absurd (h3 _ h) (by omega)
    · exact he _ h
  · rw [hl, List.mem_append] at hi ⊢
    rintro (h | h)
    · rcases hi with hi | hi
      · exact h2 i hi h
      · exact hb i hi h
    · exact he _ h
  · rw [hl, List.mem_append] at hi
    rcases hi with hi | hi
    · have := h3 i hi
      omega
    · exact absurd hi (he i)

/-- A request leaves the queue to be written. -/
theorem Unsent.encode {s t : CSt} (h : s.Unsent) (ha : s.Acc) {r : CReq} {q : List CReq} (hq : s.queue = r :: q) {l : List CEv}
    (hl : t.log = s.log ++ l ++ [.encoded r.id]) (hn : t.next = s.next) (he : ∀ e ∈ l, ∃ i, e = .outcome i (.error false))
    (hr : t.granted = s.granted ∧ t.sending = s.sending ∧ t.queue = q) : t.Unsent := by
  obtain ⟨h1, h2, h3⟩ := h
  obtain ⟨a1, a2, a3⟩ := ha.no_more hq
  obtain ⟨r1, r2, r3⟩ := hr
  have hnl : ∀ i, CEv.encoded i ∉ l := fun i hi => by
    obtain ⟨j, hj⟩ := he _ hi
    cases hj
  have hob : ∀ i, CEv.outcome i (.error true) ∉ l := fun i hi => by
    obtain ⟨j, hj⟩ := he _ hi
    simp at hj
  refine ⟨fun r' hr' => ?_, fun i hi => ?_, fun i hi => ?_⟩
  · rw [r1, r2, r3] at hr'
    have hne := a3 r' hr'
    have := h1 r' (by rw [hq]; simp only [List.mem_append, List.mem_cons] at hr' ⊢; grind)
    rw [hl]
    simp only [List.mem_append, List.mem_singleton, CEv.encoded.injEq]
    rintro ((h | h) | h)
    · exact this h
    · exact hnl _ h
    · exact hne h
  · rw [hl] at hi ⊢
    simp only [List.mem_append, List.mem_singleton, reduceCtorEq, or_false] at hi
    have hi' : CEv.outcome i (.error true) ∈ s.log := hi.resolve_right (hob i)
    have hne : i ≠ r.id := fun e => by
      have := mem_answered hi'
      rw [e] at this
      omega
    simp only [List.mem_append, List.mem_singleton, CEv.encoded.injEq]
    rintro ((h | h) | h)
    · exact h2 i hi' h
    · exact hnl _ h
    · exact hne h
  · rw [hl] at hi
    simp only [List.mem_append, List.mem_singleton, CEv.encoded.injEq] at hi
    rw [hn]
    rcases hi with (hi | hi) | hi
    · exact h3 i hi
    · exact absurd hi (hnl i)
    · rw [hi]
      exact a2

theorem drain_answered (s : CSt) (h : s.Unsent) (i : Nat) (hi : CEv.outcome i (.error true) ∈ s.queue.map CReq.dropEnvelope) :
    CEv.encoded i ∉ s.log := by
  obtain ⟨r, hr, b, e⟩ := mem_envelopes hi
  simp only [CEv.outcome.injEq] at e
  rw [e.1]
  exact h.fresh r (by simp [hr])

theorem drain_encodes (s : CSt) (i : Nat) : CEv.encoded i ∉ s.queue.map CReq.dropEnvelope := fun hi => by
  obtain ⟨r, hr, b, e⟩ := mem_envelopes hi
  cases e

set_option maxHeartbeats 2000000 in
theorem Unsent.step {s : CSt} (h : s.Unsent) (ha : s.Acc) (a : CAct) : (s.step a).Unsent := by
  have hsame : ∀ t : CSt, t.log = s.log → t.next = s.next → t.granted ++ t.sending ++ t.queue = s.granted ++ s.sending ++ s.queue →
      t.Unsent := fun t e1 e2 e3 =>
    h.mono (t := t) (l := []) (by simp [e1]) (by omega) (by simp) (by rw [e3]; exact fun r hr => .inl hr) (by simp)
  cases a <;> simp only [CSt.step]
  case submit b =>
    split
    · exact h
    · unfold submit
      dsimp only
      split
      · refine h.mono rfl (by simp) (by simp) (fun r hr => ?_) (by simp)
        simp only [List.mem_append, List.mem_singleton] at hr ⊢
        rcases hr with ((hr | hr) | hr) | hr
        · exact .inl (.inl (.inl hr))
        · exact .inr (by simp [hr])
        · exact .inl (.inl (.inr hr))
        · exact .inl (.inr hr)
      · refine h.mono rfl (by simp) (by simp [CReq.done]) (fun r hr => .inl hr) (fun i hi he => ?_)
        have := h.old i he
        simp only [List.mem_cons, reduceCtorEq, List.not_mem_nil, or_false, false_or] at hi
        have := done_back hi
        simp at this
        omega
  case submitUnbounded b =>
    split
    · exact h
    · unfold submitUnbounded
      refine h.mono rfl (by simp) (by simp) (fun r hr => ?_) (by simp)
      simp only [List.mem_append, List.mem_singleton] at hr ⊢
      rcases hr with ((hr | hr) | hr) | hr
      · exact .inl (.inl (.inl hr))
      · exact .inr (by simp [hr])
      · exact .inl (.inl (.inr hr))
      · exact .inl (.inr hr)
  case permit r =>
    unfold permit
    split
    · rename_i hr
      split
      · refine h.mono rfl (by simp) (by simp [done_ne]) (fun r' hr' => .inl ?_) (fun i hi => ?_)
        · simp only [List.mem_append] at hr' ⊢
          rcases hr' with (hr' | hr') | hr'
          · exact .inl (.inl (List.mem_of_mem_erase hr'))
          · exact .inl (.inr hr')
          · exact .inr hr'
        · simp only [List.mem_singleton] at hi
          rw [done_back hi]
          exact h.fresh r (by simp [hr])
      · refine h.mono (l := []) (by simp) (by simp) (by simp) (fun r' hr' => .inl ?_) (by simp)
        simp only [List.mem_append, List.mem_singleton] at hr' ⊢
        rcases hr' with (hr' | hr' | hr') | hr'
        · exact .inl (.inl (List.mem_of_mem_erase hr'))
        · exact .inl (.inr hr')
        · exact .inl (.inl (hr' ▸ hr))
        · exact .inr hr'
    · exact h
  case push r =>
    unfold push
    split
    · rename_i hr
      refine h.mono (l := []) (by simp) (by simp) (by simp) (fun r' hr' => .inl ?_) (by simp)
      simp only [List.mem_append, List.mem_singleton] at hr' ⊢
      rcases hr' with (hr' | hr') | hr' | hr'
      · exact .inl (.inl hr')
      · exact .inl (.inr (List.mem_of_mem_erase hr'))
      · exact .inr hr'
      · exact .inl (.inr (hr' ▸ hr))
    · exact h
  case dropTx =>
    split
    · exact h
    · unfold dropTx
      split
      · split
        · refine h.mono (t := { s.drain with txGone := true }) rfl (by simp [drain]) (drain_encodes s) (fun r hr => .inl ?_)
            (drain_answered s h)
          simp only [drain, List.append_nil] at hr
          exact List.mem_append_left _ hr
        · exact hsame _ rfl rfl rfl
      · exact h
  case pollMsg c =>
    split
    · unfold pollMsg
      split
      · rename_i r q hq
        split
        · refine h.mono rfl (by simp) (by simp [CReq.drop, done_ne]) (fun r' hr' => .inl ?_) (fun i hi => ?_)
          · rw [hq]
            simp only [List.mem_append, List.mem_cons] at hr' ⊢
            grind
          · simp only [List.mem_singleton] at hi
            exact absurd hi (done_kept (by simp))
        · exact h.encode ha hq (l := s.callback.toList.map CReq.drop) rfl rfl (fun e he => mem_drops he) ⟨rfl, rfl, rfl⟩
      · split <;> exact hsame _ rfl rfl rfl
    · exact h
  case pollTask c f =>
    split
    · unfold pollTask
      split
      · rename_i r q hq
        have hrest : ∀ r' ∈ s.granted ++ s.sending ++ q, r' ∈ s.granted ++ s.sending ++ s.queue ∨ s.next ≤ r'.id := fun r' hr' => by
          rw [hq]
          simp only [List.mem_append, List.mem_cons] at hr' ⊢
          grind
        split
        · refine h.mono rfl (by simp) (by simp [CReq.drop, done_ne]) hrest (fun i hi => ?_)
          simp only [List.mem_singleton] at hi
          exact absurd hi (done_kept (by simp))
        · split
          · refine h.mono rfl (by simp) (by simp [done_ne]) hrest (fun i hi => ?_)
            simp only [List.mem_singleton] at hi
            exact absurd hi (done_kept (by simp))
          · exact h.encode ha hq (l := []) (by simp) rfl (by simp) ⟨rfl, rfl, rfl⟩
      · split
        · exact h
        · exact hsame _ rfl rfl rfl
    · exact h
  case pollSpurious =>
    split
    · exact hsame _ rfl rfl rfl
    · exact h
  case trySpurious =>
    split
    · exact hsame _ rfl rfl rfl
    · exact h
  case finishTask r o =>
    unfold finishTask
    split
    · refine h.mono rfl (by simp) (fun i hi => ?_) (fun r' hr' => .inl hr') (fun i hi => ?_)
      · rcases o with _ | _ | _ <;> simp [CReq.drop, done_ne] at hi
      · rcases o with _ | _ | _ <;> simp only [List.mem_singleton, CReq.drop] at hi <;> exact absurd hi (done_kept (by simp))
    · exact h
  case recvOk =>
    split
    · unfold recvOk
      split
      · refine h.mono rfl (by simp) (by simp [done_ne]) (fun r' hr' => .inl hr') (fun i hi => ?_)
        simp only [List.mem_singleton] at hi
        exact absurd hi (done_kept (by simp))
      · exact h
    · exact h
  case recvErr =>
    split
    · unfold recvErr
      split
      · refine h.mono rfl (by simp) (by simp [done_ne]) (fun r' hr' => .inl hr') (fun i hi => ?_)
        simp only [List.mem_singleton] at hi
        exact absurd hi (done_kept (by simp))
      · split
        · exact h
        · exact hsame _ rfl rfl rfl
    · exact h
  case dropRx =>
    split
    · refine h.mono rfl (by simp [dropRx]) (fun i hi => ?_) (fun r' hr' => .inl hr') (fun i hi => ?_)
      · obtain ⟨j, hj⟩ := mem_drops hi
        cases hj
      · obtain ⟨j, hj⟩ := mem_drops hi
        simp at hj
    · exact h
  case «continue» =>
    split
    · exact h.mono rfl (by simp [asksFor]) (by simp) (fun r' hr' => .inl hr') (by simp)
    · exact hsame _ rfl rfl rfl
    · unfold tryRecv
      split
      · rename_i r q hq
        refine h.mono rfl (by simp) (by simp [done_ne]) (fun r' hr' => .inl ?_) (fun i hi => ?_)
        · rw [hq]
          simp only [List.mem_append, List.mem_cons] at hr' ⊢
          grind
        · simp only [List.mem_singleton] at hi
          rw [done_back hi]
          exact h.fresh r (by simp [hq])
      · exact hsame _ rfl rfl rfl
    · refine h.mono (t := s.dropInner) rfl (by simp [dropInner, drain]) (drain_encodes s) (fun r hr => .inl ?_) (drain_answered s h)
      simp only [dropInner, drain, List.append_nil] at hr
      exact List.mem_append_left _ hr
    · exact h

theorem Unsent.run {s : CSt} (h : s.Unsent) (ha : s.Acc) (as : List CAct) : (s.run as).Unsent := by
  induction as generalizing s with
  | nil => exact h
  | cons a as ih => exact ih (h.step ha a) (ha.step a)

end CSt

/-- How many requests were accepted. -/
def acceptances (log : List CEv) : Nat := log.countP fun e => match e with | .accepted _ => true | _ => false

/-- How often the connection asked for one. -/
def demands (log : List CEv) : Nat := log.countP fun e => match e with | .asked => true | _ => false

theorem acceptances_append (a b : List CEv) : acceptances (a ++ b) = acceptances a + acceptances b := by simp [acceptances]
theorem demands_append (a b : List CEv) : demands (a ++ b) = demands a + demands b := by simp [demands]

@[simp] theorem acceptances_done (r : CReq) (o : Answer) : acceptances [r.done o] = 0 := by simp [acceptances, CReq.done]
@[simp] theorem demands_done (r : CReq) (o : Answer) : demands [r.done o] = 0 := by simp [demands, CReq.done]
@[simp] theorem acceptances_drop (r : CReq) : acceptances [r.drop] = 0 := acceptances_done _ _
@[simp] theorem demands_drop (r : CReq) : demands [r.drop] = 0 := demands_done _ _
@[simp] theorem acceptances_drops (l : List CReq) : acceptances (l.map CReq.drop) = 0 := by
  simp [acceptances, CReq.drop, CReq.done, Function.comp_def]
@[simp] theorem demands_drops (l : List CReq) : demands (l.map CReq.drop) = 0 := by
  simp [demands, CReq.drop, CReq.done, Function.comp_def]
@[simp] theorem acceptances_envelopes (l : List CReq) : acceptances (l.map CReq.dropEnvelope) = 0 := by
  simp [acceptances, CReq.dropEnvelope, CReq.done, Function.comp_def]
@[simp] theorem demands_envelopes (l : List CReq) : demands (l.map CReq.dropEnvelope) = 0 := by
  simp [demands, CReq.dropEnvelope, CReq.done, Function.comp_def]

namespace CSt

/-- The signals not used yet. -/
def spare (s : CSt) : Nat := if s.want = .want then 1 else 0

/-- Acceptances are paid for. -/
def Paid (s : CSt) : Prop := acceptances s.log + s.spare ≤ demands s.log + if s.buffered = true then 1 else 0

theorem Paid.same {s t : CSt} (h : s.Paid) (l : List CEv) (hl : t.log = s.log ++ l) (ha : acceptances l = 0) (hd : demands l = 0)
    (hw : t.want = s.want ∨ t.want ≠ .want) (hb : t.buffered = s.buffered) : t.Paid := by
  unfold Paid spare at *
  rw [hl, acceptances_append, demands_append, hb, ha, hd]
  grind

set_option maxHeartbeats 2000000 in
theorem Paid.step {s : CSt} (h : s.Paid) (a : CAct) (hu : ∀ b, a ≠ .submitUnbounded b) : (s.step a).Paid := by
  cases a <;> simp only [CSt.step]
  case submit b =>
    split
    · exact h
    · unfold submit
      dsimp only
      split
      · unfold Paid spare at *
        rw [acceptances_append, demands_append]
        simp only [acceptances, demands, List.countP_cons, List.countP_nil, give] at *
        grind
      · exact h.same _ rfl (by simp [acceptances, CReq.done]) (by simp [demands, CReq.done]) (.inl rfl) rfl
  case submitUnbounded b => exact absurd rfl (hu b)
  case permit r =>
    unfold permit
    repeat' split
    · exact h.same _ rfl (by simp) (by simp) (.inl rfl) rfl
    · exact h.same [] (by simp) rfl rfl (.inl rfl) rfl
    · exact h
  case push r =>
    unfold push
    split
    · exact h.same [] (by simp) rfl rfl (.inl rfl) rfl
    · exact h
  case dropTx =>
    unfold dropTx
    repeat' split
    · exact h
    · exact h.same (t := { s.drain with txGone := true }) _ rfl (by simp) (by simp) (.inl rfl) rfl
    · exact h.same [] (by simp) rfl rfl (.inl rfl) rfl
    · exact h
  case pollMsg c =>
    unfold pollMsg
    split
    · split
      · split
        · exact h.same _ rfl (by simp) (by simp) (.inl rfl) rfl
        · rename_i r q _ _
          refine h.same (s.callback.toList.map CReq.drop ++ [.encoded r.id]) (by simp [setCallback]) ?_ ?_ (.inl rfl) rfl
          · rw [acceptances_append, acceptances_drops]
            rfl
          · rw [demands_append, demands_drops]
            rfl
      · split <;> exact h.same [] (by simp) rfl rfl (.inl rfl) rfl
    · exact h
  case pollTask c f =>
    unfold pollTask
    split
    · split
      · split
        · exact h.same _ rfl (by simp) (by simp) (.inl rfl) rfl
        · split
          · exact h.same _ rfl (by simp) (by simp) (.inl rfl) rfl
          · exact h.same _ rfl (by simp [acceptances]) (by simp [demands]) (.inl rfl) rfl
      · split <;> exact h.same [] (by simp) rfl rfl (.inl rfl) rfl
    · exact h
  case pollSpurious => split <;> exact h.same [] (by simp) rfl rfl (.inl rfl) rfl
  case trySpurious => split <;> exact h.same [] (by simp) rfl rfl (.inl rfl) rfl
  case finishTask r o =>
    unfold finishTask
    split
    · refine h.same _ rfl ?_ ?_ (.inl rfl) rfl <;> rcases o with _ | _ | _ <;> simp
    · exact h
  case recvOk =>
    unfold recvOk
    split
    · split
      · exact h.same _ rfl (by simp) (by simp) (.inl rfl) rfl
      · exact h
    · exact h
  case recvErr =>
    unfold recvErr
    split
    · split
      · exact h.same _ rfl (by simp) (by simp) (.inl rfl) rfl
      · split
        · exact h
        · exact h.same [] (by simp) rfl rfl (.inr (by simp)) rfl
    · exact h
  case dropRx =>
    split
    · exact h.same _ rfl (by simp) (by simp) (.inr (by simp [dropRx])) rfl
    · exact h
  case «continue» =>
    split
    · unfold Paid spare asksFor at *
      rw [acceptances_append, demands_append]
      simp only [acceptances, demands, List.countP_cons, List.countP_nil] at *
      grind
    · exact h.same [] (by simp [closeInner]) rfl rfl (.inl rfl) rfl
    · unfold tryRecv
      split
      · exact h.same _ rfl (by simp) (by simp) (.inl rfl) rfl
      · exact h.same [] (by simp) rfl rfl (.inl rfl) rfl
    · exact h.same (t := s.dropInner) _ rfl (by simp) (by simp) (.inl rfl) rfl
    · exact h

/-- A bounded sender: requests come from `Sender::try_send` and `Sender::send` only. -/
def Bounded (as : List CAct) : Prop := ∀ a ∈ as, ∀ b, a ≠ .submitUnbounded b

theorem Paid.run {s : CSt} (h : s.Paid) (as : List CAct) (hu : Bounded as) : (s.run as).Paid := by
  induction as generalizing s with
  | nil => exact h
  | cons a as ih => exact ih (h.step a (hu a (by simp))) (fun b hb => hu b (by simp [hb]))

/-- Requests on their way to the connection. -/
def waiting (s : CSt) : Nat := s.granted.length + s.sending.length + s.queue.length

/-- How many of them there are. -/
structure Few (s : CSt) : Prop where
  turn : s.granted.length + s.sending.length ≤ 1
  few : s.waiting + (if s.want = .want ∨ s.buffered = false then 1 else 0) + (if s.phase = .wanting then 1 else 0) ≤ 3

theorem Few.init : Few {} := ⟨by simp, by simp [waiting]⟩

theorem length_erase' {r : CReq} {l : List CReq} (h : r ∈ l) : (l.erase r).length + 1 = l.length := by
  have := List.length_erase_of_mem h
  have := List.length_pos_of_mem h
  omega

set_option maxHeartbeats 2000000 in
theorem Few.step {s : CSt} (h : s.Few) (a : CAct) (hu : ∀ b, a ≠ .submitUnbounded b) (hs : a ≠ .pollSpurious) : (s.step a).Few := by
  obtain ⟨h1, h2⟩ := h
  unfold waiting at h2
  cases a <;> simp only [CSt.step]
  case submit b => unfold submit give; constructor <;> grind [waiting]
  case submitUnbounded b => exact absurd rfl (hu b)
  case permit r => unfold permit; constructor <;> grind [waiting, length_erase']
  case push r => unfold push; constructor <;> grind [waiting, length_erase']
  case dropTx => unfold dropTx drain; constructor <;> grind [waiting]
  case pollMsg c => unfold pollMsg setCallback; constructor <;> grind [waiting]
  case pollTask c f => unfold pollTask; constructor <;> grind [waiting]
  case pollSpurious => exact absurd rfl hs
  case trySpurious => constructor <;> grind [waiting]
  case finishTask r o => unfold finishTask; constructor <;> grind [waiting]
  case recvOk => unfold recvOk; constructor <;> grind [waiting]
  case recvErr => unfold recvErr; constructor <;> grind [waiting]
  case dropRx => unfold dropRx; constructor <;> grind [waiting]
  case «continue» => unfold asksFor closeInner tryRecv dropInner drain; constructor <;> grind [waiting]

theorem Few.run {s : CSt} (h : s.Few) (as : List CAct) (hu : Bounded as) (hs : .pollSpurious ∉ as) : (s.run as).Few := by
  induction as generalizing s with
  | nil => exact h
  | cons a as ih =>
    refine ih (h.step a (hu a (by simp)) (fun e => hs (by simp [e]))) (fun b hb => hu b (by simp [hb])) (fun e => hs (by simp [e]))

end CSt

end Hyper
