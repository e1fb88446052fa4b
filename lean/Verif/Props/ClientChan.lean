import Verif.Proof.ClientChan

/-!
# C38, C39, C40: requests handed to a client connection

`answersTo i log` counts the answers the caller of request `i` got, `acceptances` the requests accepted, `demands` the times the
connection asked for one.  An execution is any interleaving of the atomic steps of both halves.
-/

namespace Hyper

/-- The request was handed to the sender. -/
def handedOver (s : CSt) (i : Nat) : Prop := i < s.next

/-- C38: nobody gets two answers, and a request nobody handed over gets none. -/
theorem C38_at_most_one (as : List CAct) (i : Nat) : answersTo i (CSt.run {} as).log ≤ 1 := by
  have := (CSt.Acc.init.run as).one i
  grind [CSt.handed]

/-- C38: as long as it is not answered, somebody holds its callback. -/
theorem C38_never_lost (as : List CAct) (i : Nat) (hi : handedOver (CSt.run {} as) i) :
    answersTo i (CSt.run {} as).log = 1 ∨
      (answersTo i (CSt.run {} as).log = 0 ∧ CSt.held (CSt.run {} as) i = 1) := by
  have := (CSt.Acc.init.run as).one i
  simp only [CSt.handed, handedOver] at this hi
  rw [if_pos hi] at this
  omega

/-- C38: once both halves are gone (and, for HTTP/2, the tasks waiting for responses), every request handed over got exactly one
answer. -/
theorem C38_exactly_one (as : List CAct) (ho : (CSt.run {} as).over = true) (i : Nat) (hi : handedOver (CSt.run {} as) i) :
    answersTo i (CSt.run {} as).log = 1 := by
  have h := CSt.Acc.init.run as
  have h1 := h.one i
  simp only [CSt.over, Bool.and_eq_true, beq_iff_eq, List.isEmpty_iff] at ho
  obtain ⟨⟨p, t⟩, k⟩ := ho
  simp only [handedOver] at hi
  simp only [CSt.held, h.rx p, h.both p t, (h.tx t).1, (h.tx t).2, k, holds_nil, Option.toList_none, CSt.handed, if_pos hi] at h1
  omega

/-- The numbers of requests are the ones in the log. -/
theorem submitted_iff (as : List CAct) (i : Nat) : CEv.submitted i ∈ (CSt.run {} as).log ↔ handedOver (CSt.run {} as) i := by
  suffices ∀ s : CSt, (∀ j, CEv.submitted j ∈ s.log ↔ j < s.next) →
      ∀ j, CEv.submitted j ∈ (s.run as).log ↔ j < (s.run as).next from this {} (by simp) i
  induction as with
  | nil => exact fun s h => h
  | cons a as ih =>
    refine fun s h => ih _ (fun j => ?_)
    have hd : ∀ (r : CReq) o, CEv.submitted j ≠ r.done o := fun r o => by simp [CReq.done]
    have hx : ∀ l : List CReq, CEv.submitted j ∉ l.map CReq.drop := fun l => by simp [CReq.drop, CReq.done]
    have hy : ∀ l : List CReq, CEv.submitted j ∉ l.map CReq.dropEnvelope := fun l => by simp [CReq.dropEnvelope, CReq.done]
    have hj := h j
    cases a with
    | submit b => simp only [CSt.step, CSt.submit]; grind
    | submitUnbounded b => simp only [CSt.step, CSt.submitUnbounded]; grind
    | permit r => simp only [CSt.step, CSt.permit]; grind
    | push r => simp only [CSt.step, CSt.push]; grind
    | dropTx => simp only [CSt.step, CSt.dropTx, CSt.drain]; grind
    | pollMsg c => simp only [CSt.step, CSt.pollMsg, CSt.setCallback, CReq.drop]; grind [CReq.drop]
    | pollTask c f => simp only [CSt.step, CSt.pollTask, CReq.drop]; grind
    | pollSpurious => simp only [CSt.step]; grind
    | trySpurious => simp only [CSt.step]; grind
    | finishTask r o => simp only [CSt.step, CSt.finishTask, CReq.drop]; grind
    | recvOk => simp only [CSt.step, CSt.recvOk]; grind
    | recvErr => simp only [CSt.step, CSt.recvErr]; grind
    | dropRx => simp only [CSt.step, CSt.dropRx]; grind
    | «continue» => simp only [CSt.step, CSt.asksFor, CSt.closeInner, CSt.tryRecv, CSt.dropInner, CSt.drain]; grind

/-- A request is sent and answered, another is queued when the connection ends, a third is refused after that. -/
def exChan : List CAct :=
  [.submit true, .permit ⟨0, true⟩, .push ⟨0, true⟩, .pollMsg false, .pollMsg false, .continue, .recvOk,
   .submit true, .permit ⟨1, true⟩, .push ⟨1, true⟩, .dropRx, .continue, .submit true, .dropTx]

example : (CSt.run {} exChan).over = true := by decide +kernel
example : (CSt.run {} exChan).log =
    [.submitted 0, .accepted 0, .encoded 0, .asked, .outcome 0 .response, .submitted 1, .accepted 1,
     .outcome 1 (.error true), .submitted 2, .outcome 2 (.error true)] := by decide +kernel
example : handedOver (CSt.run {} exChan) 2 := by unfold handedOver; decide +kernel

/-- C39: what is given back was not put on the wire, and never will be. -/
theorem C39_back_not_sent (as : List CAct) (i : Nat) (h : CEv.outcome i (.error true) ∈ (CSt.run {} as).log) :
    CEv.encoded i ∉ (CSt.run {} as).log := (CSt.Unsent.init.run CSt.Acc.init as).back i h

/-- C39: only a caller that asked for it gets its request back. -/
theorem C39_back_wanted (as : List CAct) (h : ∀ a ∈ as, a ≠ .submit true ∧ a ≠ .submitUnbounded true) (i : Nat) :
    CEv.outcome i (.error true) ∉ (CSt.run {} as).log := by
  suffices ∀ s : CSt, (∀ r ∈ s.granted ++ s.sending ++ s.queue, r.retry = false) → CEv.outcome i (.error true) ∉ s.log →
      CEv.outcome i (.error true) ∉ (s.run as).log from this {} (by simp) (by simp)
  induction as with
  | nil => exact fun s _ h => h
  | cons a as ih =>
    intro s hr hl
    have hd : ∀ (r : CReq) o, r.retry = false → CEv.outcome i (.error true) ≠ r.done o := fun r o h => by
      rcases o with _ | _ <;> simp [CReq.done, h]
    have hd' : ∀ (r : CReq) o, o ≠ .error true → CEv.outcome i (.error true) ≠ r.done o := fun r o h => CSt.done_kept h
    have hx : ∀ l : List CReq, CEv.outcome i (.error true) ∉ l.map CReq.drop := fun l => by simp [CReq.drop, CReq.done]
    have hy : CEv.outcome i (.error true) ∉ s.queue.map CReq.dropEnvelope := fun h => by
      obtain ⟨r, hm, e⟩ := List.mem_map.1 h
      exact hd r _ (hr r (by simp [hm])) e.symm
    have he : ∀ {r r' : CReq} {l : List CReq}, r ∈ l.erase r' → r ∈ l := fun h => List.mem_of_mem_erase h
    refine ih (fun b hb => h b (by simp [hb])) _ ?_ ?_ <;> cases a with
    | submit b =>
      have : b = false := by have := (h (.submit b) (by simp)).1; grind
      simp only [CSt.step, CSt.submit]; grind
    | submitUnbounded b =>
      have : b = false := by have := (h (.submitUnbounded b) (by simp)).2; grind
      simp only [CSt.step, CSt.submitUnbounded]; grind
    | permit r => simp only [CSt.step, CSt.permit]; grind
    | push r => simp only [CSt.step, CSt.push]; grind
    | dropTx => simp only [CSt.step, CSt.dropTx, CSt.drain]; grind
    | pollMsg c => simp only [CSt.step, CSt.pollMsg, CSt.setCallback, CReq.drop]; grind [CReq.drop]
    | pollTask c f => simp only [CSt.step, CSt.pollTask, CReq.drop]; grind
    | pollSpurious => simp only [CSt.step]; grind
    | trySpurious => simp only [CSt.step]; grind
    | finishTask r o => simp only [CSt.step, CSt.finishTask, CReq.drop]; grind
    | recvOk => simp only [CSt.step, CSt.recvOk]; grind
    | recvErr => simp only [CSt.step, CSt.recvErr]; grind
    | dropRx => simp only [CSt.step, CSt.dropRx]; grind
    | «continue» => simp only [CSt.step, CSt.asksFor, CSt.closeInner, CSt.tryRecv, CSt.dropInner, CSt.drain]; grind

example : CEv.outcome 1 (.error true) ∈ (CSt.run {} exChan).log := by decide +kernel

/-- C40: of a bounded sender the connection never gets more requests than it asked for, plus one. -/
theorem C40_accepted (as : List CAct) (hb : CSt.Bounded as) :
    acceptances (CSt.run {} as).log ≤ demands (CSt.run {} as).log + 1 := by
  have h : CSt.Paid (CSt.run {} as) := CSt.Paid.run (by simp [CSt.Paid, CSt.spare, acceptances, demands]) as hb
  unfold CSt.Paid at h
  grind

/-- C40: at most three requests wait, unless the connection's task ran out of budget. -/
theorem C40_waiting (as : List CAct) (hb : CSt.Bounded as) (hs : .pollSpurious ∉ as) : (CSt.run {} as).waiting ≤ 3 := by
  have := (CSt.Few.init.run as hb hs).few
  omega

/-- Three is reached: the connection asks again between two steps of a send. -/
def exThree : List CAct :=
  [.submit true, .pollMsg false, .continue, .pollMsg false, .permit ⟨0, true⟩, .push ⟨0, true⟩, .submit true, .permit ⟨1, true⟩,
   .push ⟨1, true⟩, .continue, .submit true, .permit ⟨2, true⟩, .push ⟨2, true⟩]

example : (CSt.run {} exThree).waiting = 3 ∧ (CSt.run {} exThree).queue.length = 3 := by decide +kernel
example : CSt.Bounded exThree := by unfold CSt.Bounded exThree; simp

end Hyper
