import Verif.Proof.BodyChan

/-!
# C88: the channel of a body loses nothing, holds one piece, and neither side sleeps through the other
-/

namespace Hyper

namespace BodyChan

set_option linter.unusedSimpArgs false

/-- At the channel of data. -/
def RPc.taking : RPc → Bool
  | .pop _ | .unpark _ | .notify _ _ | .dec _ | .load _ | .register => true
  | _ => false

/-- What has happened to the two sides. -/
structure Inv5 (w : Bool) (as : List Act) (s : St) : Prop where
  asked : s.want = .pending → w = true ∧ (s.rgen = 0 ∨ s.rpc = .wantSwap)
  left : s.rpc = .dropSwap ∨ s.rpc.leaving = true → .dropReader ∈ as
  dropped : s.tpc = .closing ∨ s.tpc.over = true → .dropSender ∈ as
  fin : s.terminated = true → s.rpc.taking = false

theorem Inv5.init (w : Bool) : Inv5 w [] (init w) := by
  constructor <;> simp [BodyChan.init, RPc.leaving, RPc.live, TPc.over]

theorem tx_over (s : St) : (s.txStep.tpc = .closing ∨ s.txStep.tpc.over = true) → s.tpc = .closing ∨ s.tpc.over = true := by
  cases hp : s.tpc <;> simp only [St.txStep, hp, St.tret, St.trEnd, St.rwake] <;> (repeat' split) <;> simp_all [TPc.over] <;> grind

theorem tx_reader (s : St) : s.txStep.want = s.want ∧ s.txStep.rgen = s.rgen ∧ s.txStep.rpc = s.rpc ∧ s.txStep.terminated = s.terminated := by
  cases hp : s.tpc <;> simp only [St.txStep, hp, St.tret, St.trEnd, St.rwake] <;> (repeat' split) <;> simp

theorem rx_sender (s : St) : s.rxStep.tpc = s.tpc ∧ s.rxStep.rgen = s.rgen ∧ s.rxStep.tlog = s.tlog ∧ s.rxStep.maybeParked = s.maybeParked := by
  cases hp : s.rpc <;> simp only [St.rxStep, hp, St.rret, St.notified, St.twake] <;> (repeat' split) <;> simp

theorem rx_left (s : St) : (s.rxStep.rpc = .dropSwap ∨ s.rxStep.rpc.leaving = true) → s.rpc = .dropSwap ∨ s.rpc.leaving = true := by
  cases hp : s.rpc <;> simp only [St.rxStep, hp, St.rret, St.notified, St.twake] <;> (repeat' split) <;> simp_all [RPc.leaving, RPc.live]

theorem rx_asked (s : St) : s.rxStep.want = .pending → s.want = .pending ∧ s.rpc ≠ .wantSwap ∧ s.rxStep.rpc ≠ .wantSwap := by
  cases hp : s.rpc <;> simp only [St.rxStep, hp, St.rret, St.notified, St.twake] <;> (repeat' split) <;> simp_all

theorem rx_fin (s : St) (h : s.terminated = true → s.rpc.taking = false) : s.rxStep.terminated = true → s.rxStep.rpc.taking = false := by
  cases hp : s.rpc <;> simp only [hp, RPc.taking] at h <;> simp only [St.rxStep, hp, St.rret, St.notified, St.twake] <;> (repeat' split) <;> simp_all [RPc.taking]

theorem Inv5.step {w : Bool} {as : List Act} {s : St} (h : Inv5 w as s) (a : Act) : Inv5 w (as ++ [a]) (s.step a) := by
  obtain ⟨h1, h2, h3, h4⟩ := h
  cases a with
  | tx =>
    obtain ⟨e1, e2, e3, e4⟩ := tx_reader s
    have := tx_over s
    constructor <;> simp only [St.step, e1, e2, e3, e4] <;> grind
  | rx =>
    obtain ⟨e1, e2, _⟩ := rx_sender s
    have := rx_left s
    have := rx_asked s
    have := rx_fin s h4
    constructor <;> simp only [St.step, e1, e2] <;> grind
  | _ =>
    simp only [St.step, St.tbegin, St.tret]
    (repeat' split) <;> constructor <;>
      first | grind | (simp only [TPc.over]; grind) | (simp only [RPc.leaving, RPc.live]; grind) | (simp only [RPc.taking]; grind)

/-- All of it. -/
structure Inv (w : Bool) (as : List Act) (s : St) : Prop where
  one : Inv1 s
  two : Inv2 s
  three : Inv3 s
  four : Inv4 s
  five : Inv5 w as s

theorem inv_run (w : Bool) (as : List Act) : Inv w as ((init w).run as) := by
  suffices ∀ (bs : List Act) (s : St), Inv w bs s → Inv w (bs ++ as) (s.run as) from
    this [] _ ⟨Inv1.init w, Inv2.init w, Inv3.init w, Inv4.init w, Inv5.init w⟩
  induction as with
  | nil => intro bs s h; simpa [St.run] using h
  | cons a as ih =>
    intro bs s h
    have := ih (bs ++ [a]) (s.step a) ⟨h.one.step a, h.two.step a, h.three.step h.one a, h.four.step h.one h.two h.three a, h.five.step a⟩
    simpa [St.run] using this

/-- Steps to the end of the call. -/
def TPc.rank : TPc → Nat
  | .idle | .gone => 0
  | .wantReg => 4 | .wantLoad => 3 | .readyLoad => 2 | .readyLock => 1
  | .trying _ => 8 | .inc _ => 7 | .parkSet _ => 6 | .parkPush _ => 5 | .parkLoad _ => 4 | .push _ => 3 | .wake _ => 1
  | .trCheck _ => 6 | .trStore _ => 5 | .trAgain _ => 4 | .complete _ => 3 | .trLock _ => 2 | .trWake _ _ => 1
  | .closing => 5 | .closeWake => 4

theorem tx_rank (s : St) : s.txStep.tpc.rank ≤ s.tpc.rank - 1 := by
  cases hp : s.tpc <;> simp only [St.txStep, hp, St.tret, St.trEnd, St.rwake] <;> (repeat' split) <;> simp_all [TPc.rank]

theorem tx_finishes (n : Nat) (s : St) : (s.run (List.replicate n .tx)).tpc.rank ≤ s.tpc.rank - n := by
  induction n generalizing s with
  | zero => simp [St.run]
  | succ n ih =>
    have h1 := ih s.txStep
    have h2 := tx_rank s
    have h3 : s.run (List.replicate (n + 1) .tx) = s.txStep.run (List.replicate n .tx) := by simp [St.run, List.replicate_succ, St.step]
    rw [h3]
    omega

/-- Steps to the end of `poll_frame`. -/
def RPc.rank : RPc → Nat
  | .idle => 0
  | .wantSwap => 14 | .wantWake => 13 | .pop false => 12 | .load false => 11 | .register => 10 | .pop true => 9
  | .load true => 8 | .unpark _ => 3 | .notify _ _ => 2 | .dec _ => 1
  | .trLoad => 5 | .trLock => 4 | .trUnlock => 3 | .trAgain => 2 | .trTake => 1
  | _ => 0

/-- In `poll_frame`, or between calls. -/
def RPc.polling : RPc → Bool
  | .dropSwap => false
  | r => !r.leaving

theorem rx_rank (s : St) (h : s.rpc.polling = true) : s.rxStep.rpc.polling = true ∧ s.rxStep.rpc.rank ≤ s.rpc.rank - 1 := by
  cases hp : s.rpc with
  | pop b => cases b <;> simp only [St.rxStep, hp] <;> split <;> simp [RPc.rank, RPc.polling, RPc.leaving, RPc.live]
  | load b =>
    cases b <;> simp only [St.rxStep, hp, St.rret] <;> (repeat' split) <;> simp_all [RPc.rank, RPc.polling, RPc.leaving, RPc.live]
  | _ =>
    simp only [St.rxStep, hp, St.rret, St.notified, St.twake] <;> (repeat' split) <;>
      simp_all [RPc.rank, RPc.polling, RPc.leaving, RPc.live]

theorem rx_finishes (n : Nat) (s : St) (h : s.rpc.polling = true) :
    (s.run (List.replicate n .rx)).rpc.polling = true ∧ (s.run (List.replicate n .rx)).rpc.rank ≤ s.rpc.rank - n := by
  induction n generalizing s with
  | zero => simp [St.run, h]
  | succ n ih =>
    have h2 := rx_rank s h
    have h1 := ih s.rxStep h2.1
    have h3 : s.run (List.replicate (n + 1) .rx) = s.rxStep.run (List.replicate n .rx) := by simp [St.run, List.replicate_succ, St.step]
    rw [h3]
    refine ⟨h1.1, ?_⟩
    omega

/-- Sending this message, or done with it. -/
def TPc.sending : TPc → Option Msg
  | .inc m | .parkSet m | .parkPush m | .parkLoad m | .push m | .wake m => some m
  | _ => none

theorem sending_tx (s : St) (m : Msg) (h : s.tpc.sending = some m) :
    (s.txStep.tpc.sending = some m ∧ s.txStep.tlog = s.tlog) ∨ (s.txStep.tpc = .idle ∧ (s.txStep.tlog = s.tlog ++ [.sent m] ∨ s.txStep.tlog = s.tlog ++ [.lost m])) := by
  cases hp : s.tpc <;> simp only [hp, TPc.sending, reduceCtorEq, Option.some.injEq] at h <;>
    simp only [St.txStep, hp, St.tret, St.rwake] <;> (repeat' split) <;> simp_all [TPc.sending]

/-- Not the beginning of another call of the `Sender`. -/
def Act.goesOn : Act → Bool
  | .tx | .poll | .dropReader | .rx => true
  | _ => false

theorem sending_run (m : Msg) (bs : List Act) (hb : ∀ a ∈ bs, a.goesOn = true) (s : St) (l : List TEv)
    (h : (s.tpc.sending = some m ∧ s.tlog = l) ∨ (s.tpc = .idle ∧ (s.tlog = l ++ [.sent m] ∨ s.tlog = l ++ [.lost m]))) :
    ((s.run bs).tpc.sending = some m ∧ (s.run bs).tlog = l) ∨
      ((s.run bs).tpc = .idle ∧ ((s.run bs).tlog = l ++ [.sent m] ∨ (s.run bs).tlog = l ++ [.lost m])) := by
  induction bs generalizing s with
  | nil => exact h
  | cons a bs ih =>
    refine ih (fun x hx => hb x (List.mem_cons_of_mem _ hx)) (s.step a) ?_
    have ha := hb a (List.mem_cons_self ..)
    cases a with
    | tx =>
      rcases h with h | h
      · have := sending_tx s m h.1
        simp only [St.step]
        grind
      · have e : s.txStep = s := by simp [St.txStep, h.1]
        simp only [St.step, e]
        exact .inr h
    | rx =>
      obtain ⟨e1, _, e2, _⟩ := rx_sender s
      simp only [St.step, e1, e2]
      exact h
    | poll => simp only [St.step]; split <;> exact h
    | dropReader => simp only [St.step]; split <;> exact h
    | _ => cases ha

end BodyChan

open BodyChan

/-- C88: at rest, what the connection's task was told it has sent is what the reader was given, followed by what waits in the channel: nothing is lost,
repeated or exchanged. -/
theorem C88_order (w : Bool) (as : List BodyChan.Act) :
    let s := (BodyChan.init w).run as
    s.rpc = .idle → (s.tpc = .idle ∨ s.tpc = .gone) → accepted s.tlog = delivered s.rlog ++ s.queue := by
  intro s hr ht
  have h := (inv_run w as).four
  have h1 := h.order
  have h2 := h.hand
  have h3 := h.sents
  have e : s.tpc.pushed = [] := by rcases ht with ht | ht <;> rw [ht] <;> rfl
  simp only [show ((BodyChan.init w).run as) = s from rfl] at h1 h2 h3
  rw [hr] at h2
  rw [e, List.append_nil] at h3
  rw [← h3, ← h1, h2 (.inl rfl)]
  simp [RPc.hand]

/-- C88, at any moment: the reader was given a beginning of what went into the channel; what the connection's task was told it has sent is all of that but
possibly the last. -/
theorem C88_prefix (w : Bool) (as : List BodyChan.Act) :
    let s := (BodyChan.init w).run as
    delivered s.rlog <+: s.pushed ∧ accepted s.tlog <+: s.pushed ∧ s.pushed.length ≤ (accepted s.tlog).length + 1 := by
  intro s
  have h := (inv_run w as).four
  refine ⟨h.pre.trans ⟨_, h.order⟩, ⟨_, h.sents.symm⟩, ?_⟩
  have h3 := h.sents
  simp only [show ((BodyChan.init w).run as) = s from rfl] at h3
  rw [h3, List.length_append]
  cases s.tpc <;> simp [TPc.pushed]

/-- C88: the channel holds at most one piece of data. -/
theorem C88_one_piece (w : Bool) (as : List BodyChan.Act) (hd : .dropReader ∉ as) :
    (pieces ((BodyChan.init w).run as).queue).length ≤ 1 := by
  have h := inv_run w as
  have hl : ((BodyChan.init w).run as).rpc.live = true := by
    cases hl : ((BodyChan.init w).run as).rpc.live with
    | true => rfl
    | false => exact absurd (h.five.left (.inr (by revert hl; cases ((BodyChan.init w).run as).rpc <;> simp [RPc.live, RPc.leaving]))) hd
  have h1 := h.one.park hl
  have h2 := h.one.flag hl
  have hb := Bool.toNat_le ((BodyChan.init w).run as).parked
  have hp : ∀ l : List BodyChan.Msg, (pieces l).length = (l.map BodyChan.Msg.main).count true := by
    intro l
    induction l with
    | nil => rfl
    | cons m l ih => cases m <;> simp_all [pieces, List.count_cons]
  rw [h1] at h2
  simp only [List.count_append] at h2
  rw [hp]
  omega

/-- C88: a call that follows the word that there is room is not told that there is none. -/
theorem C88_room (w : Bool) (as : List BodyChan.Act) (a b : List TEv) (h : ((BodyChan.init w).run as).tlog = a ++ .full :: b) : a.getLast? ≠ some .ready :=
  (inv_run w as).four.full a b h

/-- C88: so data sent after `poll_ready` was ready are sent, whatever the reader does meanwhile; or the reader is gone. -/
theorem C88_data_sent (w : Bool) (as bs : List BodyChan.Act) (hb : ∀ a ∈ bs, a.goesOn = true) (d : Bytes)
    (ht : ((BodyChan.init w).run as).tpc = .idle) (hl : ((BodyChan.init w).run as).tlog.getLast? = some .ready)
    (he : ((BodyChan.init w).run (as ++ .trySend d :: .tx :: bs)).tpc = .idle) :
    ((BodyChan.init w).run (as ++ .trySend d :: .tx :: bs)).tlog = ((BodyChan.init w).run as).tlog ++ [.sent (.data d)] ∨
    (((BodyChan.init w).run (as ++ .trySend d :: .tx :: bs)).tlog = ((BodyChan.init w).run as).tlog ++ [.lost (.data d)] ∧ .dropReader ∈ as ++ bs) := by
  have hm := (inv_run w as).four.room hl (.inl ht)
  have e1 : (BodyChan.init w).run (as ++ .trySend d :: .tx :: bs) = (((((BodyChan.init w).run as).step (.trySend d)).step .tx)).run bs := by
    simp [St.run, List.foldl_append]
  have := sending_run (.data d) bs hb ((((BodyChan.init w).run as).step (.trySend d)).step .tx) ((BodyChan.init w).run as).tlog
    (.inl (by simp [St.step, St.tbegin, ht, St.txStep, hm, TPc.sending]))
  rw [← e1] at this
  rcases this with ⟨h, _⟩ | ⟨_, h | h⟩
  · rw [he] at h; cases h
  · exact .inl h
  · refine .inr ⟨h, ?_⟩
    have hv := inv_run w (as ++ .trySend d :: .tx :: bs)
    have := hv.five.left (.inr (hv.four.gone (.inr (.inl ⟨.data d, by rw [h]; simp⟩))))
    simpa using this

/-- C88: an error is always sent, even if there is no room for data; or the reader is gone. -/
theorem C88_error_sent (w : Bool) (as bs : List BodyChan.Act) (hb : ∀ a ∈ bs, a.goesOn = true)
    (ht : ((BodyChan.init w).run as).tpc = .idle) (he : ((BodyChan.init w).run (as ++ .sendError :: bs)).tpc = .idle) :
    ((BodyChan.init w).run (as ++ .sendError :: bs)).tlog = ((BodyChan.init w).run as).tlog ++ [.sent .error] ∨
    (((BodyChan.init w).run (as ++ .sendError :: bs)).tlog = ((BodyChan.init w).run as).tlog ++ [.lost .error] ∧ .dropReader ∈ as ++ bs) := by
  have e1 : (BodyChan.init w).run (as ++ .sendError :: bs) = ((((BodyChan.init w).run as).step .sendError)).run bs := by
    simp [St.run, List.foldl_append]
  have := sending_run .error bs hb (((BodyChan.init w).run as).step .sendError) ((BodyChan.init w).run as).tlog
    (.inl (by simp [St.step, St.tbegin, ht, TPc.sending]))
  rw [← e1] at this
  rcases this with ⟨h, _⟩ | ⟨_, h | h⟩
  · rw [he] at h; cases h
  · exact .inl h
  · refine .inr ⟨h, ?_⟩
    have hv := inv_run w (as ++ .sendError :: bs)
    have := hv.five.left (.inr (hv.four.gone (.inr (.inl ⟨.error, by rw [h]; simp⟩))))
    simpa using this

/-- C88: the connection's task is told that the reader is gone only if it is. -/
theorem C88_gone_only_if (w : Bool) (as : List BodyChan.Act)
    (h : .closed ∈ ((BodyChan.init w).run as).tlog ∨ (∃ m, .lost m ∈ ((BodyChan.init w).run as).tlog) ∨ ∃ t, .trailers t false ∈ ((BodyChan.init w).run as).tlog) :
    .dropReader ∈ as := by
  have hv := inv_run w as
  refine hv.five.left (.inr (hv.four.gone ?_))
  rcases h with h | h | h
  · exact .inl h
  · exact .inr (.inl h)
  · exact .inr (.inr (.inl h))

/-- C88: a connection's task that waits for the reader is not forgotten: when both are between calls, its waker was woken, unless the reader has never
asked for data, or a piece of data is there for it to take. -/
theorem C88_sender_woken (w : Bool) (as : List BodyChan.Act) (g : Nat) :
    let s := (BodyChan.init w).run as
    s.tpc = .idle → s.tlog.getLast? = some (.wait g) →
    (s.rpc = .idle → g ∈ s.twoken ∨ s.rgen = 0 ∨ pieces s.queue ≠ []) ∧ (s.rpc = .gone → g ∈ s.twoken) := by
  intro s ht hl
  have h := inv_run w as
  obtain ⟨rfl, hw⟩ := h.two.wait g ht hl
  have hc := h.two.closed
  have ha := h.five.asked
  have hp := h.one.park
  have hf := h.one.flag
  simp only [show ((BodyChan.init w).run as) = s from rfl] at *
  refine ⟨fun hr => ?_, fun hr => ?_⟩
  · rcases hw with hw | ⟨_, hw | hw | hw | hw⟩
    · exact .inl hw
    · exact .inr (.inl (by have := (ha hw).2; rw [hr] at this; simpa using this))
    · rw [hr] at hw; cases hw
    · rw [hr] at hw; cases hw
    · refine .inr (.inr fun hq => ?_)
      have hpi : ∀ l : List BodyChan.Msg, pieces l = [] → (l.map BodyChan.Msg.main).count true = 0 := by
        intro l
        induction l with
        | nil => intro _; rfl
        | cons m l ih => cases m <;> simp_all [pieces, List.count_cons]
      have hz := hpi _ hq
      rw [hr, ht] at hp hf
      have hp := hp rfl
      have hf := hf rfl
      rw [hp, hw.2.2] at hf
      simp [RPc.held, TPc.held, TPc.flying, RPc.flying] at hf
      omega
  · rw [hr] at hc hw
    rcases hw with hw | ⟨_, hw | hw | hw | hw⟩
    · exact hw
    · rw [hc.2 rfl] at hw; cases hw
    · cases hw
    · cases hw
    · rw [hc.2 rfl] at hw; cases hw.1

/-- C88: a reader that waits is not forgotten: when the connection's task is between calls, the reader's waker was woken or there is nothing for it; when the
`Sender` is gone, it was woken. -/
theorem C88_reader_woken (w : Bool) (as : List BodyChan.Act) (g : Nat) :
    let s := (BodyChan.init w).run as
    s.rpc = .idle → s.rlog.getLast? = some (.wait g) →
    (s.tpc = .idle → g ∈ s.rwoken ∨ s.queue = []) ∧ (s.tpc = .gone → g ∈ s.rwoken) := by
  intro s hr hl
  have h := inv_run w as
  obtain ⟨rfl, hw⟩ := h.three.wait g hr hl
  have ho := h.one.over
  have ht := h.one.term
  have hd := h.three.said
  simp only [show ((BodyChan.init w).run as) = s from rfl] at *
  refine ⟨fun hp => ?_, fun hp => ?_⟩ <;> rw [hp] at hw ho ht hd <;> simp only [TPc.atWake, TPc.over, TPc.atLock, TPc.taken] at hw ho ht hd <;> grind

/-- C88: the reader is told that the body has ended only when the `Sender` was dropped, and it has been given everything that was sent: data, errors and
trailers.  The same holds once it was given trailers. -/
theorem C88_end (w : Bool) (as : List BodyChan.Act) :
    let s := (BodyChan.init w).run as
    (.ended ∈ s.rlog → .dropSender ∈ as ∧ delivered s.rlog = accepted s.tlog ∧ ∀ t, .trailers t true ∈ s.tlog → trailed s.rlog = [t]) ∧
    (trailed s.rlog ≠ [] → .dropSender ∈ as ∧ delivered s.rlog = accepted s.tlog) := by
  intro s
  have h := inv_run w as
  have key : s.terminated = true → .dropSender ∈ as ∧ delivered s.rlog = accepted s.tlog := by
    intro ht
    obtain ⟨_, h2, h3⟩ := h.one.term ht
    refine ⟨h.five.dropped (.inr h2), ?_⟩
    have h4 := h.four.hand (.inr ht)
    have h5 := h.four.order
    have h6 := h.four.sents
    have h7 := h.one.num
    simp only [show ((BodyChan.init w).run as) = s from rfl] at *
    have hp : s.tpc.pushed = [] := by revert h2; cases s.tpc <;> simp [TPc.over, TPc.pushed]
    have hh : s.rpc.hand = [] := by
      have hf : s.rpc.taking = false := h.five.fin ht
      revert hf
      cases s.rpc <;> simp [RPc.taking, RPc.hand]
    rw [h3, List.append_nil] at h5
    rw [hp, List.append_nil] at h6
    rw [hh, List.append_nil] at h4
    rw [← h4, h5, h6]
  refine ⟨fun he => ?_, fun he => key (h.four.trailers he)⟩
  obtain ⟨e1, e2, _⟩ := h.four.ended he
  obtain ⟨k1, k2⟩ := key e1
  refine ⟨k1, k2, fun t ht => ?_⟩
  have := h.four.given (.inr e1)
  rw [h.four.told t (.inl ht), e2] at this
  simpa using this

/-- C88: trailers are given at most once, and are those that were sent. -/
theorem C88_trailers (w : Bool) (as : List BodyChan.Act) (hd : .dropReader ∉ as) :
    let s := (BodyChan.init w).run as
    trailed s.rlog = [] ∨ ∃ t, trailed s.rlog = [t] ∧ s.given = some t := by
  intro s
  have h := inv_run w as
  have hg : s.rpc ≠ .gone := by
    intro hg
    exact hd (h.five.left (.inr (by rw [show ((BodyChan.init w).run as) = s from rfl, hg]; rfl)))
  have := h.four.given (.inl hg)
  simp only [show ((BodyChan.init w).run as) = s from rfl] at this
  cases hx : s.given with
  | none => rw [hx] at this; exact .inl (by simp at this; exact this.1)
  | some t =>
    rw [hx] at this
    cases ht : s.trailers with
    | none => rw [ht] at this; exact .inr ⟨t, by simpa using this, rfl⟩
    | some u =>
      rw [ht] at this
      refine .inl ?_
      have := congrArg List.length this
      simp at this
      exact this

/-- C88: left alone, each side finishes its call within a few steps of its own, whatever the other is in the middle of. -/
theorem C88_finishes (s : BodyChan.St) :
    ((s.run (List.replicate 8 .tx)).tpc = .idle ∨ (s.run (List.replicate 8 .tx)).tpc = .gone) ∧
    (s.rpc.polling = true → (s.run (List.replicate 14 .rx)).rpc = .idle) := by
  constructor
  · have h := tx_finishes 8 s
    have hr : s.tpc.rank ≤ 8 := by cases s.tpc <;> simp [TPc.rank]
    have : (s.run (List.replicate 8 .tx)).tpc.rank = 0 := by omega
    revert this
    cases (s.run (List.replicate 8 .tx)).tpc <;> simp [TPc.rank]
  · intro hp
    have h := rx_finishes 14 s hp
    have hr : s.rpc.rank ≤ 14 := by
      cases s.rpc with
      | pop b => cases b <;> simp [RPc.rank]
      | load b => cases b <;> simp [RPc.rank]
      | _ => simp [RPc.rank]
    have h0 : (s.run (List.replicate 14 .rx)).rpc.rank = 0 := by omega
    have h1 := h.1
    revert h0 h1
    cases (s.run (List.replicate 14 .rx)).rpc with
    | pop b => cases b <;> simp [RPc.rank]
    | load b => cases b <;> simp [RPc.rank]
    | _ => simp [RPc.rank, RPc.polling, RPc.leaving, RPc.live]

namespace BodyChan

/-- In the drop of the `Incoming`, or after it. -/
def RPc.dropping : RPc → Bool
  | .dropSwap => true
  | r => r.leaving

/-- What is left of the drop of the `Incoming`, but for the queues; `e`: there is no message. -/
def RPc.dropRank (e : Bool) : RPc → Nat
  | .dropSwap => 12 | .dropWake => 11 | .closing => 10 | .freeNotify _ => 9 | .freePark => 8
  | .drainUnpark => 6 | .drainNotify _ => 5 | .drainDec => 4 | .drain => 3 | .drainLoad => if e then 2 else 4 | .dropTrailers => 1
  | _ => 0

theorem drop_rank (s : St) (h : Inv1 s) (hd : s.rpc.dropping = true) (ht : s.tpc.counted = 0) (hg : s.rpc ≠ .gone) :
    s.rxStep.rpc.dropping = true ∧ s.rxStep.tpc = s.tpc ∧
    2 * s.rxStep.parkedQ.length + 5 * s.rxStep.queue.length + s.rxStep.rpc.dropRank s.rxStep.queue.isEmpty + 1 ≤
      2 * s.parkedQ.length + 5 * s.queue.length + s.rpc.dropRank s.queue.isEmpty := by
  have hn := h.num
  rw [ht] at hn
  cases hp : s.rpc <;> simp only [hp, RPc.dropping, RPc.leaving, RPc.live, Bool.false_eq_true, reduceCtorEq, ne_eq, not_true, not_false_eq_true, Bool.not_true] at hd hg <;>
    simp only [St.rxStep, hp, St.notified, St.twake] <;> (repeat' split) <;>
    simp_all [RPc.dropping, RPc.leaving, RPc.live, RPc.dropRank, RPc.counted] <;> (try split) <;> omega

theorem rx_gone (n : Nat) (s : St) (hg : s.rpc = .gone) : s.run (List.replicate n .rx) = s := by
  induction n with
  | zero => rfl
  | succ n ih =>
    have e : s.run (List.replicate (n + 1) .rx) = s.rxStep.run (List.replicate n .rx) := by simp [St.run, List.replicate_succ, St.step]
    rw [e, show s.rxStep = s by simp [St.rxStep, hg], ih]

theorem drop_ends (n : Nat) (s : St) (h : Inv1 s) (hd : s.rpc.dropping = true) (ht : s.tpc.counted = 0)
    (hn : 2 * s.parkedQ.length + 5 * s.queue.length + s.rpc.dropRank s.queue.isEmpty ≤ n) : (s.run (List.replicate n .rx)).rpc = .gone := by
  induction n generalizing s with
  | zero =>
    have hr : s.rpc.dropRank s.queue.isEmpty = 0 := by omega
    show s.rpc = .gone
    revert hr hd
    cases s.rpc <;> simp only [RPc.dropRank, RPc.dropping, RPc.leaving, RPc.live] <;> (repeat' split) <;> simp
  | succ n ih =>
    have e : s.run (List.replicate (n + 1) .rx) = s.rxStep.run (List.replicate n .rx) := by simp [St.run, List.replicate_succ, St.step]
    rw [e]
    by_cases hg : s.rpc = .gone
    · rw [show s.rxStep = s by simp [St.rxStep, hg], rx_gone n s hg, hg]
    · obtain ⟨h1, h2, h3⟩ := drop_rank s h hd ht hg
      exact ih s.rxStep h.rx h1 (by rw [h2]; exact ht) (by omega)

end BodyChan

/-- C88: and so does the drop of the `Incoming` once no call of the `Sender` is under way, in a number of steps that what is queued bounds. -/
theorem C88_drop_finishes (w : Bool) (as : List BodyChan.Act) :
    let s := (BodyChan.init w).run as
    s.rpc.dropping = true → (s.tpc = .idle ∨ s.tpc = .gone) →
    (s.run (List.replicate (2 * s.parkedQ.length + 5 * s.queue.length + 12) .rx)).rpc = .gone := by
  intro s hd ht
  refine drop_ends _ s (inv_run w as).one hd (by rcases ht with ht | ht <;> rw [ht] <;> rfl) ?_
  have : s.rpc.dropRank s.queue.isEmpty ≤ 12 := by cases s.rpc <;> simp only [RPc.dropRank] <;> (repeat' split) <;> omega
  omega

/-- A call and its steps. -/
def BodyChan.calls (n : Nat) (a : BodyChan.Act) : List BodyChan.Act := a :: List.replicate n .tx

/-- A poll and its steps. -/
def BodyChan.polls (n : Nat) : List BodyChan.Act := .poll :: List.replicate n .rx

/-- The reader asks; one piece is sent, the second does not find room; the reader takes the first, and the connection's task is woken. -/
example :
    let s := (BodyChan.init true).run (calls 4 .pollReady ++ polls 14 ++ calls 4 .pollReady ++ calls 8 (.trySend (ascii "ab")) ++ calls 4 .pollReady ++ polls 14)
    s.tlog = [.wait 1, .ready, .sent (.data (ascii "ab")), .wait 3] ∧ s.twoken = [1, 3] ∧
    s.rlog = [.wait 1, .frame (.data (ascii "ab"))] ∧ s.rwoken = [1] := by
  decide +kernel

/-- Data, an error although there is no room, trailers; all of it arrives, then the end. -/
example :
    let s := (BodyChan.init false).run (calls 4 .pollReady ++ calls 8 (.trySend (ascii "ab")) ++ calls 8 (.trySend (ascii "cd")) ++ calls 8 .sendError ++
      calls 8 (.trySendTrailers 7) ++ calls 8 .dropSender ++ polls 14 ++ polls 14 ++ polls 14 ++ polls 14)
    s.tlog = [.ready, .sent (.data (ascii "ab")), .full, .sent .error, .trailers 7 true] ∧ s.tpc = .gone ∧
    s.rlog = [.frame (.data (ascii "ab")), .frame .error, .trailers 7, .ended] := by
  decide +kernel

/-- The reader goes while a piece is being sent: after the word that there is room, and even after the piece was counted. -/
example :
    let s := (BodyChan.init false).run (calls 4 .pollReady ++ calls 3 (.trySend (ascii "ab")) ++ .dropReader :: List.replicate 6 .rx ++ List.replicate 5 .tx ++
      List.replicate 12 .rx ++ calls 4 .pollReady)
    s.tlog = [.ready, .sent (.data (ascii "ab")), .closed] ∧ s.rpc = .gone ∧ s.num = 0 := by
  decide +kernel

end Hyper
