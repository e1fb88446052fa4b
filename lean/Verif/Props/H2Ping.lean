import Verif.Model.H2Ping

/-!
# C47: the adaptive HTTP/2 window is bounded and does not decrease
# C48: HTTP/2 keep-alive closes only unresponsive connections
-/

namespace Hyper

namespace Ping

/-! ## C47 -/

/-- A sequence of samples: the bytes of each and the outcome of the comparison of bandwidths.  The result are the windows suggested. -/
def Bdp.windows (b : Bdp) : List (Nat × Bool) → List Nat
  | [] => []
  | (n, slower) :: rest => (b.calculate n slower).2.toList ++ (b.calculate n slower).1.windows rest

/-- 16 MiB. -/
def sixteenMiB : Nat := 16777216

theorem Bdp.calculate_spec {b : Bdp} (h2 : 2 ≤ b.bdp) (hm : b.bdp ≤ sixteenMiB) (n : Nat) (slower : Bool) :
    b.bdp ≤ (b.calculate n slower).1.bdp ∧ (b.calculate n slower).1.bdp ≤ sixteenMiB ∧
    ∀ w ∈ (b.calculate n slower).2, w = (b.calculate n slower).1.bdp := by
  have hs : b.stabilize.bdp = b.bdp := by unfold Bdp.stabilize; (repeat' split) <;> rfl
  unfold Bdp.calculate
  have hl : BDP_LIMIT = 16777216 := rfl
  unfold sixteenMiB at *
  split
  · exact ⟨by rw [hs]; omega, by rw [hs]; omega, by simp⟩
  · split
    · exact ⟨by rw [hs]; omega, by rw [hs]; omega, by simp⟩
    · split
      · refine ⟨?_, ?_, by simp⟩
        · show b.bdp ≤ min (n * 2) BDP_LIMIT
          omega
        · show min (n * 2) BDP_LIMIT ≤ _
          omega
      · exact ⟨by rw [hs]; omega, by rw [hs]; omega, by simp⟩

end Ping

open Ping in
/-- C47: whatever the samples, the windows suggested after an initial window `w` form a non-decreasing sequence that starts at or above `w`
and stays at or below 16 MiB. -/
theorem C47_window (w : Nat) (h2 : 2 ≤ w) (hm : w ≤ sixteenMiB) (delay count : Nat) (samples : List (Nat × Bool)) :
    let ws := Bdp.windows { bdp := w, pingDelay := delay, stableCount := count } samples
    (w :: ws).Pairwise (· ≤ ·) ∧ ∀ v ∈ ws, v ≤ sixteenMiB := by
  suffices H : ∀ b : Bdp, 2 ≤ b.bdp → b.bdp ≤ sixteenMiB → (b.bdp :: b.windows samples).Pairwise (· ≤ ·) ∧ ∀ v ∈ b.windows samples, v ≤ sixteenMiB by
    exact H { bdp := w, pingDelay := delay, stableCount := count } h2 hm
  clear h2 hm
  induction samples with
  | nil => intro b _ _; simp [Bdp.windows]
  | cons x rest ih =>
    intro b h2 hm
    obtain ⟨n, slower⟩ := x
    obtain ⟨c1, c2, c3⟩ := Bdp.calculate_spec h2 hm n slower
    obtain ⟨i1, i2⟩ := ih (b.calculate n slower).1 (by omega) c2
    simp only [Bdp.windows]
    cases hu : (b.calculate n slower).2 with
    | none =>
      simp only [Option.toList_none, List.nil_append]
      refine ⟨List.pairwise_cons.2 ⟨?_, (List.pairwise_cons.1 i1).2⟩, i2⟩
      intro v hv
      exact Nat.le_trans c1 ((List.pairwise_cons.1 i1).1 v hv)
    | some u =>
      have e : u = (b.calculate n slower).1.bdp := c3 u (by rw [hu]; rfl)
      simp only [Option.toList_some, List.singleton_append]
      rw [e]
      refine ⟨List.pairwise_cons.2 ⟨?_, i1⟩, ?_⟩
      · intro v hv
        rcases List.mem_cons.1 hv with hv | hv
        · rw [hv]; exact c1
        · exact Nat.le_trans c1 ((List.pairwise_cons.1 i1).1 v hv)
      · intro v hv
        rcases List.mem_cons.1 hv with hv | hv
        · rw [hv]; exact c2
        · exact i2 v hv

open Ping in
/-- C47: the delay between pings never exceeds forty seconds. -/
theorem C47_delay (b : Bdp) (h : b.pingDelay ≤ 40000000000) (n : Nat) (slower : Bool) : (b.calculate n slower).1.pingDelay ≤ 40000000000 := by
  have hs : b.stabilize.pingDelay ≤ 40000000000 := by unfold Bdp.stabilize; (repeat' split) <;> first | omega | (simp only; omega)
  unfold Bdp.calculate
  (repeat' split) <;> first | exact hs | (simp only; omega)

/-- C47, the bounds on the initial window are needed: a window of one byte shrinks to none, one above the limit shrinks to the limit. -/
theorem C47_small_window_shrinks : (Ping.Bdp.calculate { bdp := 1 } 0 false).2 = some 0 := by decide +kernel

theorem C47_large_window_shrinks : (Ping.Bdp.calculate { bdp := 33554432 } 30000000 false).2 = some 16777216 := by decide +kernel

/-- C47, not vacuous. -/
example : Ping.Bdp.windows { bdp := 65535 } [(50000, false), (70000, false), (10, true), (9000000, false), (1, false)] = [100000, 140000, 16777216] := by
  decide +kernel

/-! ## C48 -/

namespace Ping

/-! ### Specification -/

/-- The time at which something was heard from the peer. -/
def Ev.heard : Ev → Option Nat
  | .frame t => some t
  | .pong t => some t
  | _ => none

/-- The history contains a ping sent at `t` to which no pong came. -/
def Outstanding (log : List Ev) (t : Nat) : Prop :=
  ∃ p q, log = p ++ Ev.ping t :: q ∧ (∀ u, Ev.pong u ∉ q) ∧ ∀ u, Ev.ping u ∉ q

/-- Nothing was heard in the `interval` before `t`. -/
def Quiet (interval t : Nat) (log : List Ev) : Prop := ∀ e ∈ log, ∀ u, e.heard = some u → u + interval ≤ t

/-- The history `pre` justifies a timeout at `t`: a ping has been unanswered for at least `timeout`, and at some moment at least `timeout` ago
nothing had been heard for `interval`.  With `own`, the unanswered ping is the one that was sent at that moment. -/
def Unresponsive (interval timeout : Nat) (own : Prop) (pre : List Ev) (t : Nat) : Prop :=
  ∃ a b c s, pre = a ++ Ev.due c :: b ∧ Quiet interval c a ∧ c + timeout ≤ t ∧ Outstanding pre s ∧ s + timeout ≤ t ∧
    (own → ∃ b', b = Ev.ping s :: b')

/-! ### Proof -/

theorem Outstanding.snoc {log : List Ev} {t : Nat} (h : Outstanding log t) {e : Ev} (h1 : ∀ u, e ≠ .pong u) (h2 : ∀ u, e ≠ .ping u) :
    Outstanding (log ++ [e]) t := by
  obtain ⟨p, q, rfl, hq, hq'⟩ := h
  refine ⟨p, q ++ [e], by simp, ?_, ?_⟩
  · intro u hu
    rcases List.mem_append.1 hu with hu | hu
    · exact hq u hu
    · exact h1 u (List.mem_singleton.1 hu).symm
  · intro u hu
    rcases List.mem_append.1 hu with hu | hu
    · exact hq' u hu
    · exact h2 u (List.mem_singleton.1 hu).symm

theorem Outstanding.new (log : List Ev) (t : Nat) : Outstanding (log ++ [.ping t]) t :=
  ⟨log, [], rfl, by simp, by simp⟩

/-- Splitting a list that was appended to. -/
theorem split_snoc {α : Type} {l pre post : List α} {e x : α} (h : l ++ [e] = pre ++ x :: post) :
    (post = [] ∧ l = pre ∧ e = x) ∨ ∃ post', post = post' ++ [e] ∧ l = pre ++ x :: post' := by
  cases post with
  | nil =>
    have := List.append_inj' h rfl
    exact .inl ⟨rfl, this.1, (List.cons.inj this.2).1⟩
  | cons y ys =>
    have hn : y :: ys ≠ [] := by simp
    have e1 := List.dropLast_concat_getLast hn
    rw [← e1, ← List.cons_append, ← List.append_assoc] at h
    have := List.append_inj' h rfl
    refine .inr ⟨(y :: ys).dropLast, ?_, this.1⟩
    rw [(List.cons.inj this.2).1, e1]

/-- Every timeout in the history was justified. -/
def Past (i w : Nat) (own : Prop) (log : List Ev) : Prop :=
  ∀ pre t post, log = pre ++ Ev.timedOut t :: post → Unresponsive i w own pre t

theorem Past.snoc {i w : Nat} {own : Prop} {log : List Ev} (h : Past i w own log) {e : Ev} (he : ∀ t, e = .timedOut t → Unresponsive i w own log t) :
    Past i w own (log ++ [e]) := by
  intro pre t post hs
  rcases split_snoc hs with ⟨_, rfl, rfl⟩ | ⟨post', _, hl⟩
  · exact he t rfl
  · exact h pre t post' hl

/-- What the state `pingSent` means. -/
def Sent (i w : Nat) (s : St) (deadline : Nat) : Prop :=
  ∃ t a b c, s.pingSentAt = some t ∧ s.log = a ++ Ev.due c :: b ∧ Quiet i c a ∧ t + w ≤ deadline ∧ c + w ≤ deadline ∧
    (s.bdp = none → ∃ b', b = Ev.ping t :: b')

/-- All but what concerns the keep-alive state. -/
structure Base (i w : Nat) (own : Prop) (s : St) : Prop where
  cfg : ∀ ka, s.ka = some ka → ka.interval = i ∧ ka.timeout = w ∧ s.lastReadAt ≠ none
  read : ∀ r, s.lastReadAt = some r → ∀ e ∈ s.log, ∀ u, e.heard = some u → u ≤ r
  early : ∀ t, s.pingSentAt = some t → t ≤ s.clock
  out : ∀ t, s.pingSentAt = some t → Outstanding s.log t
  dead : s.dead = true → s.pingSentAt = none
  nobytes : s.bdp = none → s.bytes = none
  past : Past i w own s.log
  times : ∀ e ∈ s.log, ∀ u, e.heard = some u → u ≤ s.clock
  plainOwn : own → s.bdp = none

structure Inv (i w : Nat) (own : Prop) (s : St) : Prop extends Base i w own s where
  sched : ∀ ka at_, s.ka = some ka → ka.state = .scheduled at_ → ka.deadline = at_
  plain : s.bdp = none → ∀ ka, s.ka = some ka → ka.state ≠ .pingSent → s.pingSentAt = none
  sent : ∀ ka, s.ka = some ka → ka.state = .pingSent → (s.pingSentAt = none ∧ s.dead = true) ∨ Sent i w s ka.deadline

theorem Base.tick {i w : Nat} {own : Prop} {s : St} (h : Base i w own s) (d : Nat) : Base i w own (s.tick d) :=
  ⟨h.cfg, h.read, fun t ht => Nat.le_trans (h.early t ht) (Nat.le_add_right _ _), h.out, h.dead, h.nobytes, h.past,
    fun e he u hu => Nat.le_trans (h.times e he u hu) (Nat.le_add_right _ _), h.plainOwn⟩

theorem Inv.tick {i w : Nat} {own : Prop} {s : St} (h : Inv i w own s) (d : Nat) : Inv i w own (s.tick d) :=
  ⟨h.toBase.tick d, h.sched, h.plain, h.sent⟩

theorem Sent.snoc {i w : Nat} {s : St} {dl : Nat} (h : Sent i w s dl) {s' : St} {e : Ev} (hl : s'.log = s.log ++ [e]) (hp : s'.pingSentAt = s.pingSentAt)
    (hb : s'.bdp = none → s.bdp = none) : Sent i w s' dl := by
  obtain ⟨t, a, b, c, h1, h2, h3, h4, h5, h6⟩ := h
  refine ⟨t, a, b ++ [e], c, hp.trans h1, by rw [hl, h2]; simp, h3, h4, h5, fun hn => ?_⟩
  obtain ⟨b', hb'⟩ := h6 (hb hn)
  exact ⟨b' ++ [e], by rw [hb']; rfl⟩

theorem mem_snoc {e x : Ev} {l : List Ev} (h : e ∈ l ++ [x]) : e ∈ l ∨ e = x := by
  rcases List.mem_append.1 h with h | h
  · exact .inl h
  · exact .inr (List.mem_singleton.1 h)

/-- An event that says nothing about the peer, a ping or a timeout. -/
theorem Base.note {i w : Nat} {own : Prop} {s : St} (h : Base i w own s) {e : Ev} (h1 : e.heard = none) (h2 : ∀ u, e ≠ .ping u) (h3 : ∀ u, e ≠ .timedOut u) :
    Base i w own { s with log := s.log ++ [e] } := by
  have h4 : ∀ u, e ≠ .pong u := by intro u hu; rw [hu] at h1; cases h1
  refine ⟨h.cfg, ?_, h.early, fun t ht => (h.out t ht).snoc h4 h2, h.dead, h.nobytes, h.past.snoc (fun t ht => absurd ht (h3 t)), ?_, h.plainOwn⟩
  · intro r hr x hx u hu
    rcases mem_snoc hx with hx | rfl
    · exact h.read r hr x hx u hu
    · rw [h1] at hu; cases hu
  · intro x hx u hu
    rcases mem_snoc hx with hx | rfl
    · exact h.times x hx u hu
    · rw [h1] at hu; cases hu

/-- Something is heard now. -/
theorem Base.hear {i w : Nat} {own : Prop} {s : St} (h : Base i w own s) {e : Ev} (h1 : e.heard = some s.clock) (hn : s.pingSentAt ≠ none → ∀ u, e ≠ .pong u) :
    Base i w own { s.updateLastRead with log := s.log ++ [e] } := by
  have h2 : ∀ u, e ≠ .ping u := by intro u hu; rw [hu] at h1; cases h1
  have h3 : ∀ u, e ≠ .timedOut u := by intro u hu; rw [hu] at h1; cases h1
  have ht : ∀ x ∈ s.log ++ [e], ∀ u, x.heard = some u → u ≤ s.clock := by
    intro x hx u hu
    rcases mem_snoc hx with hx | rfl
    · exact h.times x hx u hu
    · rw [h1] at hu; cases hu; exact Nat.le_refl _
  have k : s.updateLastRead.lastReadAt = s.lastReadAt.map (fun _ => s.clock) ∧ s.updateLastRead = { s with lastReadAt := s.updateLastRead.lastReadAt } := by
    unfold St.updateLastRead
    cases hl : s.lastReadAt
    · exact ⟨hl, rfl⟩
    · exact ⟨rfl, rfl⟩
  rw [k.2]
  have k1 := k.1
  generalize s.updateLastRead.lastReadAt = lr at k1
  refine ⟨?_, ?_, h.early, ?_, h.dead, h.nobytes, h.past.snoc (fun t ht => absurd ht (h3 t)), ht, h.plainOwn⟩
  · intro ka hka
    obtain ⟨c1, c2, c3⟩ := h.cfg ka hka
    refine ⟨c1, c2, ?_⟩
    show lr ≠ none
    rw [k1]
    intro hx
    exact c3 (Option.map_eq_none_iff.1 hx)
  · intro r hr
    have hr : lr = some r := hr
    rw [k1] at hr
    obtain ⟨_, _, rfl⟩ := Option.map_eq_some_iff.1 hr
    exact ht
  · intro t ht
    exact (h.out t ht).snoc (hn (by rw [show s.pingSentAt = some t from ht]; simp)) h2

/-- A frame arrives. -/
theorem Inv.recordFrame {i w : Nat} {own : Prop} {s : St} (h : Inv i w own s) (d : Nat) : Inv i w own (s.recordFrame d) := by
  have h := h.tick d
  unfold St.recordFrame
  simp only
  have b : Base i w own { (s.tick d).updateLastRead with log := (s.tick d).log ++ [Ev.frame (s.tick d).clock] } :=
    h.toBase.hear rfl (by simp)
  have k : ∀ t : St, t.updateLastRead = { t with lastReadAt := t.updateLastRead.lastReadAt } := by
    intro t
    unfold St.updateLastRead
    split <;> rfl
  rw [k] at b ⊢
  refine ⟨b, h.sched, h.plain, ?_⟩
  intro ka hka hs
  rcases h.sent ka hka hs with h' | h'
  · exact .inl h'
  · exact .inr (h'.snoc rfl rfl id)

/-- Sending a ping. -/
theorem Base.sendPing {i w : Nat} {own : Prop} {s : St} (h : Base i w own s) (ok : Bool) : Base i w own (s.sendPing ok) := by
  unfold St.sendPing
  split
  · exact h
  · rename_i hp
    split
    · rename_i hd
      refine ⟨h.cfg, ?_, ?_, ?_, ?_, h.nobytes, h.past.snoc (by simp), ?_, h.plainOwn⟩
      · intro r hr e he u hu
        rcases mem_snoc he with he | rfl
        · exact h.read r hr e he u hu
        · cases hu
      · intro t ht; cases ht; exact Nat.le_refl _
      · intro t ht; cases ht; exact Outstanding.new _ _
      · intro hx; rw [show _ = s.dead from rfl, hd.2] at hx; cases hx
      · intro e he u hu
        rcases mem_snoc he with he | rfl
        · exact h.times e he u hu
        · cases hu
    · exact ⟨h.cfg, h.read, h.early, h.out, fun _ => hp, h.nobytes, h.past, h.times, h.plainOwn⟩

/-- Sending a ping when there are BDP pings. -/
theorem Inv.sendPing {i w : Nat} {own : Prop} {s : St} (h : Inv i w own s) (ok : Bool) (hb : s.bdp ≠ none) : Inv i w own (s.sendPing ok) := by
  have b := h.toBase.sendPing ok
  revert b
  unfold St.sendPing
  split
  · exact fun _ => h
  · rename_i hp
    split
    · rename_i hd
      refine fun b => ⟨b, h.sched, fun hn => absurd hn hb, ?_⟩
      intro ka hka hs
      rcases h.sent ka hka hs with ⟨_, h'⟩ | ⟨t, _, _, _, h', _⟩
      · rw [hd.2] at h'; cases h'
      · rw [hp] at h'; cases h'
    · refine fun b => ⟨b, h.sched, h.plain, ?_⟩
      intro ka hka hs
      rcases h.sent ka hka hs with ⟨h', _⟩ | ⟨t, _, _, _, h', _⟩
      · exact .inl ⟨h', rfl⟩
      · rw [hp] at h'; cases h'

theorem Inv.recordBytes {i w : Nat} {own : Prop} {s : St} (h : Inv i w own s) (len d d' : Nat) (ok : Bool) : Inv i w own (s.recordBytes len d d' ok) := by
  have h := h.tick d
  unfold St.recordBytes
  simp only
  split
  · exact h
  · split
    · exact ⟨⟨h.cfg, h.read, h.early, h.out, h.dead, h.nobytes, h.past, h.times, h.plainOwn⟩, h.sched, h.plain, h.sent⟩
    · rename_i n hn
      have hb : s.bdp ≠ none := by
        intro hx
        have := h.nobytes hx
        rw [hn] at this
        cases this
      have g : Inv i w own { s.tick d with nextBdpAt := none, bytes := some (n + len) } :=
        ⟨⟨h.cfg, h.read, h.early, h.out, h.dead, fun hx => absurd hx hb, h.past, h.times, h.plainOwn⟩, h.sched, h.plain, h.sent⟩
      split
      · exact (g.tick d').sendPing ok hb
      · exact g

/-- `maybe_schedule` leaves `pingSent` if there is no ping. -/
theorem maybeSchedule_spec (s : St) (ka : Ka) (idle : Bool) :
    (s.maybeSchedule ka idle).interval = ka.interval ∧ (s.maybeSchedule ka idle).timeout = ka.timeout ∧
    ((s.maybeSchedule ka idle = ka ∧ (ka.state = .pingSent → s.pingSentAt ≠ none)) ∨
      (∃ at_, (s.maybeSchedule ka idle).state = .scheduled at_ ∧ (s.maybeSchedule ka idle).deadline = at_ ∧ (ka.state = .pingSent → s.pingSentAt = none))) := by
  unfold St.maybeSchedule
  split
  · rename_i hs
    split
    · exact ⟨rfl, rfl, .inl ⟨rfl, by simp [hs]⟩⟩
    · exact ⟨rfl, rfl, .inr ⟨_, rfl, rfl, by simp [hs]⟩⟩
  · split
    · rename_i h; exact ⟨rfl, rfl, .inl ⟨rfl, fun _ => h⟩⟩
    · rename_i h; exact ⟨rfl, rfl, .inr ⟨_, rfl, rfl, fun _ => Classical.byContradiction h⟩⟩
  · rename_i hs
    exact ⟨rfl, rfl, .inl ⟨rfl, by simp [hs]⟩⟩

/-- Putting back the keep-alive record. -/
theorem Base.put {i w : Nat} {own : Prop} {s : St} (h : Base i w own s) {ka : Ka} (h1 : ka.interval = i) (h2 : ka.timeout = w) (h3 : s.lastReadAt ≠ none) :
    Base i w own { s with ka := some ka } := by
  refine ⟨?_, h.read, h.early, h.out, h.dead, h.nobytes, h.past, h.times, h.plainOwn⟩
  intro k hk
  cases hk
  exact ⟨h1, h2, h3⟩

theorem Inv.put {i w : Nat} {own : Prop} {s : St} (h : Base i w own s) {ka : Ka} (h1 : ka.interval = i) (h2 : ka.timeout = w) (h3 : s.lastReadAt ≠ none)
    (h4 : ∀ at_, ka.state = .scheduled at_ → ka.deadline = at_) (h5 : s.bdp = none → ka.state ≠ .pingSent → s.pingSentAt = none)
    (h6 : ka.state = .pingSent → (s.pingSentAt = none ∧ s.dead = true) ∨ Sent i w s ka.deadline) : Inv i w own { s with ka := some ka } := by
  refine ⟨h.put h1 h2 h3, ?_, ?_, ?_⟩
  · intro k at_ hk hs; cases hk; exact h4 at_ hs
  · intro hb k hk hs; cases hk; exact h5 hb hs
  · intro k hk hs; cases hk; exact h6 hs

/-- The keep-alive ping. -/
theorem Inv.due {i w : Nat} {own : Prop} {s : St} (h : Base i w own s) {ka : Ka} (h1 : ka.interval = i) (h2 : ka.timeout = w) (h3 : s.lastReadAt ≠ none)
    (hq : Quiet i s.clock s.log) (hp : s.bdp = none → s.pingSentAt = none) (d d' : Nat) (ok : Bool) :
    Inv i w own ((({ s with log := s.log ++ [Ev.due s.clock] }.tick d).sendPing ok).arm ka d') := by
  have b : Base i w own (({ s with log := s.log ++ [Ev.due s.clock] }.tick d).sendPing ok) :=
    ((h.note rfl (by simp) (by simp)).tick d).sendPing ok
  have k : ∀ t : St, (t.sendPing ok).lastReadAt = t.lastReadAt := by
    intro t; unfold St.sendPing; (repeat' split) <;> rfl
  unfold St.arm
  simp only
  refine Inv.put (b.tick d') h1 h2 ?_ (by simp) (fun _ hx => absurd rfl hx) ?_
  · exact (k _).symm ▸ h3
  · intro _
    by_cases hn : s.pingSentAt = none
    · by_cases hd : ok = true ∧ s.dead = false
      · have e : ({ s with log := s.log ++ [Ev.due s.clock] }.tick d).sendPing ok =
            { s with clock := s.clock + d, pingSentAt := some (s.clock + d), log := s.log ++ [Ev.due s.clock] ++ [Ev.ping (s.clock + d)] } := by
          simp [St.sendPing, St.tick, hn, hd]
        rw [e]
        refine .inr ⟨s.clock + d, s.log, [Ev.ping (s.clock + d)], s.clock, rfl, List.append_assoc _ _ _, hq, ?_, ?_, fun _ => ⟨[], rfl⟩⟩
        · show s.clock + d + w ≤ s.clock + d + d' + ka.timeout; omega
        · show s.clock + w ≤ s.clock + d + d' + ka.timeout; omega
      · have e : ({ s with log := s.log ++ [Ev.due s.clock] }.tick d).sendPing ok =
            { s with clock := s.clock + d, dead := true, log := s.log ++ [Ev.due s.clock] } := by
          simp only [St.sendPing, St.tick, hn]
          rw [if_neg hd]
        rw [e]
        exact .inl ⟨hn, rfl⟩
    · obtain ⟨t, ht⟩ := Option.ne_none_iff_exists'.1 hn
      have e : ({ s with log := s.log ++ [Ev.due s.clock] }.tick d).sendPing ok = { s with log := s.log ++ [Ev.due s.clock] }.tick d := by
        simp [St.sendPing, St.tick, ht]
      rw [e]
      have := h.early t ht
      refine .inr ⟨t, s.log, [], s.clock, ht, rfl, hq, ?_, ?_, fun hb => absurd (hp hb) hn⟩
      · show t + w ≤ s.clock + d + d' + ka.timeout; omega
      · show s.clock + w ≤ s.clock + d + d' + ka.timeout; omega

theorem Inv.keepAlive {i w : Nat} {own : Prop} {s : St} (h : Base i w own s)
    (hsch : ∀ ka at_, s.ka = some ka → ka.state = .scheduled at_ → ka.deadline = at_)
    (hpl : s.bdp = none → ∀ ka, s.ka = some ka → ka.state ≠ .pingSent → s.pingSentAt = none)
    (hs : ∀ ka, s.ka = some ka → ka.state = .pingSent → s.pingSentAt = none ∨ Sent i w s ka.deadline) (idle fires : Bool) (d d' : Nat) (ok : Bool) :
    Inv i w own (s.keepAlive idle fires d d' ok) := by
  unfold St.keepAlive
  split
  · rename_i hk
    refine ⟨h, hsch, hpl, fun ka hka => ?_⟩
    rw [hk] at hka; cases hka
  · rename_i ka hk
    obtain ⟨m1, m2, m3⟩ := maybeSchedule_spec s ka idle
    obtain ⟨c1, c2, c3⟩ := h.cfg ka hk
    generalize s.maybeSchedule ka idle = ka' at m1 m2 m3
    rw [c1] at m1
    rw [c2] at m2
    have hsched : ∀ at_, ka'.state = .scheduled at_ → ka'.deadline = at_ := by
      rcases m3 with ⟨rfl, _⟩ | ⟨at', h1, h2, _⟩
      · exact fun at_ => hsch ka' at_ hk
      · intro at_ hx; rw [h1] at hx; cases hx; exact h2
    have hplain : s.bdp = none → ka'.state ≠ .pingSent → s.pingSentAt = none := by
      intro hb hx
      rcases m3 with ⟨rfl, _⟩ | ⟨at', h1, h2, h3⟩
      · exact hpl hb ka' hk hx
      · by_cases hy : ka.state = .pingSent
        · exact h3 hy
        · exact hpl hb ka hk hy
    unfold St.maybePing
    split
    · rename_i at_ hst
      have hno : ka'.state ≠ .pingSent := by rw [hst]; simp
      split
      · exact Inv.put h m1 m2 c3 hsched hplain (fun hx => absurd hx hno)
      · rename_i hf
        have hf : fires = true ∧ ka'.deadline ≤ s.clock := Classical.byContradiction hf
        split
        · exact Inv.put h m1 m2 c3 (by simp) (fun hb _ => hplain hb hno) (by simp)
        · rename_i hq
          split
          · exact Inv.put h m1 m2 c3 hsched hplain (fun hx => absurd hx hno)
          · refine Inv.due h m1 m2 c3 ?_ (fun hb => hplain hb hno) d d' ok
            obtain ⟨r, hr⟩ := Option.ne_none_iff_exists'.1 c3
            have hdl := hsched at_ hst
            intro e he u hu
            have := h.read r hr e he u hu
            rw [hr, m1] at hq
            simp only [Option.getD_some] at hq
            omega
    · rename_i hst
      exact Inv.put h m1 m2 c3 hsched hplain (fun hx => by rw [hst] at hx; cases hx)
    · rename_i hst
      refine Inv.put h m1 m2 c3 hsched hplain (fun _ => ?_)
      rcases m3 with ⟨rfl, hp⟩ | ⟨at', h1, _⟩
      · rcases hs ka' hk hst with h' | h'
        · exact absurd h' (hp hst)
        · exact .inr h'
      · rw [hst] at h1; cases h1

theorem Inv.sample {i w : Nat} {own : Prop} {s : St} (h : Inv i w own s) (slower : Bool) (now : Nat) : Inv i w own (s.sample slower now) := by
  unfold St.sample
  split
  · exact h
  · rename_i b hb
    have hn : ¬ own := fun ho => by rw [h.plainOwn ho] at hb; cases hb
    have sn : ∀ {t : St} {dl : Nat}, Sent i w s dl → t.log = s.log → t.pingSentAt = s.pingSentAt → t.bdp ≠ none → Sent i w t dl := by
      intro t dl ⟨x, a, b, c, h1, h2, h3, h4, h5, _⟩ hl hp hb
      exact ⟨x, a, b, c, hp.trans h1, hl.trans h2, h3, h4, h5, fun hx => absurd hx hb⟩
    split
    · refine ⟨⟨h.cfg, h.read, h.early, h.out, h.dead, by simp, h.past, h.times, fun ho => absurd ho hn⟩, h.sched, by simp, ?_⟩
      intro ka hka hs
      rcases h.sent ka hka hs with h' | h'
      · exact .inl h'
      · exact .inr (sn h' rfl rfl (by simp))
    · rename_i b' v _
      have g := h.toBase.note (e := Ev.size v) rfl (by simp) (by simp)
      refine ⟨⟨g.cfg, g.read, g.early, g.out, g.dead, by simp, g.past, g.times, fun ho => absurd ho hn⟩, h.sched, by simp, ?_⟩
      intro ka hka hs
      rcases h.sent ka hka hs with h' | h'
      · exact .inl h'
      · exact .inr (h'.snoc rfl rfl (by simp))

theorem Inv.onPong {i w : Nat} {own : Prop} {s : St} (h : Inv i w own s) (x : In) (now : Nat) : Inv i w own (s.onPong x now) := by
  have h := h.tick (x.d 3)
  unfold St.onPong
  simp only
  refine Inv.sample ?_ x.slower now
  have k : ∀ t : St, t.updateLastRead = { t with lastReadAt := t.updateLastRead.lastReadAt } := by
    intro t
    unfold St.updateLastRead
    split <;> rfl
  have b0 : Base i w own { s.tick (x.d 3) with pingSentAt := none } :=
    ⟨h.cfg, h.read, by simp, by simp, fun _ => rfl, h.nobytes, h.past, h.times, h.plainOwn⟩
  have b := b0.hear (e := Ev.pong (s.tick (x.d 3)).clock) rfl (fun hx => absurd rfl hx)
  have e : ({ (s.tick (x.d 3)).updateLastRead with pingSentAt := none, log := (s.tick (x.d 3)).log ++ [Ev.pong (s.tick (x.d 3)).clock] } : St) =
      { ({ s.tick (x.d 3) with pingSentAt := none } : St).updateLastRead with log := (s.tick (x.d 3)).log ++ [Ev.pong (s.tick (x.d 3)).clock] } := by
    generalize s.tick (x.d 3) = t
    obtain ⟨_, _, _, lr, _, _, _, _, _, _⟩ := t
    cases lr <;> rfl
  rw [e]
  have e2 := k { s.tick (x.d 3) with pingSentAt := none }
  rw [e2] at b ⊢
  exact Inv.keepAlive (b.tick (x.d 7)) (h.tick (x.d 7)).sched (fun _ _ _ _ => rfl) (fun _ _ _ => .inl rfl) _ _ _ _ _

theorem Inv.onPending {i w : Nat} {own : Prop} {s : St} (h : Inv i w own s) (hp : s.pingSentAt ≠ none) (x : In) : Inv i w own (s.onPending x) := by
  unfold St.onPending
  split
  · exact h
  · rename_i ka hk
    have h := h.tick (x.d 3)
    simp only
    split
    · rename_i hc
      obtain ⟨hst, _, hdl⟩ := hc
      have hu : Unresponsive i w own s.log (s.tick (x.d 3)).clock := by
        rcases h.sent ka hk hst with ⟨h', _⟩ | ⟨t, a, b, c, h1, h2, h3, h4, h5, h6⟩
        · exact absurd h' hp
        · exact ⟨a, b, c, t, h2, h3, by omega, h.out t h1, by omega, fun ho => h6 (h.plainOwn ho)⟩
      refine ⟨⟨by simp, ?_, h.early, fun t ht => (h.out t ht).snoc (by simp) (by simp), h.dead, h.nobytes, h.past.snoc ?_, ?_, h.plainOwn⟩, by simp, by simp, by simp⟩
      · intro r hr e he u hu
        rcases mem_snoc he with he | rfl
        · exact h.read r hr e he u hu
        · cases hu
      · intro t ht
        cases ht
        exact hu
      · intro e he u hu
        rcases mem_snoc he with he | rfl
        · exact h.times e he u hu
        · cases hu
    · exact h

theorem Inv.poll {i w : Nat} {own : Prop} {s : St} (h : Inv i w own s) (x : In) : Inv i w own (s.poll x) := by
  have h := (h.tick (x.d 0)).tick (x.d 6)
  unfold St.poll
  simp only
  have g : Inv i w own (((s.tick (x.d 0)).tick (x.d 6)).keepAlive x.isIdle x.fires (x.d 1) (x.d 2) x.sendOk) := by
    refine Inv.keepAlive h.toBase h.sched h.plain ?_ _ _ _ _ _
    intro ka hka hs
    rcases h.sent ka hka hs with h' | h'
    · exact .inl h'.1
    · exact .inr h'
  split
  · exact g
  · rename_i t ht
    split
    · exact g.onPong x _
    · exact g
    · exact g.onPending (by rw [ht]; simp) x

theorem Inv.step {i w : Nat} {own : Prop} {s : St} (h : Inv i w own s) (a : Act) : Inv i w own (s.step a) := by
  cases a with
  | data len d d' d'' ok => exact (h.recordFrame d).recordBytes len d' d'' ok
  | nonData d => exact h.recordFrame d
  | poll x => exact h.poll x

theorem Inv.run {i w : Nat} {own : Prop} {s : St} (h : Inv i w own s) (as : List Act) : Inv i w own (s.run as) := by
  induction as generalizing s with
  | nil => exact h
  | cons a as ih => exact ih (h.step a)

theorem Inv.channel (c : Config) (i : Nat) (hi : c.interval = some i) (now : Nat) : Inv i c.timeout (c.bdpInitialWindow = none) (Ping.channel c now) := by
  refine ⟨⟨?_, ?_, by simp [Ping.channel], by simp [Ping.channel], by simp [Ping.channel], ?_, ?_, ?_, ?_⟩, ?_, by simp [Ping.channel], ?_⟩
  · intro ka hka
    simp only [Ping.channel, hi, Option.map_some, Option.some.injEq] at hka
    subst hka
    exact ⟨rfl, rfl, by simp [Ping.channel, hi]⟩
  · intro r hr e he u hu
    simp only [Ping.channel, hi, Option.map_some, Option.some.injEq] at hr he
    rw [List.mem_singleton.1 he] at hu
    cases hu
    omega
  · simp only [Ping.channel, Option.map_eq_none_iff]
    exact id
  · intro pre t post hx
    simp only [Ping.channel] at hx
    cases pre with
    | nil => cases hx
    | cons y ys =>
      have := (List.cons.inj hx).2
      simp at this
  · intro e he u hu
    simp only [Ping.channel] at he
    rw [List.mem_singleton.1 he] at hu
    cases hu
    exact Nat.le_refl _
  · simp only [Ping.channel, Option.map_eq_none_iff]
    exact id
  · intro ka at_ hka hs
    simp only [Ping.channel, hi, Option.map_some, Option.some.injEq] at hka
    subst hka
    cases hs
  · intro ka hka hs
    simp only [Ping.channel, hi, Option.map_some, Option.some.injEq] at hka
    subst hka
    cases hs

end Ping

open Ping in
/-- C48, in part: in every history, a timeout is reported only when a ping has been unanswered for at least the timeout, and, at least
that long ago, nothing had been heard for the interval.  Missing: that the unanswered ping was sent at that moment.  It is false when the
window is adaptive (`C48_other_ping`), true otherwise (`C48_timeout`). -/
theorem C48_timeout_partial (c : Config) (i : Nat) (hi : c.interval = some i) (now : Nat) (as : List Act) (pre post : List Ev) (t : Nat)
    (h : ((Ping.channel c now).run as).log = pre ++ Ev.timedOut t :: post) : Unresponsive i c.timeout False pre t := by
  obtain ⟨a, b, d, s, h1, h2, h3, h4, h5, _⟩ := ((Inv.channel c i hi now).run as).past pre t post h
  exact ⟨a, b, d, s, h1, h2, h3, h4, h5, False.elim⟩

open Ping in
/-- C48, without the adaptive window: in every history, a timeout is reported only when a ping has been unanswered for at least the timeout,
and that ping was sent after nothing had been heard for the interval. -/
theorem C48_timeout (c : Config) (i : Nat) (hi : c.interval = some i) (hb : c.bdpInitialWindow = none) (now : Nat) (as : List Act) (pre post : List Ev) (t : Nat)
    (h : ((Ping.channel c now).run as).log = pre ++ Ev.timedOut t :: post) :
    ∃ a b d s, pre = a ++ Ev.due d :: Ev.ping s :: b ∧ Quiet i d a ∧ Outstanding pre s ∧ s + c.timeout ≤ t := by
  obtain ⟨a, b, d, s, h1, h2, h3, h4, h5, h6⟩ := ((Inv.channel c i hi now).run as).past pre t post h
  obtain ⟨b', hb'⟩ := h6 hb
  exact ⟨a, b', d, s, by rw [h1, hb'], h2, h4, h5⟩

namespace Ping

def Ev.isTimeout : Ev → Bool
  | .timedOut _ => true
  | _ => false

/-- The flag says whether a timeout was reported, and without keep-alive there is none. -/
def Told (s : St) : Prop := s.isTimedOut = s.log.any Ev.isTimeout ∧ (s.lastReadAt = none → s.ka = none ∧ s.isTimedOut = false)

theorem Told.tick {s : St} (h : Told s) (d : Nat) : Told (s.tick d) := h

theorem Told.note {s : St} (h : Told s) {e : Ev} (he : e.isTimeout = false) : Told { s with log := s.log ++ [e] } :=
  ⟨by rw [List.any_append, ← h.1]; simp [he], h.2⟩

theorem Told.sendPing {s : St} (h : Told s) (ok : Bool) : Told (s.sendPing ok) := by
  unfold St.sendPing
  (repeat' split)
  · exact h
  · exact h.note rfl
  · exact h

theorem Told.updateLastRead {s : St} (h : Told s) : Told s.updateLastRead := by
  unfold St.updateLastRead
  split
  · exact h
  · exact ⟨h.1, by simp⟩

theorem Told.recordFrame {s : St} (h : Told s) (d : Nat) : Told (s.recordFrame d) := by
  have e : (s.recordFrame d) = { (s.tick d).updateLastRead with log := (s.tick d).updateLastRead.log ++ [Ev.frame (s.tick d).clock] } := by
    unfold St.recordFrame St.updateLastRead
    simp only
    split <;> rfl
  rw [e]
  exact (h.tick d).updateLastRead.note rfl

theorem Told.recordBytes {s : St} (h : Told s) (len d d' : Nat) (ok : Bool) : Told (s.recordBytes len d d' ok) := by
  unfold St.recordBytes
  simp only
  (repeat' split)
  · exact h
  · exact h
  · exact Told.sendPing (Told.tick (s := { s.tick d with nextBdpAt := none, bytes := _ }) h d') ok
  · exact h

theorem Told.put {s : St} (h : Told s) (ka : Ka) (hr : s.lastReadAt ≠ none) : Told { s with ka := some ka } :=
  ⟨h.1, fun hx => absurd hx hr⟩

theorem sendPing_lastRead (s : St) (ok : Bool) : (s.sendPing ok).lastReadAt = s.lastReadAt := by
  unfold St.sendPing; (repeat' split) <;> rfl

theorem Told.keepAlive {s : St} (h : Told s) (idle fires : Bool) (d d' : Nat) (ok : Bool) : Told (s.keepAlive idle fires d d' ok) := by
  unfold St.keepAlive
  split
  · exact h
  · rename_i ka hk
    have hr : s.lastReadAt ≠ none := fun hx => by rw [(h.2 hx).1] at hk; cases hk
    unfold St.maybePing
    (repeat' split)
    · exact h.put _ hr
    · exact h.put _ hr
    · exact h.put _ hr
    · refine Told.put ((((h.note (e := Ev.due s.clock) rfl).tick d).sendPing ok).tick d') _ ?_
      show (St.sendPing _ ok).lastReadAt ≠ none
      rw [sendPing_lastRead]
      exact hr
    · exact h.put _ hr
    · exact h.put _ hr

theorem Told.sample {s : St} (h : Told s) (slower : Bool) (now : Nat) : Told (s.sample slower now) := by
  unfold St.sample
  split
  · exact h
  · split
    · exact h
    · rename_i w _
      exact h.note (e := Ev.size w) rfl

theorem Told.onPong {s : St} (h : Told s) (x : In) (now : Nat) : Told (s.onPong x now) := by
  unfold St.onPong
  simp only
  refine Told.sample (Told.keepAlive ?_ _ _ _ _ _) _ _
  have e : (s.tick (x.d 3)).log = (s.tick (x.d 3)).updateLastRead.log := by unfold St.updateLastRead; split <;> rfl
  rw [e]
  exact Told.note (s := { (s.tick (x.d 3)).updateLastRead with pingSentAt := none }) (h.tick (x.d 3)).updateLastRead rfl

theorem Told.onPending {s : St} (h : Told s) (x : In) : Told (s.onPending x) := by
  unfold St.onPending
  split
  · exact h
  · rename_i ka hk
    have hr : s.lastReadAt ≠ none := fun hx => by rw [(h.2 hx).1] at hk; cases hk
    simp only
    split
    · exact ⟨by simp [Ev.isTimeout], fun hx => absurd hx hr⟩
    · exact h

theorem Told.step {s : St} (h : Told s) (a : Act) : Told (s.step a) := by
  cases a with
  | data len d d' d'' ok => exact (h.recordFrame d).recordBytes len d' d'' ok
  | nonData d => exact h.recordFrame d
  | poll x =>
    show Told (s.poll x)
    unfold St.poll
    simp only
    have g := ((h.tick (x.d 0)).tick (x.d 6)).keepAlive x.isIdle x.fires (x.d 1) (x.d 2) x.sendOk
    (repeat' split)
    · exact g
    · exact g.onPong x _
    · exact g
    · exact g.onPending x

theorem Told.run {s : St} (h : Told s) (as : List Act) : Told (s.run as) := by
  induction as generalizing s with
  | nil => exact h
  | cons a as ih => exact ih (h.step a)

theorem Told.channel (c : Config) (now : Nat) : Told (Ping.channel c now) := by
  refine ⟨rfl, fun h => ⟨?_, rfl⟩⟩
  simp only [Ping.channel, Option.map_eq_none_iff] at h ⊢
  exact h

theorem lastRead_run (s : St) (h : s.lastReadAt = none) (as : List Act) : (s.run as).lastReadAt = none := by
  induction as generalizing s with
  | nil => exact h
  | cons a as ih =>
    refine ih _ ?_
    have ku : ∀ t : St, t.lastReadAt = none → t.updateLastRead.lastReadAt = none := by
      intro t ht; unfold St.updateLastRead; rw [ht]; exact ht
    have kf : ∀ (t : St) (d : Nat), t.lastReadAt = none → (t.recordFrame d).lastReadAt = none := fun t d ht => ku (t.tick d) ht
    have kk : ∀ (t : St) (a b : Bool) (d d' : Nat) (e : Bool), t.lastReadAt = none → (t.keepAlive a b d d' e).lastReadAt = none := by
      intro t a b d d' e ht
      unfold St.keepAlive St.maybePing
      (repeat' split) <;> first | exact ht | (show (St.sendPing _ e).lastReadAt = none; rw [sendPing_lastRead]; exact ht)
    have ks : ∀ (t : St) (a : Bool) (n : Nat), t.lastReadAt = none → (t.sample a n).lastReadAt = none := by
      intro t a n ht; unfold St.sample; (repeat' split) <;> exact ht
    cases a with
    | data len d d' d'' ok =>
      have := kf s d h
      show ((s.recordFrame d).recordBytes len d' d'' ok).lastReadAt = none
      unfold St.recordBytes
      simp only
      (repeat' split) <;> first | exact this | (rw [sendPing_lastRead]; exact this)
    | nonData d => exact kf s d h
    | poll x =>
      show (s.poll x).lastReadAt = none
      unfold St.poll
      simp only
      have := kk ((s.tick (x.d 0)).tick (x.d 6)) x.isIdle x.fires (x.d 1) (x.d 2) x.sendOk h
      (repeat' split)
      · exact this
      · exact ks _ _ _ (kk _ _ _ _ _ _ (ku (St.tick _ (x.d 3)) this))
      · exact this
      · unfold St.onPending; simp only; (repeat' split) <;> exact this

end Ping

open Ping in
/-- C48: `ensure_not_timed_out` fails exactly when a timeout was reported. -/
theorem C48_flag (c : Config) (now : Nat) (as : List Act) :
    ((Ping.channel c now).run as).ensureNotTimedOut = false ↔ ∃ t, Ev.timedOut t ∈ ((Ping.channel c now).run as).log := by
  have h := ((Told.channel c now).run as).1
  unfold St.ensureNotTimedOut
  rw [Bool.not_eq_false', h, List.any_eq_true]
  constructor
  · rintro ⟨e, he, ht⟩
    cases e <;> first | exact ⟨_, he⟩ | cases ht
  · rintro ⟨t, ht⟩
    exact ⟨_, ht, rfl⟩

open Ping in
/-- C48: without keep-alive there is no timeout. -/
theorem C48_disabled (c : Config) (hi : c.interval = none) (now : Nat) (as : List Act) :
    ((Ping.channel c now).run as).ensureNotTimedOut = true := by
  have h := ((Told.channel c now).run as).2 (lastRead_run _ (by simp [Ping.channel, hi]) as)
  simp [St.ensureNotTimedOut, h.2]

/-- Keep-alive alone: scheduled, sent, timed out. -/
def exKeepAlive : List Ping.Act :=
  [.poll {}, .poll { d := fun n => if n = 0 then 10 else 0, fires := true }, .nonData 3, .poll { d := fun n => if n = 0 then 2 else 0, firesTimeout := true }]

/-- C48, not vacuous. -/
example : ((Ping.channel { bdpInitialWindow := none, interval := some 10, timeout := 5, whileIdle := true } 0).run exKeepAlive).log =
    [.frame 0, .due 10, .ping 10, .frame 13, .timedOut 15] := by decide +kernel

/-- With an adaptive window, the unanswered ping may be the one sent for the first data. -/
def exOtherPing : List Ping.Act :=
  [.data 1 0 0 0 true, .poll {}, .poll { d := fun n => if n = 0 then 10 else 0, fires := true }, .poll { d := fun n => if n = 0 then 5 else 0, firesTimeout := true }]

/-- C48 is false in full: the ping that is unanswered was sent at the moment a frame arrived. -/
theorem C48_other_ping : ∃ as, ((Ping.channel { bdpInitialWindow := some 65535, interval := some 10, timeout := 5, whileIdle := true } 0).run as).log =
    [.frame 0, .frame 0, .ping 0, .due 10, .timedOut 15] :=
  ⟨exOtherPing, by decide +kernel⟩

end Hyper
