import Verif.Props.H2Ping

/-!
# C97: HTTP/2 keep-alive finds out a peer that is gone

The converse of C48: if nothing is heard, the timeout is reported, and the task is woken for it.
-/

namespace Hyper

open Ping

namespace Spec

/-- A poll of a connection that hears nothing: no pong; the sleep is ready when it is due; pings can be sent; and there are streams, or they do not matter. -/
def Silent (c : Config) (x : Ping.In) : Prop :=
  x.pong = none ∧ x.fires = true ∧ x.firesTimeout = true ∧ x.sendOk = true ∧ (c.whileIdle = true ∨ x.isIdle = false)

/-- Nothing was heard after `t`. -/
def HeardBy (log : List Ev) (t : Nat) : Prop := ∀ e ∈ log, ∀ u, e.heard = some u → u ≤ t

def Reported (log : List Ev) : Prop := ∃ t, Ev.timedOut t ∈ log

end Spec

open Spec

namespace Alive

/-- What holds of a connection with keep-alive between calls, besides C48's. -/
structure K (c : Config) (i : Nat) (s : St) : Prop where
  off : s.ka = none → Reported s.log
  cfg : ∀ ka, s.ka = some ka → ka.interval = i ∧ ka.timeout = c.timeout ∧ ka.whileIdle = c.whileIdle
  read : ∃ r, s.lastReadAt = some r ∧ r ≤ s.clock ∧ ∃ e ∈ s.log, e.heard = some r
  sched : ∀ ka at_, s.ka = some ka → ka.state = .scheduled at_ → ka.deadline = at_ ∧ at_ ≤ s.lastReadAt.getD 0 + i
  sent : ∀ ka, s.ka = some ka → ka.state = .pingSent → ka.deadline ≤ s.clock + c.timeout ∧ (s.dead = false → s.pingSentAt ≠ none)

theorem K.tick {c : Config} {i : Nat} {s : St} (h : K c i s) (d : Nat) : K c i (s.tick d) := by
  obtain ⟨h1, h2, ⟨r, h3, h4, h5⟩, h6, h7⟩ := h
  refine ⟨h1, h2, ⟨r, h3, Nat.le_trans h4 (Nat.le_add_right _ _), h5⟩, h6, fun ka a b => ⟨Nat.le_trans (h7 ka a b).1 ?_, (h7 ka a b).2⟩⟩
  simp only [St.tick]; omega

theorem K.channel (c : Config) (i : Nat) (hi : c.interval = some i) (now : Nat) : K c i (Ping.channel c now) := by
  refine ⟨by simp [Ping.channel, hi], ?_, ⟨now, by simp [Ping.channel, hi], Nat.le_refl _, .frame now, by simp [Ping.channel], rfl⟩, ?_, ?_⟩
  · intro ka e; simp only [Ping.channel, hi, Option.map_some, Option.some.injEq] at e; subst e; exact ⟨rfl, rfl, rfl⟩
  · intro ka a e hs; simp only [Ping.channel, hi, Option.map_some, Option.some.injEq] at e; subst e; cases hs
  · intro ka e hs; simp only [Ping.channel, hi, Option.map_some, Option.some.injEq] at e; subst e; cases hs

theorem told_snoc {l : List Ev} (h : Reported l) (x : List Ev) : Reported (l ++ x) := by
  obtain ⟨t, h⟩ := h
  exact ⟨t, by simp [h]⟩

theorem K.recordFrame {c : Config} {i : Nat} {s : St} (h : K c i s) (d : Nat) : K c i (s.recordFrame d) := by
  have h := h.tick d
  unfold St.recordFrame St.updateLastRead
  obtain ⟨h1, h2, ⟨r, h3, h4, h5⟩, h6, h7⟩ := h
  simp only [h3]
  refine ⟨fun e => told_snoc (h1 e) _, h2, ⟨_, rfl, Nat.le_refl _, Ev.frame _, List.mem_append_right _ (List.mem_singleton.2 rfl), rfl⟩, fun ka a e1 e2 => ⟨(h6 ka a e1 e2).1, ?_⟩, h7⟩
  have := (h6 ka a e1 e2).2
  rw [h3] at this
  simp only [Option.getD_some] at this ⊢
  exact Nat.le_trans this (Nat.add_le_add_right h4 _)

theorem K.sendPing {c : Config} {i : Nat} {s : St} (h : K c i s) (ok : Bool) : K c i (s.sendPing ok) := by
  obtain ⟨h1, h2, ⟨r, h3, h4, e, h5, h5'⟩, h6, h7⟩ := h
  unfold St.sendPing
  split
  · exact ⟨h1, h2, ⟨r, h3, h4, e, h5, h5'⟩, h6, h7⟩
  · rename_i hp
    split
    · refine ⟨fun e => told_snoc (h1 e) _, h2, ⟨r, h3, h4, e, by simp [h5], h5'⟩, h6, fun ka a b => ⟨(h7 ka a b).1, by simp⟩⟩
    · refine ⟨h1, h2, ⟨r, h3, h4, e, h5, h5'⟩, h6, fun ka a b => ⟨(h7 ka a b).1, by simp⟩⟩

theorem K.recordBytes {c : Config} {i : Nat} {s : St} (h : K c i s) (len d d' : Nat) (ok : Bool) : K c i (s.recordBytes len d d' ok) := by
  have h := h.tick d
  have h' : ∀ b, K c i { s.tick d with nextBdpAt := none, bytes := b } := fun b => ⟨h.off, h.cfg, h.read, h.sched, h.sent⟩
  unfold St.recordBytes
  dsimp only
  split
  · exact h
  · split
    · exact ⟨h.off, h.cfg, h.read, h.sched, h.sent⟩
    · split
      · exact ((h' _).tick d').sendPing ok
      · exact h' _

/-- Putting a keep-alive state in. -/
theorem K.put {c : Config} {i : Nat} {s : St} (h : K c i s) (ka : Ka) (h1 : ka.interval = i ∧ ka.timeout = c.timeout ∧ ka.whileIdle = c.whileIdle)
    (h2 : ∀ at_, ka.state = .scheduled at_ → ka.deadline = at_ ∧ at_ ≤ s.lastReadAt.getD 0 + i)
    (h3 : ka.state = .pingSent → ka.deadline ≤ s.clock + c.timeout ∧ (s.dead = false → s.pingSentAt ≠ none)) : K c i { s with ka := some ka } := by
  refine ⟨by simp, ?_, h.read, ?_, ?_⟩
  · intro ka' e; cases e; exact h1
  · intro ka' a e; cases e; exact h2 a
  · intro ka' e; cases e; exact h3

/-- `maybe_schedule`: everything about the result. -/
theorem schedule_facts {c : Config} {i : Nat} {s : St} {ka : Ka} (hc : ka.interval = i ∧ ka.timeout = c.timeout ∧ ka.whileIdle = c.whileIdle)
    (hs : ∀ at_, ka.state = .scheduled at_ → ka.deadline = at_ ∧ at_ ≤ s.lastReadAt.getD 0 + i)
    (hp : ka.state = .pingSent → s.pingSentAt ≠ none → ka.deadline ≤ s.clock + c.timeout) (idle : Bool) :
    ((s.maybeSchedule ka idle).interval = i ∧ (s.maybeSchedule ka idle).timeout = c.timeout ∧ (s.maybeSchedule ka idle).whileIdle = c.whileIdle) ∧
    (∀ at_, (s.maybeSchedule ka idle).state = .scheduled at_ → (s.maybeSchedule ka idle).deadline = at_ ∧ at_ ≤ s.lastReadAt.getD 0 + i) ∧
    ((s.maybeSchedule ka idle).state = .pingSent → (s.maybeSchedule ka idle).deadline ≤ s.clock + c.timeout ∧ s.pingSentAt ≠ none) := by
  obtain ⟨h1, h2, h3⟩ := hc
  unfold St.maybeSchedule St.schedule
  cases hst : ka.state with
  | init =>
    dsimp only
    split
    · simp [hst, h1, h2, h3]
    · simp [h1, h2, h3]
  | scheduled a =>
    dsimp only
    exact ⟨⟨h1, h2, h3⟩, hs, by simp [hst]⟩
  | pingSent =>
    dsimp only
    split
    · rename_i hx
      exact ⟨⟨h1, h2, h3⟩, hs, fun _ => ⟨hp hst hx, hx⟩⟩
    · simp [h1, h2, h3]

theorem K.keepAlive {c : Config} {i : Nat} {s : St} (h1 : s.ka = none → Reported s.log) (h2 : ∀ ka, s.ka = some ka → ka.interval = i ∧ ka.timeout = c.timeout ∧ ka.whileIdle = c.whileIdle)
    (h3 : ∃ r, s.lastReadAt = some r ∧ r ≤ s.clock ∧ ∃ e ∈ s.log, e.heard = some r)
    (h4 : ∀ ka at_, s.ka = some ka → ka.state = .scheduled at_ → ka.deadline = at_ ∧ at_ ≤ s.lastReadAt.getD 0 + i)
    (h5 : ∀ ka, s.ka = some ka → ka.state = .pingSent → s.pingSentAt ≠ none → ka.deadline ≤ s.clock + c.timeout)
    (idle fires : Bool) (d d' : Nat) (ok : Bool) : K c i (s.keepAlive idle fires d d' ok) := by
  unfold St.keepAlive
  cases hk : s.ka with
  | none => exact ⟨h1, h2, h3, h4, by simp [hk]⟩
  | some ka =>
    dsimp only
    obtain ⟨f1, f2, f3⟩ := schedule_facts (h2 ka hk) (fun a => h4 ka a hk) (h5 ka hk) idle
    generalize s.maybeSchedule ka idle = k at *
    have base : ∀ k : Ka, (k.interval = i ∧ k.timeout = c.timeout ∧ k.whileIdle = c.whileIdle) → (∀ at_, k.state = .scheduled at_ → k.deadline = at_ ∧ at_ ≤ s.lastReadAt.getD 0 + i) →
        (k.state = .pingSent → k.deadline ≤ s.clock + c.timeout ∧ s.pingSentAt ≠ none) → K c i { s with ka := some k } := by
      intro k g1 g2 g3
      refine ⟨by simp, ?_, h3, ?_, ?_⟩
      · intro k' e; cases e; exact g1
      · intro k' a e; cases e; exact g2 a
      · intro k' e hs; cases e; exact ⟨(g3 hs).1, fun _ => (g3 hs).2⟩
    unfold St.maybePing
    cases hst : k.state with
    | init => exact base k f1 f2 f3
    | pingSent => exact base k f1 f2 f3
    | scheduled a =>
      dsimp only
      split
      · exact base k f1 f2 f3
      · split
        · exact base _ f1 (by simp) (by simp)
        · split
          · exact base k f1 f2 f3
          · obtain ⟨r, g1, g2, e, g3, g4⟩ := h3
            have hp : ∀ t : St, (t.sendPing ok).dead = false → (t.sendPing ok).pingSentAt ≠ none := by
              intro t; unfold St.sendPing; split
              · rename_i hx; intro _; rw [hx]; simp
              · split <;> simp
            have hl : ∀ t : St, (t.sendPing ok).lastReadAt = t.lastReadAt ∧ (t.sendPing ok).clock = t.clock ∧ ∀ e ∈ t.log, e ∈ (t.sendPing ok).log := by
              intro t; unfold St.sendPing; split
              · exact ⟨rfl, rfl, fun _ h => h⟩
              · split
                · exact ⟨rfl, rfl, fun _ h => by simp [h]⟩
                · exact ⟨rfl, rfl, fun _ h => h⟩
            obtain ⟨l1, l2, l3⟩ := hl (St.tick { s with log := s.log ++ [Ev.due s.clock] } d)
            unfold St.arm
            refine ⟨by simp, ?_, ⟨r, by simp only [St.tick] at l1 ⊢; rw [l1]; exact g1, ?_, e, l3 e (by simp [St.tick, g3]), g4⟩, ?_, ?_⟩
            · intro k' e; cases e; exact f1
            · simp only [St.tick] at l2 ⊢; rw [l2]; omega
            · intro k' a e hs; cases e; simp at hs
            · intro k' e hs
              cases e
              refine ⟨?_, hp _⟩
              simp only [f1.2.1, St.tick]; exact Nat.le_refl _

theorem K.keepAlive' {c : Config} {i : Nat} {s : St} (h : K c i s) (idle fires : Bool) (d d' : Nat) (ok : Bool) : K c i (s.keepAlive idle fires d d' ok) :=
  K.keepAlive h.off h.cfg h.read h.sched (fun ka a b _ => (h.sent ka a b).1) idle fires d d' ok

theorem K.sample {c : Config} {i : Nat} {s : St} (h : K c i s) (slower : Bool) (now : Nat) : K c i (s.sample slower now) := by
  obtain ⟨h1, h2, ⟨r, h3, h4, e, h5, h5'⟩, h6, h7⟩ := h
  unfold St.sample
  split
  · exact ⟨h1, h2, ⟨r, h3, h4, e, h5, h5'⟩, h6, h7⟩
  · split
    · exact ⟨h1, h2, ⟨r, h3, h4, e, h5, h5'⟩, h6, h7⟩
    · exact ⟨fun e => told_snoc (h1 e) _, h2, ⟨r, h3, h4, e, by simp [h5], h5'⟩, h6, h7⟩

theorem K.onPong {c : Config} {i : Nat} {s : St} (h : K c i s) (x : Ping.In) (now : Nat) : K c i (s.onPong x now) := by
  have h := h.tick (x.d 3)
  unfold St.onPong
  dsimp only
  refine K.sample ?_ _ _
  generalize s.tick (x.d 3) = t at h ⊢
  obtain ⟨h1, h2, ⟨r, h3, h4, e, h5, h5'⟩, h6, h7⟩ := h
  unfold St.updateLastRead
  simp only [h3]
  refine K.keepAlive (s := ({ t with lastReadAt := some t.clock, pingSentAt := none, log := t.log ++ [Ev.pong t.clock] } : St).tick (x.d 7)) (fun e => told_snoc (h1 e) _) h2
    ⟨_, rfl, Nat.le_add_right _ _, Ev.pong _, List.mem_append_right _ (List.mem_singleton.2 rfl), rfl⟩ ?_ (fun _ _ _ hx => absurd rfl hx) _ _ _ _ _
  intro ka a e1 e2
  refine ⟨(h6 ka a e1 e2).1, ?_⟩
  have := (h6 ka a e1 e2).2
  rw [h3] at this
  simp only [Option.getD_some, St.tick] at this h4 ⊢
  omega

theorem K.onPending {c : Config} {i : Nat} {s : St} (h : K c i s) (x : Ping.In) : K c i (s.onPending x) := by
  unfold St.onPending
  split
  · exact h
  · have h := h.tick (x.d 3)
    dsimp only
    split
    · obtain ⟨h1, h2, ⟨r, h3, h4, e, h5, h5'⟩, h6, h7⟩ := h
      exact ⟨fun _ => ⟨_, List.mem_append_right _ (List.mem_singleton.2 rfl)⟩, by simp, ⟨r, h3, h4, e, List.mem_append_left _ h5, h5'⟩, by simp, by simp⟩
    · exact h

theorem K.poll {c : Config} {i : Nat} {s : St} (h : K c i s) (x : Ping.In) : K c i (s.poll x) := by
  have g := ((h.tick (x.d 0)).tick (x.d 6)).keepAlive' x.isIdle x.fires (x.d 1) (x.d 2) x.sendOk
  unfold St.poll
  dsimp only
  split
  · exact g
  · split
    · exact g.onPong x _
    · exact g
    · exact g.onPending x

theorem K.run {c : Config} {i : Nat} {s : St} (h : K c i s) (as : List Ping.Act) : K c i (s.run as) := by
  induction as generalizing s with
  | nil => exact h
  | cons a as ih =>
    refine ih (s := s.step a) ?_
    cases a with
    | data len d d' d'' ok => exact (h.recordFrame d).recordBytes len d' d'' ok
    | nonData d => exact h.recordFrame d
    | poll x => exact h.poll x

/-- A ping waits for its answer, until `D` at the latest. -/
structure Waits (D : Nat) (s : St) : Prop where
  ka : ∃ ka, s.ka = some ka ∧ ka.state = .pingSent ∧ ka.deadline ≤ D
  out : s.pingSentAt ≠ none

/-- A ping is due: the next silent poll sends it, or finds that it is due. -/
theorem log_grows (s : St) (x : Ping.In) : ∀ e ∈ s.log, e ∈ (s.poll x).log := by
  have kp : ∀ (t : St) (ok : Bool), ∀ e ∈ t.log, e ∈ (t.sendPing ok).log := by
    intro t ok e he
    unfold St.sendPing
    (repeat' split) <;> simp [he]
  have kk : ∀ (t : St) (a b : Bool) (d d' : Nat) (o : Bool), ∀ e ∈ t.log, e ∈ (t.keepAlive a b d d' o).log := by
    intro t a b d d' o e he
    unfold St.keepAlive St.maybePing
    (repeat' split) <;> first | exact he | (exact kp _ _ _ (by simp [St.tick, he]))
  have ks : ∀ (t : St) (a : Bool) (n : Nat), ∀ e ∈ t.log, e ∈ (t.sample a n).log := by
    intro t a n e he
    unfold St.sample
    (repeat' split) <;> simp [he]
  intro e he
  have g := kk ((s.tick (x.d 0)).tick (x.d 6)) x.isIdle x.fires (x.d 1) (x.d 2) x.sendOk e he
  unfold St.poll
  dsimp only
  split
  · exact g
  · split
    · unfold St.onPong
      dsimp only
      exact ks _ _ _ _ (kk _ _ _ _ _ _ _ (List.mem_append_left _ g))
    · exact g
    · unfold St.onPending
      split
      · exact g
      · dsimp only
        split
        · exact List.mem_append_left _ g
        · exact g

theorem told_run {s : St} (h : Reported s.log) (xs : List Ping.In) : Reported (s.run (xs.map .poll)).log := by
  induction xs generalizing s with
  | nil => exact h
  | cons x xs ih =>
    obtain ⟨t, h⟩ := h
    exact ih (s := s.poll x) ⟨t, log_grows s x _ h⟩

/-- What a silent poll does. -/
structure Went (c : Config) (i : Nat) (s s' : St) (x : Ping.In) : Prop where
  alive : s.dead = false → s'.dead = false
  read : s'.lastReadAt = s.lastReadAt
  clock : s.clock + x.d 0 ≤ s'.clock
  /-- While a ping waits, nothing else happens until its time has come. -/
  waits : ∀ D, Waits D s → Reported s'.log ∨ (Waits D s' ∧ s'.clock < D)
  /-- Once nothing was heard for the interval, a ping is sent, at the second poll at the latest. -/
  due : s.dead = false → s.lastReadAt.getD 0 + i ≤ s.clock + x.d 0 → Reported s'.log ∨ Waits (s'.clock + c.timeout) s' ∨
    (∃ ka, s'.ka = some ka ∧ ka.state = .init ∧ ∃ ka at_, s.ka = some ka ∧ ka.state = .scheduled at_)

/-- The end of a silent poll. -/
def fin (t : St) (x : Ping.In) : St := match t.pingSentAt with | none => t | some _ => t.onPending x

theorem fin_facts (t : St) (x : Ping.In) (hx : x.firesTimeout = true) :
    (fin t x).dead = t.dead ∧ (fin t x).lastReadAt = t.lastReadAt ∧ t.clock ≤ (fin t x).clock ∧ (fin t x).pingSentAt = t.pingSentAt ∧
    (∀ ka, t.ka = some ka → Reported (fin t x).log ∨ ((fin t x).ka = some ka ∧ (ka.state = .pingSent → t.pingSentAt ≠ none → (fin t x).clock < ka.deadline))) := by
  unfold fin
  cases hp : t.pingSentAt with
  | none => exact ⟨rfl, rfl, Nat.le_refl _, hp, fun ka e => .inr ⟨e, fun _ hn => absurd rfl hn⟩⟩
  | some u =>
    unfold St.onPending
    cases hk : t.ka with
    | none => exact ⟨rfl, rfl, Nat.le_refl _, hp, by simp⟩
    | some k =>
      dsimp only
      split
      · exact ⟨rfl, rfl, Nat.le_add_right _ _, hp, fun _ _ => .inl ⟨_, List.mem_append_right _ (List.mem_singleton.2 rfl)⟩⟩
      · rename_i hn
        refine ⟨rfl, rfl, Nat.le_add_right _ _, hp, fun ka e => .inr ⟨?_, fun hs _ => ?_⟩⟩
        · simp only [St.tick]; rw [hk]; exact e
        · cases e
          refine Nat.lt_of_not_le (fun hl => hn ⟨hs, hx, hl⟩)

theorem sendPing_ok (t : St) (hd : t.dead = false) : (t.sendPing true).dead = false ∧ (t.sendPing true).pingSentAt ≠ none ∧ (t.sendPing true).lastReadAt = t.lastReadAt ∧
    (t.sendPing true).clock = t.clock := by
  unfold St.sendPing
  split
  · rename_i hx; simp [hd, hx]
  · simp [hd]

theorem sendPing_any (t : St) (ok : Bool) : (t.sendPing ok).lastReadAt = t.lastReadAt ∧ (t.sendPing ok).clock = t.clock := by
  unfold St.sendPing
  (repeat' split) <;> exact ⟨rfl, rfl⟩

/-- The beginning of a silent poll. -/
theorem ka_facts {c : Config} {i : Nat} {u : St} (h : K c i u) {ka : Ka} (hk : u.ka = some ka) (idle : Bool) (hi : c.whileIdle = true ∨ idle = false) (d d' : Nat) :
    (u.dead = false → (u.keepAlive idle true d d' true).dead = false) ∧ (u.keepAlive idle true d d' true).lastReadAt = u.lastReadAt ∧
    u.clock ≤ (u.keepAlive idle true d d' true).clock ∧
    (ka.state = .pingSent → u.pingSentAt ≠ none → (u.keepAlive idle true d d' true).ka = some ka ∧ (u.keepAlive idle true d d' true).pingSentAt = u.pingSentAt) ∧
    (u.dead = false → u.lastReadAt.getD 0 + i ≤ u.clock →
      (∃ k, (u.keepAlive idle true d d' true).ka = some k ∧ k.state = .pingSent ∧ k.deadline ≤ (u.keepAlive idle true d d' true).clock + c.timeout ∧
        (u.keepAlive idle true d d' true).pingSentAt ≠ none) ∨
      (∃ k, (u.keepAlive idle true d d' true).ka = some k ∧ k.state = .init ∧ ∃ at_, ka.state = .scheduled at_)) := by
  have hc := h.cfg ka hk
  have hs := fun a => h.sched ka a hk
  have hp := h.sent ka hk
  have fire : ∀ k : Ka, k.timeout = c.timeout → ∀ t : St, t = ((St.tick { u with log := u.log ++ [Ev.due u.clock] } d).sendPing true).arm k d' →
      (u.dead = false → t.dead = false) ∧ t.lastReadAt = u.lastReadAt ∧ u.clock ≤ t.clock ∧
      (u.dead = false → ∃ k, t.ka = some k ∧ k.state = .pingSent ∧ k.deadline ≤ t.clock + c.timeout ∧ t.pingSentAt ≠ none) := by
    intro k hkt t ht
    have a1 := sendPing_ok (St.tick { u with log := u.log ++ [Ev.due u.clock] } d)
    have a2 := sendPing_any (St.tick { u with log := u.log ++ [Ev.due u.clock] } d) true
    generalize (St.tick { u with log := u.log ++ [Ev.due u.clock] } d).sendPing true = v at *
    subst ht
    simp only [St.tick, St.arm] at *
    refine ⟨fun hd => (a1 hd).1, a2.1, by omega, fun hd => ⟨_, rfl, rfl, ?_, (a1 hd).2.1⟩⟩
    simp only [hkt]; exact Nat.le_refl _
  have go : ∀ (k : Ka) (a : Nat), k.interval = i → k.timeout = c.timeout → k.whileIdle = c.whileIdle → k.state = .scheduled a → k.deadline = a → a ≤ u.lastReadAt.getD 0 + i →
      ∀ t : St, t = u.maybePing k idle true d d' true →
      (u.dead = false → t.dead = false) ∧ t.lastReadAt = u.lastReadAt ∧ u.clock ≤ t.clock ∧
      (u.dead = false → u.lastReadAt.getD 0 + i ≤ u.clock → (∃ k, t.ka = some k ∧ k.state = .pingSent ∧ k.deadline ≤ t.clock + c.timeout ∧ t.pingSentAt ≠ none) ∨
        (∃ k', t.ka = some k' ∧ k'.state = .init ∧ a < u.lastReadAt.getD 0 + i)) := by
    intro k a k1 k2 k3 k4 k5 k6 t ht
    unfold St.maybePing at ht
    simp only [k4, k5, k1, k3] at ht
    split at ht
    · rename_i hn
      subst ht
      refine ⟨id, rfl, Nat.le_refl _, fun _ hr => absurd ⟨trivial, ?_⟩ hn⟩
      omega
    · split at ht
      · rename_i hl
        subst ht
        exact ⟨id, rfl, Nat.le_refl _, fun _ _ => .inr ⟨_, rfl, rfl, hl⟩⟩
      · split at ht
        · rename_i hq
          rcases hi with hi | hi
          · rw [hi] at hq; cases hq.1
          · rw [hi] at hq; cases hq.2
        · obtain ⟨f1, f2, f3, f4⟩ := fire k k2 t ht
          exact ⟨f1, f2, f3, fun hd _ => .inl (f4 hd)⟩
  have hidle : ¬ (c.whileIdle = false ∧ idle = true) := by
    rintro ⟨a, b⟩
    rcases hi with hi | hi
    · rw [a] at hi; cases hi
    · rw [b] at hi; cases hi
  unfold St.keepAlive
  simp only [hk]
  unfold St.maybeSchedule
  cases hst : ka.state with
  | init =>
    simp only [hc.2.2, hidle, if_false]
    obtain ⟨g1, g2, g3, g4⟩ := go (u.schedule ka) (u.lastReadAt.getD 0 + i) hc.1 hc.2.1 hc.2.2 (by simp [St.schedule, hc.1]) (by simp [St.schedule, hc.1]) (Nat.le_refl _) _ rfl
    refine ⟨g1, g2, g3, by simp, fun hd hr => ?_⟩
    rcases g4 hd hr with g | ⟨_, _, _, hlt⟩
    · exact .inl g
    · exact absurd hlt (Nat.lt_irrefl _)
  | scheduled a =>
    dsimp only
    obtain ⟨g1, g2, g3, g4⟩ := go ka a hc.1 hc.2.1 hc.2.2 hst (hs a hst).1 (hs a hst).2 _ rfl
    refine ⟨g1, g2, g3, by simp, fun hd hr => ?_⟩
    rcases g4 hd hr with g | ⟨k, e1, e2, _⟩
    · exact .inl g
    · exact .inr ⟨k, e1, e2, a, rfl⟩
  | pingSent =>
    by_cases hn : u.pingSentAt = none
    · simp only [hn, ne_eq, not_true, if_false]
      obtain ⟨g1, g2, g3, g4⟩ := go (u.schedule ka) (u.lastReadAt.getD 0 + i) hc.1 hc.2.1 hc.2.2 (by simp [St.schedule, hc.1]) (by simp [St.schedule, hc.1]) (Nat.le_refl _) _ rfl
      refine ⟨g1, g2, g3, fun _ hx => absurd hx id, fun hd _ => absurd hn ((hp hst).2 hd)⟩
    · simp only [ne_eq, hn, not_false_eq_true, if_true]
      have e1 : u.maybePing ka idle true d d' true = { u with ka := some ka } := by simp [St.maybePing, hst]
      rw [e1]
      exact ⟨id, rfl, Nat.le_refl _, fun _ _ => ⟨rfl, rfl⟩, fun _ _ => .inl ⟨ka, rfl, hst, (hp hst).1, hn⟩⟩

theorem went {c : Config} {i : Nat} {s : St} (h : K c i s) {x : Ping.In} (hx : Silent c x) : Went c i s (s.poll x) x := by
  obtain ⟨x1, x2, x3, x4, x5⟩ := hx
  have he : s.poll x = fin (((s.tick (x.d 0)).tick (x.d 6)).keepAlive x.isIdle true (x.d 1) (x.d 2) true) x := by
    unfold St.poll fin
    simp only [x1, x2, x4]
    cases (((s.tick (x.d 0)).tick (x.d 6)).keepAlive x.isIdle true (x.d 1) (x.d 2) true).pingSentAt <;> rfl
  have hu := (h.tick (x.d 0)).tick (x.d 6)
  have htick : s.clock + x.d 0 ≤ ((s.tick (x.d 0)).tick (x.d 6)).clock := by simp only [St.tick]; omega
  cases hk : s.ka with
  | none =>
    obtain ⟨t0, h0⟩ := h.off hk
    have hrep : Reported (s.poll x).log := ⟨t0, log_grows s x _ h0⟩
    have e1 : ((s.tick (x.d 0)).tick (x.d 6)).keepAlive x.isIdle true (x.d 1) (x.d 2) true = (s.tick (x.d 0)).tick (x.d 6) := by
      simp [St.keepAlive, St.tick, hk]
    rw [e1] at he
    obtain ⟨f1, f2, f3, f4, f5⟩ := fin_facts ((s.tick (x.d 0)).tick (x.d 6)) x x3
    rw [← he] at f1 f2 f3
    exact ⟨fun hd => by rw [f1]; exact hd, f2, Nat.le_trans htick f3, fun _ _ => .inl hrep, fun _ _ => .inl hrep⟩
  | some ka =>
    obtain ⟨g1, g2, g3, g4, g5⟩ := ka_facts hu (ka := ka) hk x.isIdle x5 (x.d 1) (x.d 2)
    generalize ((s.tick (x.d 0)).tick (x.d 6)).keepAlive x.isIdle true (x.d 1) (x.d 2) true = v at *
    obtain ⟨f1, f2, f3, f4, f5⟩ := fin_facts v x x3
    rw [← he] at f1 f2 f3 f4 f5
    refine ⟨fun hd => by rw [f1]; exact g1 hd, f2.trans g2, by omega, ?_, ?_⟩
    · rintro D ⟨⟨k, e1, e2, e3⟩, e4⟩
      rw [hk] at e1
      cases e1
      obtain ⟨q1, q2⟩ := g4 e2 e4
      have hv : v.pingSentAt ≠ none := by rw [q2]; exact e4
      rcases f5 ka q1 with f | ⟨f, f'⟩
      · exact .inl f
      · exact .inr ⟨⟨⟨ka, f, e2, e3⟩, by rw [f4]; exact hv⟩, Nat.lt_of_lt_of_le (f' e2 hv) e3⟩
    · intro hd hr
      have hr' : ((s.tick (x.d 0)).tick (x.d 6)).lastReadAt.getD 0 + i ≤ ((s.tick (x.d 0)).tick (x.d 6)).clock := Nat.le_trans hr htick
      rcases g5 hd hr' with ⟨k, e1, e2, e3, e4⟩ | ⟨k, e1, e2, a, e3⟩
      · rcases f5 k e1 with f | ⟨f, f'⟩
        · exact .inl f
        · exact .inr (.inl ⟨⟨k, f, e2, by omega⟩, by rw [f4]; exact e4⟩)
      · rcases f5 k e1 with f | ⟨f, f'⟩
        · exact .inl f
        · exact .inr (.inr ⟨k, f, e2, ka, a, hk, e3⟩)

/-- A number of silent polls. -/
theorem silent_run {c : Config} {i : Nat} {s : St} (h : K c i s) (xs : List Ping.In) (hx : ∀ x ∈ xs, Silent c x) :
    K c i (s.run (xs.map .poll)) ∧ (s.dead = false → (s.run (xs.map .poll)).dead = false) ∧ (s.run (xs.map .poll)).lastReadAt = s.lastReadAt ∧
    s.clock ≤ (s.run (xs.map .poll)).clock ∧ (∀ D, Waits D s → Reported (s.run (xs.map .poll)).log ∨ Waits D (s.run (xs.map .poll))) := by
  induction xs generalizing s with
  | nil => exact ⟨h, id, rfl, Nat.le_refl _, fun _ hw => .inr hw⟩
  | cons x xs ih =>
    have w := went h (hx x (by simp))
    obtain ⟨i1, i2, i3, i4, i5⟩ := ih (h.poll x) (fun y hy => hx y (by simp [hy]))
    refine ⟨i1, fun hd => i2 (w.alive hd), i3.trans w.read, ?_, fun D hw => ?_⟩
    · have := w.clock
      exact Nat.le_trans (by omega) i4
    · rcases w.waits D hw with hr | ⟨hr, _⟩
      · exact .inl (told_run hr xs)
      · exact i5 D hr

theorem heard_le {c : Config} {i : Nat} {s : St} (h : K c i s) {R : Nat} (hR : HeardBy s.log R) : s.lastReadAt.getD 0 ≤ R := by
  obtain ⟨r, h1, _, e, h2, h3⟩ := h.read
  rw [h1]
  exact hR e h2 r h3

theorem run_snoc (s : St) (xs ys : List Ping.Act) : s.run (xs ++ ys) = (s.run xs).run ys := by simp [St.run]

/-- The poll after the pong: what wakes. -/
theorem second_wake {i : Nat} {t : St} {k : Ka} {r n : Nat} (hk : t.ka = some k) (hr : t.lastReadAt = some r) (hp : t.pingSentAt = none) (hc : t.clock = r + n) (hn : n < i)
    (h1 : k.interval = i) (h2 : ∀ a, k.state = .scheduled a → k.deadline = a ∧ a ≤ r + i) (idle fires : Bool) (hi : k.whileIdle = true ∨ idle = false) :
    t.keepAliveWake idle fires = .again ∨ ∃ d, t.keepAliveWake idle fires = .at_ d ∧ d ≤ r + i := by
  have hidle : ¬ (k.whileIdle = false ∧ idle = true) := by
    rintro ⟨a, b⟩
    rcases hi with hi | hi
    · rw [a] at hi; cases hi
    · rw [b] at hi; cases hi
  have fresh : t.pingWake (t.schedule k) fires = .at_ (r + i) := by
    unfold St.pingWake St.schedule
    simp only [hr, Option.getD_some, h1]
    rw [if_pos]
    rintro ⟨_, hl⟩
    omega
  unfold St.keepAliveWake
  simp only [hk]
  unfold St.maybeSchedule
  cases hst : k.state with
  | init => simp only [hidle, if_false, fresh]; exact .inr ⟨_, rfl, Nat.le_refl _⟩
  | pingSent => simp only [hp, ne_eq, not_true, if_false, fresh]; exact .inr ⟨_, rfl, Nat.le_refl _⟩
  | scheduled a =>
    obtain ⟨e1, e2⟩ := h2 a hst
    unfold St.pingWake
    simp only [hst, hr, Option.getD_some, h1, e1]
    split
    · exact .inr ⟨_, rfl, e2⟩
    · rename_i hx
      split
      · exact .inl rfl
      · exact absurd (fun hy => hx hy) (by intro hz; apply hz; omega)

end Alive

/-- C97: if after any history nothing is heard any more, the timeout is reported: after two polls once the interval is over, and one once the timeout is over after that,
however many others there are. -/
theorem C97_found_out (c : Config) (i : Nat) (hi : c.interval = some i) (now : Nat) (as : List Ping.Act) (s : Ping.St) (hs : s = (Ping.channel c now).run as) (hd : s.dead = false)
    (t : Nat) (ht : HeardBy s.log t) (xs ys : List Ping.In) (a b z : Ping.In) (hx : ∀ x ∈ xs ++ [a, b] ++ ys ++ [z], Silent c x)
    (h1 : t + i ≤ (s.run (xs.map .poll)).clock + a.d 0)
    (h2 : (s.run ((xs ++ [a, b]).map .poll)).clock + c.timeout ≤ (s.run ((xs ++ [a, b] ++ ys ++ [z]).map .poll)).clock) :
    Reported (s.run ((xs ++ [a, b] ++ ys ++ [z]).map .poll)).log := by
  have hK : Alive.K c i s := by rw [hs]; exact (Alive.K.channel c i hi now).run as
  have hle := Alive.heard_le hK ht
  obtain ⟨k1, k2, k3, k4, _⟩ := Alive.silent_run hK xs (fun x h => hx x (by simp [h]))
  have ha := hx a (by simp)
  have hb := hx b (by simp)
  have hz := hx z (by simp)
  have hy : ∀ y ∈ ys, Silent c y := fun y h => hx y (by simp [h])
  clear hx
  simp only [List.map_append, Alive.run_snoc] at h2 ⊢
  generalize s.run (xs.map .poll) = s1 at *
  have e3 : s1.run (List.map Act.poll [a, b]) = (s1.poll a).poll b := rfl
  rw [e3] at h2 ⊢
  have wa := Alive.went k1 ha
  have ka := k1.poll a
  have wb := Alive.went ka hb
  have kb := ka.poll b
  generalize hs2 : s1.poll a = s2 at *
  have hw : Reported (s2.poll b).log ∨ Alive.Waits ((s2.poll b).clock + c.timeout) (s2.poll b) := by
    rcases wa.due (k2 hd) (by rw [k3]; omega) with h | h | ⟨k, q1, q2, q3⟩
    · obtain ⟨t0, h⟩ := h
      exact .inl ⟨t0, Alive.log_grows _ _ _ h⟩
    · rcases wb.waits _ h with h | ⟨⟨⟨k, q1, q2, q3⟩, q4⟩, _⟩
      · exact .inl h
      · have := wb.clock
        exact .inr ⟨⟨k, q1, q2, by omega⟩, q4⟩
    · have hc2 := wa.clock
      rcases wb.due (wa.alive (k2 hd)) (by rw [wa.read, k3]; omega) with h | h | ⟨_, _, _, k', at_, q4, q5⟩
      · exact .inl h
      · exact .inr h
      · rw [q1] at q4
        cases q4
        rw [q2] at q5
        cases q5
  have e5 : ∀ u : Ping.St, u.run (List.map Act.poll [z]) = u.poll z := fun u => rfl
  rw [e5] at h2 ⊢
  generalize s2.poll b = s3 at *
  obtain ⟨l1, _, _, _, l5⟩ := Alive.silent_run kb ys hy
  rcases hw with h | h
  · obtain ⟨t0, h⟩ := Alive.told_run h ys
    exact ⟨t0, Alive.log_grows _ _ _ h⟩
  · rcases l5 _ h with h | h
    · obtain ⟨t0, h⟩ := h
      exact ⟨t0, Alive.log_grows _ _ _ h⟩
    · rcases (Alive.went l1 hz).waits _ h with h | ⟨_, h⟩
      · exact h
      · omega

namespace Alive

/-- The first half of a poll: what wakes, and what state it leaves. -/
theorem first_wake {c : Config} {i : Nat} {u : St} (h : K c i u) (hd : u.dead = false) {ka : Ka} (hk : u.ka = some ka) (idle fires : Bool) (hi : c.whileIdle = true ∨ idle = false) (d d' : Nat) :
    ∃ k, (u.keepAlive idle fires d d' true).ka = some k ∧
      ((k.state = .pingSent ∧ (u.keepAlive idle fires d d' true).pingSentAt ≠ none) ∨
        (k.state ≠ .pingSent ∧ (u.keepAliveWake idle fires = .again ∨ u.keepAliveWake idle fires = .at_ k.deadline ∧ k.deadline ≤ u.lastReadAt.getD 0 + i))) := by
  have hc := h.cfg ka hk
  have hs := fun a => h.sched ka a hk
  have hp := h.sent ka hk
  have hidle : ¬ (c.whileIdle = false ∧ idle = true) := by
    rintro ⟨a, b⟩
    rcases hi with hi | hi
    · rw [a] at hi; cases hi
    · rw [b] at hi; cases hi
  have go : ∀ (k : Ka) (a : Nat), k.interval = i → k.timeout = c.timeout → k.whileIdle = c.whileIdle → k.state = .scheduled a → k.deadline = a → a ≤ u.lastReadAt.getD 0 + i →
      ∃ k', (u.maybePing k idle fires d d' true).ka = some k' ∧
      ((k'.state = .pingSent ∧ (u.maybePing k idle fires d d' true).pingSentAt ≠ none) ∨
        (k'.state ≠ .pingSent ∧ (u.pingWake k fires = .again ∨ u.pingWake k fires = .at_ k'.deadline ∧ k'.deadline ≤ u.lastReadAt.getD 0 + i))) := by
    intro k a k1 k2 k3 k4 k5 k6
    unfold St.maybePing St.pingWake
    simp only [k4, k5, k1, k3]
    by_cases hx : fires = true ∧ a ≤ u.clock
    · simp only [hx, not_true, if_false, and_self]
      by_cases hl : a < u.lastReadAt.getD 0 + i
      · simp only [hl, if_true]
        exact ⟨_, rfl, .inr ⟨by simp, .inl trivial⟩⟩
      · simp only [hl, if_false, hidle]
        exact ⟨_, rfl, .inl ⟨rfl, (sendPing_ok (St.tick { u with log := u.log ++ [Ev.due u.clock] } d) hd).2.1⟩⟩
    · simp only [hx, not_false_eq_true, if_true]
      exact ⟨_, rfl, .inr ⟨by simp [k4], .inr ⟨by rw [k5], by rw [k5]; exact k6⟩⟩⟩
  unfold St.keepAlive St.keepAliveWake
  simp only [hk]
  unfold St.maybeSchedule
  have fresh := go (u.schedule ka) (u.lastReadAt.getD 0 + i) hc.1 hc.2.1 hc.2.2 (by simp [St.schedule, hc.1]) (by simp [St.schedule, hc.1]) (Nat.le_refl _)
  cases hst : ka.state with
  | init => simp only [hc.2.2, hidle, if_false]; exact fresh
  | scheduled a => exact go ka a hc.1 hc.2.1 hc.2.2 hst (hs a hst).1 (hs a hst).2
  | pingSent =>
    have hn := (hp hst).2 hd
    simp only [ne_eq, hn, not_false_eq_true, if_true]
    have e1 : u.maybePing ka idle fires d d' true = { u with ka := some ka } := by simp [St.maybePing, hst]
    rw [e1]
    exact ⟨ka, rfl, .inl ⟨hst, hn⟩⟩

end Alive

/-- C97 in part: a poll that has not reported the timeout leaves a waker: the task is woken at once, or at most the interval after something that was heard, or at most
the timeout after now.  Missing: that it does without the poll being quick: if the interval passes between the note of a pong and the poll of the sleep, which
an interval of zero always does, a ping is sent and nothing wakes (`C97_sleeps`). -/
theorem C97_woken_partial (c : Config) (i : Nat) (hi : c.interval = some i) (now : Nat) (as : List Ping.Act) (s : Ping.St) (hs : s = (Ping.channel c now).run as) (hd : s.dead = false)
    (x : Ping.In) (hok : x.sendOk = true) (hpo : x.pong ≠ some false) (hidle : c.whileIdle = true ∨ x.isIdle = false) (hq : x.d 7 < i) :
    Reported (s.poll x).log ∨ s.pollWake x = .again ∨
      ∃ t, s.pollWake x = .at_ t ∧ ((∃ e ∈ (s.poll x).log, ∃ u, e.heard = some u ∧ t ≤ u + i) ∨ t ≤ (s.poll x).clock + c.timeout) := by
  have hK : Alive.K c i s := by rw [hs]; exact (Alive.K.channel c i hi now).run as
  cases hka : s.ka with
  | none =>
    obtain ⟨t0, h0⟩ := hK.off hka
    exact .inl ⟨t0, Alive.log_grows s x _ h0⟩
  | some ka =>
    have hu := (hK.tick (x.d 0)).tick (x.d 6)
    have hud : ((s.tick (x.d 0)).tick (x.d 6)).dead = false := hd
    have hf := Alive.first_wake hu hud (ka := ka) hka x.isIdle x.fires hidle (x.d 1) (x.d 2)
    have hv := hu.keepAlive' x.isIdle x.fires (x.d 1) (x.d 2) true
    obtain ⟨r, hr1, _, er, hr2, hr3⟩ := hu.read
    have hgr : er ∈ (s.poll x).log := Alive.log_grows s x er hr2
    have old : ∀ t, t ≤ ((s.tick (x.d 0)).tick (x.d 6)).lastReadAt.getD 0 + i → ∃ e ∈ (s.poll x).log, ∃ u, e.heard = some u ∧ t ≤ u + i := by
      intro t h; rw [hr1] at h; exact ⟨er, hgr, r, hr3, h⟩
    clear hgr
    unfold St.pollWake
    unfold St.poll at old ⊢
    simp only [hok] at old ⊢
    generalize hw : ((s.tick (x.d 0)).tick (x.d 6)).keepAliveWake x.isIdle x.fires = w at *
    generalize ((s.tick (x.d 0)).tick (x.d 6)).keepAlive x.isIdle x.fires (x.d 1) (x.d 2) true = v at *
    obtain ⟨k, hvk, hf⟩ := hf
    cases hps : v.pingSentAt with
    | none =>
      simp only [hps] at old ⊢
      rcases hf with ⟨_, h⟩ | ⟨_, h | ⟨h, h'⟩⟩
      · exact absurd hps h
      · exact .inr (.inl h)
      · exact .inr (.inr ⟨_, h, .inl (old _ h')⟩)
    | some ps =>
      simp only [hps] at old ⊢
      cases hpong : x.pong with
      | none =>
        simp only [hpong, hvk] at old ⊢
        rcases hf with ⟨h0, _⟩ | ⟨h0, h | ⟨h, h'⟩⟩
        · simp only [h0, if_true]
          refine .inr (.inr ⟨_, rfl, .inr ?_⟩)
          have := (hv.sent k hvk h0).1
          refine Nat.le_trans this ?_
          unfold St.onPending
          simp only [hvk]
          split <;> simp only [St.tick] <;> omega
        · simp only [h0, if_false]
          exact .inr (.inl h)
        · simp only [h0, if_false]
          exact .inr (.inr ⟨_, h, .inl (old _ h')⟩)
      | some b =>
        cases b with
        | false => exact absurd hpong hpo
        | true =>
          simp only [hpong] at old ⊢
          obtain ⟨r', q1, q2, _⟩ := (hv.tick (x.d 3)).read
          have hsec := Alive.second_wake (i := i) (t := ({ v.tick (x.d 3) with lastReadAt := some (v.tick (x.d 3)).clock, pingSentAt := none, log := (v.tick (x.d 3)).log ++ [Ev.pong (v.tick (x.d 3)).clock] } : Ping.St).tick (x.d 7))
            (k := k) (r := (v.tick (x.d 3)).clock) (n := x.d 7) hvk rfl rfl rfl hq (hv.cfg k hvk).1 (by
              intro a ha
              have := hv.sched k a hvk ha
              refine ⟨this.1, Nat.le_trans this.2 ?_⟩
              have e0 : v.lastReadAt = some r' := q1
              rw [e0]
              exact Nat.add_le_add_right q2 _) x.isIdle x.fires2 (by rw [(hv.cfg k hvk).2.2]; exact hidle)
          have eu : ({ (v.tick (x.d 3)).updateLastRead with pingSentAt := none, log := (v.tick (x.d 3)).log ++ [Ev.pong (v.tick (x.d 3)).clock] } : Ping.St) =
              { v.tick (x.d 3) with lastReadAt := some (v.tick (x.d 3)).clock, pingSentAt := none, log := (v.tick (x.d 3)).log ++ [Ev.pong (v.tick (x.d 3)).clock] } := by
            unfold St.updateLastRead
            simp only [q1]
          have hlog : Ev.pong (v.tick (x.d 3)).clock ∈ (v.onPong x (s.tick (x.d 0)).clock).log := by
            have kp : ∀ (t : Ping.St) (ok : Bool), ∀ e ∈ t.log, e ∈ (t.sendPing ok).log := by
              intro t ok e he
              unfold St.sendPing
              (repeat' split) <;> simp [he]
            have kk : ∀ (t : Ping.St) (a b : Bool) (d d' : Nat) (o : Bool), ∀ e ∈ t.log, e ∈ (t.keepAlive a b d d' o).log := by
              intro t a b d d' o e he
              unfold St.keepAlive St.maybePing
              (repeat' split) <;> first | exact he | (exact kp _ _ _ (by simp [St.tick, he]))
            have ks : ∀ (t : Ping.St) (a : Bool) (n : Nat), ∀ e ∈ t.log, e ∈ (t.sample a n).log := by
              intro t a n e he
              unfold St.sample
              (repeat' split) <;> simp [he]
            unfold St.onPong
            exact ks _ _ _ _ (kk _ _ _ _ _ _ _ (List.mem_append_right _ (List.mem_singleton.2 rfl)))
          rw [eu]
          rcases hsec with h | ⟨t, h, h'⟩
          · rw [h]; exact .inr (.inl rfl)
          · rw [h]; exact .inr (.inr ⟨t, rfl, .inl ⟨_, hlog, _, rfl, h'⟩⟩)

/-- C97 does not hold of an interval of zero: at the pong for a ping the next is sent, and nothing is left that would wake the task for its timeout. -/
theorem C97_sleeps :
    let s := (Ping.channel { bdpInitialWindow := none, interval := some 0, timeout := 5, whileIdle := true } 0).run [.poll { fires := true }]
    let x : Ping.In := { fires := true, fires2 := true, pong := some true }
    s.log = [.frame 0, .due 0, .ping 0] ∧ (s.poll x).log = [.frame 0, .due 0, .ping 0, .pong 0, .due 0, .ping 0] ∧ s.pollWake x = .none := by decide +kernel

/-- A history with a frame and a pong, then silence: the interval of 10 is over at 33, found at 35, the timeout of 5 at 41. -/
def exGone : List Ping.Act :=
  [.poll {}, .poll { d := fun n => if n = 0 then 10 else 0, fires := true }, .poll { d := fun n => if n = 0 then 3 else 0, pong := some true },
    .nonData 10]

example :
    let s := (Ping.channel { bdpInitialWindow := none, interval := some 10, timeout := 5, whileIdle := true } 0).run exGone
    let p : Nat → Ping.In := fun n => { d := fun k => if k = 0 then n else 0, fires := true, firesTimeout := true }
    s.log = [.frame 0, .due 10, .ping 10, .pong 13, .frame 23] ∧
      (s.run ([p 4, p 8, p 0, p 6].map .poll)).log = [.frame 0, .due 10, .ping 10, .pong 13, .frame 23, .due 35, .ping 35, .timedOut 41] := by decide +kernel

/-- The wakers on the way: for the interval, again as a frame came meanwhile, for the timeout. -/
example :
    let s := (Ping.channel { bdpInitialWindow := none, interval := some 10, timeout := 5, whileIdle := true } 0).run exGone
    let p : Nat → Ping.In := fun n => { d := fun k => if k = 0 then n else 0, fires := true, firesTimeout := true }
    (s.pollWake (p 0), (s.poll (p 0)).pollWake (p 0), ((s.poll (p 0)).poll (p 0)).pollWake (p 10)) = (.again, .at_ 33, .at_ 38) := by decide +kernel

end Hyper
