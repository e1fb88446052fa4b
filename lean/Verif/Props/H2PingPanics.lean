import Verif.Props.H2Ping
import Verif.Model.H2PingPanics

/-!
# C98: nothing a peer sends makes HTTP/2's keep-alive and window probes panic
-/

namespace Hyper

open Ping

namespace PingPanics

/-- What keeps the `expect`s from failing; `i` and `w` are the interval and the timeout. -/
structure J (i w : Nat) (s : St) : Prop where
  read : s.ka ≠ none → ∃ r, s.lastReadAt = some r
  past : ∀ r, s.lastReadAt = some r → r ≤ s.clock
  cfg : ∀ ka, s.ka = some ka → ka.interval = i ∧ ka.timeout = w
  bytes : s.bdp ≠ none → ∃ n, s.bytes = some n
  delay : ∀ b, s.bdp = some b → b.pingDelay ≤ 40000000000

theorem J.tick {i w : Nat} {s : St} (h : J i w s) (d : Nat) : J i w (s.tick d) :=
  ⟨h.read, fun r e => Nat.le_trans (h.past r e) (Nat.le_add_right _ _), h.cfg, h.bytes, h.delay⟩

theorem J.note {i w : Nat} {s : St} (h : J i w s) (l : List Ev) : J i w { s with log := l } := ⟨h.read, h.past, h.cfg, h.bytes, h.delay⟩

theorem J.put {i w : Nat} {s : St} (h : J i w s) {ka : Ka} (hr : ∃ r, s.lastReadAt = some r) (hc : ka.interval = i ∧ ka.timeout = w) : J i w { s with ka := some ka } :=
  ⟨fun _ => hr, h.past, fun _ e => by cases e; exact hc, h.bytes, h.delay⟩

theorem J.updateLastRead {i w : Nat} {s : St} (h : J i w s) : J i w s.updateLastRead := by
  unfold St.updateLastRead
  split
  · exact h
  · refine ⟨fun _ => ⟨_, rfl⟩, fun r e => ?_, h.cfg, h.bytes, h.delay⟩
    cases e; exact Nat.le_refl _

theorem J.sendPing {i w : Nat} {s : St} (h : J i w s) (ok : Bool) : J i w (s.sendPing ok) := by
  unfold St.sendPing
  (repeat' split) <;> exact ⟨h.read, h.past, h.cfg, h.bytes, h.delay⟩

theorem sendPing_clock (s : St) (ok : Bool) : (s.sendPing ok).clock = s.clock := by
  unfold St.sendPing; (repeat' split) <;> rfl

theorem J.recordFrame {i w : Nat} {s : St} (h : J i w s) (d : Nat) : J i w (s.recordFrame d) := by
  unfold St.recordFrame
  exact (h.tick d).updateLastRead.note _

theorem J.recordBytes {i w : Nat} {s : St} (h : J i w s) (len d d' : Nat) (ok : Bool) : J i w (s.recordBytes len d d' ok) := by
  have h := h.tick d
  unfold St.recordBytes
  simp only
  split
  · exact h
  · cases hb : (s.tick d).bytes with
    | none =>
      simp only
      exact ⟨h.read, h.past, h.cfg, fun e => by rw [← hb]; exact h.bytes e, h.delay⟩
    | some n =>
      simp only
      have hj : J i w { s.tick d with nextBdpAt := none, bytes := some (n + len) } := ⟨h.read, h.past, h.cfg, fun _ => ⟨_, rfl⟩, h.delay⟩
      split
      · exact (hj.tick _).sendPing _
      · exact hj

/-- An instant that the code computes at the time `t` may be too late to be represented. -/
def Late (top i w t : Nat) : Prop := top < t + i ∨ top < t + w ∨ top < t + 40000000000

theorem Late.mono {top i w t t' : Nat} (h : Late top i w t) (ht : t ≤ t') : Late top i w t' := by
  unfold Late at *; omega

/-- What `Model/H2Ping` says, or an instant that cannot be represented. -/
def Res {α : Type} (top i w t : Nat) (x : Except Fault α) (m : α) : Prop := x = .ok m ∨ (x = .error .instant ∧ Late top i w t)

theorem Res.mono {α : Type} {top i w t t' : Nat} {x : Except Fault α} {m : α} (h : Res top i w t x m) (ht : t ≤ t') : Res top i w t' x m :=
  h.imp id (fun h => ⟨h.1, h.2.mono ht⟩)

theorem addX_cases (top t d : Nat) : addX top t d = .ok (t + d) ∨ (addX top t d = .error .instant ∧ top < t + d) := by
  unfold addX
  split
  · exact .inl rfl
  · exact .inr ⟨rfl, by omega⟩

theorem schedule_res {top i w : Nat} {s : St} (h : J i w s) {ka : Ka} (hk : s.ka = some ka) : Res top i w s.clock (s.scheduleX top ka) (s.schedule ka) := by
  obtain ⟨r, hr⟩ := h.read (by simp [hk])
  have := h.past r hr
  have e := (h.cfg ka hk).1
  unfold St.scheduleX St.schedule St.lastReadX
  simp only [hr, bind, Except.bind, Option.getD_some]
  rcases addX_cases top r ka.interval with ha | ⟨ha, hl⟩
  · rw [ha]; exact .inl rfl
  · rw [ha]; exact .inr ⟨rfl, .inl (by omega)⟩

theorem maybeSchedule_res {top i w : Nat} {s : St} (h : J i w s) {ka : Ka} (hk : s.ka = some ka) (idle : Bool) :
    Res top i w s.clock (s.maybeScheduleX top ka idle) (s.maybeSchedule ka idle) ∧ (s.maybeSchedule ka idle).interval = i ∧ (s.maybeSchedule ka idle).timeout = w := by
  have hc := h.cfg ka hk
  have hs := schedule_res (top := top) h hk
  unfold St.maybeScheduleX St.maybeSchedule
  cases ka.state with
  | init =>
    simp only
    split
    · exact ⟨.inl rfl, hc⟩
    · exact ⟨hs, hc⟩
  | pingSent =>
    simp only
    split
    · exact ⟨.inl rfl, hc⟩
    · exact ⟨hs, hc⟩
  | scheduled at_ => exact ⟨.inl rfl, hc⟩

/-- The clock does not run back. -/
theorem keepAlive_clock (s : St) (idle fires : Bool) (d d' : Nat) (ok : Bool) : s.clock ≤ (s.keepAlive idle fires d d' ok).clock := by
  unfold St.keepAlive St.maybePing
  (repeat' split) <;> simp [St.arm, St.tick, sendPing_clock] <;> omega

theorem maybePing_res {top i w : Nat} {s : St} (h : J i w s) {ka : Ka} (hr : ∃ r, s.lastReadAt = some r) (hc : ka.interval = i ∧ ka.timeout = w) (idle fires : Bool) (d d' : Nat) (ok : Bool) :
    Res top i w (s.maybePing ka idle fires d d' ok).clock (s.maybePingX top ka idle fires d d' ok) (s.maybePing ka idle fires d d' ok) ∧
    J i w (s.maybePing ka idle fires d d' ok) ∧ s.clock ≤ (s.maybePing ka idle fires d d' ok).clock := by
  obtain ⟨r, hr⟩ := hr
  have hp := h.past r hr
  obtain ⟨hc1, hc2⟩ := hc
  have hput : ∀ st : KaState, J i w { s with ka := some { ka with state := st } } := fun _ => h.put ⟨r, hr⟩ ⟨hc1, hc2⟩
  have hput0 : J i w { s with ka := some ka } := h.put ⟨r, hr⟩ ⟨hc1, hc2⟩
  unfold St.maybePingX St.maybePing
  cases hst : ka.state with
  | init => exact ⟨.inl rfl, hput0, Nat.le_refl _⟩
  | pingSent => exact ⟨.inl rfl, hput0, Nat.le_refl _⟩
  | scheduled at_ =>
    simp only
    split
    · exact ⟨.inl rfl, hput0, Nat.le_refl _⟩
    · have hlx : s.lastReadX = .ok r := by simp [St.lastReadX, hr]
      have hlr : s.lastReadAt.getD 0 = r := by rw [hr]; rfl
      simp only [hlx, hlr, bind, Except.bind]
      rcases addX_cases top r ka.interval with ha | ⟨ha, hl⟩
      · rw [ha]
        simp only
        split
        · exact ⟨.inl rfl, hput _, Nat.le_refl _⟩
        · split
          · exact ⟨.inl rfl, hput0, Nat.le_refl _⟩
          · have hj : J i w ((({ s with log := s.log ++ [Ev.due s.clock] }.tick d).sendPing ok).tick d') := (((h.note _).tick d).sendPing ok).tick d'
            have hl : ((({ s with log := s.log ++ [Ev.due s.clock] }.tick d).sendPing ok).tick d').lastReadAt = some r := by
              simp only [St.tick, sendPing_lastRead]; exact hr
            refine ⟨?_, hj.put ⟨r, hl⟩ ⟨hc1, hc2⟩, by simp [St.arm, St.tick, sendPing_clock]; omega⟩
            unfold St.armX St.arm
            simp only [bind, Except.bind]
            rcases addX_cases top ((({ s with log := s.log ++ [Ev.due s.clock] }.tick d).sendPing ok).tick d').clock ka.timeout with hb | ⟨hb, hm⟩
            · rw [hb]; exact .inl rfl
            · rw [hb]; exact .inr ⟨rfl, .inr (.inl (by rw [hc2] at hm; exact hm))⟩
      · rw [ha]
        simp only
        have hle : s.clock ≤ (s.maybePing ka idle fires d d' ok).clock := by
          unfold St.maybePing
          (repeat' split) <;> simp [St.arm, St.tick, sendPing_clock] <;> omega
        unfold St.maybePing at hle
        simp only [hst, hlr] at hle
        rw [if_neg (by assumption)] at hle
        refine ⟨.inr ⟨rfl, Late.mono (t := s.clock) (.inl (by omega)) hle⟩, ?_, hle⟩
        have hj : J i w ((({ s with log := s.log ++ [Ev.due s.clock] }.tick d).sendPing ok).tick d') := (((h.note _).tick d).sendPing ok).tick d'
        have hl : ((({ s with log := s.log ++ [Ev.due s.clock] }.tick d).sendPing ok).tick d').lastReadAt = some r := by
          simp only [St.tick, sendPing_lastRead]; exact hr
        (repeat' split)
        · exact hput _
        · exact hput0
        · exact hj.put ⟨r, hl⟩ ⟨hc1, hc2⟩

theorem keepAlive_res {top i w : Nat} {s : St} (h : J i w s) (idle fires : Bool) (d d' : Nat) (ok : Bool) :
    Res top i w (s.keepAlive idle fires d d' ok).clock (s.keepAliveX top idle fires d d' ok) (s.keepAlive idle fires d d' ok) ∧ J i w (s.keepAlive idle fires d d' ok) := by
  unfold St.keepAliveX St.keepAlive
  cases hk : s.ka with
  | none => exact ⟨.inl rfl, h⟩
  | some ka =>
    simp only [bind, Except.bind]
    obtain ⟨e, e1, e2⟩ := maybeSchedule_res (top := top) h hk idle
    obtain ⟨m1, m2, m3⟩ := maybePing_res (top := top) h (h.read (by simp [hk])) ⟨e1, e2⟩ idle fires d d' ok
    refine ⟨?_, m2⟩
    rcases e with e | ⟨e, l⟩
    · rw [e]; exact m1
    · rw [e]; exact .inr ⟨rfl, l.mono m3⟩

theorem sample_clock (s : St) (slower : Bool) (now : Nat) : (s.sample slower now).clock = s.clock := by
  unfold St.sample; (repeat' split) <;> rfl

theorem sample_res {top i w : Nat} {s : St} (h : J i w s) (slower : Bool) (now : Nat) :
    Res top i w now (s.sampleX top slower now) (s.sample slower now) ∧ J i w (s.sample slower now) := by
  unfold St.sampleX St.sample
  cases hb : s.bdp with
  | none => exact ⟨.inl rfl, h⟩
  | some b =>
    obtain ⟨n, hn⟩ := h.bytes (by simp [hb])
    have hd := C47_delay b (h.delay b hb) n slower
    simp only [hn, Option.getD_some]
    cases hcal : b.calculate n slower with
    | mk b' u =>
      rw [hcal] at hd
      simp only at hd
      have hj : ∀ l, J i w { s with bytes := some 0, bdp := some b', nextBdpAt := some (now + b'.pingDelay), log := l } := fun l =>
        ⟨h.read, h.past, h.cfg, fun _ => ⟨0, rfl⟩, fun b e => by cases e; exact hd⟩
      simp only [bind, Except.bind]
      rcases addX_cases top now b'.pingDelay with ha | ⟨ha, hl⟩
      · rw [ha]
        cases u with
        | none => exact ⟨.inl rfl, hj _⟩
        | some v => exact ⟨.inl rfl, hj _⟩
      · rw [ha]
        have hr : Late top i w now := .inr (.inr (by omega))
        cases u with
        | none => exact ⟨.inr ⟨rfl, hr⟩, hj _⟩
        | some v => exact ⟨.inr ⟨rfl, hr⟩, hj _⟩

theorem onPong_clock (s : St) (x : In) (now : Nat) : s.clock ≤ (s.onPong x now).clock := by
  unfold St.onPong
  simp only [sample_clock]
  refine Nat.le_trans ?_ (keepAlive_clock _ _ _ _ _ _)
  simp only [St.tick, St.updateLastRead]
  split <;> simp <;> omega

theorem onPong_res {top i w : Nat} {s : St} (h : J i w s) (hp : s.pingSentAt ≠ none) (x : In) (now : Nat) (hn : now ≤ s.clock) :
    Res top i w (s.onPong x now).clock (s.onPongX top x now) (s.onPong x now) ∧ J i w (s.onPong x now) := by
  have hle := onPong_clock s x now
  unfold St.onPongX
  unfold St.onPong at hle ⊢
  simp only [sample_clock] at hle ⊢
  split
  · rename_i e; exact absurd e hp
  · have hj := (h.tick (x.d 3)).updateLastRead
    have hj2 : J i w { (s.tick (x.d 3)).updateLastRead with pingSentAt := none, log := (s.tick (x.d 3)).log ++ [Ev.pong (s.tick (x.d 3)).clock] } :=
      ⟨hj.read, hj.past, hj.cfg, hj.bytes, hj.delay⟩
    obtain ⟨e, hk⟩ := keepAlive_res (top := top) (hj2.tick (x.d 7)) x.isIdle x.fires2 (x.d 4) (x.d 5) x.sendOk2
    obtain ⟨s1, s2⟩ := sample_res (top := top) hk x.slower now
    refine ⟨?_, s2⟩
    simp only [bind, Except.bind]
    rcases e with e | ⟨e, l⟩
    · rw [e]; exact s1.mono (Nat.le_trans hn hle)
    · rw [e]; exact .inr ⟨rfl, l⟩

theorem J.onPending {i w : Nat} {s : St} (h : J i w s) (x : In) : J i w (s.onPending x) := by
  unfold St.onPending
  split
  · exact h
  · have h := h.tick (x.d 3)
    simp only
    split
    · exact ⟨fun e => absurd rfl e, h.past, (fun _ e => by cases e), h.bytes, h.delay⟩
    · exact h

theorem onPending_clock (s : St) (x : In) : s.clock ≤ (s.onPending x).clock := by
  unfold St.onPending
  split
  · exact Nat.le_refl _
  · simp only
    split <;> simp [St.tick]

theorem poll_res {top i w : Nat} {s : St} (h : J i w s) (x : In) :
    Res top i w (s.poll x).clock (s.pollX top x) (s.poll x) ∧ J i w (s.poll x) := by
  have hc := keepAlive_clock ((s.tick (x.d 0)).tick (x.d 6)) x.isIdle x.fires (x.d 1) (x.d 2) x.sendOk
  obtain ⟨hk, hj⟩ := keepAlive_res (top := top) ((h.tick (x.d 0)).tick (x.d 6)) x.isIdle x.fires (x.d 1) (x.d 2) x.sendOk
  have hn : (s.tick (x.d 0)).clock ≤ ((s.tick (x.d 0)).tick (x.d 6)).clock := by simp [St.tick]
  unfold St.pollX St.poll
  simp only [bind, Except.bind]
  generalize ((s.tick (x.d 0)).tick (x.d 6)).keepAlive x.isIdle x.fires (x.d 1) (x.d 2) x.sendOk = k at *
  generalize ((s.tick (x.d 0)).tick (x.d 6)).keepAliveX top x.isIdle x.fires (x.d 1) (x.d 2) x.sendOk = kx at *
  have hpo := onPong_res (top := top) hj
  have ho := onPong_clock k x (s.tick (x.d 0)).clock
  have hq := onPending_clock k x
  rcases hk with rfl | ⟨rfl, l⟩
  · simp only
    cases hp : k.pingSentAt with
    | none => exact ⟨.inl rfl, hj⟩
    | some t0 =>
      cases hx : x.pong with
      | none => exact ⟨.inl rfl, hj.onPending x⟩
      | some b =>
        cases b with
        | false => exact ⟨.inl rfl, hj⟩
        | true => exact hpo (by simp [hp]) x _ (by omega)
  · simp only
    cases hp : k.pingSentAt with
    | none => exact ⟨.inr ⟨rfl, l⟩, hj⟩
    | some t0 =>
      cases hx : x.pong with
      | none => exact ⟨.inr ⟨rfl, l.mono hq⟩, hj.onPending x⟩
      | some b =>
        cases b with
        | false => exact ⟨.inr ⟨rfl, l⟩, hj⟩
        | true => exact ⟨.inr ⟨rfl, l.mono ho⟩, (hpo (by simp [hp]) x _ (by omega)).2⟩

theorem recordFrame_clock (s : St) (d : Nat) : s.clock ≤ (s.recordFrame d).clock := by
  unfold St.recordFrame St.updateLastRead
  simp only [St.tick]
  split <;> simp

theorem recordBytes_clock (s : St) (len d d' : Nat) (ok : Bool) : s.clock ≤ (s.recordBytes len d d' ok).clock := by
  unfold St.recordBytes
  simp only
  (repeat' split) <;> simp [St.tick, sendPing_clock] <;> omega

theorem poll_clock (s : St) (x : In) : s.clock ≤ (s.poll x).clock := by
  have hc := keepAlive_clock ((s.tick (x.d 0)).tick (x.d 6)) x.isIdle x.fires (x.d 1) (x.d 2) x.sendOk
  have hs : s.clock ≤ ((s.tick (x.d 0)).tick (x.d 6)).clock := by simp [St.tick]; omega
  have hs := Nat.le_trans hs hc
  unfold St.poll
  simp only
  (repeat' split)
  · exact hs
  · exact Nat.le_trans hs (onPong_clock _ _ _)
  · exact hs
  · exact Nat.le_trans hs (onPending_clock _ _)

theorem step_clock (s : St) (a : Act) : s.clock ≤ (s.step a).clock := by
  cases a with
  | data len d d' d'' ok => exact Nat.le_trans (recordFrame_clock _ _) (recordBytes_clock _ _ _ _ _)
  | nonData d => exact recordFrame_clock _ _
  | poll x => exact poll_clock s x

theorem run_clock (s : St) (as : List Act) : s.clock ≤ (s.run as).clock := by
  induction as generalizing s with
  | nil => exact Nat.le_refl _
  | cons a as ih => exact Nat.le_trans (step_clock s a) (ih (s.step a))

theorem step_res {top i w : Nat} {s : St} (h : J i w s) (a : Act) :
    Res top i w (s.step a).clock (s.stepX top a) (s.step a) ∧ J i w (s.step a) := by
  cases a with
  | data len d d' d'' ok => exact ⟨.inl rfl, (h.recordFrame d).recordBytes len d' d'' ok⟩
  | nonData d => exact ⟨.inl rfl, h.recordFrame d⟩
  | poll x => exact poll_res h x

theorem run_res {top i w : Nat} {s : St} (h : J i w s) (as : List Act) : Res top i w (s.run as).clock (s.runX top as) (s.run as) := by
  induction as generalizing s with
  | nil => exact .inl rfl
  | cons a as ih =>
    have hr : s.run (a :: as) = (s.step a).run as := rfl
    rw [hr]
    obtain ⟨e, j⟩ := step_res (top := top) h a
    simp only [St.runX, bind, Except.bind]
    rcases e with e | ⟨e, l⟩
    · rw [e]; exact ih j
    · rw [e]; exact .inr ⟨rfl, l.mono (run_clock _ as)⟩

theorem J.channel (c : Config) (now : Nat) : J (c.interval.getD 0) c.timeout (Ping.channel c now) := by
  refine ⟨?_, ?_, ?_, ?_, ?_⟩
  · intro h
    cases hi : c.interval with
    | none => simp [Ping.channel, hi] at h
    | some v => exact ⟨now, by simp [Ping.channel, hi]⟩
  · intro r e
    cases hi : c.interval with
    | none => simp [Ping.channel, hi] at e
    | some v => simp [Ping.channel, hi] at e; simp [Ping.channel, e]
  · intro ka e
    cases hi : c.interval with
    | none => simp [Ping.channel, hi] at e
    | some v => simp [Ping.channel, hi] at e; subst e; exact ⟨rfl, rfl⟩
  · intro h
    cases hi : c.bdpInitialWindow with
    | none => simp [Ping.channel, hi] at h
    | some v => exact ⟨0, by simp [Ping.channel, hi]⟩
  · intro b e
    cases hi : c.bdpInitialWindow with
    | none => simp [Ping.channel, hi] at e
    | some v => simp [Ping.channel, hi] at e; subst e; show 100000000 ≤ 40000000000; decide

end PingPanics

/-- C98: whatever arrives, whatever the acknowledgements and the clock say, keep-alive and the window probes do what `Model/H2Ping` says they do and do not panic, as long as the
time with the interval, the timeout, and the forty seconds between window probes added can be represented. -/
theorem C98_no_panic_partial (top : Nat) (c : Config) (now : Nat) (as : List Ping.Act)
    (hi : ((Ping.channel c now).run as).clock + c.interval.getD 0 ≤ top) (hw : ((Ping.channel c now).run as).clock + c.timeout ≤ top)
    (hb : ((Ping.channel c now).run as).clock + 40000000000 ≤ top) :
    (Ping.channel c now).runX top as = .ok ((Ping.channel c now).run as) := by
  rcases PingPanics.run_res (top := top) (PingPanics.J.channel c now) as with h | ⟨_, h⟩
  · exact h
  · unfold PingPanics.Late at h; omega

/-- Whatever the durations, none of the three `expect`s fails. -/
theorem C98_expects_hold (top : Nat) (c : Config) (now : Nat) (as : List Ping.Act) (f : Fault) (h : (Ping.channel c now).runX top as = .error f) : f = .instant := by
  rcases PingPanics.run_res (top := top) (PingPanics.J.channel c now) as with e | ⟨e, _⟩
  · rw [e] at h; cases h
  · rw [e] at h; cases h; rfl

/-- A timeout that cannot be represented, as `Duration::MAX`, is accepted, and the first ping panics: a peer that is silent for the interval brings it about. -/
theorem C98_timeout_too_long (top i w : Nat) (hi : i ≤ top) (hw : top < w) :
    (Ping.channel { bdpInitialWindow := none, interval := some i, timeout := w, whileIdle := true } 0).runX top
      [.poll { d := fun n => if n = 6 then i else 0, fires := true }] = .error .instant := by
  have h1 : addX top 0 i = .ok i := by simp [addX, hi]
  have h2 : addX top i w = .error .instant := by simp [addX]; omega
  simp [St.runX, St.stepX, St.pollX, Ping.channel, St.keepAliveX, St.tick, St.maybeScheduleX, St.scheduleX, St.lastReadX, St.maybePingX, St.armX, St.sendPing,
    bind, Except.bind, pure, Except.pure, h1, h2]

/-- So is such an interval, and then the first poll panics. -/
theorem C98_interval_too_long (top i w : Nat) (hi : top < i) :
    (Ping.channel { bdpInitialWindow := none, interval := some i, timeout := w, whileIdle := true } 0).runX top [.poll {}] = .error .instant := by
  have h1 : addX top 0 i = .error .instant := by simp [addX]; omega
  simp [St.runX, St.stepX, St.pollX, Ping.channel, St.keepAliveX, St.tick, St.maybeScheduleX, St.scheduleX, St.lastReadX, bind, Except.bind, h1]

/-- The hypotheses of C98 hold of a run that pings, is answered, and samples. -/
example : (Ping.channel { bdpInitialWindow := some 65535, interval := some 10, timeout := 5, whileIdle := true } 0).runX 100000000000
      [.data 70000 1 0 0 true, .poll { pong := some true, d := fun _ => 1 }] =
    .ok ((Ping.channel { bdpInitialWindow := some 65535, interval := some 10, timeout := 5, whileIdle := true } 0).run
      [.data 70000 1 0 0 true, .poll { pong := some true, d := fun _ => 1 }]) ∧
    Ev.size 140000 ∈ ((Ping.channel { bdpInitialWindow := some 65535, interval := some 10, timeout := 5, whileIdle := true } 0).run
      [.data 70000 1 0 0 true, .poll { pong := some true, d := fun _ => 1 }]).log :=
  ⟨C98_no_panic_partial _ _ _ _ (by decide +kernel) (by decide +kernel) (by decide +kernel), by decide +kernel⟩

end Hyper
