import Verif.Model.H2Ping

/-!
# Where keep-alive and the window probes of HTTP/2 panic

`Model/H2Ping.lean` takes a default where the code has `expect`, and adds durations to instants without a bound.  Here the functions that do so are written down once more with those
places: a function either gives what it gives there or names the place where it panics.  `top` is the last instant that can be represented: `Instant + Duration` panics beyond it.
-/

namespace Hyper

namespace Ping

/-- A place in ping.rs where it panics. -/
inductive Fault where
  /-- `expect("pong received implies ping_sent_at")` (ping.rs 283-285). -/
  | pong
  /-- `expect("bdp enabled implies bytes")` (ping.rs 297). -/
  | bytes
  /-- `expect("keep_alive expects last_read_at")` (ping.rs 356-358). -/
  | lastRead
  /-- An instant that cannot be represented (ping.rs 302, 452, 464, 476). -/
  | instant
  deriving DecidableEq, Repr

/-- `Instant + Duration`. -/
def addX (top t d : Nat) : Except Fault Nat := if t + d ≤ top then .ok (t + d) else .error .instant

namespace St

/-- `Shared::last_read_at` (ping.rs 356-358). -/
def lastReadX (s : St) : Except Fault Nat :=
  match s.lastReadAt with
  | some r => .ok r
  | none => .error .lastRead

/-- `KeepAlive::schedule` (ping.rs 451-455). -/
def scheduleX (top : Nat) (s : St) (ka : Ka) : Except Fault Ka := do
  let at_ ← addX top (← s.lastReadX) ka.interval
  return { ka with state := .scheduled at_, deadline := at_ }

/-- `KeepAlive::maybe_schedule` (ping.rs 432-449). -/
def maybeScheduleX (top : Nat) (s : St) (ka : Ka) (isIdle : Bool) : Except Fault Ka :=
  match ka.state with
  | .init => if ka.whileIdle = false ∧ isIdle = true then .ok ka else s.scheduleX top ka
  | .pingSent => if s.pingSentAt ≠ none then .ok ka else s.scheduleX top ka
  | .scheduled _ => .ok ka

/-- ping.rs 475-477. -/
def armX (top : Nat) (s : St) (ka : Ka) (d : Nat) : Except Fault St := do
  let deadline ← addX top (s.tick d).clock ka.timeout
  return { s.tick d with ka := some { ka with state := .pingSent, deadline := deadline } }

/-- `KeepAlive::maybe_ping` (ping.rs 457-481). -/
def maybePingX (top : Nat) (s : St) (ka : Ka) (isIdle fires : Bool) (d d' : Nat) (sendOk : Bool) : Except Fault St :=
  match ka.state with
  | .scheduled at_ =>
    if ¬ (fires = true ∧ ka.deadline ≤ s.clock) then .ok { s with ka := some ka }
    else do
      let next ← addX top (← s.lastReadX) ka.interval
      if at_ < next then return { s with ka := some { ka with state := .init } }
      else if ka.whileIdle = false ∧ isIdle = true then return { s with ka := some ka }
      else (({ s with log := s.log ++ [Ev.due s.clock] }.tick d).sendPing sendOk).armX top ka d'
  | .init => .ok { s with ka := some ka }
  | .pingSent => .ok { s with ka := some ka }

/-- `maybe_schedule` and `maybe_ping` (ping.rs 271-274, 292-293). -/
def keepAliveX (top : Nat) (s : St) (isIdle fires : Bool) (d d' : Nat) (sendOk : Bool) : Except Fault St :=
  match s.ka with
  | none => .ok s
  | some ka => do s.maybePingX top (← s.maybeScheduleX top ka isIdle) isIdle fires d d' sendOk

/-- The sample of the bandwidth (ping.rs 296-306). -/
def sampleX (top : Nat) (s : St) (slower : Bool) (now : Nat) : Except Fault St :=
  match s.bdp with
  | none => .ok s
  | some b =>
    match s.bytes with
    | none => .error .bytes
    | some n => do
      let r := b.calculate n slower
      let next ← addX top now r.1.pingDelay
      let s := { s with bytes := some 0, bdp := some r.1, nextBdpAt := some next }
      match r.2 with
      | none => return s
      | some w => return { s with log := s.log ++ [Ev.size w] }

/-- The part of `Ponger::poll` for a pong that arrived (ping.rs 282-307). -/
def onPongX (top : Nat) (s : St) (i : In) (now : Nat) : Except Fault St :=
  match s.pingSentAt with
  | none => .error .pong
  | some _ => do
    let s := s.tick (i.d 3)
    let s := { s.updateLastRead with pingSentAt := none, log := s.log ++ [Ev.pong s.clock] }
    let s ← (s.tick (i.d 7)).keepAliveX top i.isIdle i.fires2 (i.d 4) (i.d 5) i.sendOk2
    s.sampleX top i.slower now

/-- `Ponger::poll` (ping.rs 266-324). -/
def pollX (top : Nat) (s : St) (i : In) : Except Fault St := do
  let s := s.tick (i.d 0)
  let now := s.clock
  let s ← (s.tick (i.d 6)).keepAliveX top i.isIdle i.fires (i.d 1) (i.d 2) i.sendOk
  match s.pingSentAt with
  | none => return s
  | some _ =>
    match i.pong with
    | some true => s.onPongX top i now
    | some false => return s
    | none => return s.onPending i

/-- `record_data` and `record_non_data` (ping.rs 193-237) have no such place. -/
def stepX (top : Nat) (s : St) (a : Act) : Except Fault St :=
  match a with
  | .poll i => s.pollX top i
  | a => .ok (s.step a)

def runX (top : Nat) (s : St) : List Act → Except Fault St
  | [] => .ok s
  | a :: as => do (← s.stepX top a).runX top as

end St

end Ping

end Hyper
