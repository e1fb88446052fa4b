/-!
# `src/proto/h2/ping.rs`

Instants and durations are natural numbers (nanoseconds).  The clock is part of the state; every reading of it first lets it
advance by a number that the environment chooses, so readings never decrease.  The floating point numbers of `Bdp::calculate`
are used for one comparison only, whose outcome the environment chooses.  The `PingPong` of the `h2` crate has at most one ping in
flight: `send_ping` fails while one is, or when the connection is over, and then it fails for good; a pong is reported at most once
for a ping.  A `Sleep` that is
polled is ready only at or after its deadline.  `is_idle` is up to the environment.
-/

namespace Hyper

namespace Ping

/-- `BDP_LIMIT` (ping.rs 364). -/
def BDP_LIMIT : Nat := 1024 * 1024 * 16

/-- `Bdp` (ping.rs 140-153), without the floating point numbers. -/
structure Bdp where
  bdp : Nat
  /-- In nanoseconds. -/
  pingDelay : Nat := 100000000
  stableCount : Nat := 0
  deriving DecidableEq, Repr

namespace Bdp

/-- `stabilize_delay` (ping.rs 411-420). -/
def stabilize (b : Bdp) : Bdp :=
  if b.pingDelay < 10000000000 then
    if 2 ≤ b.stableCount + 1 then { b with pingDelay := b.pingDelay * 4, stableCount := 0 }
    else { b with stableCount := b.stableCount + 1 }
  else b

/-- `Bdp::calculate` (ping.rs 367-409); `slower` is `bw < self.max_bandwidth`.  `bytes * 2` is taken not to overflow. -/
def calculate (b : Bdp) (bytes : Nat) (slower : Bool) : Bdp × Option Nat :=
  if b.bdp = BDP_LIMIT then (b.stabilize, none)
  else if slower then (b.stabilize, none)
  else if b.bdp * 2 / 3 ≤ bytes then
    ({ bdp := min (bytes * 2) BDP_LIMIT, stableCount := 0, pingDelay := b.pingDelay / 2 }, some (min (bytes * 2) BDP_LIMIT))
  else (b.stabilize, none)

end Bdp

/-- `KeepAliveState` (ping.rs 168-172). -/
inductive KaState where
  | init
  | scheduled (at_ : Nat)
  | pingSent
  deriving DecidableEq, Repr

/-- `KeepAlive` (ping.rs 155-166); `deadline` is that of `sleep`. -/
structure Ka where
  interval : Nat
  timeout : Nat
  whileIdle : Bool
  state : KaState := .init
  deadline : Nat
  deriving DecidableEq, Repr

/-- What happened, with the time, in order. -/
inductive Ev where
  /-- A frame was recorded; the first is the start of the connection. -/
  | frame (t : Nat)
  /-- The keep-alive interval was found to be over. -/
  | due (t : Nat)
  | ping (t : Nat)
  | pong (t : Nat)
  /-- `Ponged::KeepAliveTimedOut` -/
  | timedOut (t : Nat)
  /-- `Ponged::SizeUpdate` -/
  | size (n : Nat)
  deriving DecidableEq, Repr

/-- `Shared` and `Ponger` (ping.rs 113-138). -/
structure St where
  clock : Nat
  bytes : Option Nat
  nextBdpAt : Option Nat
  lastReadAt : Option Nat
  isTimedOut : Bool := false
  pingSentAt : Option Nat := none
  /-- The connection takes no more pings. -/
  dead : Bool := false
  bdp : Option Bdp
  ka : Option Ka
  log : List Ev
  deriving DecidableEq, Repr

/-- `Config` (ping.rs 96-106). -/
structure Config where
  bdpInitialWindow : Option Nat
  interval : Option Nat
  timeout : Nat
  whileIdle : Bool
  deriving DecidableEq, Repr

/-- `channel` (ping.rs 41-94) at the time `now`; the sleep is reset before it is first polled. -/
def channel (c : Config) (now : Nat) : St :=
  { clock := now
    bdp := c.bdpInitialWindow.map (fun w => { bdp := w })
    bytes := c.bdpInitialWindow.map (fun _ => 0)
    nextBdpAt := c.bdpInitialWindow.map (fun _ => now)
    ka := c.interval.map (fun i => { interval := i, timeout := c.timeout, whileIdle := c.whileIdle, deadline := now + i })
    lastReadAt := c.interval.map (fun _ => now)
    log := [.frame now] }

/-- The environment's choices in one call. -/
structure In where
  /-- Advances of the clock before its readings, in order, and before the sleep is polled by `maybe_ping` (6 and 7). -/
  d : Nat → Nat := fun _ => 0
  isIdle : Bool := false
  /-- The first and the second poll of the sleep in this call find it ready, if it is due. -/
  fires : Bool := false
  fires2 : Bool := false
  /-- The sleep is found ready by `maybe_timeout`, if it is due. -/
  firesTimeout : Bool := false
  sendOk : Bool := true
  sendOk2 : Bool := true
  pong : Option Bool := none
  slower : Bool := false

namespace St

/-- `timer.now()`. -/
def tick (s : St) (d : Nat) : St := { s with clock := s.clock + d }

/-- `Recorder::ensure_not_timed_out` (ping.rs 250-260). -/
def ensureNotTimedOut (s : St) : Bool := !s.isTimedOut

/-- `Shared::update_last_read_at` (ping.rs 350-354). -/
def updateLastRead (s : St) : St :=
  match s.lastReadAt with
  | none => s
  | some _ => { s with lastReadAt := some s.clock }

/-- `Shared::send_ping` (ping.rs 334-344). -/
def sendPing (s : St) (ok : Bool) : St :=
  match s.pingSentAt with
  | some _ => s
  | none =>
    if ok = true ∧ s.dead = false then { s with pingSentAt := some s.clock, log := s.log ++ [Ev.ping s.clock] }
    else { s with dead := true }

/-- A frame arrived: the first part of `record_data` and `record_non_data` (ping.rs 193-202, 227-237). -/
def recordFrame (s : St) (d : Nat) : St :=
  let s := s.tick d
  { s.updateLastRead with log := s.log ++ [Ev.frame s.clock] }

/-- `locked.timer.now() < *next_bdp_at` (ping.rs 207-208). -/
def tooEarly (s : St) : Bool :=
  match s.nextBdpAt with
  | none => false
  | some at_ => decide (s.clock < at_)

/-- `record_data` after the frame is recorded (ping.rs 207-224). -/
def recordBytes (s : St) (len d d' : Nat) (sendOk : Bool) : St :=
  let s := s.tick d
  if s.tooEarly then s
  else
    match s.bytes with
    | none => { s with nextBdpAt := none }
    | some n => if s.pingSentAt = none then ({ s with nextBdpAt := none, bytes := some (n + len) }.tick d').sendPing sendOk
      else { s with nextBdpAt := none, bytes := some (n + len) }

/-- `KeepAlive::schedule` (ping.rs 451-455). -/
def schedule (s : St) (ka : Ka) : Ka :=
  let at_ := s.lastReadAt.getD 0 + ka.interval
  { ka with state := .scheduled at_, deadline := at_ }

/-- `KeepAlive::maybe_schedule` (ping.rs 432-449). -/
def maybeSchedule (s : St) (ka : Ka) (isIdle : Bool) : Ka :=
  match ka.state with
  | .init => if ka.whileIdle = false ∧ isIdle = true then ka else s.schedule ka
  | .pingSent => if s.pingSentAt ≠ none then ka else s.schedule ka
  | .scheduled _ => ka

/-- ping.rs 475-477. -/
def arm (s : St) (ka : Ka) (d : Nat) : St :=
  let s := s.tick d
  { s with ka := some { ka with state := .pingSent, deadline := s.clock + ka.timeout } }

/-- `KeepAlive::maybe_ping` (ping.rs 457-481): `d` before the ping, `d'` before the reading for the timeout. -/
def maybePing (s : St) (ka : Ka) (isIdle fires : Bool) (d d' : Nat) (sendOk : Bool) : St :=
  match ka.state with
  | .scheduled at_ =>
    if ¬ (fires = true ∧ ka.deadline ≤ s.clock) then { s with ka := some ka }
    else if at_ < s.lastReadAt.getD 0 + ka.interval then { s with ka := some { ka with state := .init } }
    else if ka.whileIdle = false ∧ isIdle = true then { s with ka := some ka }
    else (({ s with log := s.log ++ [Ev.due s.clock] }.tick d).sendPing sendOk).arm ka d'
  | .init => { s with ka := some ka }
  | .pingSent => { s with ka := some ka }

/-- `maybe_schedule` and `maybe_ping` (ping.rs 271-274, 292-293); the clock is that when the sleep is polled. -/
def keepAlive (s : St) (isIdle fires : Bool) (d d' : Nat) (sendOk : Bool) : St :=
  match s.ka with
  | none => s
  | some ka => s.maybePing (s.maybeSchedule ka isIdle) isIdle fires d d' sendOk

/-- The sample of the bandwidth (ping.rs 296-306). -/
def sample (s : St) (slower : Bool) (now : Nat) : St :=
  match s.bdp with
  | none => s
  | some b =>
    match b.calculate (s.bytes.getD 0) slower with
    | (b', none) => { s with bytes := some 0, bdp := some b', nextBdpAt := some (now + b'.pingDelay) }
    | (b', some w) => { s with bytes := some 0, bdp := some b', nextBdpAt := some (now + b'.pingDelay), log := s.log ++ [Ev.size w] }

/-- The part of `Ponger::poll` for a pong that arrived (ping.rs 282-307).  Without keep-alive there is no `last_read_at` to
update (ping.rs 290-291, 350-354). -/
def onPong (s : St) (i : In) (now : Nat) : St :=
  let s := s.tick (i.d 3)
  let s := { s.updateLastRead with pingSentAt := none, log := s.log ++ [Ev.pong s.clock] }
  ((s.tick (i.d 7)).keepAlive i.isIdle i.fires2 (i.d 4) (i.d 5) i.sendOk2).sample i.slower now

/-- The part of `Ponger::poll` without a pong: `maybe_timeout` (ping.rs 311-319, 483-494). -/
def onPending (s : St) (i : In) : St :=
  match s.ka with
  | none => s
  | some ka =>
    let s := s.tick (i.d 3)
    if ka.state = .pingSent ∧ i.firesTimeout = true ∧ ka.deadline ≤ s.clock then
      { s with ka := none, isTimedOut := true, log := s.log ++ [Ev.timedOut s.clock] }
    else s

/-- `Ponger::poll` (ping.rs 266-324). -/
def poll (s : St) (i : In) : St :=
  let s := s.tick (i.d 0)
  let now := s.clock
  let s := (s.tick (i.d 6)).keepAlive i.isIdle i.fires (i.d 1) (i.d 2) i.sendOk
  match s.pingSentAt with
  | none => s
  | some _ =>
    match i.pong with
    | some true => s.onPong i now
    | some false => s
    | none => s.onPending i

end St

/-- What will wake the task that polled: nothing it has seen to, itself at once (`wake_by_ref`), or its sleep. -/
inductive Wake where
  | none
  | again
  | at_ (t : Nat)
  deriving DecidableEq, Repr

namespace St

/-- The waker `KeepAlive::maybe_ping` leaves (ping.rs 457-481): a sleep that is polled and not ready will wake; one that is reset after it was ready, and not polled
again, will not. -/
def pingWake (s : St) (ka : Ka) (fires : Bool) : Wake :=
  match ka.state with
  | .scheduled at_ =>
    if ¬ (fires = true ∧ ka.deadline ≤ s.clock) then .at_ ka.deadline
    else if at_ < s.lastReadAt.getD 0 + ka.interval then .again
    else .none
  | .init => .none
  | .pingSent => .none

/-- `keepAlive`'s. -/
def keepAliveWake (s : St) (isIdle fires : Bool) : Wake :=
  match s.ka with
  | none => .none
  | some ka => s.pingWake (s.maybeSchedule ka isIdle) fires

/-- The waker `Ponger::poll` leaves for keep-alive (ping.rs 266-324), if it is pending. -/
def pollWake (s : St) (i : In) : Wake :=
  let s := (s.tick (i.d 0)).tick (i.d 6)
  let w := s.keepAliveWake i.isIdle i.fires
  let s := s.keepAlive i.isIdle i.fires (i.d 1) (i.d 2) i.sendOk
  match s.pingSentAt with
  | none => w
  | some _ =>
    match i.pong with
    | some true =>
      let s := s.tick (i.d 3)
      let s := { s.updateLastRead with pingSentAt := none, log := s.log ++ [Ev.pong s.clock] }
      match (s.tick (i.d 7)).keepAliveWake i.isIdle i.fires2 with
      | .none => if w = .again then .again else .none
      | w' => w'
    | some false => w
    | none =>
      match s.ka with
      | none => w
      | some ka => if ka.state = .pingSent then .at_ ka.deadline else w

end St

inductive Act where
  /-- `record_data` -/
  | data (len : Nat) (d d' d'' : Nat) (sendOk : Bool)
  /-- `record_non_data` -/
  | nonData (d : Nat)
  | poll (i : In)

def St.step (s : St) (a : Act) : St :=
  match a with
  | .data len d d' d'' ok => (s.recordFrame d).recordBytes len d' d'' ok
  | .nonData d => s.recordFrame d
  | .poll i => s.poll i

def St.run (s : St) (as : List Act) : St := as.foldl St.step s

end Ping

end Hyper
