import Verif.Model.Inlet
import Verif.Model.H1Upgrade

/-!
# Who waits for an HTTP/1 upgrade: `OnUpgrade`, `Pending` and the connection futures

A head that may upgrade the connection carries an `OnUpgrade` future, the receiver of a `oneshot` whose sender, the `Pending`, is kept by the
connection (src/upgrade.rs 115-126, src/proto/h1/conn.rs 1158-1162).  The futures are numbered in the order of their heads.
-/

namespace Hyper

/-- What an `OnUpgrade` future comes to (src/upgrade.rs 223-243): the connection, the error that says it is not upgraded here, or the error that
its sender is gone. -/
inductive UpAns where
  | handed
  | manual
  | canceled
  deriving DecidableEq, Repr

/-- What polling it gives.  The receiver of a `oneshot` panics when polled after it has given its value; `OnUpgrade` is `Clone`, and clones
share the receiver (src/upgrade.rs 71-74). -/
inductive UpPoll where
  | pending
  | ready (a : UpAns)
  | panics
  deriving DecidableEq, Repr

/-- What happens, for the specification: a head asks, a poll of the connection ends it, its future is dropped, an `OnUpgrade` is polled. -/
inductive UpEv where
  | asked
  | over (r : Dispatched)
  | gone
  | polled (k : Nat) (r : UpPoll)
  deriving DecidableEq, Repr

/-- The `oneshot` of an `OnUpgrade`: what its sender left, and whether it has been received. -/
structure UpCell where
  sent : Option UpAns := none
  taken : Bool := false
  deriving DecidableEq, Repr

/-- The future of a connection, and the `OnUpgrade`s it has given out. -/
structure UpConn where
  disp : Disp
  /-- Whether it is an `UpgradeableConnection`. -/
  upgradeable : Bool
  cells : List UpCell := []
  /-- `state.upgrade`. -/
  pend : Option Nat := none
  /-- Whether the connection is still there: neither dropped nor taken apart. -/
  here : Bool := true
  log : List UpEv := []

/-- `wants.contains(Wants::UPGRADE)` (src/proto/h1/dispatch.rs 322). -/
def HeadOut.wants : HeadOut → Bool
  | .msg m => m.wantsUpgrade
  | _ => false

/-- Whether this turn of `poll_read` reads a head that wants an upgrade (src/proto/h1/dispatch.rs 301-323). -/
def Disp.asks (env : EncodeEnv) (d : Disp) (i : ReadIn) : Bool :=
  d.parses i && (d.conn.pollReadHead env i.t0 i.t1 i.parse i.notify d.headId).1.wants

namespace UpConn

/-- `Pending::fulfill`, `Pending::manual` (src/upgrade.rs 258-271), or dropping it. -/
def send (c : UpConn) (a : UpAns) : UpConn :=
  match c.pend with
  | some k => { c with cells := c.cells.modify k (fun x => { x with sent := some a }), pend := none }
  | none => c

/-- `prepare_upgrade` (src/proto/h1/conn.rs 1158-1162): a new pair; the old sender is dropped by the assignment. -/
def ask (c : UpConn) : UpConn :=
  { c with cells := (c.send .canceled).cells ++ [{}], pend := some c.cells.length, log := c.log ++ [.asked] }

/-- The end of a poll: `pending_upgrade` and `take_error` (src/proto/h1/dispatch.rs 152-160), then `Connection::poll` or
`UpgradeableConnection::poll` (src/server/conn/http1.rs 217-234, 550-570, src/client/conn/http1.rs 325-339, 642-664). -/
def settle (c : UpConn) : UpConn :=
  if c.disp.isDone && c.disp.conn.upgrade then
    if c.disp.conn.error then c.send .canceled
    else if c.upgradeable then { c.send .handed with here := false }
    else c.send .manual
  else c

/-- The end of a poll. -/
def finish (env : EncodeEnv) (P : TrailerParser) (c : UpConn) (s : Bool) (f : FlushIn) : UpConn :=
  if c.disp.done then c
  else
    { c.settle with disp := c.disp.step env P (.finish s f),
                    log := if c.disp.result s f = .pending then c.log else c.log ++ [.over (c.disp.result s f)] }

/-- `OnUpgrade::poll` (src/upgrade.rs 223-243). -/
def poll (c : UpConn) (k : Nat) : UpConn :=
  match c.cells[k]? with
  | none => c
  | some x =>
    if x.taken then { c with log := c.log ++ [.polled k .panics] }
    else
      match x.sent with
      | none => { c with log := c.log ++ [.polled k .pending] }
      | some a => { c with cells := c.cells.modify k (fun x => { x with taken := true }), log := c.log ++ [.polled k (.ready a)] }

end UpConn

/-- Everything that can happen: an act of the connection, or a poll of the `k`-th `OnUpgrade` or one of its clones. -/
inductive UpAct where
  | act (a : Act)
  | poll (k : Nat)

namespace UpConn

/-- One act. -/
def step (env : EncodeEnv) (P : TrailerParser) (c : UpConn) (a : UpAct) : UpConn :=
  match a with
  | .poll k => c.poll k
  | .act a =>
    if !c.here then c
    else
      match a with
      | .read i =>
        if c.disp.asks env i then { c.ask with disp := c.disp.step env P (.read i) }
        else { c with disp := c.disp.step env P (.read i) }
      | .finish s f => c.finish env P s f
      | .drop => { c.send .canceled with disp := c.disp.step env P .drop, here := false, log := c.log ++ [.gone] }
      | a => { c with disp := c.disp.step env P a }

/-- A run. -/
def run (env : EncodeEnv) (P : TrailerParser) (c : UpConn) (as : List UpAct) : UpConn := as.foldl (fun c a => c.step env P a) c

end UpConn

end Hyper
