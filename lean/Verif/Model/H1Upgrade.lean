import Verif.Model.Dispatch

/-!
# Handing over an HTTP/1 connection: the end of `poll_inner` and `UpgradeableConnection`

`Disp.finishTurn` says what the end of a poll does to the connection; here is what it returns, and what becomes of the connection when an upgrade
is returned.
-/

namespace Hyper

/-- The result of `Dispatcher::poll_inner` (`Dispatched`, src/proto/mod.rs 65-71). -/
inductive Dispatched where
  | pending
  | shutdown
  | upgrade
  | error
  deriving DecidableEq, Repr

namespace Disp

/-- `take_error` at the end (dispatch.rs 154, 159). -/
def orError (d : Disp) (r : Dispatched) : Dispatched := if d.conn.error then .error else r

/-- What the end of a poll returns (dispatch.rs 152-163). -/
def result (d : Disp) (shutdown : Bool) (f : FlushIn) : Dispatched :=
  if !d.isDone then .pending
  else if d.conn.upgrade then d.orError .upgrade
  else if shutdown then
    if (d.conn.pollShutdown f).1 = .pending then .pending
    else if (d.conn.pollShutdown f).1 = .ok then d.orError .shutdown
    else .error
  else d.orError .shutdown

/-- `Buffered::into_inner` (src/proto/h1/io.rs 263-265) with which `UpgradeableConnection::poll` (src/server/conn/http1.rs 553-562,
src/client/conn/http1.rs 652-660) takes the transport back: the write buffer is dropped.  This is what is lost. -/
def dropped (d : Disp) : Nat := WriteBuf.remaining bytesBuf d.conn.out.wbuf

end Disp

end Hyper
