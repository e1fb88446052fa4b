import Verif.Model.Inlet

/-!
# The callback for informational responses

`hyper::ext::on_informational` (`src/ext/informational.rs`) puts a callback into the extensions of a request.  The connection takes it
out when it writes the request's head, hands it to the parser of responses with every call, and drops it when a response's head has been
read.  Here the client connection of `Model/Inlet.lean` is run together with that callback.

A callback is named by the number of its request, and the heads given to it are collected.  What the callback does is the user's; it gets
a shared reference to the response (informational.rs 51-86).  `ffi/http_types.rs` 580-589 wraps a C function the same way.
-/

namespace Hyper

/-- Did a message come out? -/
def ParseOut.isMsg {α : Type} : ParseOut α → Bool
  | .msg _ => true
  | _ => false

/-- The heads `Client::parse` gives to the callback (role.rs 1184-1188). -/
def clientHints (cfg : ClientCfg) (Q : Bytes → RespParse) (method : Option Bytes) (bs : Bytes) : List RespHead :=
  (clientParse cfg Q method (bs.length + 1) bs []).informed

namespace Inlet

/-- The heads given to the callback by one call of `parse_headers` (role.rs 73-95), which may not get to the parser. -/
def hintsOnce (hints : Bytes → List RespHead) (x : Inlet) : List RespHead :=
  if x.rd.buf = [] then []
  else
    match x.partialLen with
    | none => hints x.rd.buf
    | some n => if isCompleteFast x.rd.buf n = some true then hints x.rd.buf else []

/-- The heads given to the callback by one call of `Buffered::parse` (io.rs 174-222), whose loop calls `parse_headers` in every turn. -/
def hintsLoop {α : Type} (parse : Bytes → Except ParseErr (Option α) × Bytes) (hints : Bytes → List RespHead) : Nat → Inlet → List RespHead
  | 0, _ => []
  | fuel + 1, x =>
    x.hintsOnce hints ++
      match x.attempt parse with
      | (.ok (some _), _) => []
      | (.error _, _) => []
      | (.ok none, b) =>
        if x.max ≤ b.length then []
        else
          match (x.leave b).rd.readIo.1 with
          | .ready (.ok (_ :: _)) => hintsLoop parse hints fuel (x.leave b).setPartial.pull
          | _ => []

end Inlet

/-- The request whose head this turn of `poll_write` writes, if any (dispatch.rs 356-383). -/
def Disp.takes (d : Disp) (i : WriteIn) : Option Nat :=
  match i.msg with
  | .req _ _ =>
    if d.conn.client && !d.done && !d.closing && !d.bodyRx && d.conn.canWriteHead && d.shouldPoll then some d.next else none
  | _ => none

/-- A client connection with its callback: `cb` is `State::on_informational` (conn.rs 957), as the number of the request it came with.
`calls` is not in the code: the calls made so far. -/
structure Hinted where
  fed : Fed ResponseMsg
  cb : Option Nat := none
  calls : List (Nat × RespHead) := []

namespace Hinted

/-- What one call of `Buffered::parse` gives to the callback, if there is one (role.rs 1185-1187). -/
def tell (s : Hinted) (cfg : ClientCfg) (Q : Bytes → RespParse) : List (Nat × RespHead) :=
  match s.cb with
  | some n =>
    (s.fed.inlet.hintsLoop ((clientHeads cfg Q).parse s.fed.disp.conn.method) (clientHints cfg Q s.fed.disp.conn.method)
      (s.fed.inlet.rd.net.length + 1)).map (fun h => (n, h))
  | none => []

/-- A turn of `poll_read`: when a head has been read, the callback is dropped (conn.rs 249, 287-291). -/
def read (env : EncodeEnv) (P : TrailerParser) (cfg : ClientCfg) (Q : Bytes → RespParse) (s : Hinted) (i : ReadIn) : Hinted :=
  if s.fed.disp.parses i then
    { fed := s.fed.read env P (clientHeads cfg Q) i,
      cb := if (s.fed.inlet.parse ((clientHeads cfg Q).parse s.fed.disp.conn.method)).1.isMsg then none else s.cb,
      calls := s.calls ++ s.tell cfg Q }
  else { s with fed := s.fed.read env P (clientHeads cfg Q) i }

/-- One act.  When a request's head is written, its callback, or none, takes the place of what was there (conn.rs 649-653).  `has` says
which requests come with a callback. -/
def step (env : EncodeEnv) (P : TrailerParser) (cfg : ClientCfg) (Q : Bytes → RespParse) (has : Nat → Bool) (s : Hinted) (a : FAct) : Hinted :=
  match a with
  | .act (.read i) => s.read env P cfg Q i
  | .act (.write i) =>
    { s with fed := s.fed.step env P (clientHeads cfg Q) (.act (.write i)),
             cb := match s.fed.disp.takes i with
                   | some n => if has n then some n else none
                   | none => s.cb }
  | a => { s with fed := s.fed.step env P (clientHeads cfg Q) a }

/-- A run. -/
def run (env : EncodeEnv) (P : TrailerParser) (cfg : ClientCfg) (Q : Bytes → RespParse) (has : Nat → Bool) (s : Hinted) (as : List FAct) :
    Hinted :=
  as.foldl (fun s a => s.step env P cfg Q has a) s

end Hinted

end Hyper
