import Verif.Model.Dispatch
import Verif.Model.Buffered
import Verif.Model.Decode
import Verif.Model.ClientParse

/-!
# A connection fed with bytes

`Model/Dispatch.lean` leaves what a parse or a read of a body finds to its inputs.  Here both come from one read buffer and one
transport (`Buffered`, `src/proto/h1/io.rs`), so that what one message leaves behind is what the next one begins with.

How much room a read offers to the transport is part of the adversary's choice of segments, as in `Model/Transport.lean`;
`Model/Buffered.lean` has the capacity and the read strategy.  Where the connection looks at the transport for other reasons
(`maybe_notify`, `force_io_read`: conn.rs 506-515, 535-559) the answer it gets stays an input of the act, and the bytes it may
find are put into the buffer by `FAct.pull`, at any time but only while the buffer is empty.
-/

namespace Hyper

/-- `S::parse` for a whole message (`Server::parse`, `Client::parse`; role.rs 120-380, 1028-1196): from the request method the
connection remembers and the buffer to nothing yet, a message or an error, and what is left of the buffer; `view` is what the connection
looks at in a message. -/
structure HeadFn (α : Type) where
  parse : Option Bytes → Bytes → Except ParseErr (Option α) × Bytes
  view : Option Bytes → α → MsgIn

/-- The read half of `Buffered` (io.rs 32-40) with its transport, `partial_len` and the limit of the read strategy. -/
structure Inlet where
  rd : Rd
  partialLen : Option Nat := none
  max : Nat
  deriving DecidableEq, Repr

namespace Inlet

/-- `parse_headers` (role.rs 73-95).  The panic of the quick check does not happen (C31). -/
def attempt {α : Type} (parse : Bytes → Except ParseErr (Option α) × Bytes) (x : Inlet) : Except ParseErr (Option α) × Bytes :=
  if x.rd.buf = [] then (.ok none, [])
  else
    match x.partialLen with
    | none => parse x.rd.buf
    | some n => if isCompleteFast x.rd.buf n = some true then parse x.rd.buf else (.ok none, x.rd.buf)

/-- Replacing the read buffer. -/
def leave (x : Inlet) (b : Bytes) : Inlet := { x with rd := { x.rd with buf := b } }

/-- After a fruitless parse (io.rs 206-213). -/
def setPartial (x : Inlet) : Inlet :=
  { x with partialLen := if x.rd.buf = [] then none else some x.rd.buf.length }

/-- One read of the transport into the buffer (`poll_read_from_io`, io.rs 224-261). -/
def pull (x : Inlet) : Inlet :=
  match x.rd.readIo with
  | (.ready (.ok bs), r) => { x with rd := { r with buf := x.rd.buf ++ bs } }
  | (_, r) => { x with rd := { r with buf := x.rd.buf } }

/-- Looking at the transport for another purpose than parsing and decoding: `require_empty_read`, `mid_message_detect_eof` and `maybe_notify`
read only while the buffer is empty (conn.rs 459-464, 491-495, 536-537). -/
def peek (x : Inlet) : Inlet := if x.rd.buf = [] then x.pull else x

end Inlet

/-- How `Buffered::parse` ends (io.rs 174-222): an error with the bytes left in the buffer. -/
inductive ParseOut (α : Type) where
  | pending
  | error (e : Option ParseErr)
  | msg (m : α)

namespace Inlet

/-- `Buffered::parse` (io.rs 174-222).  Every turn of the loop takes an answer of the transport; `fuel` above their number does not
run out. -/
def parseLoop {α : Type} (parse : Bytes → Except ParseErr (Option α) × Bytes) : Nat → Inlet → ParseOut α × Inlet
  | 0, x => (.pending, x)
  | fuel + 1, x =>
    match x.attempt parse with
    | (.ok (some m), b) => (.msg m, { x.leave b with partialLen := none })
    | (.error e, b) => (.error (some e), x.leave b)
    | (.ok none, b) =>
      if x.max ≤ b.length then (.error (some .tooLarge), x.leave b)
      else
        match (x.leave b).rd.readIo.1 with
        | .pending => (.pending, (x.leave b).setPartial.pull)
        | .ready (.error _) => (.error none, (x.leave b).setPartial.pull)
        | .ready (.ok []) => (.error none, (x.leave b).setPartial.pull)
        | .ready (.ok (_ :: _)) => parseLoop parse fuel (x.leave b).setPartial.pull

/-- One call of `Buffered::parse`. -/
def parse {α : Type} (p : Bytes → Except ParseErr (Option α) × Bytes) (x : Inlet) : ParseOut α × Inlet :=
  x.parseLoop p (x.rd.net.length + 1)

/-- `Buffered::consume_leading_lines` (io.rs 161-172). -/
def skipLines (bs : Bytes) : Bytes := bs.dropWhile (fun b => b == CR || b == LF)

/-- `H2_PREFACE` (conn.rs 30). -/
def h2Preface : Bytes := ascii "PRI * HTTP/2.0\r\n\r\nSM\r\n\r\n"

/-- `Conn::has_h2_prefix` (conn.rs 206-209). -/
def isH2 (bs : Bytes) : Bool := 24 ≤ bs.length && bs.take 24 == h2Preface

/-- What the connection sees of the outcome (conn.rs 236-271, 333-357). -/
def seen {α : Type} (view : α → MsgIn) (o : ParseOut α) (buf : Bytes) : ParseIn :=
  match o with
  | .pending => .pending
  | .error e => .error e (!(skipLines buf).isEmpty) (isH2 (skipLines buf))
  | .msg m => .msg (view m)

end Inlet

namespace Disp

/-- Whether this turn of `poll_read` gets to `Buffered::parse` (dispatch.rs 227-230, 301-311). -/
def parses (d : Disp) (i : ReadIn) : Bool :=
  !d.done && !d.closing && d.conn.canReadHead && (if d.conn.client then d.inFlight.isSome && i.ready else d.inFlight.isNone)

/-- The decoder of the body being read. -/
def decoder (d : Disp) : Option Decoder :=
  match d.conn.reading with
  | .body dec => some dec
  | .cont dec => some dec
  | _ => none

/-- The decoder this turn of `poll_read` gets to, if any (dispatch.rs 231-247, 859-866 of conn.rs). -/
def decodes (d : Disp) (i : ReadIn) : Option Decoder :=
  if d.done || d.closing || d.conn.canReadHead then none
  else
    match d.bodyTx with
    | none => none
    | some k =>
      match (d.chans[k]?).map Chan.want with
      | some .ready => if i.full then none else d.decoder
      | some .pending => none
      | _ => d.decoder

end Disp

/-- A message as the connection has read it so far: its number, the method remembered when its head was parsed, the head, the bytes
decoded from its body, its trailers, and whether it was read to its end. -/
structure Received (α : Type) where
  id : Nat
  method : Option Bytes
  head : α
  data : Bytes := []
  trailers : Option Fields := none
  whole : Bool
  deriving DecidableEq, Repr

/-- What a decoder yielded, added to the message. -/
def Received.add {α : Type} (r : Received α) (f : Poll (Except DErr Frame)) (eof : Bool) : Received α :=
  match f with
  | .ready (.ok (.trailers fs)) => { r with trailers := some fs, whole := true }
  | .ready (.ok (.data bs)) => { r with data := r.data ++ bs, whole := eof }
  | _ => r

/-- Changing the last element. -/
def onLast {β : Type} (f : β → β) : List β → List β
  | [] => []
  | [a] => [f a]
  | a :: b :: t => a :: onLast f (b :: t)

/-- A connection with its input.  `got` is not in the code: the messages read so far. -/
structure Fed (α : Type) where
  disp : Disp
  inlet : Inlet
  got : List (Received α) := []

/-- Everything that can happen to it: a read of the transport for another purpose than parsing or decoding, or an act of the connection. -/
inductive FAct where
  | pull
  | act (a : Act)

namespace Fed

/-- A turn of `poll_read` whose parse and whose body come from the inlet. -/
def readIn {α : Type} (H : HeadFn α) (f : Fed α) (i : ReadIn) : ReadIn :=
  { i with parse := Inlet.seen (H.view f.disp.conn.method) (f.inlet.parse (H.parse f.disp.conn.method)).1
                      (f.inlet.parse (H.parse f.disp.conn.method)).2.rd.buf,
           rd := f.inlet.rd }

/-- The message a parse gave. -/
def begin {α : Type} (H : HeadFn α) (f : Fed α) (o : ParseOut α) : List (Received α) :=
  match o with
  | .msg m => f.got ++ [{ id := f.disp.headId, method := f.disp.conn.method, head := m, whole := (H.view f.disp.conn.method m).decode == DecodedLength.ZERO }]
  | _ => f.got

/-- A turn of `poll_read`. -/
def read {α : Type} (env : EncodeEnv) (P : TrailerParser) (H : HeadFn α) (f : Fed α) (i : ReadIn) : Fed α :=
  if f.disp.parses i then
    { disp := f.disp.step env P (.read (f.readIn H i)),
      inlet := (f.inlet.parse (H.parse f.disp.conn.method)).2,
      got := f.begin H (f.inlet.parse (H.parse f.disp.conn.method)).1 }
  else
    match f.disp.decodes i with
    | some dec =>
      { disp := f.disp.step env P (.read (f.readIn H i)),
        inlet := { f.inlet with rd := (dec.decode P f.inlet.rd).2.2 },
        got := onLast (fun r => r.add (dec.decode P f.inlet.rd).1 (dec.decode P f.inlet.rd).2.1.isEof) f.got }
    | none => { f with disp := f.disp.step env P (.read (f.readIn H i)) }

/-- One act. -/
def step {α : Type} (env : EncodeEnv) (P : TrailerParser) (H : HeadFn α) (f : Fed α) (a : FAct) : Fed α :=
  match a with
  | .pull => { f with inlet := f.inlet.peek }
  | .act (.read i) => f.read env P H i
  | .act a => { f with disp := f.disp.step env P a }

/-- A run. -/
def run {α : Type} (env : EncodeEnv) (P : TrailerParser) (H : HeadFn α) (f : Fed α) (as : List FAct) : Fed α :=
  as.foldl (fun f a => f.step env P H a) f

end Fed

/-- What a connection looks at in a request (conn.rs 273-328). -/
def RequestMsg.seen (m : RequestMsg) : MsgIn :=
  { decode := m.decode, expect := m.expectContinue, keepAlive := m.keepAlive, wantsUpgrade := m.wantsUpgrade, version := m.version,
    method := some m.method, teTrailers := teIsTrailers m.headers }

/-- `Server::parse` (role.rs 146-380); `Q` is the tokeniser, which gives a head and its length, nothing yet, or an error. -/
def serverHeads (Q : Bytes → Except ParseErr (Option (RawRequest × Nat))) (methodOk uriOk : Bytes → Bool) (preserve : Bool) :
    HeadFn RequestMsg where
  parse _ bs :=
    match Q bs with
    | .error e => (.error e, bs)
    | .ok none => (.ok none, bs)
    | .ok (some (raw, n)) =>
      match serverParse methodOk uriOk preserve raw with
      | .error e => (.error e, bs.drop n)
      | .ok m => (.ok (some m), bs.drop n)
  view _ m := m.seen

/-- What a connection looks at in a response (conn.rs 273-328); the method stays. -/
def ResponseMsg.seen (method : Option Bytes) (m : ResponseMsg) : MsgIn :=
  { decode := m.decode, expect := false, keepAlive := m.keepAlive, wantsUpgrade := m.wantsUpgrade, version := m.head.version,
    method := method, teTrailers := teIsTrailers m.head.headers }

/-- `Client::parse` (role.rs 1028-1196). -/
def clientHeads (cfg : ClientCfg) (H : Bytes → RespParse) : HeadFn ResponseMsg where
  parse method bs := ((clientParse cfg H method (bs.length + 1) bs []).res, (clientParse cfg H method (bs.length + 1) bs []).buf)
  view := ResponseMsg.seen

end Hyper
