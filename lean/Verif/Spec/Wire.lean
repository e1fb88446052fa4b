import Verif.Model.Dispatch
import Verif.Props.WriteBuf

/-! # What a connection has to put on the wire -/

namespace Hyper.Wire

open Hyper.Spec (waiting)

/-- A message a connection has begun to write: what the log calls it, its head, how its body is framed, whether trailers may be
sent and names are capitalised, and the frames the user's body has yielded. -/
structure Message where
  ev : Ev
  head : Bytes
  framing : Writing
  trailers : Bool
  titleCase : Bool
  frames : List UserFrame := []

/-- Something put on the wire: `100 Continue`, or a message. -/
inductive Piece where
  | interim
  | message (m : Message)

/-- What the log calls it. -/
def Piece.ev : Piece → Ev
  | .interim => .continue100
  | .message m => m.ev

/-- The events that put something on the wire. -/
def isOut : Ev → Bool
  | .continue100 => true
  | .writeHead _ _ => true
  | .errorHead => true
  | _ => false

/-- The body of a message as it is written when the user's body yields `more` after what it has yielded so far, and then ends. -/
def Message.written (m : Message) (more : List UserFrame) : WriteRes := writeFrames m.trailers m.titleCase [] m.framing (m.frames ++ more)

/-- The bytes of a message whose user's body has ended. -/
def Message.bytes (m : Message) : Bytes := m.head ++ (m.written []).out

/-- The bytes of a piece. -/
def Piece.bytes : Piece → Bytes
  | .interim => Conn.continueLine
  | .message m => m.bytes

/-- A message that is complete, and after which the connection goes on. -/
def Piece.Whole : Piece → Prop
  | .interim => True
  | .message m => (m.written []).writing = .keepAlive ∧ (m.written []).result = .ok

/-- `body` is all that can be said of the body of `m` by now: it begins the body whatever the user's body yields further. -/
def Partly (m : Message) (body : Bytes) : Prop := ∀ more, body <+: (m.written more).out

/-- Everything given to the transport or waiting to be. -/
def wire (c : Conn) : Bytes := c.out.sink.sent ++ waiting id c.out.wbuf

/-- The message the service's response makes. -/
def respMessage (env : EncodeEnv) (c : Conn) (m : RespOut) (ev : Ev) : Message :=
  { ev := ev, head := (serverEncode env (c.respMsg m).2 []).1, framing := Writing.ofHead (serverEncode env (c.respMsg m).2 []).2,
    trailers := c.client || c.allowTrailers, titleCase := c.titleCase }

/-- The message the user's request makes; a panic of the encoder writes nothing. -/
def reqMessage (c : Conn) (h : ReqHead) (body : Option BodyLength) (ev : Ev) : Message :=
  match clientEncode c.titleCase (connReq c.version c.ka h).2 body [] with
  | some r => { ev := ev, head := r.1, framing := Writing.ofHead (.ok r.2), trailers := c.client || c.allowTrailers, titleCase := c.titleCase }
  | none => { ev := ev, head := [], framing := .closed, trailers := c.client || c.allowTrailers, titleCase := c.titleCase }

/-- The message made for a parse error: what reading the head gave. -/
def errMessage (env : EncodeEnv) (c : Conn) (i : ParseIn) (ev : Ev) : Message :=
  match i with
  | .error (some e) _ _ => respMessage env c.closeRead (Conn.errorResp ((serverOnError e).getD 0)) ev
  | _ => { ev := ev, head := [], framing := .closed, trailers := false, titleCase := false }

/-- The piece an event stands for. -/
def pieceOf (env : EncodeEnv) (c : Conn) (a : Act) (ev : Ev) : Piece :=
  match ev with
  | .continue100 => .interim
  | _ =>
    match a with
    | .write ⟨.resp m, _, _, _⟩ => .message (respMessage env c m ev)
    | .write ⟨.req h body, _, _, _⟩ => .message (reqMessage c h body ev)
    | .read i => .message (errMessage env c i.parse ev)
    | _ => .interim

/-- Whether a turn of writing polls the user's body. -/
def polls (d : Disp) : Bool := !d.done && !d.closing && d.bodyRx && d.conn.canBufferBody && d.conn.canWriteBody

/-- Adding a frame to the last message. -/
def addFrame (f : UserFrame) : List Piece → List Piece
  | [] => []
  | [.message m] => [.message { m with frames := m.frames ++ [f] }]
  | p :: ps => p :: addFrame f ps

/-- The frame an act gets from the user's body. -/
def frameOf (d : Disp) : Act → Option UserFrame
  | .write ⟨_, .frame f, _, _⟩ => if polls d then some f else none
  | _ => none

/-- What an act adds to the story: a piece for each new event that puts one on the wire, or a frame of the current message. -/
def record (env : EncodeEnv) (P : TrailerParser) (d : Disp) (a : Act) (st : List Piece) : List Piece :=
  match frameOf d a with
  | some f => addFrame f st
  | none => st ++ (((d.step env P a).conn.log.drop d.conn.log.length).filter isOut).map (pieceOf env d.conn a)

/-- The story of a run. -/
def story (env : EncodeEnv) (P : TrailerParser) : Disp → List Piece → List Act → List Piece
  | _, st, [] => st
  | d, st, a :: as => story env P (d.step env P a) (record env P d a st) as

/-- Heads that a server's connection puts in the buffer on its own, without asking whether the queue has drained, meet a drained queue. -/
def Gated (env : EncodeEnv) (P : TrailerParser) : Disp → List Act → Prop
  | _, [] => True
  | d, a :: as =>
    ((∃ i, a = .read i) → d.conn.client = false → d.conn.writing = .init → WriteBuf.canHeadersBuf bytesBuf d.conn.out.wbuf = true) ∧ Gated env P (d.step env P a) as

end Hyper.Wire
