import Verif.Spec.Wire

/-!
# What a connection holds for writing

Counting only: how much waits for the transport, how much of it can be heads, and how much one frame of a body can become.
-/

namespace Hyper

namespace Backlog

open Wire (Piece isOut pieceOf)

/-- The bytes waiting for the transport. -/
def held (c : Conn) : Nat := (Spec.waiting id c.out.wbuf).length

/-- The pieces of body waiting for it. -/
def pieces (c : Conn) : Nat := c.out.wbuf.queue.length

/-- The head of a piece: all of a `100 Continue`. -/
def headOf : Piece → Bytes
  | .interim => Conn.continueLine
  | .message m => m.head

/-- The bytes of the heads an act puts on the wire. -/
def headBytes (env : EncodeEnv) (P : TrailerParser) (d : Disp) (a : Act) : Nat :=
  ((((d.step env P a).conn.log.drop d.conn.log.length).filter isOut).map fun ev => (headOf (pieceOf env d.conn a ev)).length).sum

/-- The bytes of the heads a run puts on the wire, counted anew whenever nothing waits; `h` counts those before it. -/
def heads (env : EncodeEnv) (P : TrailerParser) : Disp → Nat → List Act → Nat
  | _, h, [] => h
  | d, h, a :: as => heads env P (d.step env P a) (if held (d.step env P a).conn = 0 then 0 else h + headBytes env P d a) as

/-- The bytes of the largest head of a run. -/
def tallest (env : EncodeEnv) (P : TrailerParser) : Disp → List Act → Nat
  | _, [] => 0
  | d, a :: as => max (headBytes env P d a) (tallest env P (d.step env P a) as)

/-- What header fields take: name, colon and space, value, line end. -/
def fieldsCost (m : HeaderMap) : Nat := (m.fields.map fun f => f.1.length + f.2.length + 4).sum

/-- At most this a frame becomes: data has a size line before it, a line end behind it and may be followed by the last chunk; trailers stand between
the last chunk and an empty line. -/
def frameCost : UserFrame → Nat
  | .data bs _ => (hexUpper bs.length).length + 2 + bs.length + 7
  | .trailers m => 3 + fieldsCost m + 2
  | _ => 0

/-- The same for an act: it ends the body with a last chunk, or writes a frame. -/
def actCost : Act → Nat
  | .write ⟨_, .frame f, _, _⟩ => max 5 (frameCost f)
  | .write _ => 5
  | _ => 0

/-- A request read by the act has no body. -/
def bodyless : Act → Bool
  | .read ⟨_, _, _, .msg m, _, _, _, _, _, _⟩ => m.decode == DecodedLength.ZERO
  | _ => true

end Backlog

end Hyper
