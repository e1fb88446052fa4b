import Verif.Model.Conn

/-!
# Exchanges on one connection

What may happen on a connection, said of the history before each event.
-/

namespace Hyper.Spec

/-- How many message heads were read. -/
def readHeads (l : List Ev) : Nat := l.countP fun e => match e with | .readHead .. => true | _ => false

/-- How many messages were read to their end. -/
def readEnds (l : List Ev) : Nat := l.countP fun e => match e with | .readEnd => true | _ => false

/-- How many message heads were written. -/
def writeHeads (l : List Ev) : Nat := l.countP fun e => match e with | .writeHead .. => true | .errorHead => true | _ => false

/-- How many messages were written to their end. -/
def writeEnds (l : List Ev) : Nat := l.countP fun e => match e with | .writeEnd => true | _ => false

/-- `P` holds of every event and the history before it. -/
def Each (P : List Ev → Ev → Prop) (l : List Ev) : Prop := ∀ pre e post, l = pre ++ e :: post → P pre e

/-- A server reads request `n` when the `n` requests before it have been read to their end and the `n` responses before it have been
written to their end; it writes response `n` when request `n` is the last one read and the `n` responses before it have been
written to their end. -/
def ServerOrder (pre : List Ev) : Ev → Prop
  | .readHead n _ _ => readHeads pre = n ∧ readEnds pre = n ∧ writeHeads pre = n ∧ writeEnds pre = n
  | .writeHead n _ => readHeads pre = n + 1 ∧ writeHeads pre = n ∧ writeEnds pre = n
  | .errorHead => ∃ n, readHeads pre = n ∧ readEnds pre = n ∧ writeHeads pre = n ∧ writeEnds pre = n
  | .readEnd => readHeads pre = readEnds pre + 1
  | .writeEnd => writeHeads pre = writeEnds pre + 1
  | _ => True

/-- A client writes request `n` when the `n` requests and `n` responses before it are over; it reads response `n` when request `n` is
the last one written and the `n` responses before it have been read to their end. -/
def ClientOrder (pre : List Ev) : Ev → Prop
  | .writeHead n _ => writeHeads pre = n ∧ writeEnds pre = n ∧ readHeads pre = n ∧ readEnds pre = n
  | .readHead n _ _ => writeHeads pre = n + 1 ∧ readHeads pre = n ∧ readEnds pre = n
  | .readEnd => readHeads pre = readEnds pre + 1
  | .writeEnd => writeHeads pre = writeEnds pre + 1
  | .errorHead => False
  | _ => True

/-- A server reads no request after one that ends the connection, after a response that does, after the answer to an unparsable
request, or after reuse was switched off, but for the first request of the connection. -/
def ServerPersist (pre : List Ev) : Ev → Prop
  | .readHead .. => (∀ n x, .readHead n x false ∉ pre) ∧ (∀ n, .writeHead n true ∉ pre) ∧ .errorHead ∉ pre ∧ (.shutdown ∈ pre → readHeads pre = 0)
  | .writeHead .. => (∀ n, .writeHead n true ∉ pre) ∧ .errorHead ∉ pre
  | _ => True

/-- A client writes no request after a response that ends the connection, after a request that does, or after reuse was switched off,
but for the first request of the connection. -/
def ClientPersist (pre : List Ev) : Ev → Prop
  | .writeHead .. => (∀ n x, .readHead n x false ∉ pre) ∧ (∀ n, .writeHead n true ∉ pre) ∧ (.shutdown ∈ pre → writeHeads pre = 0)
  | _ => True

/-- Neither a head nor an interim response. -/
def Quiet : Ev → Prop
  | .readHead .. => False
  | .continue100 => False
  | .writeHead .. => False
  | .errorHead => False
  | _ => True

/-- `100 Continue` follows a request head that expects it, with no other head, read or written, and no other interim response in
between, and after the body was asked for. -/
def Continues (pre : List Ev) : Ev → Prop
  | .continue100 => ∃ a n p mid, pre = a ++ .readHead n true p :: mid ∧ (∀ e ∈ mid, Quiet e) ∧ .wanted n ∈ mid
  | _ => True

end Hyper.Spec
