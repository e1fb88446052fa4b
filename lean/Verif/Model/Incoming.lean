import Verif.Model.Dispatch

/-!
# `Incoming`: `src/body/incoming.rs`

The reader of a received body.  What an HTTP/1 body yields comes from the channel of `Model/Dispatch.lean`; what an HTTP/2 body yields
comes from the crate `h2` and is an input.
-/

namespace Hyper

/-- `Frame` and the ways in which `poll_frame` returns. -/
inductive FrameOut where
  | pending
  | data (bs : Bytes)
  | trailers (fs : Fields)
  | error
  | none
  /-- Underflow of the length (an overflow check that panics in debug builds). -/
  | panic
  deriving DecidableEq, Repr

/-- `http_body::SizeHint`: exact, or unknown (from 0, without upper bound). -/
inductive SizeHint where
  | exact (n : Nat)
  | unknown
  deriving DecidableEq, Repr

/-- `opt_len` (incoming.rs 305-311). -/
def optLen (len : DecodedLength) : SizeHint :=
  match len.intoOpt with
  | some n => .exact n
  | none => .unknown

/-- `Kind::Chan` (incoming.rs 59-64) as its reader sees it: `pos` counts what was taken from the data channel. -/
structure ChanBody where
  len : DecodedLength
  pos : Nat := 0
  /-- The trailers have been taken. -/
  taken : Bool := false
  deriving DecidableEq, Repr

namespace ChanBody

/-- `Incoming::new_channel` (incoming.rs 114-137): the reader's half. -/
def new (ch : Chan) : ChanBody := { len := ch.len }

/-- The `Kind::Chan` arm of `poll_frame` (incoming.rs 211-231), the channel being in state `ch`.  That data is asked for
(`want_tx.send`) is `Disp.want`. -/
def poll (b : ChanBody) (ch : Chan) : FrameOut × ChanBody :=
  match ch.items[b.pos]? with
  | some (.data bs) =>
    match b.len.subIf bs.length with
    | some len => (.data bs, { b with len := len, pos := b.pos + 1 })
    | none => (.panic, b)
  | some .error => (.error, { b with pos := b.pos + 1 })
  | none =>
    if ch.sender then (.pending, b)
    else if b.taken then (.none, b)
    else
      match ch.trailers with
      | some fs => (.trailers fs, { b with taken := true })
      | none => (.none, b)

/-- incoming.rs 292. -/
def isEndStream (b : ChanBody) : Bool := b.len == DecodedLength.ZERO

/-- incoming.rs 316. -/
def sizeHint (b : ChanBody) : SizeHint := optLen b.len

end ChanBody

/-- A connection and the reader of one of its bodies, with what the reader got. -/
structure Watched where
  disp : Disp
  body : ChanBody
  outs : List FrameOut := []

/-- An act of the connection, or a poll of the body. -/
inductive WAct where
  | conn (a : Act)
  | poll

namespace Watched

def step (env : EncodeEnv) (P : TrailerParser) (k : Nat) (w : Watched) (a : WAct) : Watched :=
  match a with
  | .conn a => { w with disp := w.disp.step env P a }
  | .poll =>
    match w.disp.chans[k]? with
    | some ch => { w with body := (w.body.poll ch).2, outs := w.outs ++ [(w.body.poll ch).1] }
    | none => w

def run (env : EncodeEnv) (P : TrailerParser) (k : Nat) (w : Watched) (as : List WAct) : Watched := as.foldl (step env P k) w

end Watched

/-- What `RecvStream::poll_data` and `poll_trailers` of the crate `h2` return; `noError` whether the reset is `NO_ERROR`. -/
inductive H2Data where
  | pending
  | data (bs : Bytes)
  | error (noError : Bool)
  | none
  deriving DecidableEq, Repr

inductive H2Trailers where
  | pending
  | ok (fs : Option Fields)
  | error (noError : Bool)
  deriving DecidableEq, Repr

/-- `Kind::H2` (incoming.rs 66-71). -/
structure H2Body where
  len : DecodedLength
  dataDone : Bool := false
  deriving DecidableEq, Repr

namespace H2Body

/-- `Incoming::h2` (incoming.rs 154-171); `eos` is `recv.is_end_stream()`. -/
def new (len : DecodedLength) (eos : Bool) : H2Body := { len := if !len.isExact && eos then DecodedLength.ZERO else len }

/-- The trailers part of `poll_frame` (incoming.rs 264-280). -/
def pollTrailers (b : H2Body) (t : H2Trailers) : FrameOut × H2Body :=
  match t with
  | .pending => (.pending, b)
  | .ok (some fs) => (.trailers fs, b)
  | .ok none => (.none, b)
  | .error true => (.none, b)
  | .error false => (.error, b)

/-- The `Kind::H2` arm of `poll_frame` (incoming.rs 233-281). -/
def poll (b : H2Body) (x : H2Data) (t : H2Trailers) : FrameOut × H2Body :=
  if b.dataDone then b.pollTrailers t
  else
    match x with
    | .pending => (.pending, b)
    | .data bs =>
      match b.len.subIf bs.length with
      | some len => (.data bs, { b with len := len })
      | none => (.panic, b)
    | .error true => (.none, b)
    | .error false => (.error, b)
    | .none => { b with dataDone := true }.pollTrailers t

/-- incoming.rs 318. -/
def sizeHint (b : H2Body) : SizeHint := optLen b.len

def run (b : H2Body) (xs : List (H2Data × H2Trailers)) : List FrameOut × H2Body :=
  xs.foldl (fun s x => (s.1 ++ [(s.2.poll x.1 x.2).1], (s.2.poll x.1 x.2).2)) ([], b)

end H2Body

end Hyper
