import Verif.Model.Incoming

/-!
# The reader of an HTTP/2 body (`src/body/incoming.rs` 233-281) on a stream of the crate `h2`
-/

namespace Hyper

/-- What the crate `h2` has for the reader of a stream, in order: data; a moment at which there is nothing yet; trailers, with which the stream
ends; a reset (or a connection error), `noError` whether its reason is `NO_ERROR`.  At the end of the list the stream has ended. -/
inductive RecvEv where
  | data (bs : Bytes)
  | pending
  | trailers (fs : Fields)
  | reset (noError : Bool)
  deriving DecidableEq, Repr

/-- `RecvStream::poll_data` after its documentation: data as long as there is some; trailers are left. -/
def recvData : List RecvEv → H2Data × List RecvEv
  | .data bs :: t => (.data bs, t)
  | .pending :: t => (.pending, t)
  | .reset b :: t => (.error b, .reset b :: t)
  | l => (.none, l)

/-- `RecvStream::poll_trailers` after its documentation: not ready while there is data. -/
def recvTrailers : List RecvEv → H2Trailers × List RecvEv
  | .trailers fs :: t => (.ok (some fs), t)
  | .pending :: t => (.pending, t)
  | .reset b :: t => (.error b, .reset b :: t)
  | .data bs :: t => (.pending, .data bs :: t)
  | [] => (.ok none, [])

/-- What the recorder of pings is told (`Recorder::record_data`, `record_non_data`, ping.rs 193, 227). -/
inductive PingNote where
  | data (n : Nat)
  | nonData
  deriving DecidableEq, Repr

structure H2Reader where
  body : H2Body
  recv : List RecvEv
  /-- The arguments of `release_capacity`. -/
  released : List Nat := []
  notes : List PingNote := []
  outs : List FrameOut := []
  deriving DecidableEq, Repr

namespace H2Reader

/-- The trailers part (incoming.rs 264-280); the body has no more data. -/
def pollTrailers (r : H2Reader) (recv : List RecvEv) : H2Reader :=
  let t := recvTrailers recv
  { r with recv := t.2, body := (r.body.poll .none t.1).2, outs := r.outs ++ [(r.body.poll .none t.1).1],
           notes := match t.1 with
             | .ok _ => r.notes ++ [.nonData]
             | _ => r.notes }

/-- The `Kind::H2` arm of `poll_frame` (incoming.rs 233-281). -/
def poll (r : H2Reader) : H2Reader :=
  if r.body.dataDone then r.pollTrailers r.recv
  else
    match recvData r.recv with
    | (.data bs, recv) =>
      { r with recv := recv, body := (r.body.poll (.data bs) .pending).2, outs := r.outs ++ [(r.body.poll (.data bs) .pending).1],
               released := r.released ++ [bs.length], notes := r.notes ++ [.data bs.length] }
    | (.none, recv) => r.pollTrailers recv
    | (x, recv) => { r with recv := recv, body := (r.body.poll x .pending).2, outs := r.outs ++ [(r.body.poll x .pending).1] }

/-- `n` polls. -/
def polls (r : H2Reader) : Nat → H2Reader
  | 0 => r
  | n + 1 => (r.polls n).poll

/-- `Incoming::h2` (incoming.rs 154-171) on a stream. -/
def start (len : DecodedLength) (eos : Bool) (evs : List RecvEv) : H2Reader := { body := H2Body.new len eos, recv := evs }

end H2Reader

end Hyper
