import Verif.Model.Bytes

/-!
# The reading half of a transport and `read_mem`

`src/proto/h1/io.rs`.  The transport is adversarial: it hands over the incoming byte stream in
segments of its choosing, may answer `Pending` any number of times in between, and after the last
segment either stays silent, reports end of file, or fails.
-/

namespace Hyper

/-- One answer of the transport to a read: `Poll::Pending`, or a non-empty segment
(`hyper::rt::Read::poll_read`, `src/rt/io.rs` 84-88; zero bytes means end of file and is
represented by `NetEnd.eof`). -/
inductive Seg where
  | pending
  | data (b : Byte) (bs : Bytes)
  deriving DecidableEq, Repr

/-- What the transport answers once all segments are delivered. -/
inductive NetEnd where
  /-- Nothing more ever arrives: every read is `Pending`. -/
  | silent
  /-- The peer closed its sending direction: every read returns zero bytes. -/
  | eof
  /-- The transport reports an I/O error. -/
  | err
  deriving DecidableEq, Repr

/-- The read half of `Buffered` (`src/proto/h1/io.rs` 32-40: `read_buf` and `io`). -/
structure Rd where
  /-- `read_buf`: bytes read from the transport and not yet consumed. -/
  buf : Bytes
  /-- The future answers of the transport. -/
  net : List Seg
  /-- What happens after the last segment. -/
  fin : NetEnd
  deriving DecidableEq, Repr

/-- I/O and decoding errors (`io::Error` values built in `src/proto/h1/decode.rs`). -/
inductive DErr where
  /-- Error reported by the transport itself. -/
  | io
  /-- decode.rs 258-259 "unexpected EOF during chunk size line". -/
  | eofInLine
  /-- `IncompleteBody` (decode.rs 161-164, 491-494). -/
  | incompleteBody
  /-- decode.rs 268-271 "invalid chunk size: overflow". -/
  | overflow
  /-- decode.rs 364-367. -/
  | missingSizeDigit
  /-- decode.rs 399-402. -/
  | invalidSize
  /-- decode.rs 417-420. -/
  | invalidLws
  /-- decode.rs 437-440. -/
  | extNewline
  /-- decode.rs 444-447. -/
  | extLimit
  /-- decode.rs 469-472. -/
  | invalidSizeLf
  /-- decode.rs 511-514. -/
  | invalidBodyCr
  /-- decode.rs 523-526. -/
  | invalidBodyLf
  /-- decode.rs 281-284. -/
  | trailerBytes
  /-- decode.rs 563-566. -/
  | trailerCount
  /-- decode.rs 578-581. -/
  | trailerLf
  /-- decode.rs 630-633. -/
  | endLf
  /-- Any error of `decode_trailers` (decode.rs 650-676). -/
  | badTrailers
  /-- `expect("trailers_buf is None")` (decode.rs 540, 571): a Rust panic. -/
  | panic
  deriving DecidableEq, Repr

/-- `Buffered::poll_read_from_io` (`src/proto/h1/io.rs` 224-261) seen from an empty `read_buf`:
one transport read, returning the bytes read (empty on end of file).
Simplified: how much room is offered to the transport is part of the adversary's choice of
segments (see `Model/Buffered.lean` for the read strategy). -/
def Rd.readIo (r : Rd) : Poll (Except DErr Bytes) × Rd :=
  match r.net with
  | .pending :: net => (.pending, { r with net := net })
  | .data b bs :: net => (.ready (.ok (b :: bs)), { r with net := net })
  | [] =>
    match r.fin with
    | .silent => (.pending, r)
    | .eof => (.ready (.ok []), r)
    | .err => (.ready (.error .io), r)

/-- `MemRead::read_mem` for `Buffered` (`src/proto/h1/io.rs` 354-362). -/
def Rd.readMem (r : Rd) (len : Nat) : Poll (Except DErr Bytes) × Rd :=
  if r.buf ≠ [] then
    let n := min len r.buf.length
    (.ready (.ok (r.buf.take n)), { r with buf := r.buf.drop n })
  else
    match r.readIo with
    | (.pending, r') => (.pending, r')
    | (.ready (.error e), r') => (.ready (.error e), r')
    | (.ready (.ok bs), r') =>
      let n := min len bs.length
      (.ready (.ok (bs.take n)), { r' with buf := bs.drop n })

/-- Bytes carried by a list of transport answers, in order. -/
def segBytes : List Seg → Bytes
  | [] => []
  | .pending :: t => segBytes t
  | .data b bs :: t => b :: bs ++ segBytes t

/-- The whole incoming byte stream, irrespective of how it is cut up. -/
def Rd.stream (r : Rd) : Bytes := r.buf ++ segBytes r.net

/-- An upper bound on the number of reads that make progress. -/
def Rd.size (r : Rd) : Nat := r.stream.length + r.net.length

end Hyper
