import Verif.Model.Buf
import Verif.Model.Buffered

/-!
# The write half of `Buffered` (`src/proto/h1/io.rs`)
-/

namespace Hyper

/-- `Cursor<Vec<u8>>` (io.rs 453-457). -/
structure Cursor where
  bytes : Bytes
  pos : Nat
  deriving DecidableEq, Repr

/-- `Cursor::new` (io.rs 461-463). -/
def Cursor.new (bs : Bytes) : Cursor := ⟨bs, 0⟩

/-- `Cursor::maybe_unshift` (io.rs 470-484).  Whether the vector has room is the allocator's business: a
parameter. -/
def Cursor.maybeUnshift (c : Cursor) (room : Bool) : Cursor :=
  if c.pos = 0 then c else if room then c else ⟨c.bytes.drop c.pos, 0⟩

/-- `Cursor::reset` (io.rs 485-488). -/
def Cursor.reset (_ : Cursor) : Cursor := ⟨[], 0⟩

/-- `Cursor::remaining` (io.rs 502-505). -/
def Cursor.remaining (c : Cursor) : Nat := c.bytes.length - c.pos

/-- `Cursor::chunk` (io.rs 507-510). -/
def Cursor.chunk (c : Cursor) : Bytes := c.bytes.drop c.pos

/-- `Cursor::advance` (io.rs 512-516), without its debug assertion. -/
def Cursor.advance (c : Cursor) (n : Nat) : Cursor := { c with pos := c.pos + n }

/-- `Buf::chunks_vectored` for a cursor: the default of the crate `bytes`. -/
def Cursor.vectored (c : Cursor) (k : Nat) : List Bytes :=
  if k = 0 then [] else if 0 < c.remaining then [c.chunk] else []

/-- `WriteStrategy` (io.rs 646-650). -/
inductive WriteStrategy where
  | flatten
  | queue
  deriving DecidableEq, Repr

/-- `WriteBuf` (io.rs 519-527). -/
structure WriteBuf (β : Type) where
  headers : Cursor
  maxBufSize : Nat
  queue : BufList β
  strategy : WriteStrategy
  deriving DecidableEq, Repr

/-- `DEFAULT_MAX_BUFFER_SIZE` (io.rs 23). -/
def defaultMaxBuf : Nat := 8192 + 4096 * 100

/-- `MAX_BUF_LIST_BUFFERS` (io.rs 30). -/
def maxBufListBuffers : Nat := 16

/-- `WriteBuf::new` (io.rs 529-538). -/
def WriteBuf.new {β : Type} (s : WriteStrategy) : WriteBuf β := ⟨Cursor.new [], defaultMaxBuf, [], s⟩

/-- The copying loop of `WriteBuf::buffer` (io.rs 560-571).  The fuel is one more than the buffer's bytes: running out of it
means that the loop would not end. -/
def extendLoop {β : Type} (I : BufI β) : Nat → β → Bytes → Option Bytes
  | 0, _, _ => none
  | fuel + 1, b, acc =>
    if I.chunk b = [] then some acc
    else
      match I.advance b (I.chunk b).length with
      | none => none
      | some b' => extendLoop I fuel b' (acc ++ I.chunk b)

/-- `WriteBuf::buffer` (io.rs 547-583); `none` is a panic.  The debug assertion of `headers_mut` is left out:
flattening never queues. -/
def WriteBuf.buffer {β : Type} (I : BufI β) (w : WriteBuf β) (room : Bool) (b : β) : Option (WriteBuf β) :=
  match w.strategy with
  | .flatten =>
    (extendLoop I (I.remaining b + 1) b (w.headers.maybeUnshift room).bytes).map fun bs =>
      { w with headers := { w.headers.maybeUnshift room with bytes := bs } }
  | .queue => some { w with queue := w.queue.push b }

/-- `WriteBuf::can_buffer` (io.rs 584-591). -/
def WriteBuf.canBuffer {β : Type} (I : BufI β) (w : WriteBuf β) : Bool :=
  match w.strategy with
  | .flatten => w.headers.remaining + BufList.remaining I w.queue < w.maxBufSize
  | .queue => decide (w.queue.length < maxBufListBuffers) && decide (w.headers.remaining + BufList.remaining I w.queue < w.maxBufSize)

/-- Appending to `headers_buf()` (io.rs 139-142, 593-596), without the debug assertion that the queue is
empty. -/
def WriteBuf.putHead {β : Type} (w : WriteBuf β) (bs : Bytes) : WriteBuf β :=
  { w with headers := { w.headers with bytes := w.headers.bytes ++ bs } }

/-- `Buffered::can_headers_buf` (io.rs 135-137). -/
def WriteBuf.canHeadersBuf {β : Type} (I : BufI β) (w : WriteBuf β) : Bool := BufList.remaining I w.queue == 0

/-- `WriteBuf::remaining` (io.rs 610-612). -/
def WriteBuf.remaining {β : Type} (I : BufI β) (w : WriteBuf β) : Nat := w.headers.remaining + BufList.remaining I w.queue

/-- `WriteBuf::chunk` (io.rs 615-622). -/
def WriteBuf.chunk {β : Type} (I : BufI β) (w : WriteBuf β) : Bytes :=
  if w.headers.chunk ≠ [] then w.headers.chunk else BufList.chunk I w.queue

/-- `WriteBuf::advance` (io.rs 625-637). -/
def WriteBuf.advance {β : Type} (I : BufI β) (w : WriteBuf β) (n : Nat) : Option (WriteBuf β) :=
  if w.headers.remaining = n then some { w with headers := w.headers.reset }
  else if w.headers.remaining > n then some { w with headers := w.headers.advance n }
  else (BufList.advance I w.queue (n - w.headers.remaining)).map fun q => { w with headers := w.headers.reset, queue := q }

/-- `WriteBuf::chunks_vectored` (io.rs 640-643). -/
def WriteBuf.vectored {β : Type} (I : BufI β) (w : WriteBuf β) (k : Nat) : List Bytes :=
  w.headers.vectored k ++ BufList.vectored I w.queue (k - (w.headers.vectored k).length)

/-- One answer of the transport to a write: at most this many of the bytes offered. -/
inductive IoWrite where
  | wrote (n : Nat)
  | pending
  | error
  deriving DecidableEq, Repr

/-- One answer of the transport to a flush or shutdown. -/
inductive IoFlush where
  | ok
  | pending
  | error
  deriving DecidableEq, Repr

/-- The write side of a transport: how it will answer, and what it has accepted.  A script that is used up
means pending for ever. -/
structure Sink where
  writes : List IoWrite
  flushes : List IoFlush
  sent : Bytes
  shut : Bool := false
  deriving DecidableEq, Repr

/-- How a flush ends. -/
inductive FlushRes where
  | ok
  | pending
  | error
  | writeZero
  | panic
  deriving DecidableEq, Repr

/-- The transport's own flush. -/
def Sink.flush (s : Sink) : FlushRes × Sink :=
  match s.flushes with
  | [] => (.pending, s)
  | .pending :: t => (.pending, { s with flushes := t })
  | .error :: t => (.error, { s with flushes := t })
  | .ok :: t => (.ok, { s with flushes := t })

/-- The transport's shutdown; what matters here is when it is called. -/
def Sink.shutdown (s : Sink) : FlushRes × Sink := ((s.flush).1, { s.flush.2 with shut := true })

/-- The state of a writing loop. -/
structure LoopRes (β : Type) where
  res : FlushRes
  wbuf : WriteBuf β
  writes : List IoWrite
  sent : Bytes
  deriving DecidableEq, Repr

/-- `MAX_WRITEV_BUFS` (io.rs 281). -/
def maxWritevBufs : Nat := 64

/-- The loop of `Buffered::poll_flush` (io.rs 282-302). -/
def flushQueue {β : Type} (I : BufI β) : List IoWrite → WriteBuf β → Bytes → LoopRes β
  | [], w, sent => ⟨.pending, w, [], sent⟩
  | .pending :: t, w, sent => ⟨.pending, w, t, sent⟩
  | .error :: t, w, sent => ⟨.error, w, t, sent⟩
  | .wrote n :: t, w, sent =>
    let offered := (WriteBuf.vectored I w maxWritevBufs).flatten
    let m := min n offered.length
    match WriteBuf.advance I w m with
    | none => ⟨.panic, w, t, sent ++ offered.take m⟩
    | some w' =>
      if WriteBuf.remaining I w' = 0 then ⟨.ok, w', t, sent ++ offered.take m⟩
      else if m = 0 then ⟨.writeZero, w', t, sent ++ offered.take m⟩
      else flushQueue I t w' (sent ++ offered.take m)

/-- The loop of `Buffered::poll_flush_flattened` (io.rs 311-328). -/
def flushFlat {β : Type} : List IoWrite → WriteBuf β → Bytes → LoopRes β
  | [], w, sent => ⟨.pending, w, [], sent⟩
  | .pending :: t, w, sent => ⟨.pending, w, t, sent⟩
  | .error :: t, w, sent => ⟨.error, w, t, sent⟩
  | .wrote n :: t, w, sent =>
    let offered := w.headers.chunk
    let m := min n offered.length
    let w' := { w with headers := w.headers.advance m }
    if w'.headers.remaining = 0 then ⟨.ok, { w' with headers := w'.headers.reset }, t, sent ++ offered.take m⟩
    else if m = 0 then ⟨.writeZero, w', t, sent ++ offered.take m⟩
    else flushFlat t w' (sent ++ offered.take m)

/-- The write half of `Buffered` and its transport. -/
structure WriteSide (β : Type) where
  wbuf : WriteBuf β
  flushPipeline : Bool
  sink : Sink
  deriving DecidableEq, Repr

/-- The end of a flush: the transport is flushed if the loop wrote everything (io.rs 303, 327). -/
def WriteSide.finish {β : Type} (s : WriteSide β) (l : LoopRes β) : FlushRes × WriteSide β :=
  let k := { s.sink with writes := l.writes, sent := l.sent }
  if l.res = .ok then (k.flush.1, { s with wbuf := l.wbuf, sink := k.flush.2 }) else (l.res, { s with wbuf := l.wbuf, sink := k })

/-- `Buffered::poll_flush` (io.rs 271-305); `readBuf` is the read buffer. -/
def WriteSide.pollFlush {β : Type} (I : BufI β) (s : WriteSide β) (readBuf : Bytes) : FlushRes × WriteSide β :=
  if s.flushPipeline ∧ readBuf ≠ [] then (.ok, s)
  else if WriteBuf.remaining I s.wbuf = 0 then (s.sink.flush.1, { s with sink := s.sink.flush.2 })
  else
    match s.wbuf.strategy with
    | .flatten => s.finish (flushFlat s.sink.writes s.wbuf s.sink.sent)
    | .queue => s.finish (flushQueue I s.sink.writes s.wbuf s.sink.sent)

/-- `Buffered::poll_shutdown` (io.rs 330-333). -/
def WriteSide.pollShutdown {β : Type} (I : BufI β) (s : WriteSide β) (readBuf : Bytes) : FlushRes × WriteSide β :=
  if (s.pollFlush I readBuf).1 = .ok then
    ((s.pollFlush I readBuf).2.sink.shutdown.1, { (s.pollFlush I readBuf).2 with sink := (s.pollFlush I readBuf).2.sink.shutdown.2 })
  else s.pollFlush I readBuf

/-- The start (`Buffered::new`, io.rs 59-75): the strategy depends on the transport. -/
def WriteSide.start {β : Type} (st : WriteStrategy) (flushPipeline : Bool) (sink : Sink) : WriteSide β :=
  ⟨WriteBuf.new st, flushPipeline, sink⟩

end Hyper
