import Verif.Model.Bytes

/-!
# `ReadBuf` (`src/rt/io.rs`) and `Rewind` (`src/common/io/rewind.rs`)
-/

namespace Hyper

/-- `ReadBuf` (rt/io.rs 167-171).  An uninitialised cell of `raw` is `none`. -/
structure ReadBuf where
  raw : List (Option Byte)
  filled : Nat
  init : Nat
  deriving DecidableEq, Repr

/-- `ReadBuf::new` (rt/io.rs 236-245): over initialised bytes. -/
def ReadBuf.new (raw : Bytes) : ReadBuf := ⟨raw.map some, 0, raw.length⟩

/-- `ReadBuf::uninit` (rt/io.rs 248-255): over bytes of which nothing is known; the worst case, all of them
uninitialised. -/
def ReadBuf.uninit (n : Nat) : ReadBuf := ⟨List.replicate n none, 0, 0⟩

/-- `ReadBuf::capacity` (rt/io.rs 307-310). -/
def ReadBuf.capacity (b : ReadBuf) : Nat := b.raw.length

/-- `ReadBuf::remaining`, `ReadBufCursor::remaining` (rt/io.rs 302-305, 351-353). -/
def ReadBuf.remaining (b : ReadBuf) : Nat := b.capacity - b.filled

/-- `ReadBuf::filled` (rt/io.rs 258-262); a cell that is not initialised would be undefined behaviour. -/
def ReadBuf.filledCells (b : ReadBuf) : List (Option Byte) := b.raw.take b.filled

/-- Overwrite cells from `pos` on. -/
def writeCells (raw : List (Option Byte)) (pos : Nat) (bs : List (Option Byte)) : List (Option Byte) :=
  raw.take pos ++ bs ++ raw.drop (pos + bs.length)

/-- The result of a method that may panic; the buffer is what can be seen afterwards (the cursor
borrows it, so it outlives the panic). -/
structure OrPanic (α : Type) where
  panicked : Bool
  val : α
  deriving DecidableEq, Repr

/-- `ReadBufCursor::put_slice` (rt/io.rs 362-384). -/
def ReadBuf.putSlice (b : ReadBuf) (src : Bytes) : OrPanic ReadBuf :=
  if b.remaining ≥ src.length then
    let e := b.filled + src.length
    ⟨false, ⟨writeCells b.raw b.filled (src.map some), e, if b.init < e then e else b.init⟩⟩
  else ⟨true, b⟩

/-- `ReadBufCursor::initialize_unfilled_to` (rt/io.rs 399-424): the buffer with `n` initialised bytes
after the filled ones; these are what the returned slice covers. -/
def ReadBuf.initializeUnfilledTo (b : ReadBuf) (n : Nat) : OrPanic ReadBuf :=
  if b.remaining ≥ n then
    let e := b.filled + n
    if b.init < e then ⟨false, { b with raw := writeCells b.raw b.init (List.replicate (e - b.init) (some 0)), init := e }⟩
    else ⟨false, b⟩
  else ⟨true, b⟩

/-- `ReadBufCursor::initialize_unfilled` (rt/io.rs 388-390). -/
def ReadBuf.initializeUnfilled (b : ReadBuf) : OrPanic ReadBuf := b.initializeUnfilledTo b.remaining

/-- The user writes through the slice `initialize_unfilled_to` returned: `src` of at most its length. -/
def ReadBuf.writeSlice (b : ReadBuf) (src : Bytes) : ReadBuf :=
  { b with raw := writeCells b.raw b.filled (src.map some) }

/-- `ReadBufCursor::advance` (rt/io.rs 341-344), unsafe: the caller promises that `n` more bytes are
initialised. -/
def ReadBuf.advance (b : ReadBuf) (n : Nat) : ReadBuf :=
  { b with filled := b.filled + n, init := max (b.filled + n) b.init }

/-- One answer of an inner transport to a read, see `Inner.pollRead`. -/
inductive InnerRead where
  | data (bs : Bytes)
  | pending
  | error
  deriving DecidableEq, Repr

/-- The result of a `poll_read`. -/
inductive PollIo where
  | ready
  | pending
  | error
  deriving DecidableEq, Repr

/-- An inner transport: what it has to say, in order; when that is exhausted it is at its end.  It puts as much as
fits of the data it has with `put_slice` and keeps the rest. -/
abbrev Inner := List InnerRead

/-- `poll_read` of the inner transport. -/
def Inner.pollRead (io : Inner) (b : ReadBuf) : PollIo × Inner × OrPanic ReadBuf :=
  match io with
  | [] => (.ready, [], ⟨false, b⟩)
  | .pending :: t => (.pending, t, ⟨false, b⟩)
  | .error :: t => (.error, t, ⟨false, b⟩)
  | .data bs :: t =>
    (.ready, if bs.length ≤ b.remaining then t else .data (bs.drop b.remaining) :: t, b.putSlice (bs.take b.remaining))

/-- `Rewind` (rewind.rs 11-14). -/
structure Rewind where
  pre : Option Bytes
  inner : Inner
  deriving DecidableEq, Repr

/-- `Rewind::new_buffered` (rewind.rs 29-34). -/
def Rewind.newBuffered (io : Inner) (buf : Bytes) : Rewind := ⟨some buf, io⟩

/-- `Rewind::into_inner` (rewind.rs 46-48). -/
def Rewind.intoInner (r : Rewind) : Inner × Bytes := (r.inner, r.pre.getD [])

/-- Reading from the inner transport (rewind.rs 75). -/
def Rewind.readInner (inner : Inner) (b : ReadBuf) : PollIo × Rewind × OrPanic ReadBuf :=
  ((inner.pollRead b).1, ⟨none, (inner.pollRead b).2.1⟩, (inner.pollRead b).2.2)

/-- `impl Read for Rewind` (rewind.rs 51-77). -/
def Rewind.pollRead (r : Rewind) (b : ReadBuf) : PollIo × Rewind × OrPanic ReadBuf :=
  match r.pre with
  | some p =>
    if p ≠ [] then
      let n := min p.length b.remaining
      (.ready, ⟨if p.drop n ≠ [] then some (p.drop n) else none, r.inner⟩, b.putSlice (p.take n))
    else Rewind.readInner r.inner b
  | none => Rewind.readInner r.inner b

end Hyper
