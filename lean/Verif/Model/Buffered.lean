import Verif.Model.Bytes

/-!
# The read buffer and its growth

`src/proto/h1/io.rs` (`Buffered`, `ReadStrategy`) and the quick completeness check of
`src/proto/h1/role.rs`.
-/

namespace Hyper

/-- `bytes.chunks(k).next() == Some(pat)` for `pat` of length `k` (used at role.rs 106, 112): the first `k` bytes, or as many as there are, equal `pat`. -/
def startsChunk (pat bs : Bytes) : Bool := bs.take pat.length == pat

/-- The loop of `is_complete_fast` (role.rs 104-116). -/
def scanComplete : Bytes → Bool
  | [] => false
  | b :: rest =>
    if b = CR then
      if startsChunk [LF, CR, LF] rest then true else scanComplete rest
    else if b = LF ∧ (rest.head? = some LF ∨ startsChunk [CR, LF] rest = true) then true
    else scanComplete rest

/-- `is_complete_fast` (role.rs 100-118).  `none` is the panic of `&bytes[start..]`. -/
def isCompleteFast (bytes : Bytes) (prevLen : Nat) : Option Bool :=
  if prevLen - 3 ≤ bytes.length then some (scanComplete (bytes.drop (prevLen - 3))) else none

/-- `usize::MAX` on a 64-bit target (Rust core). -/
def usizeMax : Nat := 2 ^ 64 - 1

/-- `INIT_BUFFER_SIZE`, also `MINIMUM_MAX_BUFFER_SIZE` (io.rs 15, 18). -/
def initBufferSize : Nat := 8192

/-- `ReadStrategy` (io.rs 366-376). -/
inductive ReadStrategy where
  | adaptive (decreaseNow : Bool) (next max : Nat)
  | exact (n : Nat)
  deriving DecidableEq, Repr

/-- `ReadStrategy::with_max` (io.rs 377-383). -/
def ReadStrategy.withMax (max : Nat) : ReadStrategy := .adaptive false initBufferSize max

/-- `ReadStrategy::next` (io.rs 385-391). -/
def ReadStrategy.next : ReadStrategy → Nat
  | .adaptive _ n _ => n
  | .exact n => n

/-- `ReadStrategy::max` (io.rs 393-399). -/
def ReadStrategy.max : ReadStrategy → Nat
  | .adaptive _ _ m => m
  | .exact n => n

/-- `incr_power_of_two` (io.rs 436-438), a saturating multiplication. -/
def incrPowerOfTwo (n : Nat) : Nat := min (n * 2) usizeMax

/-- `u64::leading_zeros` for `0 < n < 2^64` (Rust core). -/
def leadingZeros (n : Nat) : Nat := 63 - Nat.log2 n

/-- `prev_power_of_two` (io.rs 440-445).  The model is for `4 ≤ n`; below that the shift overflows
in Rust. -/
def prevPowerOfTwo (n : Nat) : Nat := usizeMax >>> (leadingZeros n + 2) + 1

/-- `ReadStrategy::record` (io.rs 401-433). -/
def ReadStrategy.record (s : ReadStrategy) (bytesRead : Nat) : ReadStrategy :=
  match s with
  | .adaptive decreaseNow next max =>
    if bytesRead ≥ next then .adaptive false (min (incrPowerOfTwo next) max) max
    else if bytesRead < prevPowerOfTwo next then
      if decreaseNow then .adaptive false (Max.max (prevPowerOfTwo next) initBufferSize) max
      else .adaptive true next max
    else .adaptive false next max
  | .exact n => .exact n

/-- The read side of `Buffered` (io.rs 32-40): `read_buf` with its capacity, `partial_len`,
`read_blocked`, `read_buf_strategy`. -/
structure ReadSide where
  buf : Bytes
  /-- `read_buf.capacity()`. -/
  cap : Nat
  partialLen : Option Nat
  blocked : Bool
  strategy : ReadStrategy
  deriving DecidableEq, Repr

/-- `BytesMut::reserve(additional)` (the `bytes` crate) as a function of length, capacity and
`additional`: the new capacity.  A parameter of the model, constrained where it is used by
`len + additional ≤ new capacity`. -/
abbrev Reserve := Nat → Nat → Nat → Nat

/-- What the transport has to say to one `poll_read`; data longer than the room offered is cut to the room
(`ReadBuf`, C37), and no data means end of file. -/
inductive IoRead where
  | data (bs : Bytes)
  | pending
  | error
  deriving DecidableEq, Repr

/-- The result of `poll_read_from_io`. -/
inductive ReadRes where
  | read (n : Nat)
  | pending
  | error
  deriving DecidableEq, Repr

/-- How much `poll_read_from_io` wants room for (io.rs 228-233). -/
def ReadSide.want (s : ReadSide) : Nat := min s.strategy.next (s.strategy.max - s.buf.length)

/-- The capacity after the reservation in `poll_read_from_io` (io.rs 234-236). -/
def ReadSide.room (grow : Reserve) (s : ReadSide) : Nat :=
  if s.cap - s.buf.length < s.want then grow s.buf.length s.cap s.want else s.cap

/-- `Buffered::poll_read_from_io` (io.rs 224-261). -/
def ReadSide.pollRead (grow : Reserve) (s : ReadSide) (io : IoRead) : ReadRes × ReadSide :=
  let cap := s.room grow
  match io with
  | .data bs =>
    let got := bs.take (cap - s.buf.length)
    (.read got.length, { s with buf := s.buf ++ got, cap := cap, blocked := false, strategy := s.strategy.record got.length })
  | .pending => (.pending, { s with cap := cap, blocked := true })
  | .error => (.error, { s with cap := cap, blocked := false })

/-- What `Http1Transaction::parse` gives for a buffer: nothing yet, a message, or an error, and what is
left of the buffer.  A parameter (`serverParse` and `clientParse` model the two instances). -/
abbrev HeadParser (M : Type) := Bytes → Except Unit (Option M) × Bytes

/-- How `Buffered::parse` can end. -/
inductive ParseEnd (M : Type) where
  | message (m : M)
  /-- `Error::new_too_large`. -/
  | tooLarge
  /-- `Error::new_incomplete`: end of file. -/
  | incomplete
  | io
  /-- An error of the head parser. -/
  | parse
  | pending
  /-- The slice in `is_complete_fast` is out of range. -/
  | panic
  deriving DecidableEq, Repr

/-- Result of `parse_headers`. -/
inductive HeadRes (M : Type) where
  | none
  | message (m : M)
  | error
  | panic
  deriving DecidableEq, Repr

/-- `S::parse` as a `HeadRes`. -/
def HeadRes.ofParser {M : Type} (r : Except Unit (Option M) × Bytes) : HeadRes M × Bytes :=
  match r with
  | (.ok (some m), b) => (.message m, b)
  | (.ok Option.none, b) => (.none, b)
  | (.error _, b) => (.error, b)

/-- `parse_headers` (role.rs 73-95). -/
def parseHeaders {M : Type} (P : HeadParser M) (bytes : Bytes) (prevLen : Option Nat) : HeadRes M × Bytes :=
  if bytes = [] then (.none, bytes)
  else
    match prevLen with
    | Option.none => HeadRes.ofParser (P bytes)
    | some n =>
      match isCompleteFast bytes n with
      | Option.none => (.panic, bytes)
      | some false => (.none, bytes)
      | some true => HeadRes.ofParser (P bytes)

/-- The buffer after the parser took a prefix of it and left `b`; `BytesMut::split_to` takes the
capacity of what it splits off along. -/
def ReadSide.leave (s : ReadSide) (b : Bytes) : ReadSide :=
  { s with buf := b, cap := s.cap - (s.buf.length - b.length) }

/-- The state in which `Buffered::parse` reads more after a fruitless parse (io.rs 207-213). -/
def ReadSide.setPartial (s : ReadSide) : ReadSide :=
  { s with partialLen := if s.buf.length > 0 then some s.buf.length else none }

/-- `Buffered::parse` (io.rs 174-222), one call: the loop runs until it returns; each turn takes one
answer of the transport from the list (an exhausted list is a transport with nothing to read). Gives the outcome, the
new state and the answers not consumed. -/
def ReadSide.parse {M : Type} (grow : Reserve) (P : HeadParser M) (s : ReadSide) :
    List IoRead → ParseEnd M × ReadSide × List IoRead
  | [] =>
    match parseHeaders P s.buf s.partialLen with
    | (.message m, b) => (.message m, { s.leave b with partialLen := none }, [])
    | (.error, b) => (.parse, s.leave b, [])
    | (.panic, b) => (.panic, s.leave b, [])
    | (.none, b) =>
      if b.length ≥ s.strategy.max then (.tooLarge, s.leave b, [])
      else (.pending, ((s.leave b).setPartial.pollRead grow .pending).2, [])
  | io :: rest =>
    match parseHeaders P s.buf s.partialLen with
    | (.message m, b) => (.message m, { s.leave b with partialLen := none }, io :: rest)
    | (.error, b) => (.parse, s.leave b, io :: rest)
    | (.panic, b) => (.panic, s.leave b, io :: rest)
    | (.none, b) =>
      if b.length ≥ s.strategy.max then (.tooLarge, s.leave b, io :: rest)
      else
        match (s.leave b).setPartial.pollRead grow io with
        | (.pending, s') => (.pending, s', rest)
        | (.error, s') => (.io, s', rest)
        | (.read 0, s') => (.incomplete, s', rest)
        | (.read (_ + 1), s') => s'.parse grow P rest

end Hyper
