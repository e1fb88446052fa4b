import Verif.Model.Buf
import Verif.Model.Encode

/-!
# Encoded buffers: the `Buf` implementations of `src/proto/h1/encode.rs` and `src/proto/h2/mod.rs`

`Chain`, `Take`, `Cursor`, `&[u8]` and the default methods of `Buf` belong to the crate `bytes` and
are written down after its documentation.  How `Take` fills vectored slots differs between the versions of that crate
hyper accepts (`bytes = "1.2"` and later) and is a parameter.
-/

namespace Hyper

/-- The default `Buf::chunks_vectored` (crate `bytes`): one slot, with the first chunk. -/
def defaultVectored {β : Type} (remaining : β → Nat) (chunk : β → Bytes) (b : β) (k : Nat) : List Bytes :=
  if k = 0 then [] else if 0 < remaining b then [chunk b] else []

/-- `BufMut::put(self.take(n))` (crate `bytes`): a chunk at a time until `n` bytes are copied or nothing is left; the fuel is `n`: each
turn copies a byte or more unless a chunk is empty, in which case the real loop would not end. -/
def putTake {β : Type} (remaining : β → Nat) (chunk : β → Bytes) (advance : β → Nat → Option β) : Nat → β → Nat → Option (Bytes × β)
  | _, b, 0 => some ([], b)
  | 0, _, _ + 1 => none
  | fuel + 1, b, n + 1 =>
    if remaining b = 0 then some ([], b)
    else
      let s := (chunk b).take (n + 1)
      match advance b s.length with
      | none => none
      | some b' => (putTake remaining chunk advance fuel b' (n + 1 - s.length)).map (fun r => (s ++ r.1, r.2))

/-- The default `Buf::copy_to_bytes` (crate `bytes`): panics if so much is not there. -/
def defaultCopy {β : Type} (remaining : β → Nat) (chunk : β → Bytes) (advance : β → Nat → Option β) (b : β) (n : Nat) :
    Option (Bytes × β) :=
  if n ≤ remaining b then putTake remaining chunk advance n b n else none

/-- `impl Buf for Chain<T, U>` (crate `bytes`). -/
def chainBuf {α β : Type} (I : BufI α) (J : BufI β) : BufI (α × β) where
  remaining p := I.remaining p.1 + J.remaining p.2
  chunk p := if 0 < I.remaining p.1 then I.chunk p.1 else J.chunk p.2
  advance p n :=
    if I.remaining p.1 ≠ 0 ∧ n ≤ I.remaining p.1 then (I.advance p.1 n).map (fun a => (a, p.2))
    else if I.remaining p.1 ≠ 0 then
      match I.advance p.1 (I.remaining p.1) with
      | none => none
      | some a => (J.advance p.2 (n - I.remaining p.1)).map (fun b => (a, b))
    else (J.advance p.2 n).map (fun b => (p.1, b))
  vectored p k := I.vectored p.1 k ++ J.vectored p.2 (k - (I.vectored p.1 k).length)
  copyToBytes p n :=
    if n ≤ I.remaining p.1 then (I.copyToBytes p.1 n).map (fun r => (r.1, (r.2, p.2)))
    else if I.remaining p.1 = 0 then (J.copyToBytes p.2 n).map (fun r => (r.1, (p.1, r.2)))
    else if n - I.remaining p.1 ≤ J.remaining p.2 then
      match putTake I.remaining I.chunk I.advance (I.remaining p.1) p.1 (I.remaining p.1) with
      | none => none
      | some (s, a) =>
        (putTake J.remaining J.chunk J.advance (n - I.remaining p.1) p.2 (n - I.remaining p.1)).map (fun r => (s ++ r.1, (a, r.2)))
    else none

/-- How a `Take` of at most `n` bytes of a buffer fills `k` slots. -/
abbrev TakeVec (β : Type) := β → Nat → Nat → List Bytes

/-- `impl Buf for Take<T>` (crate `bytes`): the buffer and the limit. -/
def takeBuf {β : Type} (I : BufI β) (tv : TakeVec β) : BufI (β × Nat) where
  remaining p := min (I.remaining p.1) p.2
  chunk p := (I.chunk p.1).take (min (I.chunk p.1).length p.2)
  advance p n := if n ≤ p.2 then (I.advance p.1 n).map (fun b => (b, p.2 - n)) else none
  vectored p k := tv p.1 p.2 k
  copyToBytes p n :=
    if n ≤ min (I.remaining p.1) p.2 then (I.copyToBytes p.1 n).map (fun r => (r.1, (r.2, p.2 - n))) else none

/-- `Take::chunks_vectored` of the older versions of crate `bytes`: the default. -/
def takeVecDefault {β : Type} (I : BufI β) : TakeVec β := fun b n k =>
  defaultVectored (fun p : β × Nat => min (I.remaining p.1) p.2) (fun p => (I.chunk p.1).take (min (I.chunk p.1).length p.2)) (b, n) k

/-- Slots cut off after `n` bytes. -/
def cutSlots : Nat → List Bytes → List Bytes
  | _, [] => []
  | n, s :: t => if n = 0 then [] else if n ≤ s.length then [s.take n] else s :: cutSlots (n - s.length) t

/-- `Take::chunks_vectored` of the newer versions of crate `bytes` (which look at no more than 16 slots; not modelled). -/
def takeVecCut {β : Type} (I : BufI β) : TakeVec β := fun b n k => cutSlots n (I.vectored b k)

/-- `ChunkSize` (encode.rs 341-345): an array of `CHUNK_SIZE_MAX_BYTES + 2` bytes and two positions in it.  The positions are `u8`s; they never pass the end of the array. -/
structure ChunkSize where
  bytes : Bytes
  pos : Nat
  len : Nat
  deriving DecidableEq, Repr

/-- `<ChunkSize as fmt::Write>::write_str` (encode.rs 388-395): panics if the text does not fit. -/
def ChunkSize.writeStr (s : ChunkSize) (num : Bytes) : Option ChunkSize :=
  if num.length ≤ s.bytes.length - s.len then
    some { s with bytes := s.bytes.take s.len ++ num ++ s.bytes.drop (s.len + num.length), len := s.len + num.length }
  else none

/-- `ChunkSize::new` (encode.rs 348-357): `write!(size, "{len:X}\r\n")` writes the digits, then the end of the line. -/
def ChunkSize.new (len : Nat) : Option ChunkSize :=
  match (⟨List.replicate CHUNK_SIZE_ROOM 0, 0, 0⟩ : ChunkSize).writeStr (hexUpper len) with
  | none => none
  | some s => s.writeStr CRLF

/-- `ChunkSize::remaining` (encode.rs 362-364). -/
def ChunkSize.remaining (s : ChunkSize) : Nat := s.len - s.pos

/-- `ChunkSize::chunk` (encode.rs 367-369). -/
def ChunkSize.chunk (s : ChunkSize) : Bytes := (s.bytes.take s.len).drop s.pos

/-- `ChunkSize::advance` (encode.rs 372-375). -/
def ChunkSize.advance (s : ChunkSize) (cnt : Nat) : Option ChunkSize :=
  if cnt ≤ s.remaining then some { s with pos := s.pos + cnt } else none

/-- `impl Buf for ChunkSize` (encode.rs 360-376). -/
def chunkSizeBuf : BufI ChunkSize where
  remaining := ChunkSize.remaining
  chunk := ChunkSize.chunk
  advance := ChunkSize.advance
  vectored := defaultVectored ChunkSize.remaining ChunkSize.chunk
  copyToBytes := defaultCopy ChunkSize.remaining ChunkSize.chunk ChunkSize.advance

/-- `EncodedBuf` and its `BufKind` (encode.rs 28-30, 52-58); `StaticBuf` and `Bytes` are byte strings. -/
inductive EncodedBuf (β : Type) where
  | exact (b : β)
  | limited (p : β × Nat)
  | chunked (p : (ChunkSize × β) × Bytes)
  | chunkedEnd (b : Bytes)
  | trailers (p : (Bytes × Bytes) × Bytes)

/-- `Chain<Chain<ChunkSize, B>, StaticBuf>` (encode.rs 55). -/
def chunkedBuf {β : Type} (I : BufI β) : BufI ((ChunkSize × β) × Bytes) := chainBuf (chainBuf chunkSizeBuf I) bytesBuf

/-- `Chain<Chain<StaticBuf, Bytes>, StaticBuf>` (encode.rs 57). -/
def trailersBuf : BufI ((Bytes × Bytes) × Bytes) := chainBuf (chainBuf bytesBuf bytesBuf) bytesBuf

/-- `EncodedBuf::remaining` (encode.rs 287-295). -/
def EncodedBuf.remaining {β : Type} (I : BufI β) (tv : TakeVec β) : EncodedBuf β → Nat
  | .exact b => I.remaining b
  | .limited b => (takeBuf I tv).remaining b
  | .chunked b => (chunkedBuf I).remaining b
  | .chunkedEnd b => bytesBuf.remaining b
  | .trailers b => trailersBuf.remaining b

/-- `EncodedBuf::chunk` (encode.rs 298-306). -/
def EncodedBuf.chunk {β : Type} (I : BufI β) (tv : TakeVec β) : EncodedBuf β → Bytes
  | .exact b => I.chunk b
  | .limited b => (takeBuf I tv).chunk b
  | .chunked b => (chunkedBuf I).chunk b
  | .chunkedEnd b => bytesBuf.chunk b
  | .trailers b => trailersBuf.chunk b

/-- `EncodedBuf::advance` (encode.rs 309-317). -/
def EncodedBuf.advance {β : Type} (I : BufI β) (tv : TakeVec β) : EncodedBuf β → Nat → Option (EncodedBuf β)
  | .exact b, cnt => (I.advance b cnt).map .exact
  | .limited b, cnt => ((takeBuf I tv).advance b cnt).map .limited
  | .chunked b, cnt => ((chunkedBuf I).advance b cnt).map .chunked
  | .chunkedEnd b, cnt => (bytesBuf.advance b cnt).map .chunkedEnd
  | .trailers b, cnt => (trailersBuf.advance b cnt).map .trailers

/-- `EncodedBuf::chunks_vectored` (encode.rs 320-328). -/
def EncodedBuf.vectored {β : Type} (I : BufI β) (tv : TakeVec β) : EncodedBuf β → Nat → List Bytes
  | .exact b, k => I.vectored b k
  | .limited b, k => (takeBuf I tv).vectored b k
  | .chunked b, k => (chunkedBuf I).vectored b k
  | .chunkedEnd b, k => bytesBuf.vectored b k
  | .trailers b, k => trailersBuf.vectored b k

/-- `impl Buf for EncodedBuf` (encode.rs 282-329), with the default `copy_to_bytes`. -/
def encodedBuf {β : Type} (I : BufI β) (tv : TakeVec β) : BufI (EncodedBuf β) where
  remaining := EncodedBuf.remaining I tv
  chunk := EncodedBuf.chunk I tv
  advance := EncodedBuf.advance I tv
  vectored := EncodedBuf.vectored I tv
  copyToBytes := defaultCopy (EncodedBuf.remaining I tv) (EncodedBuf.chunk I tv) (EncodedBuf.advance I tv)

/-- `Encoder::encode` (encode.rs 128-161), with the buffer it makes; without its debug assertion.  `as usize` and `as u64` change nothing on a 64-bit target. -/
def Encoder.encodeBuf {β : Type} (I : BufI β) (e : Encoder) (msg : β) : Option (EncodedBuf β × Encoder) :=
  let len := I.remaining msg
  match e.kind with
  | .chunked _ =>
    match ChunkSize.new len with
    | none => none
    | some size => some (.chunked ((size, msg), CRLF), e)
  | .length remaining =>
    if len > remaining then some (.limited (msg, remaining), { e with kind := .length 0 })
    else some (.exact msg, { e with kind := .length (remaining - len) })
  | .closeDelimited => some (.exact msg, e)

/-- `Encoder::end` (encode.rs 116-126), with the buffer it makes. -/
def Encoder.finishBuf {β : Type} (e : Encoder) : Except Nat (Option (EncodedBuf β)) :=
  match e.kind with
  | .length 0 => .ok none
  | .chunked _ => .ok (some (.chunkedEnd (ascii "0\r\n\r\n")))
  | .closeDelimited => .ok none
  | .length n => .error n

/-- `Encoder::encode_trailers` (encode.rs 163-217), with the buffer it makes. -/
def Encoder.encodeTrailersBuf {β : Type} (e : Encoder) (trailers : HeaderMap) (title : Bool) : Option (EncodedBuf β) :=
  match e.kind with
  | .chunked (some allowed) =>
    match filterTrailers allowed none [] trailers.drain with
    | none => none
    | some kept =>
      let buf := if title then writeHeadersTitleCase kept else writeHeaders kept
      if buf = [] then none else some (.trailers ((ascii "0\r\n", buf), CRLF))
  | _ => none

/-- `Encoder::encode_and_end` (encode.rs 219-261), with the buffer handed to `dst.buffer` (through `From`, encode.rs 398-420). -/
def Encoder.encodeAndEndBuf {β : Type} (I : BufI β) (e : Encoder) (msg : β) : Option (EncodedBuf β × Bool) :=
  let len := I.remaining msg
  match e.kind with
  | .chunked _ =>
    match ChunkSize.new len with
    | none => none
    | some size => some (.chunked ((size, msg), ascii "\r\n0\r\n\r\n"), !e.isLast)
  | .length remaining =>
    if len = remaining then some (.exact msg, !e.isLast)
    else if len > remaining then some (.limited (msg, remaining), !e.isLast)
    else some (.exact msg, false)
  | .closeDelimited => some (.exact msg, false)

/-- `impl Buf for Cursor<Box<[u8]>>` (crate `bytes`): the bytes and the position. -/
def cursorBuf : BufI (Bytes × Nat) where
  remaining c := c.1.length - c.2
  chunk c := c.1.drop (min c.2 c.1.length)
  advance c n := if n ≤ c.1.length - c.2 then some (c.1, c.2 + n) else none
  vectored := defaultVectored (fun c => c.1.length - c.2) (fun c => c.1.drop (min c.2 c.1.length))
  copyToBytes := defaultCopy (fun c => c.1.length - c.2) (fun c => c.1.drop (min c.2 c.1.length))
    (fun c n => if n ≤ c.1.length - c.2 then some (c.1, c.2 + n) else none)

/-- `SendBuf` (`src/proto/h2/mod.rs` 288-292). -/
inductive SendBuf (β : Type) where
  | buf (b : β)
  | cursor (c : Bytes × Nat)
  | none

/-- `SendBuf::remaining` (mod.rs 296-302). -/
def SendBuf.remaining {β : Type} (I : BufI β) : SendBuf β → Nat
  | .buf b => I.remaining b
  | .cursor c => cursorBuf.remaining c
  | .none => 0

/-- `SendBuf::chunk` (mod.rs 305-311). -/
def SendBuf.chunk {β : Type} (I : BufI β) : SendBuf β → Bytes
  | .buf b => I.chunk b
  | .cursor c => cursorBuf.chunk c
  | .none => []

/-- `SendBuf::advance` (mod.rs 314-320): any count is taken by `None`. -/
def SendBuf.advance {β : Type} (I : BufI β) : SendBuf β → Nat → Option (SendBuf β)
  | .buf b, cnt => (I.advance b cnt).map .buf
  | .cursor c, cnt => (cursorBuf.advance c cnt).map .cursor
  | .none, _ => some .none

/-- `SendBuf::chunks_vectored` (mod.rs 322-328). -/
def SendBuf.vectored {β : Type} (I : BufI β) : SendBuf β → Nat → List Bytes
  | .buf b, k => I.vectored b k
  | .cursor c, k => cursorBuf.vectored c k
  | .none, _ => []

/-- `impl Buf for SendBuf` (mod.rs 294-329), with the default `copy_to_bytes`. -/
def sendBuf {β : Type} (I : BufI β) : BufI (SendBuf β) where
  remaining := SendBuf.remaining I
  chunk := SendBuf.chunk I
  advance := SendBuf.advance I
  vectored := SendBuf.vectored I
  copyToBytes := defaultCopy (SendBuf.remaining I) (SendBuf.chunk I) (SendBuf.advance I)

end Hyper
