import Verif.Model.Bytes

/-!
# `bytes::Buf` and `BufList`

`Buf` is a trait of the crate `bytes`; `BufList` is `src/common/buf.rs`.
-/

namespace Hyper

/-- The methods of `bytes::Buf` hyper uses.  `none` is a panic. -/
structure BufI (β : Type) where
  remaining : β → Nat
  chunk : β → Bytes
  advance : β → Nat → Option β
  /-- `chunks_vectored` for this many slots: the slots filled. -/
  vectored : β → Nat → List Bytes
  copyToBytes : β → Nat → Option (Bytes × β)

/-- `impl Buf for Bytes` (crate `bytes`). -/
def bytesBuf : BufI Bytes where
  remaining b := b.length
  chunk b := b
  advance b n := if n ≤ b.length then some (b.drop n) else none
  vectored b k := if k = 0 ∨ b = [] then [] else [b]
  copyToBytes b n := if n ≤ b.length then some (b.take n, b.drop n) else none

/-- `BufList` (buf.rs 6-8). -/
abbrev BufList (β : Type) := List β

/-- `BufList::push` (buf.rs 17-21), without its debug assertion. -/
def BufList.push {β : Type} (l : BufList β) (b : β) : BufList β := l ++ [b]

/-- `BufList::remaining` (buf.rs 31-33). -/
def BufList.remaining {β : Type} (I : BufI β) (l : BufList β) : Nat := (l.map I.remaining).sum

/-- `BufList::chunk` (buf.rs 36-38). -/
def BufList.chunk {β : Type} (I : BufI β) : BufList β → Bytes
  | [] => []
  | b :: _ => I.chunk b

/-- `BufList::advance` (buf.rs 41-57): the loop; `self.bufs[0]` panics on an empty list. -/
def BufList.advance {β : Type} (I : BufI β) : BufList β → Nat → Option (BufList β)
  | l, 0 => some l
  | [], _ + 1 => none
  | b :: t, n + 1 =>
    if I.remaining b > n + 1 then (I.advance b (n + 1)).map (fun b' => b' :: t)
    else
      match I.advance b (I.remaining b) with
      | some _ => BufList.advance I t (n + 1 - I.remaining b)
      | none => none

/-- The loop of `BufList::chunks_vectored` (buf.rs 64-70), with `room = dst.len() - vecs` slots left. -/
def BufList.vectoredLoop {β : Type} (I : BufI β) : BufList β → Nat → List Bytes
  | [], _ => []
  | b :: t, room =>
    let vs := I.vectored b room
    if vs.length = room then vs else vs ++ BufList.vectoredLoop I t (room - vs.length)

/-- `BufList::chunks_vectored` (buf.rs 59-71). -/
def BufList.vectored {β : Type} (I : BufI β) (l : BufList β) (k : Nat) : List Bytes :=
  if k = 0 then [] else BufList.vectoredLoop I l k

/-- `bm.put(self.take(len))` (crate `bytes`): takes a chunk at a time until `len` bytes are copied; the fuel is
`len`, each turn copies at least a byte unless a chunk is empty, in which case the real loop would not end. -/
def BufList.putTake {β : Type} (I : BufI β) : Nat → BufList β → Nat → Option (Bytes × BufList β)
  | _, l, 0 => some ([], l)
  | 0, _, _ + 1 => none
  | fuel + 1, l, n + 1 =>
    let s := (BufList.chunk I l).take (n + 1)
    match BufList.advance I l s.length with
    | none => none
    | some l' =>
      match BufList.putTake I fuel l' (n + 1 - s.length) with
      | none => none
      | some (rest, l'') => some (s ++ rest, l'')

/-- The last arm of `copy_to_bytes` (buf.rs 86-91). -/
def BufList.copySlow {β : Type} (I : BufI β) (l : BufList β) (n : Nat) : Option (Bytes × BufList β) :=
  if n ≤ BufList.remaining I l then BufList.putTake I n l n else none

/-- `BufList::copy_to_bytes` (buf.rs 74-91). -/
def BufList.copyToBytes {β : Type} (I : BufI β) (l : BufList β) (n : Nat) : Option (Bytes × BufList β) :=
  match l with
  | [] => BufList.copySlow I [] n
  | b :: t =>
    if I.remaining b = n then (I.copyToBytes b n).map (fun r => (r.1, t))
    else if I.remaining b > n then (I.copyToBytes b n).map (fun r => (r.1, r.2 :: t))
    else BufList.copySlow I (b :: t) n

/-- `impl Buf for BufList` (buf.rs 29-94). -/
def bufListBuf {β : Type} (I : BufI β) : BufI (BufList β) where
  remaining := BufList.remaining I
  chunk := BufList.chunk I
  advance := BufList.advance I
  vectored := BufList.vectored I
  copyToBytes := BufList.copyToBytes I

end Hyper
