import Verif.Model.Bytes

/-!
# The chunked transfer coding, as a grammar

Written from RFC 9112 section 7.1 with the reader's documented leniencies
(blanks after the size; trailer lines are only split, not parsed).  Independent of the decoder.
-/

namespace Hyper.Spec

/-- A hexadecimal digit `0-9 a-f A-F`. -/
def IsHex (b : Byte) : Prop :=
  (48 ≤ b.toNat ∧ b.toNat ≤ 57) ∨ (97 ≤ b.toNat ∧ b.toNat ≤ 102) ∨ (65 ≤ b.toNat ∧ b.toNat ≤ 70)

/-- The value of a hexadecimal digit. -/
def hexDigit (b : Byte) : Nat :=
  if b.toNat ≤ 57 then b.toNat - 48 else if b.toNat ≤ 70 then b.toNat - 55 else b.toNat - 87

/-- The number denoted by a string of hexadecimal digits, most significant first. -/
def hexNum (ds : Bytes) : Nat := ds.foldl (fun a d => 16 * a + hexDigit d) 0

/-- A space or a tab. -/
def IsBlank (b : Byte) : Prop := b = 32 ∨ b = 9

/-- `ChunkExt w e`: `w` is an optional chunk extension, `";" e-many bytes`, or nothing. -/
inductive ChunkExt : Bytes → Nat → Prop
  | none : ChunkExt [] 0
  | some (e : Bytes) (hcr : CR ∉ e) (hlf : LF ∉ e) : ChunkExt (59 :: e) e.length

/-- `SizeLine w n e`: `w` is a size line announcing `n` bytes, carrying `e` extension bytes. -/
inductive SizeLine : Bytes → Nat → Nat → Prop
  | mk (ds ws x : Bytes) (e : Nat) (hne : ds ≠ []) (hhex : ∀ d ∈ ds, IsHex d)
      (hws : ∀ b ∈ ws, IsBlank b) (hx : ChunkExt x e) :
      SizeLine (ds ++ ws ++ x ++ CRLF) (hexNum ds) e

/-- `Chunks w cs e`: `w` is a sequence of complete chunks with contents `cs`, carrying `e`
extension bytes in total. -/
inductive Chunks : Bytes → List Bytes → Nat → Prop
  | nil : Chunks [] [] 0
  | cons (l d w : Bytes) (cs : List Bytes) (e e' : Nat) (hl : SizeLine l d.length e) (hd : d ≠ [])
      (hw : Chunks w cs e') : Chunks (l ++ d ++ CRLF ++ w) (d :: cs) (e + e')

/-- `TrailerLines w n`: `w` consists of `n` trailer lines.  A line starts with a byte other than CR,
contains no CR, and ends with CRLF. -/
inductive TrailerLines : Bytes → Nat → Prop
  | nil : TrailerLines [] 0
  | cons (b : Byte) (s w : Bytes) (n : Nat) (hb : b ≠ CR) (hs : CR ∉ s) (hw : TrailerLines w n) :
      TrailerLines (b :: s ++ CRLF ++ w) (n + 1)

/-- `ChunkedBody w cs e t n`: `w` is a whole chunked body with chunk contents `cs`, `e` extension
bytes, and `n` trailer lines; `t` is the trailer section including the final empty line. -/
inductive ChunkedBody : Bytes → List Bytes → Nat → Bytes → Nat → Prop
  | mk (w l t : Bytes) (cs : List Bytes) (e e' n : Nat) (hw : Chunks w cs e) (hl : SizeLine l 0 e')
      (ht : TrailerLines t n) :
      ChunkedBody (w ++ l ++ t ++ CRLF) cs (e + e') (t ++ CRLF) n

/-- The limits the reader imposes: sizes fit in 64 bits, extensions stay below 16 KiB over the whole
body, at most `maxLines` trailer lines, and a non-empty trailer section is shorter than `maxBytes`. -/
structure WithinLimits (maxLines maxBytes : Nat) (cs : List Bytes) (e : Nat) (t : Bytes) (n : Nat) :
    Prop where
  sizes : ∀ c ∈ cs, c.length < 2 ^ 64
  exts : e < 16384
  lines : n ≤ maxLines
  bytes : n ≠ 0 → t.length < maxBytes

end Hyper.Spec
