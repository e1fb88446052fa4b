import Verif.Model.Buf

/-! # What it means for a buffer to stand for a byte string -/

namespace Hyper.Spec

/-- The buffer implementation `I` presents every buffer that satisfies `Ok` as the byte string
`bytes b`: `remaining` is its length, `chunk` is a prefix, empty only if it is; `advance` and `copy_to_bytes`
within its length take that much off the front; the vectored chunks are, in order, a prefix, no more
of them than there are slots, everything if a slot is left over (as the documentation of
`Buf::chunks_vectored` demands), and empty only if there is nothing or no slot; of an empty buffer no slot is filled. -/
structure Stands {β : Type} (I : BufI β) (Ok : β → Prop) (bytes : β → Bytes) : Prop where
  remaining : ∀ b, Ok b → I.remaining b = (bytes b).length
  chunk : ∀ b, Ok b → (∃ t, bytes b = I.chunk b ++ t) ∧ (bytes b ≠ [] → I.chunk b ≠ [])
  advance : ∀ b n, Ok b → n ≤ (bytes b).length →
    ∃ b', I.advance b n = some b' ∧ Ok b' ∧ bytes b' = (bytes b).drop n
  vectored : ∀ b k, Ok b → (I.vectored b k).length ≤ k ∧ (∃ t, bytes b = (I.vectored b k).flatten ++ t) ∧
    ((I.vectored b k).length < k → bytes b = (I.vectored b k).flatten) ∧
    (bytes b ≠ [] → 0 < k → (I.vectored b k).flatten ≠ [])
  empty : ∀ b k, Ok b → bytes b = [] → I.vectored b k = []
  copy : ∀ b n, Ok b → n ≤ (bytes b).length →
    ∃ b', I.copyToBytes b n = some ((bytes b).take n, b') ∧ Ok b' ∧ bytes b' = (bytes b).drop n

end Hyper.Spec
