import Verif.Model.Decode

/-! # The states a chunked reader goes through -/

namespace Hyper.Spec

/-- `Visits c r c' r'`: starting from `c` with transport `r`, the chunked reader passes through
`c'` with transport `r'`, in any number of single steps (pending ones included). -/
inductive Visits (c : Chunked) (r : Rd) : Chunked → Rd → Prop
  | start : Visits c r c r
  | wait {c' r' c'' b r''} (h : Visits c r c' r') (hs : c'.step r' = ⟨.pending, c'', b, r''⟩) :
      Visits c r c'' r''
  | next {c' r' s c'' b r''} (h : Visits c r c' r') (hs : c'.step r' = ⟨.ready (.ok s), c'', b, r''⟩) :
      Visits c r { c'' with state := s } r''

/-- Bytes of the trailer section a reader currently holds. -/
def held (c : Chunked) : Nat := match c.tbuf with | some t => t.length | none => 0

end Hyper.Spec
