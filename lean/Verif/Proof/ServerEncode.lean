import Verif.Model.ServerEncode
import Verif.Proof.ClientParse
import Verif.Proof.EncodeMore

/-! # The header loop of `Server::encode_headers` -/

namespace Hyper

open Spec

/-! ## Names -/

theorem lowerByte_eq_foldCase : lowerByte = foldCase := funext lowerByte_fold

theorem Spec.LowerName.fold {n : Bytes} (h : LowerName n) : n.map foldCase = n := by
  rw [← lowerByte_eq_foldCase]
  exact wireName_lower false n h

theorem titleCase_fold {n : Bytes} (h : LowerName n) : (titleCase n).map foldCase = n := by
  rw [← lowerByte_eq_foldCase]
  exact titleCaseFrom_lower n 45 h.lower

theorem tchar_of_fold : ∀ b : Byte, isTchar (foldCase b) = true → isTchar b = true := by
  unfold foldCase
  apply byte_forall; decide +kernel

/-- Every recorded spelling of a name is that name, up to case. -/
def Spec.SpellingsOf (map : HeaderMap) : Prop := ∀ g ∈ map, ∀ v ∈ g.2, v.map foldCase = g.1

theorem spellings_getAll {map : HeaderMap} (h : SpellingsOf map) (n : Bytes) :
    ∀ v ∈ map.getAll n, v.map foldCase = n := by
  induction map with
  | nil => intro v hv; simp [HeaderMap.getAll] at hv
  | cons g map ih =>
    intro v hv
    obtain ⟨g1, g2⟩ := g
    simp only [HeaderMap.getAll] at hv
    split at hv
    · rename_i he
      rw [← he]
      exact h (g1, g2) (by simp) v hv
    · exact ih (fun g hg => h g (by simp [hg])) v hv

/-- A name writer only ever writes spellings of the name asked for. -/
def NameWriter.Ok : NameWriter → Prop
  | .lower => True
  | .orig map cur _ => SpellingsOf map ∧ ∀ n vs, cur = some (n, vs) → ∀ v ∈ vs, v.map foldCase = n

theorem writeName_ok {w : NameWriter} (h : w.Ok) {n : Bytes} (hn : LowerName n) :
    (w.writeName n).1.map foldCase = n ∧ (w.writeName n).2.Ok := by
  cases w with
  | lower => exact ⟨hn.fold, trivial⟩
  | orig map cur title =>
    obtain ⟨h1, h2⟩ := h
    have hvs : ∀ v ∈ spellingsLeft map cur n, v.map foldCase = n := by
      unfold spellingsLeft
      split
      · split
        · rename_i last vs he
          intro v hv; rw [← he]; exact h2 last vs rfl v hv
        · exact spellings_getAll h1 n
      · exact spellings_getAll h1 n
    unfold NameWriter.writeName
    simp only
    generalize spellingsLeft map cur n = vs at hvs
    cases vs with
    | nil =>
      refine ⟨?_, h1, ?_⟩
      · cases title
        · exact hn.fold
        · exact titleCase_fold hn
      · intro a b hab v hv
        simp only [Option.some.injEq, Prod.mk.injEq] at hab
        rw [← hab.2] at hv; simp at hv
    | cons v vs =>
      refine ⟨hvs v (by simp), h1, ?_⟩
      intro a b hab u hu
      simp only [Option.some.injEq, Prod.mk.injEq] at hab
      rw [← hab.1]
      exact hvs u (by rw [← hab.2] at hu; simp [hu])

theorem writeNameColon_eq (w : NameWriter) (lit n : Bytes) (h : lit = n ++ ascii ": ") :
    w.writeNameColon lit n = ((w.writeName n).1 ++ ascii ": ", (w.writeName n).2) := by
  cases w with
  | lower => simp [NameWriter.writeNameColon, NameWriter.writeName, h]
  | orig map cur title => rfl

theorem writeFullLine_eq (w : NameWriter) (l n rest : Bytes) (h : l = n ++ rest) :
    w.writeFullLine l n rest = ((w.writeName n).1 ++ rest, (w.writeName n).2) := by
  cases w with
  | lower => simp [NameWriter.writeFullLine, NameWriter.writeName, h]
  | orig map cur title => rfl

theorem wireField_of_spelling {bs n v : Bytes} (h : bs.map foldCase = n) (hn : LowerName n)
    (hv : ∀ b ∈ v, isValueByte b = true) : WireField (bs, v) := by
  refine ⟨?_, ?_, hv⟩
  · rintro rfl; exact hn.ne h.symm
  · intro b hb
    apply tchar_of_fold
    apply hn.tchar
    rw [← h]
    exact List.mem_map_of_mem hb

theorem lowerName_hCL : LowerName hCL := ⟨by decide, by decide +kernel, by decide +kernel⟩
theorem lowerName_hTE : LowerName hTE := ⟨by decide, by decide +kernel, by decide +kernel⟩
theorem lowerName_hCONN : LowerName hCONN := ⟨by decide, by decide +kernel, by decide +kernel⟩
theorem lowerName_hTRAILER : LowerName hTRAILER := ⟨by decide, by decide +kernel, by decide +kernel⟩
theorem lowerName_hDATE : LowerName hDATE := ⟨by decide, by decide +kernel, by decide +kernel⟩

theorem line_append (bs v : Bytes) : line (bs, v) = bs ++ ascii ": " ++ v ++ CRLF := rfl

theorem lines_snoc (fs : List (Bytes × Bytes)) (f : Bytes × Bytes) :
    lines (fs ++ [f]) = lines fs ++ line f := by simp [lines]

/-! ## The shape of what has been written -/

/-- A line whose end is not yet written. -/
def openBytes : Option (Bytes × Bytes) → Bytes
  | none => []
  | some (n, v) => n ++ ascii ": " ++ v

/-- What closing the open line will add to its value. -/
def suffixOf (must : Bool) : Bytes := if must then ascii ", chunked" else []

/-- The fields once the open line is closed. -/
def closed (fs : List (Bytes × Bytes)) (op : Option (Bytes × Bytes)) (must : Bool) :
    List (Bytes × Bytes) :=
  match op with
  | none => fs
  | some (n, v) => fs ++ [(n, v ++ suffixOf must)]

/-- Names whose lines are left open. -/
def joined : List Bytes := [hCL, hTE, hCONN, hTRAILER]

structure Shape (base : Bytes) (fs : List (Bytes × Bytes)) (op : Option (Bytes × Bytes)) (s : HSt) :
    Prop where
  dst : s.dst = base ++ lines fs ++ openBytes op
  written : s.isNameWritten = op.isSome
  opname : ∀ n v, op = some (n, v) → s.curName = some (n.map foldCase) ∧ n.map foldCase ∈ joined
  writer : s.w.Ok
  wire : ∀ f ∈ fs, WireField f
  opwire : ∀ f, op = some f → WireField f

theorem suffix_wire (must : Bool) : ∀ b ∈ suffixOf must, isValueByte b = true := by
  cases must <;> decide +kernel

theorem Shape.closeWire {base : Bytes} {fs : List (Bytes × Bytes)} {op : Option (Bytes × Bytes)} {s : HSt}
    (h : Shape base fs op s) (must : Bool) : ∀ f ∈ closed fs op must, WireField f := by
  intro f hf
  unfold closed at hf
  cases op with
  | none => exact h.wire f hf
  | some p =>
    obtain ⟨n, v⟩ := p
    simp only [List.mem_append, List.mem_singleton] at hf
    rcases hf with hf | rfl
    · exact h.wire f hf
    · have := h.opwire _ rfl
      refine ⟨this.name_ne, this.name_ok, ?_⟩
      intro b hb
      simp only [List.mem_append] at hb
      rcases hb with hb | hb
      · exact this.value_ok b hb
      · exact suffix_wire must b hb

theorem Shape.handle {base : Bytes} {fs : List (Bytes × Bytes)} {op : Option (Bytes × Bytes)} {s : HSt}
    (h : Shape base fs op s) : s.handle.dst = base ++ lines (closed fs op s.mustChunked) := by
  unfold HSt.handle closed
  cases op with
  | none => simp [h.written, h.dst, openBytes]
  | some p =>
    obtain ⟨n, v⟩ := p
    simp only [h.written, Option.isSome_some, if_true, h.dst, openBytes, lines_snoc, line_append,
      suffixOf]
    cases s.mustChunked
    · simp
    · have : ascii ", chunked\r\n" = ascii ", chunked" ++ CRLF := by decide
      simp [this]

theorem Shape.newName {base : Bytes} {fs : List (Bytes × Bytes)} {op : Option (Bytes × Bytes)} {s : HSt}
    (h : Shape base fs op s) (n : Bytes) :
    Shape base (closed fs op s.mustChunked) none
      { ({ s with curName := some n } : HSt).handle with isNameWritten := false } := by
  have hh : ({ s with curName := some n } : HSt).handle.dst = s.handle.dst := by
    unfold HSt.handle; cases s.isNameWritten <;> rfl
  have hw : ({ s with curName := some n } : HSt).handle.w = s.w := by
    unfold HSt.handle; cases s.isNameWritten <;> rfl
  refine ⟨?_, rfl, by simp, ?_, h.closeWire _, by simp⟩
  · simp only [hh, h.handle, openBytes, List.append_nil]
  · simp only [hw]; exact h.writer

theorem Shape.generic {base : Bytes} {fs : List (Bytes × Bytes)} {s : HSt}
    (h : Shape base fs none s) {n : Bytes} (hn : LowerName n) (v : Bytes)
    (hv : ∀ b ∈ v, isValueByte b = true) :
    ∃ bs, bs.map foldCase = n ∧ Shape base (fs ++ [(bs, v)]) none (s.generic n v) := by
  obtain ⟨h1, h2⟩ := writeName_ok h.writer hn
  refine ⟨(s.w.writeName n).1, h1, ?_, h.written, by simp, h2, ?_, by simp⟩
  · simp only [HSt.generic, h.dst, openBytes, lines_snoc, line_append]; simp
  · intro f hf
    simp only [List.mem_append, List.mem_singleton] at hf
    rcases hf with hf | rfl
    · exact h.wire f hf
    · exact wireField_of_spelling h1 hn hv

theorem Shape.openLine {base : Bytes} {fs : List (Bytes × Bytes)} {s : HSt}
    (h : Shape base fs none s) {lit n : Bytes} (hlit : lit = n ++ ascii ": ") (hn : LowerName n)
    (hj : n ∈ joined) (hc : s.curName = some n) (v : Bytes)
    (hv : ∀ b ∈ v, isValueByte b = true) :
    ∃ bs, bs.map foldCase = n ∧ Shape base fs (some (bs, v)) (s.openLine lit n v) := by
  obtain ⟨h1, h2⟩ := writeName_ok h.writer hn
  have he := writeNameColon_eq s.w lit n hlit
  refine ⟨(s.w.writeName n).1, h1, ?_, rfl, ?_, ?_, h.wire, ?_⟩
  · simp only [HSt.openLine, h.dst, openBytes, he]; simp
  · intro a b hab
    simp only [Option.some.injEq, Prod.mk.injEq] at hab
    rw [← hab.1, h1]
    exact ⟨hc, hj⟩
  · simp only [HSt.openLine, he]; exact h2
  · intro f hf
    simp only [Option.some.injEq] at hf
    subst hf
    exact wireField_of_spelling h1 hn hv

theorem Shape.extendLine {base : Bytes} {fs : List (Bytes × Bytes)} {n u : Bytes} {s : HSt}
    (h : Shape base fs (some (n, u)) s) (v : Bytes) (hv : ∀ b ∈ v, isValueByte b = true) :
    Shape base fs (some (n, u ++ ascii ", " ++ v)) { s with dst := s.dst ++ ascii ", " ++ v } := by
  refine ⟨?_, h.written, ?_, h.writer, h.wire, ?_⟩
  · simp only [h.dst, openBytes]; simp
  · intro a b hab
    simp only [Option.some.injEq, Prod.mk.injEq] at hab
    exact h.opname a u (by rw [hab.1])
  · intro f hf
    simp only [Option.some.injEq] at hf
    subst hf
    have := h.opwire _ rfl
    refine ⟨this.name_ne, this.name_ok, ?_⟩
    intro b hb
    simp only [List.mem_append] at hb
    rcases hb with (hb | hb) | hb
    · exact this.value_ok b hb
    · revert b; decide +kernel
    · exact hv b hb

/-- The shape does not depend on the other variables. -/
theorem Shape.congr {base : Bytes} {fs : List (Bytes × Bytes)} {op : Option (Bytes × Bytes)} {s s' : HSt}
    (h : Shape base fs op s) (h1 : s'.dst = s.dst) (h2 : s'.isNameWritten = s.isNameWritten)
    (h3 : s'.curName = s.curName) (h4 : s'.w = s.w) : Shape base fs op s' :=
  ⟨by rw [h1, h.dst], by rw [h2, h.written], by rw [h3]; exact h.opname, by rw [h4]; exact h.writer,
    h.wire, h.opwire⟩

end Hyper
