import Verif.Model.H2Reader
import Verif.Props.Incoming

/-!
# C73: an HTTP/2 body is read in order, gives back exactly its window, and does not end early unnoticed
-/

namespace Hyper

namespace Spec

/-- The pieces of data of a stream. -/
def pieces : List RecvEv → List Bytes
  | [] => []
  | .data bs :: t => bs :: pieces t
  | _ :: t => pieces t

/-- Its trailers. -/
def sections : List RecvEv → List Fields
  | [] => []
  | .trailers fs :: t => fs :: sections t
  | _ :: t => sections t

/-- The pieces of data a reader got. -/
def piecesRead : List FrameOut → List Bytes
  | [] => []
  | .data bs :: t => bs :: piecesRead t
  | _ :: t => piecesRead t

def sectionsRead : List FrameOut → List Fields
  | [] => []
  | .trailers fs :: t => fs :: sectionsRead t
  | _ :: t => sectionsRead t

/-- The amounts of data the recorder of pings was told of. -/
def amounts : List PingNote → List Nat
  | [] => []
  | .data n :: t => n :: amounts t
  | .nonData :: t => amounts t

/-- The sign of life that an answer to the reader is. -/
def signOf : FrameOut → Option PingNote
  | .data bs => some (.data bs.length)
  | .trailers _ | .none => some .nonData
  | _ => none

/-- A stream: data, then its end, trailers, or a reset. -/
inductive Stream : List RecvEv → Prop where
  | ended : Stream []
  | trailers (fs : Fields) : Stream [.trailers fs]
  | reset (b : Bool) : Stream [.reset b]
  | data (bs : Bytes) {l : List RecvEv} : Stream l → Stream (.data bs :: l)
  | pending {l : List RecvEv} : Stream l → Stream (.pending :: l)

/-- Not more data than announced; the crate `h2` sees to it. -/
def Enough (len : DecodedLength) (l : List RecvEv) : Prop :=
  len = DecodedLength.CHUNKED ∨ len = DecodedLength.CLOSE_DELIMITED ∨ ((pieces l).map List.length).sum ≤ len.val

end Spec

open Spec

namespace Stream2

theorem piecesRead_append (a b : List FrameOut) : piecesRead (a ++ b) = piecesRead a ++ piecesRead b := by
  induction a with
  | nil => rfl
  | cons x a ih => cases x <;> simp [piecesRead, ih]

theorem sectionsRead_append (a b : List FrameOut) : sectionsRead (a ++ b) = sectionsRead a ++ sectionsRead b := by
  induction a with
  | nil => rfl
  | cons x a ih => cases x <;> simp [sectionsRead, ih]

theorem amounts_append (a b : List PingNote) : amounts (a ++ b) = amounts a ++ amounts b := by
  induction a with
  | nil => rfl
  | cons x a ih => cases x <;> simp [amounts, ih]

/-- What holds of a reader of the stream `evs` between polls. -/
structure Follows (evs : List RecvEv) (r : H2Reader) : Prop where
  stream : Stream r.recv
  data : piecesRead r.outs ++ pieces r.recv = pieces evs
  trailers : sectionsRead r.outs ++ sections r.recv = sections evs
  released : r.released = (piecesRead r.outs).map List.length
  noted : amounts r.notes = r.released
  signs : RecvEv.reset true ∉ evs → r.notes = r.outs.filterMap signOf
  reset : ∀ b, RecvEv.reset b ∈ r.recv ↔ RecvEv.reset b ∈ evs
  enough : Enough r.body.len r.recv
  done : r.body.dataDone = true → pieces r.recv = []
  none : FrameOut.none ∈ r.outs → RecvEv.reset true ∈ evs ∨ (pieces r.recv = [] ∧ sections r.recv = [])
  clean : FrameOut.none ∈ r.outs → RecvEv.reset false ∉ evs
  error : FrameOut.error ∈ r.outs → RecvEv.reset false ∈ evs
  panic : FrameOut.panic ∉ r.outs

theorem subIf_enough {len : DecodedLength} {bs : Bytes} {t : List RecvEv} (h : Enough len (.data bs :: t)) :
    ∃ len', len.subIf bs.length = some len' ∧ Enough len' t := by
  unfold DecodedLength.subIf
  by_cases hs : len = DecodedLength.CHUNKED ∨ len = DecodedLength.CLOSE_DELIMITED
  · exact ⟨len, by rw [if_pos hs], by rcases hs with hs | hs; exact .inl hs; exact .inr (.inl hs)⟩
  · rw [if_neg hs]
    rcases h with h | h | h
    · exact absurd (.inl h) hs
    · exact absurd (.inr h) hs
    · simp only [pieces, List.map_cons, List.sum_cons] at h
      exact ⟨⟨len.val - bs.length⟩, by rw [if_pos (by omega)], .inr (.inr (by simp only; omega))⟩

/-- What the trailers part answers. -/
def answerOf : H2Trailers → FrameOut
  | .pending => .pending
  | .ok (some fs) => .trailers fs
  | .ok none => .none
  | .error true => .none
  | .error false => .error

theorem poll_none (b : H2Body) (t : H2Trailers) : b.poll .none t = (answerOf t, { b with dataDone := true }) := by
  unfold H2Body.poll H2Body.pollTrailers
  cases hd : b.dataDone with
  | true =>
    have : { b with dataDone := true } = b := by cases b; simp_all
    rw [this]
    rcases t with _ | (_ | _) | (_ | _) <;> rfl
  | false => rcases t with _ | (_ | _) | (_ | _) <;> rfl

theorem Follows.pollTrailers {evs : List RecvEv} {r : H2Reader} (h : Follows evs r) (hp : pieces r.recv = []) :
    Follows evs (r.pollTrailers r.recv) := by
  obtain ⟨stream, data, trailers, released, noted, signs, reset, enough, done, none, clean, error, panic⟩ := h
  have hr : r.recv = r.recv := rfl
  generalize hl : r.recv = l at *
  unfold H2Reader.pollTrailers
  cases stream with
  | ended =>
    simp only [recvTrailers, poll_none, answerOf]
    constructor <;> simp_all [signOf, piecesRead_append, amounts_append, amounts, sectionsRead_append, piecesRead, sectionsRead, pieces, sections, Stream.ended]
  | trailers fs =>
    simp only [recvTrailers, poll_none, answerOf]
    constructor <;> simp_all [signOf, piecesRead_append, amounts_append, amounts, sectionsRead_append, piecesRead, sectionsRead, pieces, sections, Stream.ended, Enough]
  | reset b =>
    cases b <;> simp only [recvTrailers, poll_none, answerOf] <;>
    constructor <;> simp_all [signOf, piecesRead_append, amounts_append, amounts, sectionsRead_append, piecesRead, sectionsRead, pieces, sections, Stream.reset]
  | data bs hs => simp [pieces] at hp
  | pending hs =>
    simp only [recvTrailers, poll_none, answerOf]
    constructor <;> simp_all [signOf, piecesRead_append, amounts_append, amounts, sectionsRead_append, piecesRead, sectionsRead, pieces, sections, Enough]

theorem Follows.poll {evs : List RecvEv} {r : H2Reader} (h : Follows evs r) : Follows evs r.poll := by
  unfold H2Reader.poll
  cases hd : r.body.dataDone with
  | true => exact h.pollTrailers (h.done hd)
  | false =>
    simp only [Bool.false_eq_true, if_false]
    have hs := h.stream
    cases hl : r.recv with
    | nil => have := h.pollTrailers (by rw [hl]; rfl); rw [hl] at this; exact this
    | cons e t =>
      rw [hl] at hs
      cases hs with
      | trailers fs => have := h.pollTrailers (by rw [hl]; rfl); rw [hl] at this; exact this
      | reset b =>
        obtain ⟨stream, data, trailers, released, noted, signs, reset, enough, done, none, clean, error, panic⟩ := h
        cases b <;> simp only [recvData, H2Body.poll, hd, Bool.false_eq_true, if_false] <;>
        constructor <;> simp_all [signOf, piecesRead_append, amounts_append, amounts, sectionsRead_append, piecesRead, sectionsRead, pieces, sections, Stream.reset]
      | data bs hs =>
        obtain ⟨stream, data, trailers, released, noted, signs, reset, enough, done, none, clean, error, panic⟩ := h
        rw [hl] at enough
        obtain ⟨len', he, henough⟩ := subIf_enough enough
        simp only [recvData, H2Body.poll, hd, Bool.false_eq_true, if_false, he]
        constructor <;> simp_all [signOf, piecesRead_append, amounts_append, amounts, sectionsRead_append, piecesRead, sectionsRead, pieces, sections]
      | pending hs =>
        obtain ⟨stream, data, trailers, released, noted, signs, reset, enough, done, none, clean, error, panic⟩ := h
        simp only [recvData, H2Body.poll, hd, Bool.false_eq_true, if_false]
        constructor <;> simp_all [signOf, piecesRead_append, amounts_append, amounts, sectionsRead_append, piecesRead, sectionsRead, pieces, sections, Enough]

theorem follows_start {len : DecodedLength} {eos : Bool} {evs : List RecvEv} (hs : Stream evs) (he : Enough (H2Body.new len eos).len evs) :
    Follows evs (H2Reader.start len eos evs) := by
  constructor <;> simp_all [H2Reader.start, amounts, piecesRead, sectionsRead, H2Body.new]

theorem follows_polls {len : DecodedLength} {eos : Bool} {evs : List RecvEv} (hs : Stream evs) (he : Enough (H2Body.new len eos).len evs) (n : Nat) :
    Follows evs ((H2Reader.start len eos evs).polls n) := by
  induction n with
  | zero => exact follows_start hs he
  | succ n ih => exact ih.poll

end Stream2

open Stream2

/-- C73: at every moment the data read, followed by the data that is still to be read, is the data of the stream, piece by piece; the same holds of
trailers; the window given back is that of the data read, no more and no less; and that much is counted for the adaptive window.  Each piece, the
trailers and the end (unless it is made of a reset) are reported to keep-alive as signs of life. -/
theorem C73_in_order (len : DecodedLength) (eos : Bool) (evs : List RecvEv) (hs : Stream evs) (he : Enough (H2Body.new len eos).len evs) (n : Nat)
    (r : H2Reader) (hr : r = (H2Reader.start len eos evs).polls n) :
    piecesRead r.outs ++ pieces r.recv = pieces evs ∧ sectionsRead r.outs ++ sections r.recv = sections evs ∧
      r.released = (piecesRead r.outs).map List.length ∧ amounts r.notes = r.released ∧
      (RecvEv.reset true ∉ evs → r.notes = r.outs.filterMap signOf) ∧ .panic ∉ r.outs := by
  have h := follows_polls hs he n
  rw [← hr] at h
  exact ⟨h.data, h.trailers, h.released, h.noted, h.signs, h.panic⟩

/-- C73 in part: if the end is reported, all data and the trailers were delivered, or the stream was reset with `NO_ERROR`.  Missing: that a
body cut off by `NO_ERROR` ends in an error; it does not (`C73_cut_off_silently`). -/
theorem C73_end_partial (len : DecodedLength) (eos : Bool) (evs : List RecvEv) (hs : Stream evs) (he : Enough (H2Body.new len eos).len evs) (n : Nat)
    (r : H2Reader) (hr : r = (H2Reader.start len eos evs).polls n) (hn : .none ∈ r.outs) :
    RecvEv.reset true ∈ evs ∨ (piecesRead r.outs = pieces evs ∧ sectionsRead r.outs = sections evs ∧ ∀ b, RecvEv.reset b ∉ evs) := by
  have h := follows_polls hs he n
  rw [← hr] at h
  rcases h.none hn with hx | ⟨h1, h2⟩
  · exact .inl hx
  · have hd := h.data
    have ht := h.trailers
    rw [h1, List.append_nil] at hd
    rw [h2, List.append_nil] at ht
    by_cases hb : RecvEv.reset true ∈ evs
    · exact .inl hb
    · exact .inr ⟨hd, ht, fun b => by cases b; exact h.clean hn; exact hb⟩

/-- C73: an error is reported only of a stream that was reset for another reason, and the end never of such a one. -/
theorem C73_error (len : DecodedLength) (eos : Bool) (evs : List RecvEv) (hs : Stream evs) (he : Enough (H2Body.new len eos).len evs) (n : Nat)
    (r : H2Reader) (hr : r = (H2Reader.start len eos evs).polls n) :
    (.error ∈ r.outs → RecvEv.reset false ∈ evs) ∧ (RecvEv.reset false ∈ evs → .none ∉ r.outs) := by
  have h := follows_polls hs he n
  rw [← hr] at h
  exact ⟨h.error, fun hx hn => h.clean hn hx⟩

/-- A response of ten bytes is cut off after five by a reset with `NO_ERROR`: its reader gets five bytes and the end, while the size hint
says that five more are to come.  (RFC 9113, 8.1 allows such a reset only after a complete response.) -/
theorem C73_cut_off_silently :
    let r := (H2Reader.start ⟨10⟩ false [.data (ascii "hello"), .reset true]).polls 2
    r.outs = [.data (ascii "hello"), .none] ∧ r.body.sizeHint = .exact 5 := by
  decide +kernel

/-- C73: the end or an error comes: after as many polls as the stream has moments, and one more. -/
theorem C73_ends (len : DecodedLength) (eos : Bool) (evs : List RecvEv) (hs : Stream evs) (he : Enough (H2Body.new len eos).len evs) :
    let r := (H2Reader.start len eos evs).polls (evs.length + 1)
    .none ∈ r.outs ∨ .error ∈ r.outs := by
  have key : ∀ n, let r := (H2Reader.start len eos evs).polls n
      (.none ∈ r.outs ∨ .error ∈ r.outs) ∨ r.recv.length + n ≤ evs.length := by
    intro n
    induction n with
    | zero => right; simp [H2Reader.polls, H2Reader.start]
    | succ n ih =>
      have hf := follows_polls hs he n
      simp only [H2Reader.polls]
      generalize (H2Reader.start len eos evs).polls n = r at *
      have houts : ∀ x, x ∈ r.outs → x ∈ r.poll.outs := by
        intro x hx
        unfold H2Reader.poll H2Reader.pollTrailers
        split
        · simp [hx]
        · split <;> simp [hx]
      rcases ih with (h | h) | h
      · exact .inl (.inl (houts _ h))
      · exact .inl (.inr (houts _ h))
      · have hst := hf.stream
        unfold H2Reader.poll
        cases hd : r.body.dataDone with
        | true =>
          have hp := hf.done hd
          simp only [if_true]
          unfold H2Reader.pollTrailers
          cases hl : r.recv with
          | nil => left; left; simp [recvTrailers, poll_none, answerOf]
          | cons e t =>
            rw [hl] at hst h hp
            simp only [List.length_cons] at h
            cases hst with
            | trailers fs => right; simp only [recvTrailers]; simp at h ⊢; omega
            | reset b => left; cases b <;> simp [recvTrailers, poll_none, answerOf]
            | data bs _ => simp [pieces] at hp
            | pending _ => right; simp only [recvTrailers]; omega
        | false =>
          simp only [Bool.false_eq_true, if_false]
          cases hl : r.recv with
          | nil => left; left; simp [recvData, H2Reader.pollTrailers, recvTrailers, poll_none, answerOf]
          | cons e t =>
            rw [hl] at hst h
            simp only [List.length_cons] at h
            cases hst with
            | trailers fs => right; simp only [recvData, H2Reader.pollTrailers, recvTrailers]; simp at h ⊢; omega
            | reset b => left; cases b <;> simp [recvData, H2Body.poll, hd]
            | data bs _ => right; simp only [recvData]; omega
            | pending _ => right; simp only [recvData]; omega
  have := key (evs.length + 1)
  rcases this with h | h
  · exact h
  · omega

/-- Data, a pause, trailers. -/
example : let r := (H2Reader.start ⟨5⟩ false [.data (ascii "he"), .pending, .data (ascii "llo"), .trailers [(ascii "a", ascii "b")]]).polls 5
    r.outs = [.data (ascii "he"), .pending, .data (ascii "llo"), .trailers [(ascii "a", ascii "b")], .none] ∧ r.released = [2, 3] ∧
      r.notes = [.data 2, .data 3, .nonData, .nonData] := by decide +kernel

example : Stream [.data (ascii "he"), .pending, .reset false] ∧ Enough (H2Body.new ⟨5⟩ false).len [.data (ascii "he"), .pending, .reset false] ∧
    ((H2Reader.start ⟨5⟩ false [.data (ascii "he"), .pending, .reset false]).polls 3).outs = [.data (ascii "he"), .pending, .error] :=
  ⟨.data _ (.pending (.reset _)), .inr (.inr (by decide)), by decide +kernel⟩

end Hyper
