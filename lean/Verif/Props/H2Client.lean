import Verif.Model.H2Client
import Verif.Props.H2Server

/-!
# C62: a request of an HTTP/2 client
-/

namespace Hyper

open Spec

namespace Rq

/-! ## Specification -/

def Out.isHead : Out → Bool
  | .head _ _ => true
  | _ => false

def Out.isReset : Out → Bool
  | .reset _ => true
  | .body f => f.isReset
  | .head _ _ => false

/-- The stream ends with this frame. -/
def Out.ends : Out → Bool
  | .head _ eos => eos
  | .body f => f.ends
  | .reset _ => false

/-- Nothing comes before the head, after the end or after a reset. -/
structure Orderly (log : List Out) : Prop where
  first : ∀ f ∈ log.head?, f.isHead = true
  oneHead : ∀ f ∈ log.tail, f.isHead = false
  last : ∀ f ∈ log.dropLast, f.ends = false ∧ f.isReset = false

open Classical in
/-- The values a request has under `k` when the fields of the connection are left out. -/
noncomputable def kept (m : HeaderMap) (k : Bytes) : List Bytes := if ConnectionSpecific .request m k then [] else m.getAll k

/-- The length to be announced when the user gave none: that of the body if it is known; a length of 0 only if content has a meaning in
a request of this method. -/
def Announces (r : Req) (n : Nat) : Prop :=
  r.exact = some n ∧ (n ≠ 0 ∨ (r.method ≠ ascii "GET" ∧ r.method ≠ ascii "HEAD" ∧ r.method ≠ ascii "DELETE" ∧ r.method ≠ ascii "CONNECT"))

/-- The head that is to be sent for the request. -/
structure HeadOf (r : Req) (h : HeaderMap) (eos : Bool) : Prop where
  lengthKept : kept r.headers (ascii "content-length") ≠ [] → h.getAll (ascii "content-length") = kept r.headers (ascii "content-length")
  lengthSet : kept r.headers (ascii "content-length") = [] → ∀ n, Announces r n → h.getAll (ascii "content-length") = [decimal n]
  lengthNone : kept r.headers (ascii "content-length") = [] → (¬ ∃ n, Announces r n) → h.getAll (ascii "content-length") = []
  others : ∀ k, LowerName k → k.length < 2 ^ 16 → k ≠ ascii "content-length" → h.getAll k = kept r.headers k
  eos : eos = true ↔ r.method ≠ ascii "CONNECT" ∧ r.bodyEnd = true

/-- A tunnel is asked for and content announced. -/
def BadConnect (r : Req) : Prop :=
  r.method = ascii "CONNECT" ∧
  ((∃ n, AgreedLength (kept r.headers (ascii "content-length")) n ∧ n ≠ 0) ∨
   (kept r.headers (ascii "content-length") = [] ∧ ∃ n, r.exact = some n ∧ n ≠ 0))

/-! ## The head -/

theorem getAll_strip (m : HeaderMap) (k : Bytes) (hk : LowerName k) (hl : k.length < 2 ^ 16) :
    (stripConnectionHeaders .request m).getAll k = kept m k := C45_stripped_partial .request m k hk hl

theorem announce_iff (r : Req) (n : Nat) : announce r = some n ↔ Announces r n := by
  have hd : definedPayload r.method = true ↔
      r.method ≠ ascii "GET" ∧ r.method ≠ ascii "HEAD" ∧ r.method ≠ ascii "DELETE" ∧ r.method ≠ ascii "CONNECT" := by
    simp [definedPayload, mGET, mHEAD, mDELETE, mCONNECT, and_assoc]
  unfold Announces
  rw [← hd]
  unfold announce
  cases hx : r.exact with
  | none => simp
  | some m =>
    simp only []
    constructor
    · intro h
      split at h
      · rename_i hc
        cases h
        exact ⟨rfl, hc⟩
      · cases h
    · rintro ⟨h, hc⟩
      cases h
      rw [if_pos hc]

theorem getAll_fields (r : Req) (hm : r.headers.Wf) (k : Bytes) (hk : LowerName k) (hl : k.length < 2 ^ 16) :
    (fieldsOf r).getAll k =
      if k = ascii "content-length" ∧ kept r.headers (ascii "content-length") = [] then ((announce r).map decimal).toList else kept r.headers k := by
  unfold fieldsOf
  rw [Strm.getAll_setLength _ _ (Strm.nonempty_strip hm), getAll_strip _ _ hk hl, getAll_strip _ _ Strm.lower_length (by decide)]

theorem headOf (r : Req) (hm : r.headers.Wf) : HeadOf r (fieldsOf r) (!(r.method == mCONNECT) && r.bodyEnd) where
  lengthKept h := by rw [getAll_fields r hm _ Strm.lower_length (by decide), if_neg (fun hh => h hh.2)]
  lengthSet h n hn := by
    rw [getAll_fields r hm _ Strm.lower_length (by decide), if_pos ⟨rfl, h⟩, (announce_iff r n).2 hn]
    rfl
  lengthNone h hn := by
    rw [getAll_fields r hm _ Strm.lower_length (by decide), if_pos ⟨rfl, h⟩]
    cases ha : announce r with
    | none => rfl
    | some n => exact absurd ⟨n, (announce_iff r n).1 ha⟩ hn
  others k hk hl hn := by rw [getAll_fields r hm _ hk hl, if_neg (fun hh => hn hh.1)]
  eos := by simp [mCONNECT]

theorem nonZero_iff (m : HeaderMap) : Strm.nonZero (contentLengthParseAll m) = true ↔ ∃ n, AgreedLength (m.getAll (ascii "content-length")) n ∧ n ≠ 0 := by
  unfold Strm.nonZero contentLengthParseAll
  simp only [← contentLengthParseAllValues_iff]
  constructor
  · intro e
    split at e
    · rename_i n hn; exact ⟨n, hn, by simpa using e⟩
    · cases e
  · rintro ⟨n, e, hn⟩
    rw [e]; simpa using hn

theorem bad_nonZero (r : Req) (hm : r.headers.Wf) (hx : ∀ n, r.exact = some n → n < 2 ^ 64) (hb : BadConnect r) :
    (r.method == mCONNECT) = true ∧ Strm.nonZero (contentLengthParseAll (fieldsOf r)) = true := by
  obtain ⟨hc, h⟩ := hb
  refine ⟨by rw [hc]; rfl, (nonZero_iff _).2 ?_⟩
  rw [getAll_fields r hm _ Strm.lower_length (by decide)]
  rcases h with ⟨n, hn, h0⟩ | ⟨hk, n, hn, h0⟩
  · rw [if_neg]
    · exact ⟨n, hn, h0⟩
    · exact fun hh => hn.1 hh.2
  · rw [if_pos ⟨rfl, hk⟩, (announce_iff r n).2 ⟨hn, .inl h0⟩]
    exact ⟨n, agreed_single (decimal_isLength (hx n hn)), h0⟩

/-! ## The invariant -/

structure Inv (r : Req) (s : St) : Prop where
  req : s.req = r
  queued : s.stage = .queued → s.out = [] ∧ s.pipe = none
  opening : s.stage = .opening → s.out = [.head (fieldsOf r) (!(r.method == mCONNECT) && r.bodyEnd)] ∧ s.pipe = none
  refused : s.stage = .refused → s.pipe = none ∧ (s.out = [] ∨ s.out = [.head (fieldsOf r) (!(r.method == mCONNECT) && r.bodyEnd)])
  running : s.stage = .running → ∃ t, s.out = .head (fieldsOf r) (!(r.method == mCONNECT) && r.bodyEnd) :: t ∧
    (t = [] ∨ (t = [.reset INTERNAL_ERROR] ∧ r.method = mCONNECT ∧ s.sendDone = true ∧ s.pipe = none))
  pipe : ∀ p, s.pipe = some p → Pipe.Inv p ∧ r.bodyEnd = false ∧ r.method ≠ mCONNECT
  killed : s.killed = true → s.cancel = .sent ∧ ∃ p, s.pipe = some p ∧ p.res = none
  cancel : s.cancel = .waiting ↔ s.sendDone = false
  listening : s.listening = false → s.cancel = .dropped
  started : s.stage ≠ .running → s.sendDone = false
  piped : s.stage = .running → r.bodyEnd = false → r.method ≠ mCONNECT → ∃ p, s.pipe = some p
  sent : s.stage = .running → ¬ ((r.method == mCONNECT) = true ∧ Strm.nonZero (contentLengthParseAll (fieldsOf r)) = true)
  openingSent : s.stage = .opening → ¬ ((r.method == mCONNECT) = true ∧ Strm.nonZero (contentLengthParseAll (fieldsOf r)) = true)
  bad : (r.method == mCONNECT) = true ∧ Strm.nonZero (contentLengthParseAll (fieldsOf r)) = true → s.out = [] ∧ s.pipe = none ∧ (s.result = none ∨ s.result = some .invalidConnect)

theorem Inv.init (r : Req) : Inv r (Rq.init r) := by
  constructor <;> simp [Rq.init]

theorem Inv.pollPipe {r : Req} {s : St} (h : Inv r s) (ho : s.out = [.head (fieldsOf r) (!(r.method == mCONNECT) && r.bodyEnd)]) (hp : s.pipe = none)
    (hs : s.stage ≠ .running) (hb : ¬ ((r.method == mCONNECT) = true ∧ Strm.nonZero (contentLengthParseAll (fieldsOf r)) = true)) (is : List Pipe.In) :
    Inv r (s.pollPipe is) := by
  have hd := h.started hs
  have hk : s.killed ≠ true := by
    intro hk
    obtain ⟨_, p, e, _⟩ := h.killed hk
    rw [hp] at e; cases e
  have hreq := h.req
  unfold St.pollPipe
  split
  · rename_i hc
    simp only [St.connect, hreq, beq_iff_eq] at hc
    constructor <;> simp_all [h.cancel]
    · exact h.listening
    · intro hb; exact hc.resolve_right (by simp [hb])
  · rename_i hc
    simp only [St.connect, hreq, beq_iff_eq, not_or] at hc
    constructor <;> simp_all [h.cancel]
    · exact Pipe.Inv.init.run is
    · exact h.listening

theorem Inv.refuse {r : Req} {s : St} (h : Inv r s) (hp : s.pipe = none) (hs : s.stage ≠ .running)
    (ho : s.out = [] ∨ s.out = [.head (fieldsOf r) (!(r.method == mCONNECT) && r.bodyEnd)]) (x : Option Result)
    (hx : (r.method == mCONNECT) = true ∧ Strm.nonZero (contentLengthParseAll (fieldsOf r)) = true → s.out = [] ∧ (x = none ∨ x = some .invalidConnect)) :
    Inv r { s with stage := .refused, result := x } := by
  have hd := h.started hs
  have hk : s.killed ≠ true := by
    intro hk
    obtain ⟨_, p, e, _⟩ := h.killed hk
    rw [hp] at e; cases e
  have hreq := h.req
  have hl := h.listening
  have hc := h.cancel
  constructor <;> simp_all

theorem Inv.opened {r : Req} {s : St} (h : Inv r s) (ho : s.out = [.head (fieldsOf r) (!(r.method == mCONNECT) && r.bodyEnd)]) (hp : s.pipe = none)
    (hs : s.stage ≠ .running) (hb : ¬ ((r.method == mCONNECT) = true ∧ Strm.nonZero (contentLengthParseAll (fieldsOf r)) = true)) (x : Ready) (is : List Pipe.In) :
    Inv r (s.opened x is) := by
  unfold St.opened
  split
  · have hd := h.started hs
    have hk : s.killed ≠ true := by
      intro hk
      obtain ⟨_, p, e, _⟩ := h.killed hk
      rw [hp] at e; cases e
    have hreq := h.req
    have hl := h.listening
    have hc := h.cancel
    constructor <;> simp_all
  · exact h.refuse hp hs (.inr ho) _ (fun hh => absurd hh hb)
  · exact h.pollPipe ho hp hs hb is

theorem Inv.take {r : Req} {s : St} (h : Inv r s) (hs : s.stage = .queued) (c k : Bool) (x : Ready) (is : List Pipe.In) : Inv r (s.take c k x is) := by
  obtain ⟨ho, hp⟩ := h.queued hs
  have hs' : s.stage ≠ .running := by rw [hs]; simp
  have hreq := h.req
  unfold St.take
  split
  · have := h.refuse hp hs' (.inl ho) s.result (fun hh => ⟨ho, (h.bad hh).2.2⟩)
    exact this
  · split
    · exact h.refuse hp hs' (.inl ho) _ (fun _ => ⟨ho, .inr rfl⟩)
    · rename_i hb
      have hb : ¬ ((r.method == mCONNECT) = true ∧ Strm.nonZero (contentLengthParseAll (fieldsOf r)) = true) := by
        rw [St.connect, hreq] at hb; exact hb
      split
      · have hd := h.started hs'
        have hk : s.killed ≠ true := by
          intro hk
          obtain ⟨_, p, e, _⟩ := h.killed hk
          rw [hp] at e; cases e
        have hl := h.listening
        have hc := h.cancel
        have ho' : s.out ++ [Out.head (fieldsOf s.req) (!s.connect && s.req.bodyEnd)] = [Out.head (fieldsOf r) (!(r.method == mCONNECT) && r.bodyEnd)] := by
          simp [ho, St.connect, hreq]
        have h1 : Inv r { s with out := s.out ++ [Out.head (fieldsOf s.req) (!s.connect && s.req.bodyEnd)], stage := .opening } := by
          rw [ho']
          have hbad := h.bad
          constructor <;> simp_all
        have h2 := h1.opened ho' hp (by simp) hb x is
        cases x <;> exact h2
      · exact h.refuse hp hs' (.inl ho) _ (fun hh => absurd hh hb)

theorem Inv.reopen {r : Req} {s : St} (h : Inv r s) (hs : s.stage = .opening) (x : Ready) (is : List Pipe.In) : Inv r (s.reopen x is) := by
  obtain ⟨ho, hp⟩ := h.opening hs
  have hs' : s.stage ≠ .running := by rw [hs]; simp
  unfold St.reopen
  split
  · exact h
  · exact h.refuse hp hs' (.inr ho) _ (fun hh => absurd hh (h.openingSent hs))
  · exact h.pollPipe ho hp hs' (h.openingSent hs) is

theorem Inv.pollPipeMap {r : Req} {s : St} (h : Inv r s) (hs : s.stage = .running) (is : List Pipe.In) : Inv r (s.pollPipeMap is) := by
  unfold St.pollPipeMap
  split
  · exact h
  · rename_i p hp
    obtain ⟨hi, hb, hm⟩ := h.pipe p hp
    obtain ⟨t, ho, ht⟩ := h.running hs
    have hreq := h.req
    have hl := h.listening
    have hc := h.cancel
    have hsent := h.sent hs
    have ht : t = [] := ht.resolve_right (fun hh => by rw [hh.2.2.2] at hp; cases hp)
    subst ht
    split
    · exact h
    · rename_i hk
      simp only [not_or, Option.isSome_iff_ne_none, Decidable.not_not, ne_eq, Bool.not_eq_true] at hk
      split
      · rename_i hx
        constructor <;> simp_all
      · split
        · rename_i hx
          constructor <;> simp_all
          exact hi.run is
        · constructor <;> simp_all
          exact hi.run is

theorem Inv.respond {r : Req} {s : St} (h : Inv r s) (hs : s.stage = .running) (hd : s.sendDone = false) (x : Resp) : Inv r (s.respond x) := by
  obtain ⟨t, ho, ht⟩ := h.running hs
  have hreq := h.req
  have hc := h.cancel.2 hd
  have hk : s.killed ≠ true := fun hk => by rw [(h.killed hk).1] at hc; cases hc
  have ht : t = [] := ht.resolve_right (fun hh => by rw [hh.2.2.1] at hd; cases hd)
  subst ht
  have hp := h.pipe
  have hpp := h.piped hs
  have hsent := h.sent hs
  unfold St.respond
  split
  · rename_i hcon
    simp only [St.connect, hreq, beq_iff_eq] at hcon
    have hn : s.pipe = none := by
      cases e : s.pipe with
      | none => rfl
      | some p => exact absurd hcon.1 (hp p e).2.2
    split <;> (constructor <;> simp_all)
  · constructor <;> simp_all

theorem Inv.pollSend {r : Req} {s : St} (h : Inv r s) (hs : s.stage = .running) (hd : s.sendDone = false) (x : RespPoll) (c t : Bool) : Inv r (s.pollSend x c t) := by
  have hr := fun y => h.respond hs hd y
  obtain ⟨t', ho, ht⟩ := h.running hs
  have hreq := h.req
  have hc := h.cancel.2 hd
  have hk : s.killed ≠ true := fun hk => by rw [(h.killed hk).1] at hc; cases hc
  have hl : s.listening = true := by
    cases e : s.listening with
    | true => rfl
    | false => rw [h.listening e] at hc; cases hc
  have ht : t' = [] := ht.resolve_right (fun hh => by rw [hh.2.2.1] at hd; cases hd)
  subst ht
  have hp := h.pipe
  have hpp := h.piped hs
  have hsent := h.sent hs
  unfold St.pollSend
  split
  · split
    · constructor <;> simp_all
    · exact h
  · exact hr _
  · constructor <;> simp_all

theorem Inv.step {r : Req} {s : St} (h : Inv r s) (a : Act) : Inv r (s.step a) := by
  cases a with
  | take c k x is => simp only [St.step]; split; exact h.take (by assumption) c k x is; exact h
  | reopen x is => simp only [St.step]; split; exact h.reopen (by assumption) x is; exact h
  | pollPipe is => simp only [St.step]; split; exact h.pollPipeMap (by assumption) is; exact h
  | pollSend x c t =>
    simp only [St.step]
    split
    · rename_i hh; exact h.pollSend hh.1 hh.2 x c t
    · exact h

theorem Inv.run' {r : Req} {s : St} (h : Inv r s) (as : List Act) : Inv r (s.run as) := by
  induction as generalizing s with
  | nil => exact h
  | cons a as ih => exact ih (h.step a)

theorem Inv.run (r : Req) (as : List Act) : Inv r ((Rq.init r).run as) := (Inv.init r).run' as

/-- The frames of a request: its head, those of the pipe, a reset. -/
theorem Inv.shape {r : Req} {s : St} (h : Inv r s) :
    s.log = [] ∨ s.log = [.head (fieldsOf r) (!(r.method == mCONNECT) && r.bodyEnd)] ∨
    (r.method = mCONNECT ∧ s.log = [.head (fieldsOf r) false, .reset INTERNAL_ERROR]) ∨
    (∃ p, s.pipe = some p ∧ Pipe.Inv p ∧ (s.killed = true → p.res = none) ∧
      s.log = .head (fieldsOf r) false :: (p.out.map .body ++ if s.killed then [.reset CANCEL] else [])) := by
  cases hp : s.pipe with
  | none =>
    have hl : s.log = s.out := by simp only [St.log, hp]
    rw [hl]
    cases hs : s.stage with
    | queued => exact .inl (h.queued hs).1
    | opening => exact .inr (.inl (h.opening hs).1)
    | refused => rcases (h.refused hs).2 with h | h; exact .inl h; exact .inr (.inl h)
    | running =>
      obtain ⟨t, ho, rfl | ⟨rfl, hm, _⟩⟩ := h.running hs
      · exact .inr (.inl ho)
      · refine .inr (.inr (.inl ⟨hm, ?_⟩))
        rw [ho, hm]; rfl
  | some p =>
    have hl : s.log = s.out ++ p.out.map .body ++ (if s.killed then [.reset CANCEL] else []) := by simp only [St.log, hp]
    obtain ⟨hi, hb, hm⟩ := h.pipe p hp
    refine .inr (.inr (.inr ⟨p, rfl, hi, fun hk => ?_, ?_⟩))
    · obtain ⟨_, q, e, hq⟩ := h.killed hk
      rw [hp] at e; cases e; exact hq
    · have hs : s.stage = .running := by
        cases hs : s.stage with
        | queued => rw [(h.queued hs).2] at hp; cases hp
        | opening => rw [(h.opening hs).2] at hp; cases hp
        | refused => rw [(h.refused hs).1] at hp; cases hp
        | running => rfl
      obtain ⟨t, ho, rfl | ⟨_, _, _, hn⟩⟩ := h.running hs
      · rw [hl, ho, hb]; simp
      · rw [hn] at hp; cases hp

end Rq

open Rq in
/-- C62: the stream of a request is told its head first and once, and nothing after its end or a reset. -/
theorem C62_orderly (r : Req) (as : List Rq.Act) : Orderly ((Rq.init r).run as).log := by
  rcases (Inv.run r as).shape with e | e | ⟨_, e⟩ | ⟨p, _, hi, hk, e⟩
  · rw [e]; exact ⟨by simp, by simp, by simp⟩
  · rw [e]
    refine ⟨?_, by simp, by simp⟩
    intro f hf; simp at hf; rw [← hf]; rfl
  · rw [e]
    refine ⟨?_, ?_, ?_⟩
    · intro f hf; simp at hf; rw [← hf]; rfl
    · intro f hf; simp at hf; rw [hf]; rfl
    · intro f hf; simp at hf; rw [hf]; exact ⟨rfl, rfl⟩
  · rw [e]
    refine ⟨?_, ?_, ?_⟩
    · intro f hf; simp at hf; rw [← hf]; rfl
    · intro f hf
      simp only [List.tail_cons, List.mem_append, List.mem_map] at hf
      rcases hf with ⟨g, _, rfl⟩ | hf
      · rfl
      · split at hf
        · rw [List.mem_singleton.1 hf]; rfl
        · cases hf
    · intro f hf
      cases hkk : ((Rq.init r).run as).killed with
      | true =>
        have hr := hi.running (hk hkk)
        rw [hkk, if_pos rfl, ← List.cons_append, List.dropLast_concat] at hf
        rcases List.mem_cons.1 hf with rfl | hf
        · exact ⟨rfl, rfl⟩
        · obtain ⟨g, hg, rfl⟩ := List.mem_map.1 hf
          exact ⟨hr.2.2.2.1 g hg, hr.2.2.2.2 g hg⟩
      | false =>
        rw [hkk, if_neg (by simp), List.append_nil] at hf
        cases hq : p.out with
        | nil => simp [hq] at hf
        | cons a t =>
          have e' : (Out.head (fieldsOf r) false :: p.out.map Out.body).dropLast = Out.head (fieldsOf r) false :: p.out.dropLast.map Out.body := by
            rw [hq]; simp [List.map_dropLast]
          rw [e'] at hf
          rcases List.mem_cons.1 hf with rfl | hf
          · exact ⟨rfl, rfl⟩
          · obtain ⟨g, hg, rfl⟩ := List.mem_map.1 hf
            exact Strm.pipe_dropLast hi g hg

open Rq in
/-- C62: the head is the one that is due. -/
theorem C62_head (r : Req) (hm : r.headers.Wf) (as : List Rq.Act) (f : Rq.Out) (hf : ((Rq.init r).run as).log.head? = some f) :
    ∃ h eos, f = .head h eos ∧ HeadOf r h eos := by
  have hh := headOf r hm
  rcases (Inv.run r as).shape with e | e | ⟨hc, e⟩ | ⟨p, hp, _, _, e⟩
  · rw [e] at hf; cases hf
  · rw [e] at hf; cases hf; exact ⟨_, _, rfl, hh⟩
  · rw [e] at hf; cases hf
    refine ⟨_, _, rfl, ?_⟩
    rw [hc] at hh; exact hh
  · rw [e] at hf; cases hf
    refine ⟨_, _, rfl, ?_⟩
    rw [((Inv.run r as).pipe p hp).2.1, Bool.and_false] at hh
    exact hh

open Rq in
/-- C62: a request for a tunnel that announces content is refused, and nothing of it is sent. -/
theorem C62_connect_refused (r : Req) (hm : r.headers.Wf) (hx : ∀ n, r.exact = some n → n < 2 ^ 64) (hb : Rq.BadConnect r) (as : List Rq.Act) :
    ((Rq.init r).run as).log = [] ∧ (((Rq.init r).run as).result = none ∨ ((Rq.init r).run as).result = some .invalidConnect) := by
  obtain ⟨h1, h2, h3⟩ := (Inv.run r as).bad (bad_nonZero r hm hx hb)
  refine ⟨?_, h3⟩
  simp only [St.log, h2, h1]

open Rq in
/-- C62: once the pipe of a request that has not been canceled is done without an error, the whole body has been sent. -/
theorem C62_body_complete (r : Req) (as : List Rq.Act) (p : Pipe.St) (hp : ((Rq.init r).run as).pipe = some p) (hr : p.res = some .ok) :
    ((Rq.init r).run as).log = .head (fieldsOf r) false :: p.out.map .body ∧ Pipe.Whole p.given p.out := by
  have h := Inv.run r as
  rcases h.shape with e | e | ⟨hc, e⟩ | ⟨q, hq, hi, hk, e⟩
  · have hs := h.pipe p hp
    have : ((Rq.init r).run as).log ≠ [] := by
      simp only [St.log, hp]
      obtain ⟨_, _, ⟨pre, f, ee, _⟩, _⟩ := hs.1.ok hr
      rw [ee]; simp
    exact absurd e this
  · obtain ⟨_, _, ⟨pre, f, ee, _⟩, _⟩ := (h.pipe p hp).1.ok hr
    have hl : ((Rq.init r).run as).stage = .running := by
      cases hs : ((Rq.init r).run as).stage with
      | queued => rw [(h.queued hs).2] at hp; cases hp
      | opening => rw [(h.opening hs).2] at hp; cases hp
      | refused => rw [(h.refused hs).1] at hp; cases hp
      | running => rfl
    obtain ⟨t, ho, rfl | ⟨_, _, _, hn⟩⟩ := h.running hl
    · simp only [St.log, hp, ho, ee] at e
      simp at e
    · rw [hn] at hp; cases hp
  · exact absurd hc (h.pipe p hp).2.2
  · rw [hp] at hq; cases hq
    have hk : ((Rq.init r).run as).killed = false := by
      cases hkk : ((Rq.init r).run as).killed with
      | false => rfl
      | true => rw [hk hkk] at hr; cases hr
    refine ⟨?_, hi.ok hr⟩
    rw [e, hk]; simp

namespace Rq

/-- A request whose caller has gone away and whose pipe has not been reset: whatever happens, nothing but the reset follows. -/
structure Gone (s0 s : St) : Prop where
  same : s.pipe = s0.pipe ∧ s.out = s0.out ∧ s.stage = .running ∧ s.sendDone = true ∧ s.cancel = .sent ∧ s.listening = true

theorem Gone.step {s0 s : St} (h : Gone s0 s) (a : Act) : Gone s0 (s.step a) := by
  obtain ⟨h1, h2, h3, h4, h5, h6⟩ := h.same
  cases a with
  | take c k x is => simp only [St.step, h3]; rw [if_neg (by simp)]; exact h
  | reopen x is => simp only [St.step, h3]; rw [if_neg (by simp)]; exact h
  | pollPipe is =>
    simp only [St.step, h3, if_true]
    unfold St.pollPipeMap
    split
    · exact h
    · split
      · exact h
      · rw [if_pos ⟨h6, h5⟩]
        exact ⟨h1, h2, h3, h4, h5, h6⟩
  | pollSend x c t => simp only [St.step, h3, h4]; rw [if_neg (by simp)]; exact h

theorem Gone.run {s0 s : St} (h : Gone s0 s) (as : List Act) : Gone s0 (s.run as) := by
  induction as generalizing s with
  | nil => exact h
  | cons a as ih => exact ih (h.step a)

theorem killed_step {s : St} (h : s.killed = true) (a : Act) : (s.step a).killed = true := by
  cases a with
  | take c k x is =>
    simp only [St.step]
    split
    · unfold St.take St.opened St.pollPipe
      repeat' split
      all_goals exact h
    · exact h
  | reopen x is =>
    simp only [St.step]
    split
    · unfold St.reopen St.pollPipe
      repeat' split
      all_goals exact h
    · exact h
  | pollPipe is =>
    simp only [St.step]
    split
    · unfold St.pollPipeMap
      repeat' split
      all_goals first | exact h | rfl
    · exact h
  | pollSend x c t =>
    simp only [St.step]
    split
    · unfold St.pollSend St.respond
      repeat' split
      all_goals exact h
    · exact h

theorem killed_run {s : St} (h : s.killed = true) (as : List Act) : (s.run as).killed = true := by
  induction as generalizing s with
  | nil => exact h
  | cons a as ih => exact ih (killed_step h a)

theorem Gone.kills {s0 s : St} (h : Gone s0 s) {p : Pipe.St} (hp : s0.pipe = some p) (hr : p.res = none) (as : List Act) (ha : ∃ is, .pollPipe is ∈ as) :
    (s.run as).killed = true := by
  induction as generalizing s with
  | nil => obtain ⟨is, h⟩ := ha; cases h
  | cons a as ih =>
    obtain ⟨is, hm⟩ := ha
    rcases List.mem_cons.1 hm with rfl | hm
    · refine killed_run ?_ as
      obtain ⟨h1, h2, h3, h4, h5, h6⟩ := h.same
      simp only [St.step, h3, if_true, St.pollPipeMap, h1, hp]
      split
      · rename_i hk
        simpa [hr] using hk
      · rw [if_pos ⟨h6, h5⟩]
    · exact ih (h.step a) ⟨is, hm⟩

end Rq

open Rq in
/-- C62: when the caller is found to have gone away while the response is awaited, nothing more of the request's body is sent; and if it was
not yet complete, the stream is reset with CANCEL at the next poll of the pipe. -/
theorem C62_canceled (r : Req) (as bs : List Rq.Act) (t : Bool) (hs : ((Rq.init r).run as).stage = .running) (hd : ((Rq.init r).run as).sendDone = false) :
    (((Rq.init r).run (as ++ .pollSend .pending true t :: bs)).log = ((Rq.init r).run as).log ∨
     ((Rq.init r).run (as ++ .pollSend .pending true t :: bs)).log = ((Rq.init r).run as).log ++ [.reset CANCEL]) ∧
    (∀ p, ((Rq.init r).run as).pipe = some p → p.res = none → (∃ is, .pollPipe is ∈ bs) →
      ((Rq.init r).run (as ++ .pollSend .pending true t :: bs)).log = ((Rq.init r).run as).log ++ [.reset CANCEL]) := by
  have h := Inv.run r as
  have hc := h.cancel.2 hd
  have hl : ((Rq.init r).run as).listening = true := by
    cases e : ((Rq.init r).run as).listening with
    | true => rfl
    | false => rw [h.listening e] at hc; cases hc
  have hk : ((Rq.init r).run as).killed = false := by
    cases e : ((Rq.init r).run as).killed with
    | false => rfl
    | true => rw [(h.killed e).1] at hc; cases hc
  have e : (Rq.init r).run (as ++ .pollSend .pending true t :: bs) = (((Rq.init r).run as).step (.pollSend .pending true t)).run bs := by
    simp [St.run, List.foldl_append]
  have g0 : Gone ((Rq.init r).run as) (((Rq.init r).run as).step (.pollSend .pending true t)) := by
    simp only [St.step, hs, hd, and_self, if_true, St.pollSend]
    exact ⟨rfl, rfl, rfl, rfl, rfl, hl⟩
  have g := g0.run bs
  rw [← e] at g
  obtain ⟨h1, h2, _⟩ := g.same
  constructor
  · cases hp : ((Rq.init r).run as).pipe with
    | none => left; simp only [St.log, h1, h2, hp]
    | some p =>
      simp only [St.log, h1, h2, hp, hk]
      cases ((Rq.init r).run (as ++ .pollSend .pending true t :: bs)).killed <;> simp
  · intro p hp hr ha
    have := g0.kills hp hr bs ha
    rw [← e] at this
    simp only [St.log, h1, h2, hp, hk, this]
    simp

open Rq in
/-- C62: and the stream is not reset with CANCEL unless the caller went away. -/
theorem C62_cancel_only_if (r : Req) (as : List Rq.Act) (hk : ((Rq.init r).run as).killed = true) : ∃ t, .pollSend .pending true t ∈ as := by
  have key : ∀ (as : List Rq.Act) (s : St), s.cancel ≠ .sent → (s.run as).cancel = .sent → ∃ t, Rq.Act.pollSend .pending true t ∈ as := by
    intro as
    induction as with
    | nil => intro s h1 h2; exact absurd h2 h1
    | cons a as ih =>
      intro s h1 h2
      by_cases h3 : (s.step a).cancel = .sent
      · cases a with
        | take c k x is =>
          exfalso; revert h3; simp only [St.step]
          unfold St.take St.opened St.pollPipe
          repeat' split
          all_goals exact h1
        | reopen x is =>
          exfalso; revert h3; simp only [St.step]
          unfold St.reopen St.pollPipe
          repeat' split
          all_goals exact h1
        | pollPipe is =>
          exfalso; revert h3; simp only [St.step]
          unfold St.pollPipeMap
          repeat' split
          all_goals exact h1
        | pollSend x c t =>
          cases x with
          | pending =>
            cases c with
            | true => exact ⟨t, List.mem_cons_self⟩
            | false =>
              exfalso; revert h3; simp only [St.step]
              unfold St.pollSend
              repeat' split
              all_goals (first | exact h1 | simp_all)
          | ok x =>
            exfalso; revert h3; simp only [St.step]
            unfold St.pollSend St.respond
            repeat' split
            all_goals (first | exact h1 | simp_all)
          | err =>
            exfalso; revert h3; simp only [St.step]
            unfold St.pollSend
            repeat' split
            all_goals (first | exact h1 | simp_all)
      · obtain ⟨t, ht⟩ := ih (s.step a) h3 h2
        exact ⟨t, List.mem_cons_of_mem _ ht⟩
  exact key as _ (by simp [Rq.init]) (((Inv.run r as).killed hk).1)

namespace Rq

/-- What the caller may be told of a response. -/
def Told (r : Req) : Result → Prop
  | .upgrade x => r.method = ascii "CONNECT" ∧ x.status = 200 ∧ ¬ ∃ n, AgreedLength (x.headers.getAll (ascii "content-length")) n ∧ n ≠ 0
  | .response x b => ¬ (r.method = ascii "CONNECT" ∧ x.status = 200) ∧ Srv.Sized (x.headers.getAll (ascii "content-length")) x.eos b.sizeHint
  | _ => True

theorem told_step {r : Req} {s : St} (h : Inv r s) (ht : ∀ x, s.result = some x → Told r x) (a : Act) : ∀ x, (s.step a).result = some x → Told r x := by
  have hreq := h.req
  intro x
  cases a with
  | take c k y is =>
    simp only [St.step]
    unfold St.take St.opened St.pollPipe
    repeat' split
    all_goals first | exact ht x | (intro hx; cases hx; trivial)
  | reopen y is =>
    simp only [St.step]
    unfold St.reopen St.pollPipe
    repeat' split
    all_goals first | exact ht x | (intro hx; cases hx; trivial)
  | pollPipe is =>
    simp only [St.step]
    unfold St.pollPipeMap
    repeat' split
    all_goals exact ht x
  | pollSend y c t =>
    simp only [St.step]
    split
    · cases y with
      | pending =>
        simp only [St.pollSend]
        split <;> exact ht x
      | err =>
        simp only [St.pollSend]
        intro hx
        cases hx
        split <;> trivial
      | ok y =>
        simp only [St.pollSend, St.respond, St.connect, hreq]
        split
        · rename_i hc
          have hc : r.method = ascii "CONNECT" ∧ y.status = 200 := ⟨by have := hc.1; rw [beq_iff_eq] at this; exact this, hc.2⟩
          split
          · intro hx; cases hx; trivial
          · rename_i hz
            intro hx; cases hx
            exact ⟨hc.1, hc.2, fun hh => hz ((nonZero_iff _).2 hh)⟩
        · rename_i hc
          intro hx; cases hx
          exact ⟨fun hh => hc ⟨by rw [hh.1]; rfl, hh.2⟩, Srv.sized _ _⟩
    · exact ht x

end Rq

open Rq in
/-- C62: the caller gets the stream only from a 200 answer to CONNECT without content, and otherwise a body that knows its size. -/
theorem C62_response (r : Req) (as : List Rq.Act) (x : Rq.Result) (hx : ((Rq.init r).run as).result = some x) : Told r x := by
  have key : ∀ (as : List Rq.Act) (s : St), Inv r s → (∀ x, s.result = some x → Told r x) → ∀ x, (s.run as).result = some x → Told r x := by
    intro as
    induction as with
    | nil => intro s _ h; exact h
    | cons a as ih => intro s hi h; exact ih (s.step a) (hi.step a) (told_step hi h a)
  exact key as _ (Inv.init r) (by simp [Rq.init]) x hx

open Rq in
/-- C62: of a request whose caller is gone before it is taken from the queue, nothing is sent. -/
theorem C62_unsent (r : Req) (as bs : List Rq.Act) (hq : ((Rq.init r).run as).stage = .queued) (k : Bool) (x : Ready) (is : List Pipe.In) :
    ((Rq.init r).run (as ++ .take true k x is :: bs)).log = [] := by
  have hlog : ∀ (as : List Rq.Act) (s : St), s.stage = .queued ∧ s.out = [] ∧ s.pipe = none → (s.run as).stage = .queued → (s.run as).out = [] ∧ (s.run as).pipe = none := by
    intro as
    induction as with
    | nil => intro s h _; exact h.2
    | cons a as ih =>
      intro s h h2
      by_cases hs : (s.step a).stage = .queued
      · refine ih (s.step a) ⟨hs, ?_⟩ h2
        revert hs
        obtain ⟨h1, h3, h4⟩ := h
        cases a <;> simp only [St.step, h1, St.take, St.opened, St.pollPipe] <;> (repeat' split) <;> simp_all
      · exfalso
        have stay : ∀ (as : List Rq.Act) (s : St), s.stage ≠ .queued → (s.run as).stage ≠ .queued := by
          intro as
          induction as with
          | nil => intro s h; exact h
          | cons a as ih =>
            intro s h
            refine ih (s.step a) ?_
            cases a <;> simp only [St.step, St.take, St.opened, St.reopen, St.pollPipe, St.pollPipeMap, St.pollSend, St.respond] <;> (repeat' split) <;> simp_all
        exact stay as _ hs h2
  have still : ∀ (as : List Rq.Act) (s : St), s.stage = .refused → s.out = [] ∧ s.pipe = none → (s.run as).out = [] ∧ (s.run as).pipe = none := by
    intro as
    induction as with
    | nil => intro s _ h; exact h
    | cons a as ih =>
      intro s h1 h2
      have : s.step a = s := by cases a <;> simp [St.step, h1]
      show ((s.step a).run as).out = [] ∧ ((s.step a).run as).pipe = none
      rw [this]
      exact ih s h1 h2
  have h0 := hlog as (Rq.init r) ⟨rfl, rfl, rfl⟩ hq
  have e : (Rq.init r).run (as ++ .take true k x is :: bs) = (((Rq.init r).run as).step (.take true k x is)).run bs := by simp [St.run, List.foldl_append]
  rw [e]
  have h1 := still bs (((Rq.init r).run as).step (.take true k x is)) (by simp [St.step, hq, St.take]) (by simp [St.step, hq, St.take, h0])
  simp [St.log, h1.1, h1.2]

open Rq in
/-- C62: a caller who waits is told: when a request is given up before its stream runs, or its future ends, there is a result, unless the caller was gone. -/
theorem C62_told (r : Req) (as : List Rq.Act) (h : ((Rq.init r).run as).stage = .refused ∨ ((Rq.init r).run as).sendDone = true) :
    ((Rq.init r).run as).result ≠ none ∨ (∃ k x is, .take true k x is ∈ as) ∨ ∃ t, .pollSend .pending true t ∈ as := by
  have key : ∀ (as : List Rq.Act) (s : St), ((s.stage = .refused ∨ s.sendDone = true) → s.result ≠ none) → ((s.run as).stage = .refused ∨ (s.run as).sendDone = true) →
      (s.run as).result ≠ none ∨ (∃ k x is, Rq.Act.take true k x is ∈ as) ∨ ∃ t, Rq.Act.pollSend .pending true t ∈ as := by
    intro as
    induction as with
    | nil => intro s hs h; exact .inl (hs h)
    | cons a as ih =>
      intro s hs h
      by_cases ha : (∃ k x is, a = .take true k x is) ∨ ∃ t, a = .pollSend .pending true t
      · rcases ha with ⟨k, x, is, rfl⟩ | ⟨t, rfl⟩
        · exact .inr (.inl ⟨k, x, is, List.mem_cons_self⟩)
        · exact .inr (.inr ⟨t, List.mem_cons_self⟩)
      · have hstep : ((s.step a).stage = .refused ∨ (s.step a).sendDone = true) → (s.step a).result ≠ none := by
          revert hs
          cases a with
          | take c k x is =>
            cases c with
            | true => exact absurd (.inl ⟨k, x, is, rfl⟩) ha
            | false => simp only [St.step]; unfold St.take St.opened St.pollPipe; (repeat' split) <;> simp_all
          | reopen x is => simp only [St.step]; unfold St.reopen St.pollPipe; (repeat' split) <;> simp_all
          | pollPipe is => simp only [St.step]; unfold St.pollPipeMap; (repeat' split) <;> simp_all
          | pollSend x c t =>
            cases x with
            | pending =>
              cases c with
              | true => exact absurd (.inr ⟨t, rfl⟩) ha
              | false => simp only [St.step]; unfold St.pollSend; (repeat' split) <;> simp_all
            | ok y => simp only [St.step]; unfold St.pollSend St.respond; (repeat' split) <;> simp_all
            | err => simp only [St.step]; unfold St.pollSend; (repeat' split) <;> simp_all
        rcases ih (s.step a) hstep h with g | ⟨k, x, is, g⟩ | ⟨t, g⟩
        · exact .inl g
        · exact .inr (.inl ⟨k, x, is, List.mem_cons_of_mem _ g⟩)
        · exact .inr (.inr ⟨t, List.mem_cons_of_mem _ g⟩)
  exact key as _ (by simp [Rq.init]) h

/-- C62, not vacuous: an upload whose caller goes away. -/
def exUpload : Rq.Req := ⟨ascii "PUT", [(ascii "te", [ascii "gzip"]), (ascii "x", [ascii "1"])], false, some 4⟩

example : ((Rq.init exUpload).run [.take false true .pending [], .reopen .ok [{ body := .frame (.data [1, 2] false) }, { capacity := 1 }],
      .pollSend .pending false false, .pollSend .pending true false, .pollPipe [{ body := .frame (.data [3, 4] true) }], .pollPipe []]).log =
    [.head [(ascii "x", [ascii "1"]), (ascii "content-length", [ascii "4"])] false, .body (.data [1, 2] false), .reset 8] := by decide +kernel

example : ((Rq.init ⟨ascii "GET", [], true, some 0⟩).run [.take false true .ok [], .pollSend (.ok ⟨200, [], false⟩) false false]).log = [.head [] true] ∧
    ((Rq.init ⟨ascii "POST", [], true, some 0⟩).run [.take false true .ok []]).log = [.head [(ascii "content-length", [ascii "0"])] true] := by decide +kernel

example : ((Rq.init ⟨ascii "CONNECT", [], true, none⟩).run [.take false true .ok [], .pollSend (.ok ⟨200, [], false⟩) false false]).result =
    some (.upgrade ⟨200, [], false⟩) := by decide +kernel

example : Rq.BadConnect ⟨ascii "CONNECT", [], false, some 3⟩ := ⟨rfl, .inr ⟨by simp [Rq.kept, HeaderMap.getAll], 3, rfl, by decide⟩⟩

/-- The caller is gone before the request is taken; and a caller who waits, and is told. -/
example : ((Rq.init exUpload).run []).stage = .queued ∧ ((Rq.init exUpload).run ([] ++ .take true true .ok [] :: [])).stage = .refused ∧
    ((Rq.init ⟨ascii "GET", [], true, some 0⟩).run [.take false true .ok [], .pollSend .err false false]).sendDone = true := by decide +kernel

end Hyper
