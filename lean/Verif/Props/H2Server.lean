import Verif.Model.H2Server
import Verif.Props.H2Pipe
import Verif.Props.Small

/-!
# C58 to C61: the HTTP/2 server
-/

namespace Hyper

open Spec

namespace Strm

/-! ## Specification of C58 and C59 -/

def Out.isHead : Out → Bool
  | .head _ _ _ => true
  | _ => false

def Out.isReset : Out → Bool
  | .reset _ => true
  | .body f => f.isReset
  | .head _ _ _ => false

/-- The stream ends with this frame. -/
def Out.ends : Out → Bool
  | .head _ _ eos => eos
  | .body f => f.ends
  | .reset _ => false

/-- Nothing comes before the head or after the end. -/
structure Orderly (log : List Out) : Prop where
  first : ∀ f ∈ log.head?, f.isHead = true ∨ f.isReset = true
  oneHead : ∀ f ∈ log.tail, f.isHead = false
  last : ∀ f ∈ log.dropLast, f.ends = false ∧ f.isReset = false

open Classical in
/-- The values a response has under `k` when the fields of the connection are left out. -/
noncomputable def kept (m : HeaderMap) (k : Bytes) : List Bytes := if ConnectionSpecific .response m k then [] else m.getAll k

/-- A 2xx answer to CONNECT. -/
def Tunnel (connect : Bool) (r : Resp) : Prop := connect = true ∧ 200 ≤ r.status ∧ r.status ≤ 299

open Classical in
/-- The head that is to be sent for the response `r`. -/
structure HeadOf (connect date : Bool) (now : Bytes) (r : Resp) (status : Nat) (h : HeaderMap) (eos : Bool) : Prop where
  status : status = r.status
  date : h.getAll (ascii "date") =
    if date = true ∧ kept r.headers (ascii "date") = [] then [now] else kept r.headers (ascii "date")
  length : h.getAll (ascii "content-length") =
    if Tunnel connect r then []
    else if kept r.headers (ascii "content-length") = [] ∧ r.bodyEnd = false then (r.exact.map decimal).toList
    else kept r.headers (ascii "content-length")
  others : ∀ k, LowerName k → k.length < 2 ^ 16 → k ≠ ascii "date" → k ≠ ascii "content-length" → h.getAll k = kept r.headers k
  eos : eos = true ↔ ¬ Tunnel connect r ∧ r.bodyEnd = true

/-- The stream failed in this iteration: it was reset by the peer, or refused what it was told. -/
def Lost (i : In) : Prop :=
  i.reset ≠ .pending ∨ i.pipe.reset ≠ .pending ∨ i.pipe.sendOk = false ∨ .err ∈ i.pipe.caps ∨ .none ∈ i.pipe.caps

/-- The reason to reset with: that of the first HTTP/2 error among the causes. -/
def reasonOf (causes : List Pipe.Cause) : Nat :=
  match causes.find? (· ≠ .other) with
  | some (.h2 (some r)) => r
  | _ => INTERNAL_ERROR

/-! ## The fields -/

theorem mem_remove {m : HeaderMap} {n : Bytes} {g : Bytes × List Bytes} (h : g ∈ m.remove n) : g ∈ m := (List.mem_filter.1 h).1

theorem mem_removeStr {m : HeaderMap} {n : Bytes} {g : Bytes × List Bytes} (h : g ∈ m.removeStr n) : g ∈ m := by
  unfold HeaderMap.removeStr at h
  split at h
  · exact mem_remove h
  · exact h

theorem mem_foldl {α : Type} {f : HeaderMap → α → HeaderMap} (hf : ∀ m a g, g ∈ f m a → g ∈ m) (as : List α) :
    ∀ (m : HeaderMap) g, g ∈ as.foldl f m → g ∈ m := by
  induction as with
  | nil => intro m g h; exact h
  | cons a as ih => intro m g h; exact hf m a g (ih _ _ h)

theorem mem_strip {kind : MessageKind} {m : HeaderMap} {g : Bytes × List Bytes} (h : g ∈ stripConnectionHeaders kind m) : g ∈ m := by
  have h1 : ∀ m', g ∈ stripConnection m' → g ∈ m' := by
    intro m' h
    unfold stripConnection at h
    split at h
    · unfold stripListed at h
      split at h
      · exact mem_remove (mem_foldl (fun _ _ _ => mem_removeStr) _ _ _ h)
      · exact mem_remove h
    · exact h
  have h2 : ∀ m', g ∈ stripTe kind m' → g ∈ m' := by
    intro m' h
    cases kind with
    | request =>
      simp only [stripTe] at h
      split at h
      · exact mem_remove h
      · exact h
    | response => exact mem_remove h
  have h2 := h2 _ (h1 _ h)
  exact mem_foldl (fun _ _ _ => mem_remove) _ _ _ h2

theorem contains_iff {m : HeaderMap} (hm : ∀ g ∈ m, g.2 ≠ []) (k : Bytes) : m.contains k = true ↔ m.getAll k ≠ [] := by
  induction m with
  | nil => simp [HeaderMap.contains, HeaderMap.getAll]
  | cons g m ih =>
    have := ih (fun g hg => hm g (List.mem_cons_of_mem _ hg))
    simp only [HeaderMap.contains, List.any_cons, Bool.or_eq_true, beq_iff_eq, HeaderMap.getAll] at this ⊢
    by_cases hk : g.1 = k
    · simp [hk, hm g List.mem_cons_self]
    · simp [hk, this]

theorem lower_date : LowerName (ascii "date") := by constructor <;> decide +kernel
theorem lower_length : LowerName (ascii "content-length") := by constructor <;> decide +kernel

theorem getAll_strip (m : HeaderMap) (k : Bytes) (hk : LowerName k) (hl : k.length < 2 ^ 16) :
    (stripConnectionHeaders .response m).getAll k = kept m k := C45_stripped_partial .response m k hk hl

theorem contains_false {m : HeaderMap} {k : Bytes} (hm : ∀ g ∈ m, g.2 ≠ []) (h : ¬ m.contains k = true) : m.getAll k = [] :=
  Classical.byContradiction fun hc => h ((contains_iff hm k).2 hc)

theorem getAll_setDate (date : Bool) (now : Bytes) (m : HeaderMap) (hm : ∀ g ∈ m, g.2 ≠ []) (k : Bytes) :
    (setDate date now m).getAll k =
      if k = ascii "date" ∧ date = true ∧ m.getAll (ascii "date") = [] then [now] else m.getAll k := by
  unfold setDate
  cases date with
  | false => simp
  | true =>
    simp only [if_true, true_and]
    by_cases hc : m.contains hDATE = true
    · rw [if_pos hc, if_neg]
      exact fun h => (contains_iff hm _).1 hc h.2
    · rw [if_neg hc, getAll_insert]
      have := contains_false hm hc
      by_cases hk : k = hDATE
      · rw [if_pos hk, if_pos ⟨hk, this⟩]
      · rw [if_neg hk, if_neg (fun h => hk h.1)]

theorem nonempty_setDate (date : Bool) (now : Bytes) (m : HeaderMap) (hm : ∀ g ∈ m, g.2 ≠ []) : ∀ g ∈ setDate date now m, g.2 ≠ [] := by
  have hins : ∀ (m : HeaderMap), (∀ g ∈ m, g.2 ≠ []) → ∀ n (v : Bytes), ∀ g ∈ m.insert n v, g.2 ≠ [] := by
    intro m hm n v
    induction m with
    | nil => simp [HeaderMap.insert]
    | cons g0 m ih =>
      have h0 := hm g0 List.mem_cons_self
      have h1 := ih (fun g hg => hm g (List.mem_cons_of_mem _ hg))
      simp only [HeaderMap.insert]
      split
      · intro g hg
        rcases List.mem_cons.1 hg with h | h
        · rw [h]; simp
        · exact hm g (List.mem_cons_of_mem _ h)
      · intro g hg
        rcases List.mem_cons.1 hg with h | h
        · rw [h]; exact h0
        · exact h1 g h
  unfold setDate
  split
  · split
    · exact hm
    · exact hins m hm _ _
  · exact hm

theorem getAll_setLength (exact : Option Nat) (m : HeaderMap) (hm : ∀ g ∈ m, g.2 ≠ []) (k : Bytes) :
    (setLength exact m).getAll k =
      if k = ascii "content-length" ∧ m.getAll (ascii "content-length") = [] then (exact.map decimal).toList else m.getAll k := by
  unfold setLength
  cases exact with
  | none =>
    simp only [Option.map_none, Option.toList_none]
    split
    · rename_i h; rw [h.1, h.2]
    · rfl
  | some n =>
    simp only [Option.map_some, Option.toList_some, setContentLengthIfMissing]
    by_cases hc : m.contains (ascii "content-length") = true
    · rw [if_pos hc, if_neg]
      exact fun h => (contains_iff hm _).1 hc h.2
    · rw [if_neg hc, getAll_insert]
      have := contains_false hm hc
      by_cases hk : k = ascii "content-length"
      · rw [if_pos hk, if_pos ⟨hk, this⟩]
      · rw [if_neg hk, if_neg (fun h => hk h.1)]

theorem nonempty_strip {kind : MessageKind} {m : HeaderMap} (hm : m.Wf) : ∀ g ∈ stripConnectionHeaders kind m, g.2 ≠ [] :=
  fun g hg => hm.nonempty g (mem_strip hg)

theorem getAll_base (date : Bool) (now : Bytes) (m : HeaderMap) (hm : m.Wf) (k : Bytes) (hk : LowerName k) (hl : k.length < 2 ^ 16) :
    (baseHeaders date now m).getAll k =
      if k = ascii "date" ∧ date = true ∧ kept m (ascii "date") = [] then [now] else kept m k := by
  unfold baseHeaders
  rw [getAll_setDate _ _ _ (nonempty_strip hm), getAll_strip _ _ hk hl, getAll_strip _ _ lower_date (by decide)]

theorem success_iff (connect : Bool) (r : Resp) : (connect = true ∧ isSuccess r.status = true) ↔ Tunnel connect r := by
  simp [Tunnel, isSuccess]

theorem date_ne : ascii "date" ≠ ascii "content-length" := by decide +kernel

theorem getAll_removeCL (m : HeaderMap) (k : Bytes) : (m.remove hCL).getAll k = if k = ascii "content-length" then [] else m.getAll k :=
  getAll_remove m hCL k

theorem nonempty_base (date : Bool) (now : Bytes) {m : HeaderMap} (hm : m.Wf) : ∀ g ∈ baseHeaders date now m, g.2 ≠ [] :=
  nonempty_setDate _ _ _ (nonempty_strip hm)

theorem headOf_tunnel {connect date : Bool} (now : Bytes) {r : Resp} (hm : r.headers.Wf) (ht : Tunnel connect r) :
    HeadOf connect date now r r.status ((baseHeaders date now r.headers).remove hCL) false where
  status := rfl
  date := by
    rw [getAll_removeCL, if_neg date_ne, getAll_base _ _ _ hm _ lower_date (by decide)]
    simp
  length := by rw [getAll_removeCL, if_pos rfl, if_pos ht]
  others := by
    intro k hk hl h1 h2
    rw [getAll_removeCL, if_neg h2, getAll_base _ _ _ hm _ hk hl, if_neg (fun h => h1 h.1)]
  eos := by simp [ht]

theorem headOf_end {connect date : Bool} (now : Bytes) {r : Resp} (hm : r.headers.Wf) (ht : ¬ Tunnel connect r) (hb : r.bodyEnd = true) :
    HeadOf connect date now r r.status (baseHeaders date now r.headers) true where
  status := rfl
  date := by
    rw [getAll_base _ _ _ hm _ lower_date (by decide)]
    simp
  length := by
    rw [getAll_base _ _ _ hm _ lower_length (by decide), if_neg ht, if_neg (fun h => date_ne h.1.symm), if_neg]
    simp [hb]
  others := by
    intro k hk hl h1 h2
    rw [getAll_base _ _ _ hm _ hk hl, if_neg (fun h => h1 h.1)]
  eos := by simp [ht, hb]

theorem headOf_body {connect date : Bool} (now : Bytes) {r : Resp} (hm : r.headers.Wf) (ht : ¬ Tunnel connect r) (hb : r.bodyEnd = false) :
    HeadOf connect date now r r.status (setLength r.exact (baseHeaders date now r.headers)) false where
  status := rfl
  date := by
    rw [getAll_setLength _ _ (nonempty_base _ _ hm), if_neg (fun h => date_ne h.1), getAll_base _ _ _ hm _ lower_date (by decide)]
    simp
  length := by
    rw [getAll_setLength _ _ (nonempty_base _ _ hm), getAll_base _ _ _ hm _ lower_length (by decide), if_neg ht,
      if_neg (c := _ ∧ _ ∧ _) (fun h => date_ne h.1.symm)]
    simp [hb]
  others := by
    intro k hk hl h1 h2
    rw [getAll_setLength _ _ (nonempty_base _ _ hm), if_neg (fun h => h2 h.1), getAll_base _ _ _ hm _ hk hl,
      if_neg (fun h => h1 h.1)]
  eos := by simp [hb]

/-! ## The stream -/

/-- Nothing follows an end or a reset of the body. -/
theorem pipe_dropLast {p : Pipe.St} (h : Pipe.Inv p) : ∀ f ∈ p.out.dropLast, f.ends = false ∧ f.isReset = false := by
  have hd : ∀ {f}, f ∈ p.out.dropLast → f ∈ p.out := fun hf => List.dropLast_subset _ hf
  cases hr : p.res with
  | none =>
    have r := h.running hr
    exact fun f hf => ⟨r.2.2.2.1 f (hd hf), r.2.2.2.2 f (hd hf)⟩
  | some x =>
    cases x with
    | ok =>
      obtain ⟨_, _, ⟨pre, g, e, _, hp⟩, hn⟩ := h.ok hr
      intro f hf
      refine ⟨?_, hn f (hd hf)⟩
      rw [e, List.dropLast_concat] at hf
      exact hp f hf
    | writeErr =>
      obtain ⟨_, _, ho, hn⟩ := h.writeErr hr
      exact fun f hf => ⟨ho f (hd hf), hn f (hd hf)⟩
    | userErr =>
      obtain ⟨_, pre, r, e, hp⟩ := h.userErr hr
      intro f hf
      rw [e, List.dropLast_concat] at hf
      exact hp f hf

/-- An iteration of the pipe in which the stream failed. -/
def PipeLost (i : Pipe.In) : Prop := i.reset ≠ .pending ∨ i.sendOk = false ∨ .err ∈ i.caps ∨ .none ∈ i.caps

theorem waitCap_fail (cs : List Pipe.CapPoll) (h : Pipe.waitCap cs = .fail) : .err ∈ cs ∨ .none ∈ cs := by
  induction cs with
  | nil => simp [Pipe.waitCap] at h
  | cons c cs ih =>
    match c with
    | .pending => simp [Pipe.waitCap] at h
    | .ok 0 => rcases ih h with h | h <;> simp [h]
    | .ok (n + 1) => simp [Pipe.waitCap] at h
    | .err => simp
    | .none => simp

theorem send_lost {s : Pipe.St} {bs : Bytes} {eos ok : Bool} (h : (s.send bs eos ok).res = some .writeErr) : ok = false := by
  cases ok with
  | false => rfl
  | true => cases eos <;> simp [Pipe.St.send] at h

theorem pipe_lost {p : Pipe.St} {i : Pipe.In} (hn : p.res ≠ some .writeErr) (h : (p.step i).res = some .writeErr) : PipeLost i := by
  unfold Pipe.St.step at h
  split at h
  · exact absurd h hn
  · rename_i hr
    split at h
    · rename_i hi; left; rw [hi]; simp
    · rename_i hi; left; rw [hi]; simp
    · split at h
      · unfold Pipe.St.sendBuffered at h
        split at h
        · split at h
          · exact absurd h hn
          · rename_i hw; exact .inr (.inr (waitCap_fail _ hw))
          · exact .inr (.inl (send_lost h))
        · exact .inr (.inl (send_lost h))
      · unfold Pipe.St.pollBody at h
        split at h
        · exact absurd h hn
        · split at h
          · exact .inr (.inl (send_lost h))
          · exact absurd h hn
        · split at h
          · simp at h
          · rename_i hs; exact .inr (.inl (by simpa using hs))
        · exact absurd h hn
        · simp at h
        · exact .inr (.inl (send_lost h))

theorem pipeLost {i : In} (h : PipeLost i.pipe) : Lost i := by
  unfold PipeLost at h; unfold Lost; rcases h with h | h | h | h <;> simp [h]

/-- The parts of the request and the configuration that do not change. -/
structure Inv (connect date : Bool) (is : List In) (s : St) : Prop where
  conn : s.connect = connect
  dated : s.date = date
  service : s.state = .service → s.out = [] ∧ s.resp = none
  body : ∀ p, s.state = .body p → Pipe.Inv p ∧ (p.res = some .writeErr → ∃ i ∈ is, Lost i) ∧
    ∃ r, s.resp = some r ∧ ∃ i ∈ is, i.svc = .ok r ∧ ∃ h, s.out = [.head r.status h false] ∧ (r.headers.Wf → HeadOf connect date i.now r r.status h false) ∧
      ¬ Tunnel connect r ∧ r.bodyEnd = false
  done : s.state = .done → ∃ r, s.resp = some r ∧ ∃ i ∈ is, i.svc = .ok r ∧ ∃ h, s.out = [.head r.status h true] ∧
    (r.headers.Wf → HeadOf connect date i.now r r.status h true) ∧ ¬ Tunnel connect r ∧ r.bodyEnd = true
  upgraded : s.state = .upgraded → ∃ r, s.resp = some r ∧ ∃ i ∈ is, i.svc = .ok r ∧ ∃ h, s.out = [.head r.status h false] ∧
    (r.headers.Wf → HeadOf connect date i.now r r.status h false) ∧ Tunnel connect r
  failed : s.state = .failed →
    (s.out = [] ∧ s.resp = none ∧ ∃ i ∈ is, Lost i) ∨
    (s.resp = none ∧ ∃ i ∈ is, ∃ cs, i.svc = .err cs ∧ s.out = [.reset (Pipe.h2Reason cs)]) ∨
    (∃ r, s.resp = some r ∧ s.out = [.reset INTERNAL_ERROR] ∧ ∃ i ∈ is, i.svc = .ok r ∧
      (i.sendOk = false ∨ (Tunnel connect r ∧ nonZero (contentLengthParseAll (baseHeaders date i.now r.headers)) = true)))

theorem Inv.init (connect date : Bool) : Inv connect date [] (Strm.init connect date) := by
  constructor <;> simp [Strm.init]

theorem Inv.more {connect date : Bool} {is : List In} {s : St} (h : Inv connect date is s) (i : In) : Inv connect date (is ++ [i]) s := by
  obtain ⟨h1, h2, h3, h4, h5, h6, h7⟩ := h
  refine ⟨h1, h2, h3, ?_, ?_, ?_, ?_⟩
  · intro p hp
    obtain ⟨a, b, r, hr, j, hj, c⟩ := h4 p hp
    exact ⟨a, fun hw => (b hw).imp fun j hj => ⟨List.mem_append_left _ hj.1, hj.2⟩, r, hr, j, List.mem_append_left _ hj, c⟩
  · intro hp
    obtain ⟨r, hr, j, hj, c⟩ := h5 hp
    exact ⟨r, hr, j, List.mem_append_left _ hj, c⟩
  · intro hp
    obtain ⟨r, hr, j, hj, c⟩ := h6 hp
    exact ⟨r, hr, j, List.mem_append_left _ hj, c⟩
  · intro hp
    rcases h7 hp with ⟨a, b, j, hj, c⟩ | ⟨a, j, hj, c⟩ | ⟨r, a, b, j, hj, c⟩
    · exact .inl ⟨a, b, j, List.mem_append_left _ hj, c⟩
    · exact .inr (.inl ⟨a, j, List.mem_append_left _ hj, c⟩)
    · exact .inr (.inr ⟨r, a, b, j, List.mem_append_left _ hj, c⟩)

theorem mem_last (is : List In) (i : In) : i ∈ is ++ [i] := by simp

theorem Inv.respond {connect date : Bool} {is : List In} {s : St} (h : Inv connect date is s) (hs : s.state = .service) (i : In) (r : Resp)
    (hi : i.svc = .ok r) : Inv connect date (is ++ [i]) (s.respond i r) := by
  obtain ⟨ho, hr⟩ := h.service hs
  have hc := h.conn
  have hd := h.dated
  have hf : ∀ {s' : St}, s'.connect = connect → s'.date = date → s'.state = .failed → s'.resp = some r → s'.out = [.reset INTERNAL_ERROR] →
      (i.sendOk = false ∨ (Tunnel connect r ∧ nonZero (contentLengthParseAll (baseHeaders date i.now r.headers)) = true)) →
      Inv connect date (is ++ [i]) s' := by
    intro s' h1 h2 h3 h4 h5 h6
    refine ⟨h1, h2, ?_, ?_, ?_, ?_, fun _ => .inr (.inr ⟨r, h4, h5, i, mem_last _ _, hi, h6⟩)⟩
    · intro h; rw [h3] at h; cases h
    · intro p h; rw [h3] at h; cases h
    · intro h; rw [h3] at h; cases h
    · intro h; rw [h3] at h; cases h
  unfold St.respond
  split
  · rename_i ht
    have ht : Tunnel connect r := (success_iff _ _).1 (by simpa [hc] using ht)
    unfold St.tunnel
    split
    · rename_i hz
      refine hf hc hd rfl rfl (by simp [ho]) (.inr ⟨ht, ?_⟩)
      rw [← hd]; exact hz
    · unfold St.reply
      split
      · refine ⟨hc, hd, ?_, ?_, ?_, ?_, ?_⟩
        · intro h; cases h
        · intro p h; cases h
        · intro h; cases h
        · intro _
          refine ⟨r, rfl, i, mem_last _ _, hi, _, by simp [ho]; rfl, fun hm => ?_, ht⟩
          have := headOf_tunnel (date := date) i.now hm ht
          rw [← hd] at this ⊢
          exact this
        · intro h; cases h
      · rename_i hk
        exact hf hc hd rfl rfl (by simp [ho]) (.inl (by simpa using hk))
  · rename_i ht
    have ht : ¬ Tunnel connect r := fun h => ht (by rw [hc]; exact (success_iff _ _).2 h)
    unfold St.plain
    split
    · rename_i hb
      unfold St.reply
      split
      · refine ⟨hc, hd, ?_, ?_, ?_, ?_, ?_⟩
        · intro h; cases h
        · intro p h; cases h
        · intro _
          refine ⟨r, rfl, i, mem_last _ _, hi, _, by simp [ho]; rfl, fun hm => ?_, ht, hb⟩
          have := headOf_end (date := date) i.now hm ht hb
          rw [← hd] at this ⊢
          exact this
        · intro h; cases h
        · intro h; cases h
      · rename_i hk
        exact hf hc hd rfl rfl (by simp [ho]) (.inl (by simpa using hk))
    · rename_i hb
      have hb : r.bodyEnd = false := by simpa using hb
      unfold St.reply
      split
      · refine ⟨hc, hd, ?_, ?_, ?_, ?_, ?_⟩
        · intro h; cases h
        · intro p h
          cases h
          refine ⟨Pipe.Inv.init, by simp [Pipe.init], r, rfl, i, mem_last _ _, hi, _, by simp [ho]; rfl, fun hm => ?_, ht, hb⟩
          have := headOf_body (date := date) i.now hm ht hb
          rw [← hd] at this ⊢
          exact this
        · intro h; cases h
        · intro h; cases h
        · intro h; cases h
      · rename_i hk
        exact hf hc hd rfl rfl (by simp [ho]) (.inl (by simpa using hk))

theorem Inv.step {connect date : Bool} {is : List In} {s : St} (h : Inv connect date is s) (i : In) : Inv connect date (is ++ [i]) (s.step i) := by
  unfold St.step
  split
  · rename_i hs
    obtain ⟨ho, hr⟩ := h.service hs
    split
    · split
      · exact h.more i
      · rename_i hi
        refine ⟨h.conn, h.dated, ?_, ?_, ?_, ?_, fun _ => .inl ⟨ho, hr, i, mem_last _ _, .inl (by rw [hi]; simp)⟩⟩ <;> (intros; simp_all)
      · rename_i hi
        refine ⟨h.conn, h.dated, ?_, ?_, ?_, ?_, fun _ => .inl ⟨ho, hr, i, mem_last _ _, .inl (by rw [hi]; simp)⟩⟩ <;> (intros; simp_all)
    · rename_i cs hi
      refine ⟨h.conn, h.dated, ?_, ?_, ?_, ?_, fun _ => .inr (.inl ⟨hr, i, mem_last _ _, cs, hi, by simp [ho]⟩)⟩ <;> (intros; simp_all)
    · rename_i r hi
      exact h.respond hs i r hi
  · rename_i p hs
    obtain ⟨hp, hw, r, hr, j, hj, c⟩ := h.body p hs
    refine ⟨h.conn, h.dated, ?_, ?_, ?_, ?_, ?_⟩
    · intro h; cases h
    · intro p' h'
      cases h'
      refine ⟨hp.step i.pipe, fun hl => ?_, r, hr, j, List.mem_append_left _ hj, c⟩
      by_cases hq : p.res = some .writeErr
      · exact (hw hq).imp fun j hj => ⟨List.mem_append_left _ hj.1, hj.2⟩
      · exact ⟨i, mem_last _ _, pipeLost (pipe_lost hq hl)⟩
    · intro h; cases h
    · intro h; cases h
    · intro h; cases h
  · exact h.more i
  · exact h.more i
  · exact h.more i

theorem Inv.run' {connect date : Bool} {js : List In} {s : St} (h : Inv connect date js s) (is : List In) : Inv connect date (js ++ is) (s.run is) := by
  induction is generalizing js s with
  | nil => rw [List.append_nil]; exact h
  | cons i is ih =>
    have := ih (h.step i)
    simpa [St.run] using this

theorem Inv.run (connect date : Bool) (is : List In) : Inv connect date is ((Strm.init connect date).run is) := by
  simpa using (Inv.init connect date).run' is

theorem h2Reason_eq (cs : List Pipe.Cause) : Pipe.h2Reason cs = reasonOf cs := by
  induction cs with
  | nil => rfl
  | cons c cs ih =>
    cases c with
    | other => simpa [Pipe.h2Reason, reasonOf] using ih
    | h2 r => cases r <;> simp [Pipe.h2Reason, reasonOf, INTERNAL_ERROR]

end Strm

open Strm in
/-- C58: whatever the service, its body and the stream do, at any moment the stream was told at most one head, before everything else, and
nothing after its end or its reset. -/
theorem C58_orderly (connect date : Bool) (is : List In) : Orderly ((Strm.init connect date).run is).log := by
  have h := Inv.run connect date is
  have one : ∀ o : Out, (o.isHead = true ∨ o.isReset = true) → Orderly [o] := by
    intro o ho
    refine ⟨?_, by simp, by simp⟩
    intro f hf
    simp at hf
    rw [← hf]; exact ho
  have nil : Orderly [] := ⟨by simp, by simp, by simp⟩
  unfold St.log
  split
  · rename_i p hs
    obtain ⟨hp, _, r, _, _, _, _, hh, ho, _⟩ := h.body p hs
    rw [ho]
    refine ⟨?_, ?_, ?_⟩
    · intro f hf
      simp at hf
      rw [← hf]; exact .inl rfl
    · intro f hf
      simp at hf
      obtain ⟨g, _, rfl⟩ := hf
      rfl
    · intro f hf
      cases hq : p.out with
      | nil => simp [hq] at hf
      | cons a t =>
        have e : ([Out.head r.status hh false] ++ p.out.map Out.body).dropLast = Out.head r.status hh false :: p.out.dropLast.map Out.body := by
          rw [hq]; simp [List.map_dropLast]
        rw [e] at hf
        rcases List.mem_cons.1 hf with hf | hf
        · rw [hf]; exact ⟨rfl, rfl⟩
        · obtain ⟨g, hg, rfl⟩ := List.mem_map.1 hf
          exact pipe_dropLast hp g hg
  · rename_i hs
    rw [(h.service hs).1]; exact nil
  · rename_i hs
    obtain ⟨r, _, _, _, _, hh, ho, _⟩ := h.done hs
    rw [ho]; exact one _ (.inl rfl)
  · rename_i hs
    obtain ⟨r, _, _, _, _, hh, ho, _⟩ := h.upgraded hs
    rw [ho]; exact one _ (.inl rfl)
  · rename_i hs
    rcases h.failed hs with ⟨ho, _⟩ | ⟨_, _, _, _, _, ho⟩ | ⟨_, _, ho, _⟩
    · rw [ho]; exact nil
    · rw [ho]; exact one _ (.inr rfl)
    · rw [ho]; exact one _ (.inr rfl)

open Strm in
/-- C58: no request is left without an answer.  When the stream's future ends, and the peer did not give the stream up and the stream did
not fail, the stream was ended, or reset, or, by a 2xx answer to CONNECT, given to the user with its head sent. -/
theorem C58_answered (connect date : Bool) (is : List In) (ho : ((Strm.init connect date).run is).over = true) (hl : ∀ i ∈ is, ¬ Lost i) :
    (∃ f, ((Strm.init connect date).run is).log.getLast? = some f ∧ (f.ends = true ∨ f.isReset = true)) ∨
    (∃ r h, ((Strm.init connect date).run is).resp = some r ∧ Tunnel connect r ∧ ((Strm.init connect date).run is).log = [.head r.status h false]) := by
  have h := Inv.run connect date is
  unfold St.over at ho
  unfold St.log
  split at ho
  · cases ho
  · rename_i p hs
    obtain ⟨hp, hw, r, _, _, _, _, hh, ho', _⟩ := h.body p hs
    simp only [hs, ho']
    left
    cases hr : p.res with
    | none => simp [hr] at ho
    | some x =>
      cases x with
      | ok =>
        obtain ⟨_, _, ⟨pre, f, e, hf, _⟩, _⟩ := hp.ok hr
        refine ⟨.body f, ?_, .inl hf⟩
        rw [e, List.map_append, ← List.append_assoc]
        simp only [List.map_cons, List.map_nil, List.getLast?_concat]
      | writeErr =>
        obtain ⟨i, hi, hlost⟩ := hw hr
        exact absurd hlost (hl i hi)
      | userErr =>
        obtain ⟨_, pre, f, e, _⟩ := hp.userErr hr
        refine ⟨.body (.reset f), ?_, .inr rfl⟩
        rw [e, List.map_append, ← List.append_assoc]
        simp only [List.map_cons, List.map_nil, List.getLast?_concat]
  · rename_i hs
    obtain ⟨r, _, _, _, _, hh, ho', _⟩ := h.done hs
    simp only [hs, ho']
    exact .inl ⟨_, rfl, .inl rfl⟩
  · rename_i hs
    obtain ⟨r, hr, _, _, _, hh, ho', _, ht⟩ := h.upgraded hs
    simp only [hs, ho']
    exact .inr ⟨r, hh, hr, ht, rfl⟩
  · rename_i hs
    simp only [hs]
    rcases h.failed hs with ⟨_, _, i, hi, hlost⟩ | ⟨_, _, _, _, _, ho'⟩ | ⟨_, _, ho', _⟩
    · exact absurd hlost (hl i hi)
    · rw [ho']; exact .inl ⟨_, rfl, .inr rfl⟩
    · rw [ho']; exact .inl ⟨_, rfl, .inr rfl⟩

open Strm in
/-- C58: once the service answered, the stream begins with the head that is due; or it was reset, because the head was refused by the
stream or because a 2xx answer to CONNECT announced content. -/
theorem C58_head (connect date : Bool) (is : List In) (r : Resp) (hr : ((Strm.init connect date).run is).resp = some r) (hm : r.headers.Wf) :
    ∃ i ∈ is, i.svc = .ok r ∧
      ((∃ h eos rest, ((Strm.init connect date).run is).log = .head r.status h eos :: rest ∧ HeadOf connect date i.now r r.status h eos) ∨
       (((Strm.init connect date).run is).log = [.reset INTERNAL_ERROR] ∧
         (i.sendOk = false ∨ (Tunnel connect r ∧ ∃ n, AgreedLength (kept r.headers (ascii "content-length")) n ∧ n ≠ 0)))) := by
  have h := Inv.run connect date is
  unfold St.log
  cases hs : ((Strm.init connect date).run is).state with
  | service => rw [(h.service hs).2] at hr; cases hr
  | body p =>
    obtain ⟨_, _, r', hr', i, hi, hv, hh, ho, hd, _⟩ := h.body p hs
    obtain rfl : r' = r := by rw [hr] at hr'; cases hr'; rfl
    exact ⟨i, hi, hv, .inl ⟨hh, false, _, by rw [ho]; rfl, hd hm⟩⟩
  | done =>
    obtain ⟨r', hr', i, hi, hv, hh, ho, hd, _⟩ := h.done hs
    obtain rfl : r' = r := by rw [hr] at hr'; cases hr'; rfl
    exact ⟨i, hi, hv, .inl ⟨hh, true, [], ho, hd hm⟩⟩
  | upgraded =>
    obtain ⟨r', hr', i, hi, hv, hh, ho, hd, _⟩ := h.upgraded hs
    obtain rfl : r' = r := by rw [hr] at hr'; cases hr'; rfl
    exact ⟨i, hi, hv, .inl ⟨hh, false, [], ho, hd hm⟩⟩
  | failed =>
    rcases h.failed hs with ⟨_, hn, _⟩ | ⟨hn, _⟩ | ⟨r', hr', ho, i, hi, hv, hc⟩
    · rw [hn] at hr; cases hr
    · rw [hn] at hr; cases hr
    · obtain rfl : r' = r := by rw [hr] at hr'; cases hr'; rfl
      refine ⟨i, hi, hv, .inr ⟨ho, hc.imp id fun ⟨ht, hz⟩ => ⟨ht, ?_⟩⟩⟩
      unfold contentLengthParseAll at hz
      rw [getAll_base _ _ _ hm _ lower_length (by decide), if_neg (fun h => date_ne h.1.symm)] at hz
      unfold nonZero at hz
      split at hz
      · rename_i n hn
        exact ⟨n, (contentLengthParseAllValues_iff _ _).1 hn, by simpa using hz⟩
      · cases hz

open Strm in
/-- C58: an error of the service resets the stream, with the reason of the first HTTP/2 error among its causes, and sends nothing else. -/
theorem C58_service_error (connect date : Bool) (is : List In) (i : In) (cs : List Pipe.Cause)
    (hs : ((Strm.init connect date).run is).state = .service) (hi : i.svc = .err cs) (js : List In) :
    ((Strm.init connect date).run (is ++ i :: js)).log = [.reset (reasonOf cs)] := by
  have ho := ((Inv.run connect date is).service hs).1
  have e : (Strm.init connect date).run (is ++ i :: js) = (((Strm.init connect date).run is).step i).run js := by
    simp [St.run, List.foldl_append]
  have hstep : ((Strm.init connect date).run is).step i =
      { (Strm.init connect date).run is with out := [.reset (reasonOf cs)], state := .failed } := by
    unfold St.step
    simp only [hs, hi, ho, h2Reason_eq, List.nil_append]
  have hfix : ∀ (s : St) (js : List In), s.state = .failed → s.run js = s := by
    intro s js hf
    induction js with
    | nil => rfl
    | cons j js ih =>
      have : s.step j = s := by unfold St.step; simp only [hf]
      simpa [St.run, this] using ih
  rw [e, hstep, hfix _ _ rfl]
  rfl

/-- The service answers with these fields and a body of two octets. -/
def exSvc : Strm.In :=
  { svc := .ok { status := 200, headers := [(ascii "connection", [ascii "x-a"]), (ascii "x-a", [ascii "1"]), (ascii "x-b", [ascii "2"])],
                 bodyEnd := false, exact := some 2 }, now := ascii "now" }

/-- C58, not vacuous. -/
example : ((Strm.init false true).run [{}, exSvc, { pipe := { body := .frame (.data [1, 2] true) } }, { pipe := { capacity := 2 } }]).log =
    [.head 200 [(ascii "x-b", [ascii "2"]), (ascii "date", [ascii "now"]), (ascii "content-length", [ascii "2"])] false,
     .body (.data [1, 2] true)] := by decide +kernel

example : ((Strm.init true true).run [exSvc]).state = .upgraded ∧ ((Strm.init true true).run [{ exSvc with sendOk := false }]).log = [.reset 2] := by decide +kernel

example : ((Strm.init false true).run [{}, { svc := .err [.other, .h2 (some 8)] }]).log = [.reset 8] := by decide +kernel

example : ((Strm.init true false).run [{ svc := .ok { status := 200, headers := [(ascii "content-length", [ascii "5"])], bodyEnd := true, exact := none } }]).log =
    [.reset 2] := by decide +kernel

/-! ## C59 -/

namespace Strm

/-- No content may come with the response: it answers HEAD, or its status is 204 or 304 (RFC 9110, section 6.4.1). -/
def NoContent (method : Bytes) (r : Resp) : Prop := method = ascii "HEAD" ∨ r.status = 204 ∨ r.status = 304

/-- The octets of the response's content. -/
def content (log : List Out) : Bytes :=
  log.flatMap fun
    | .body (.data bs _) => bs
    | _ => []

end Strm

open Strm in
/-- C59, under the condition that the service takes care of it by a body that is at its end: no content is sent.  Without the condition
the claim is false, see `C59_content_sent`. -/
theorem C59_no_content_partial (req : Srv.Req) (date : Bool) (is : List In) (r : Resp)
    (hr : ((Srv.streamOf req date).run is).resp = some r) (_hn : NoContent req.method r) (hb : r.bodyEnd = true) :
    content ((Srv.streamOf req date).run is).log = [] := by
  have h := Inv.run (decide (req.method = mCONNECT)) date is
  unfold Srv.streamOf at *
  unfold St.log
  cases hs : ((Strm.init (decide (req.method = mCONNECT)) date).run is).state with
  | service => simp only [(h.service hs).1]; rfl
  | body p =>
    obtain ⟨_, _, r', hr', _, _, _, _, _, _, _, hb'⟩ := h.body p hs
    rw [hr] at hr'; cases hr'
    rw [hb] at hb'; cases hb'
  | done =>
    obtain ⟨_, _, _, _, _, hh, ho, _⟩ := h.done hs
    simp only [ho]; rfl
  | upgraded =>
    obtain ⟨_, _, _, _, _, hh, ho, _⟩ := h.upgraded hs
    simp only [ho]; rfl
  | failed =>
    rcases h.failed hs with ⟨ho, _⟩ | ⟨_, _, _, _, _, ho⟩ | ⟨_, _, ho, _⟩ <;> (simp only [ho]; rfl)

open Strm in
/-- The claim is false of the code: unlike over HTTP/1, the body the service gave is sent in answer to HEAD and with 204 and 304. -/
theorem C59_content_sent :
    (∃ is r, ((Srv.streamOf ⟨ascii "HEAD", [], true⟩ true).run is).resp = some r ∧ NoContent (ascii "HEAD") r ∧
      content ((Srv.streamOf ⟨ascii "HEAD", [], true⟩ true).run is).log = [1, 2]) ∧
    (∃ is r, ((Srv.streamOf ⟨ascii "GET", [], true⟩ true).run is).resp = some r ∧ r.status = 304 ∧
      content ((Srv.streamOf ⟨ascii "GET", [], true⟩ true).run is).log = [1, 2]) := by
  refine ⟨⟨[exSvc, { pipe := { body := .frame (.data [1, 2] true) } }, { pipe := { capacity := 2 } }], _, rfl, .inl rfl, by decide +kernel⟩,
    ⟨[{ svc := .ok ⟨304, [], false, some 2⟩ }, { pipe := { body := .frame (.data [1, 2] true) } }, { pipe := { capacity := 2 } }], _, rfl, rfl,
      by decide +kernel⟩⟩

example : Strm.NoContent (ascii "HEAD") ⟨200, [], true, some 0⟩ := .inl rfl
example : ((Srv.streamOf ⟨ascii "HEAD", [], true⟩ false).run [{ svc := .ok ⟨200, [], true, none⟩ }]).log = [.head 200 [] true] := by decide +kernel

/-! ## C60 and C61 -/

namespace Srv

/-- The request asks for a tunnel and announces content. -/
def BadConnect (r : Req) : Prop :=
  r.method = ascii "CONNECT" ∧ ∃ n, AgreedLength (r.headers.getAll (ascii "content-length")) n ∧ n ≠ 0

/-- The request that was handed on or refused. -/
def Ev.req? : Ev → Option Req
  | .call r _ => some r
  | .refuse r => some r
  | _ => none

/-- What the body of a request is to say of its size: the announced length, otherwise nothing, unless it is empty. -/
structure Sized (values : List Bytes) (eos : Bool) (hint : SizeHint) : Prop where
  announced : ∀ n, AgreedLength values n → n ≤ 2 ^ 64 - 3 → hint = .exact n
  otherwise : (¬ ∃ n, AgreedLength values n ∧ n ≤ 2 ^ 64 - 3) → hint = if eos then .exact 0 else .unknown

/-- The event is right. -/
def Right : Ev → Prop
  | .call r b => ¬ BadConnect r ∧ (r.method = ascii "CONNECT" → b = none) ∧ (r.method ≠ ascii "CONNECT" → ∃ x, b = some x ∧ Sized (r.headers.getAll (ascii "content-length")) r.eos x.sizeHint)
  | .refuse r => BadConnect r
  | _ => True

/-- The connection ended or failed in this turn. -/
def Turn.Lost (t : Turn) : Prop := t.accept = .err ∨ t.accept = .none

theorem bad_iff (r : Req) : BadConnect r ↔ r.method = mCONNECT ∧ Strm.nonZero (contentLengthParseAll r.headers) = true := by
  unfold BadConnect contentLengthParseAll Strm.nonZero
  simp only [← contentLengthParseAllValues_iff]
  constructor
  · rintro ⟨h, n, e, hn⟩
    refine ⟨h, ?_⟩
    rw [e]; simpa using hn
  · rintro ⟨h, e⟩
    refine ⟨h, ?_⟩
    split at e
    · rename_i n hn; exact ⟨n, hn, by simpa using e⟩
    · cases e

theorem sized (headers : HeaderMap) (eos : Bool) :
    Sized (headers.getAll (ascii "content-length")) eos (H2Body.new (DecodedLength.ofOption (contentLengthParseAll headers)) eos).sizeHint := by
  have e : DecodedLength.MAX_LEN = 2 ^ 64 - 3 := by decide
  have hbig : (H2Body.new DecodedLength.CHUNKED eos).sizeHint = if eos then .exact 0 else .unknown := by
    cases eos <;> decide
  refine ⟨fun n hn hl => ?_, fun hno => ?_⟩
  · have hn : contentLengthParseAll headers = some n := (contentLengthParseAllValues_iff _ _).2 hn
    have hl : n ≤ DecodedLength.MAX_LEN := e ▸ hl
    have h1 : (⟨n⟩ : DecodedLength) ≠ DecodedLength.CHUNKED := by
      intro h; cases h; revert hl; decide
    have h2 : (⟨n⟩ : DecodedLength) ≠ DecodedLength.CLOSE_DELIMITED := by
      intro h; cases h; revert hl; decide
    simp [hn, DecodedLength.ofOption, DecodedLength.checkedNew, H2Body.new, DecodedLength.isExact, hl, H2Body.sizeHint, optLen, DecodedLength.intoOpt, h1, h2]
  · have : DecodedLength.ofOption (contentLengthParseAll headers) = DecodedLength.CHUNKED := by
      cases hc : contentLengthParseAll headers with
      | none => rfl
      | some n =>
        have hl : ¬ n ≤ DecodedLength.MAX_LEN := fun hl => hno ⟨n, (contentLengthParseAllValues_iff _ _).1 hc, e ▸ hl⟩
        simp [DecodedLength.ofOption, DecodedLength.checkedNew, hl]
    rw [this]
    exact hbig

structure Inv (s : St) : Prop where
  each : s.log.filterMap Ev.req? = s.accepted
  right : ∀ e ∈ s.log, Right e
  timeout : s.timedOut = true ↔ .abrupt ∈ s.log
  res : s.res = some .ok → s.timedOut = true → ∃ r, .refuse r ∈ s.log
  resT : s.res = some .timedOut → s.timedOut = true

theorem Inv.put {s : St} (h : Inv s) (hn : s.res = none) (e : Ev) (h1 : e.req? = none) (h2 : Right e) (h3 : e ≠ .abrupt) : Inv (s.put e) := by
  obtain ⟨a, b, c, d, f⟩ := h
  refine ⟨?_, ?_, ?_, ?_, ?_⟩
  · simp [St.put, List.filterMap_append, a, h1]
  · intro x hx
    simp only [St.put, List.mem_append, List.mem_singleton] at hx
    rcases hx with hx | rfl
    · exact b x hx
    · exact h2
  · simp only [St.put, List.mem_append, List.mem_singleton, c]
    constructor
    · exact .inl
    · rintro (h | h)
      · exact h
      · exact absurd h.symm h3
  · intro h; simp [St.put, hn] at h
  · intro h; simp [St.put, hn] at h

theorem Inv.ping {s : St} (h : Inv s) (hn : s.res = none) (p : Ponged) : Inv (s.pollPing p) ∧ (s.pollPing p).res = none := by
  cases p with
  | pending => exact ⟨h, hn⟩
  | window n => exact ⟨h.put hn _ rfl trivial (by simp), hn⟩
  | timedOut =>
    obtain ⟨a, b, c, d, f⟩ := h
    refine ⟨⟨?_, ?_, ?_, ?_, ?_⟩, hn⟩
    · simp [St.pollPing, St.put, List.filterMap_append, a, Ev.req?]
    · intro x hx
      simp only [St.pollPing, St.put, List.mem_append, List.mem_singleton] at hx
      rcases hx with hx | rfl
      · exact b x hx
      · trivial
    · simp [St.pollPing, St.put]
    · intro h; simp [St.pollPing, St.put, hn] at h
    · intro h; simp [St.pollPing, St.put, hn] at h

theorem Inv.request {s : St} (h : Inv s) (hn : s.res = none) (r : Req) :
    Inv (s.request r).st ∧ ((s.request r).again = true → (s.request r).st.res = none) := by
  obtain ⟨a, b, c, d, f⟩ := h
  have key : ∀ (e : Ev) (res : Option Res), e.req? = some r → Right e → e ≠ .abrupt → (res = some .ok → ∃ r, e = .refuse r) → res ≠ some .timedOut →
      Inv { s.put e with res := res, accepted := s.accepted ++ [r] } := by
    intro e res h1 h2 h3 h4 h5
    refine ⟨?_, ?_, ?_, ?_, ?_⟩
    · simp [St.put, List.filterMap_append, a, h1]
    · intro x hx
      simp only [St.put, List.mem_append, List.mem_singleton] at hx
      rcases hx with hx | rfl
      · exact b x hx
      · exact h2
    · simp only [St.put, List.mem_append, List.mem_singleton, c]
      constructor
      · exact .inl
      · rintro (h | h)
        · exact h
        · exact absurd h.symm h3
    · intro h _
      obtain ⟨r', hr'⟩ := h4 h
      exact ⟨r', by simp [St.put, hr']⟩
    · intro h; exact absurd h h5
  unfold St.request
  split
  · rename_i hm
    split
    · rename_i hz
      exact ⟨key (.refuse r) (some .ok) rfl ((bad_iff r).2 ⟨hm, hz⟩) (by simp) (fun _ => ⟨r, rfl⟩) (by simp), by simp⟩
    · rename_i hz
      refine ⟨?_, fun _ => hn⟩
      have := key (.call r none) none rfl ⟨fun hb => hz ((bad_iff r).1 hb).2, fun _ => rfl, fun hc => absurd hm hc⟩ (by simp) (by simp) (by simp)
      rw [← hn] at this
      exact this
  · rename_i hm
    refine ⟨?_, fun _ => hn⟩
    have := key (.call r (some (H2Body.new (DecodedLength.ofOption (contentLengthParseAll r.headers)) r.eos))) none rfl
      ⟨fun hb => hm ((bad_iff r).1 hb).1, fun hc => absurd hc hm, fun _ => ⟨_, rfl, sized _ _⟩⟩ (by simp) (by simp) (by simp)
    rw [← hn] at this
    exact this

theorem Inv.turn {s : St} (h : Inv s) (hn : s.res = none) (t : Turn) : Inv (s.turn t).st ∧ ((s.turn t).again = true → (s.turn t).st.res = none) := by
  obtain ⟨h1, hn1⟩ := h.ping hn t.ping
  have h2 := h1.put hn1 .ask rfl trivial (by simp)
  have hn2 : ((s.pollPing t.ping).put .ask).res = none := hn1
  unfold St.turn
  split
  · exact ⟨h2, by simp⟩
  · exact h2.request hn2 _
  · obtain ⟨a, b, c, d, f⟩ := h2
    exact ⟨⟨a, b, c, by simp, by simp⟩, by simp⟩
  · obtain ⟨a, b, c, d, f⟩ := h2
    refine ⟨⟨a, b, c, ?_, ?_⟩, by simp⟩
    · intro h ht
      have ht : (s.pollPing t.ping).timedOut = true := ht
      simp [ht] at h
    · intro h
      show (s.pollPing t.ping).timedOut = true
      cases hh : (s.pollPing t.ping).timedOut with
      | true => rfl
      | false => simp [hh] at h

theorem Inv.pollServer {s : St} (h : Inv s) (hn : s.res = none) (ts : List Turn) : Inv (s.pollServer ts) := by
  induction ts generalizing s with
  | nil => exact h
  | cons t ts ih =>
    obtain ⟨a, b⟩ := h.turn hn t
    simp only [St.pollServer]
    split
    · rename_i hc; exact ih a (b hc)
    · exact a

theorem Inv.pollServing {s : St} (h : Inv s) (hn : s.res = none) (ts : List Turn) : Inv (s.pollServing ts) := by
  unfold St.pollServing
  split
  · exact (h.put hn .graceful rfl trivial (by simp)).pollServer hn ts
  · exact h.pollServer hn ts

theorem Inv.step {s : St} (h : Inv s) (a : Act) : Inv (s.step a) := by
  cases a with
  | poll hs ts =>
    simp only [St.step, St.poll]
    split
    · exact h
    · rename_i hn
      split
      · exact h.pollServing hn ts
      · split
        · exact h
        · exact ⟨h.each, h.right, h.timeout, by simp, by simp⟩
        · exact Inv.pollServing (s := { s with serving := true }) ⟨h.each, h.right, h.timeout, h.res, h.resT⟩ hn ts
  | shutdown =>
    simp only [St.step, St.shutdown]
    split
    · obtain ⟨a, b, c, d, f⟩ := h
      refine ⟨?_, ?_, ?_, ?_, f⟩
      · simp [St.put, List.filterMap_append, a, Ev.req?]
      · intro x hx
        simp only [St.put, List.mem_append, List.mem_singleton] at hx
        rcases hx with hx | rfl
        · exact b x hx
        · trivial
      · simp [St.put, c]
      · intro h ht
        obtain ⟨r, hr⟩ := d h ht
        exact ⟨r, List.mem_append_left _ hr⟩
    · exact ⟨h.each, h.right, h.timeout, h.res, h.resT⟩

theorem Inv.run {s : St} (h : Inv s) (as : List Act) : Inv (s.run as) := by
  induction as generalizing s with
  | nil => exact h
  | cons a as ih => exact ih (h.step a)

theorem Inv.init : Inv Srv.init := by constructor <;> simp [Srv.init]

/-- Nothing but its own end can end the connection. -/
def Calm (a : Act) : Prop :=
  match a with
  | .shutdown => True
  | .poll h ts => h ≠ .err ∧ ∀ t ∈ ts, ¬ t.Lost

def NoBadConnect (a : Act) : Prop :=
  match a with
  | .shutdown => True
  | .poll _ ts => ∀ t ∈ ts, ∀ r, t.accept = .request r → ¬ BadConnect r

theorem ping_res (s : St) (p : Ponged) : (s.pollPing p).res = s.res := by cases p <;> rfl

theorem turn_res {s : St} (hn : s.res = none) (t : Turn) (h1 : ¬ t.Lost) (h2 : ∀ r, t.accept = .request r → ¬ BadConnect r) : (s.turn t).st.res = none := by
  unfold St.turn
  split
  · exact (ping_res s _).trans hn
  · rename_i r hr
    unfold St.request
    split
    · rename_i hm
      split
      · rename_i hz; exact absurd ((bad_iff r).2 ⟨hm, hz⟩) (h2 r hr)
      · exact (ping_res s _).trans hn
    · exact (ping_res s _).trans hn
  · rename_i h; exact absurd (.inl h) h1
  · rename_i h; exact absurd (.inr h) h1

theorem pollServer_res {s : St} (hn : s.res = none) (ts : List Turn) (h1 : ∀ t ∈ ts, ¬ t.Lost)
    (h2 : ∀ t ∈ ts, ∀ r, t.accept = .request r → ¬ BadConnect r) : (s.pollServer ts).res = none := by
  induction ts generalizing s with
  | nil => exact hn
  | cons t ts ih =>
    have := turn_res hn t (h1 t List.mem_cons_self) (h2 t List.mem_cons_self)
    simp only [St.pollServer]
    split
    · exact ih this (fun t h => h1 t (List.mem_cons_of_mem _ h)) (fun t h => h2 t (List.mem_cons_of_mem _ h))
    · exact this

theorem step_res {s : St} (hn : s.res = none) (a : Act) (h1 : Calm a) (h2 : NoBadConnect a) : (s.step a).res = none := by
  cases a with
  | shutdown => simp only [St.step, St.shutdown]; split <;> exact hn
  | poll h ts =>
    have key : ∀ s' : St, s'.res = none → (s'.pollServing ts).res = none := by
      intro s' hs'
      unfold St.pollServing
      split
      · exact pollServer_res (s := s'.put .graceful) hs' ts h1.2 h2
      · exact pollServer_res hs' ts h1.2 h2
    simp only [St.step, St.poll, hn]
    split
    · exact key s hn
    · split
      · exact hn
      · exact absurd rfl h1.1
      · refine key _ ?_
        first
          | exact hn
          | rfl

/-- What was written to the log since `l`, beginning with the graceful shutdown. -/
structure Told (l : List Ev) (s : St) : Prop where
  grown : ∃ m, s.log = l ++ m ∧ ((s.serving = false ∧ s.closePending = true ∧ m = []) ∨ m.head? = some .graceful)

theorem log_turn (s : St) (t : Turn) : s.log <+: (s.turn t).st.log := by
  have hp : ∀ s : St, ∀ e, s.log <+: (s.put e).log := fun s e => List.prefix_append _ _
  have h1 : s.log <+: (s.pollPing t.ping).log := by
    cases t.ping with
    | pending => exact List.prefix_refl _
    | window n => exact hp _ _
    | timedOut => exact hp _ _
  have h2 := h1.trans (hp (s.pollPing t.ping) .ask)
  unfold St.turn
  split
  · exact h2
  · unfold St.request
    split
    · split
      · exact h2.trans (hp _ _)
      · exact h2.trans (hp _ _)
    · exact h2.trans (hp _ _)
  · exact h2
  · exact h2

theorem log_pollServer (s : St) (ts : List Turn) : s.log <+: (s.pollServer ts).log := by
  induction ts generalizing s with
  | nil => exact List.prefix_refl _
  | cons t ts ih =>
    simp only [St.pollServer]
    split
    · exact (log_turn s t).trans (ih _)
    · exact log_turn s t

theorem log_pollServing (s : St) (ts : List Turn) : s.log <+: (s.pollServing ts).log := by
  unfold St.pollServing
  split
  · exact (List.prefix_append _ _).trans (log_pollServer (s.put .graceful) ts)
  · exact log_pollServer s ts

theorem log_step (s : St) (a : Act) : s.log <+: (s.step a).log := by
  cases a with
  | shutdown =>
    simp only [St.step, St.shutdown]
    split
    · exact List.prefix_append _ _
    · exact List.prefix_refl _
  | poll h ts =>
    simp only [St.step, St.poll]
    split
    · exact List.prefix_refl _
    · split
      · exact log_pollServing s ts
      · split
        · exact List.prefix_refl _
        · exact List.prefix_refl _
        · exact log_pollServing { s with serving := true } ts

theorem Told.after {l : List Ev} {s s' : St} {m : List Ev} (hm : s.log = l ++ m) (hg : m.head? = some .graceful) (hp : s.log <+: s'.log) : Told l s' := by
  obtain ⟨t, ht⟩ := hp
  refine ⟨m ++ t, by rw [← ht, hm, List.append_assoc], .inr ?_⟩
  cases m with
  | nil => cases hg
  | cons a m => exact hg

theorem Told.step {l : List Ev} {s : St} (h : Told l s) (a : Act) : Told l (s.step a) := by
  obtain ⟨m, hm, ⟨h1, h2, rfl⟩ | hg⟩ := h.grown
  · cases a with
    | shutdown =>
      simp only [St.step, St.shutdown, h1, Bool.false_eq_true, if_false]
      exact ⟨[], hm, .inl ⟨rfl, rfl, rfl⟩⟩
    | poll hs ts =>
      simp only [St.step, St.poll]
      split
      · exact h
      · rw [if_neg (by simp [h1])]
        split
        · exact h
        · exact ⟨[], hm, .inl ⟨h1, h2, rfl⟩⟩
        · unfold St.pollServing
          rw [if_pos (by exact h2)]
          refine Told.after (s := ({ s with serving := true } : St).put .graceful) (m := [.graceful]) ?_ rfl (log_pollServer _ ts)
          simp only [St.put, hm, List.append_nil]
  · exact Told.after hm hg (log_step s a)

theorem Told.run {l : List Ev} {s : St} (h : Told l s) (as : List Act) : Told l (s.run as) := by
  induction as generalizing s with
  | nil => exact h
  | cons a as ih => exact ih (h.step a)

end Srv

open Srv in
/-- C60: every request the connection gives goes to the service exactly once, in order of arrival, with a body that knows its size; only
CONNECT with content is refused instead, by resetting its stream. -/
theorem C60_each_request_once (as : List Srv.Act) :
    (Srv.init.run as).log.filterMap Ev.req? = (Srv.init.run as).accepted ∧ ∀ e ∈ (Srv.init.run as).log, Right e :=
  ⟨(Inv.init.run as).each, (Inv.init.run as).right⟩

open Srv in
/-- C60, provided that no CONNECT request announces content: as long as the connection itself is there, no request ends the server,
whatever becomes of it.  Without the proviso the claim is false, see `C60_connect_ends_all`. -/
theorem C60_stays_partial (as : List Srv.Act) (h1 : ∀ a ∈ as, Calm a) (h2 : ∀ a ∈ as, NoBadConnect a) : (Srv.init.run as).res = none := by
  have key : ∀ (as : List Srv.Act) (s : St), s.res = none → (∀ a ∈ as, Calm a) → (∀ a ∈ as, NoBadConnect a) → (s.run as).res = none := by
    intro as
    induction as with
    | nil => intro s hn _ _; exact hn
    | cons a as ih =>
      intro s hn h1 h2
      exact ih (s.step a) (step_res hn a (h1 a List.mem_cons_self) (h2 a List.mem_cons_self))
        (fun b hb => h1 b (List.mem_cons_of_mem _ hb)) (fun b hb => h2 b (List.mem_cons_of_mem _ hb))
  exact key as Srv.init rfl h1 h2

/-- A request for a tunnel that announces content. -/
def exBadConnect : Srv.Req := ⟨ascii "CONNECT", [(ascii "content-length", [ascii "1"])], false⟩

open Srv in
/-- The claim is false of the code: a single CONNECT request with a content-length ends the server, as if the connection were complete,
while other requests are being served; the next one is not accepted. -/
theorem C60_connect_ends_all :
    ∃ as, (∀ a ∈ as, Calm a) ∧ (Srv.init.run as).res = some .ok ∧
      (Srv.init.run as).log = [.ask, .call ⟨ascii "GET", [], true⟩ (some (H2Body.new (DecodedLength.ofOption none) true)), .ask, .refuse exBadConnect] :=
  ⟨[.poll .ok [{ accept := .request ⟨ascii "GET", [], true⟩ }, { accept := .request exBadConnect }, { accept := .request ⟨ascii "GET", [], true⟩ }]],
    by intro a ha; rw [List.mem_singleton.1 ha]; exact ⟨by decide, by simp [Turn.Lost]⟩, by decide +kernel, by decide +kernel⟩

open Srv in
/-- C60: a connection given up because pings are not answered is not reported as a clean end, unless CONNECT with content had ended it. -/
theorem C60_timeout_reported (as : List Srv.Act) (h : .abrupt ∈ (Srv.init.run as).log) (hr : (Srv.init.run as).res = some .ok) :
    ∃ r, .refuse r ∈ (Srv.init.run as).log :=
  have i := Inv.init.run as
  i.res hr (i.timeout.2 h)

open Srv in
/-- C61: a graceful shutdown asked for at any moment, be it before the handshake is done, is the next thing the connection is told: before
it is asked for another request. -/
theorem C61_shutdown_first (as bs : List Srv.Act) :
    ∃ m, (Srv.init.run (as ++ .shutdown :: bs)).log = (Srv.init.run as).log ++ m ∧ (m = [] ∨ m.head? = some .graceful) := by
  have e : Srv.init.run (as ++ .shutdown :: bs) = ((Srv.init.run as).step .shutdown).run bs := by simp [St.run, List.foldl_append]
  have h0 : Told (Srv.init.run as).log ((Srv.init.run as).step .shutdown) := by
    simp only [St.step, St.shutdown]
    split
    · exact ⟨[.graceful], rfl, .inr rfl⟩
    · rename_i hs
      exact ⟨[], by simp, .inl ⟨by simpa using hs, rfl, rfl⟩⟩
  obtain ⟨m, hm, h⟩ := (h0.run bs).grown
  rw [e]
  refine ⟨m, hm, h.imp (fun h => h.2.2) id⟩

namespace Srv

theorem turn_calm {s : St} (h : .graceful ∉ s.log) (t : Turn) : .graceful ∉ (s.turn t).st.log := by
  have h1 : .graceful ∉ (s.pollPing t.ping).log := by cases t.ping <;> simp [St.pollPing, St.put, h]
  unfold St.turn
  split
  · simp [St.put, h1]
  · unfold St.request
    split
    · split <;> simp [St.put, h1]
    · simp [St.put, h1]
  · simp [St.put, h1]
  · simp [St.put, h1]

theorem pollServer_calm {s : St} (h : .graceful ∉ s.log) (ts : List Turn) : .graceful ∉ (s.pollServer ts).log ∧ (s.pollServer ts).closePending = s.closePending := by
  have hc : ∀ (s : St) t, (s.turn t).st.closePending = s.closePending := by
    intro s t
    have : (s.pollPing t.ping).closePending = s.closePending := by cases t.ping <;> rfl
    unfold St.turn
    split
    · exact this
    · unfold St.request
      split
      · split <;> exact this
      · exact this
    · exact this
    · exact this
  induction ts generalizing s with
  | nil => exact ⟨h, rfl⟩
  | cons t ts ih =>
    simp only [St.pollServer]
    split
    · exact ⟨(ih (turn_calm h t)).1, ((ih (turn_calm h t)).2).trans (hc s t)⟩
    · exact ⟨turn_calm h t, hc s t⟩

end Srv

open Srv in
/-- C61: and nothing shuts it down that was not asked to. -/
theorem C61_only_if_asked (as : List Srv.Act) (h : .shutdown ∉ as) : .graceful ∉ (Srv.init.run as).log := by
  have key : ∀ (as : List Srv.Act) (s : St), .graceful ∉ s.log → s.closePending = false → .shutdown ∉ as → .graceful ∉ (s.run as).log := by
    intro as
    induction as with
    | nil => intro s h _ _; exact h
    | cons a as ih =>
      intro s hg hc hs
      simp only [List.mem_cons, not_or] at hs
      have : .graceful ∉ (s.step a).log ∧ (s.step a).closePending = false := by
        cases a with
        | shutdown => exact absurd rfl hs.1
        | poll h ts =>
          have k : ∀ s' : St, .graceful ∉ s'.log → s'.closePending = false → .graceful ∉ (s'.pollServing ts).log ∧ (s'.pollServing ts).closePending = false := by
            intro s' h1 h2
            unfold St.pollServing
            rw [if_neg (by simp [h2])]
            exact ⟨(pollServer_calm h1 ts).1, (pollServer_calm h1 ts).2.trans h2⟩
          simp only [St.step, St.poll]
          split
          · exact ⟨hg, hc⟩
          · split
            · exact k s hg hc
            · split
              · exact ⟨hg, hc⟩
              · exact ⟨hg, hc⟩
              · exact k _ hg hc
      exact ih (s.step a) this.1 this.2 hs.2
  exact key as Srv.init (by simp [Srv.init]) rfl h

/-- C60 and C61, not vacuous. -/
example : (Srv.init.run [.poll .pending [], .shutdown, .poll .ok [{ accept := .request ⟨ascii "GET", [], true⟩ }, {}]]).log =
    [.graceful, .ask, .call ⟨ascii "GET", [], true⟩ (some (H2Body.new (DecodedLength.ofOption none) true)), .ask] := by decide +kernel

example : (Srv.init.run [.poll .ok [{ ping := .timedOut, accept := .none }]]).res = some .timedOut ∧
    (Srv.init.run [.poll .ok [{ ping := .timedOut, accept := .none }]]).log = [.abrupt, .ask] := by decide +kernel

example : Srv.Sized [ascii "12"] false (.exact 12) := Srv.sized [(ascii "content-length", [ascii "12"])] false

end Hyper
