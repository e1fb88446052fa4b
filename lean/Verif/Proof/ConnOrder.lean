import Verif.Proof.ConnView
import Verif.Spec.Exchange

/-!
# Invariants of the moves of a connection
-/

namespace Hyper

open Spec

theorem snoc_split {α : Type} {l pre post : List α} {x e : α} (h : l ++ [x] = pre ++ e :: post) :
    (pre = l ∧ e = x) ∨ ∃ post', l = pre ++ e :: post' := by
  have hl := congrArg List.dropLast h
  have hx := congrArg List.getLast? h
  rw [List.dropLast_concat] at hl
  cases post with
  | nil =>
    left
    rw [List.dropLast_concat] at hl
    simp at hx
    exact ⟨hl.symm, hx.symm⟩
  | cons y ys =>
    right
    refine ⟨(y :: ys).dropLast, ?_⟩
    rw [List.dropLast_append_of_ne_nil (by simp)] at hl
    rw [hl]; rfl

theorem each_nil (P : List Ev → Ev → Prop) : Each P [] := by
  intro pre e post h; simp at h

theorem each_snoc {P : List Ev → Ev → Prop} {l : List Ev} {x : Ev} (h : Each P l) (hx : P l x) : Each P (l ++ [x]) := by
  intro pre e post hs
  rcases snoc_split hs with ⟨h1, h2⟩ | ⟨post', h1⟩
  · rw [h1, h2]; exact hx
  · exact h pre e post' h1

section counts

variable (l : List Ev)

@[simp] theorem readHeads_snoc (e : Ev) : readHeads (l ++ [e]) = readHeads l + (match e with | .readHead .. => 1 | _ => 0) := by
  simp [readHeads]; cases e <;> rfl

@[simp] theorem readEnds_snoc (e : Ev) : readEnds (l ++ [e]) = readEnds l + (match e with | .readEnd => 1 | _ => 0) := by
  simp [readEnds]; cases e <;> rfl

@[simp] theorem writeHeads_snoc (e : Ev) : writeHeads (l ++ [e]) = writeHeads l + (match e with | .writeHead .. => 1 | .errorHead => 1 | _ => 0) := by
  simp [writeHeads]; cases e <;> rfl

@[simp] theorem writeEnds_snoc (e : Ev) : writeEnds (l ++ [e]) = writeEnds l + (match e with | .writeEnd => 1 | _ => 0) := by
  simp [writeEnds]; cases e <;> rfl

end counts

/-- A message read ends the connection. -/
def peerLast (l : List Ev) : Bool := l.any fun e => match e with | .readHead _ _ p => !p | _ => false

/-- A message written ends the connection. -/
def ownLast (l : List Ev) : Bool := l.any fun e => match e with | .writeHead _ b => b | _ => false

def wasBad (l : List Ev) : Bool := l.any fun e => match e with | .errorHead => true | _ => false

def wasOff (l : List Ev) : Bool := l.any fun e => match e with | .shutdown => true | _ => false

theorem peerLast_iff (l : List Ev) : peerLast l = false ↔ ∀ n x, Ev.readHead n x false ∉ l := by
  simp only [peerLast, List.any_eq_false]
  constructor
  · intro h n x hm; simpa using h _ hm
  · intro h e he
    cases e <;> simp
    rename_i n x p
    cases p
    · exact absurd he (h n x)
    · rfl

theorem ownLast_iff (l : List Ev) : ownLast l = false ↔ ∀ n, Ev.writeHead n true ∉ l := by
  simp only [ownLast, List.any_eq_false]
  constructor
  · intro h n hm; simpa using h _ hm
  · intro h e he
    cases e <;> simp
    rename_i n p
    cases p
    · rfl
    · exact absurd he (h n)

theorem wasBad_iff (l : List Ev) : wasBad l = false ↔ Ev.errorHead ∉ l := by
  simp only [wasBad, List.any_eq_false]
  constructor
  · intro h hm; simpa using h _ hm
  · intro h e he
    cases e <;> simp
    exact h he

theorem wasOff_iff (l : List Ev) : wasOff l = false ↔ Ev.shutdown ∉ l := by
  simp only [wasOff, List.any_eq_false]
  constructor
  · intro h hm; simpa using h _ hm
  · intro h e he
    cases e <;> simp
    exact h he

@[simp] theorem peerLast_snoc (l : List Ev) (e : Ev) : peerLast (l ++ [e]) = (peerLast l || (match e with | .readHead _ _ p => !p | _ => false)) := by
  simp [peerLast]

@[simp] theorem ownLast_snoc (l : List Ev) (e : Ev) : ownLast (l ++ [e]) = (ownLast l || (match e with | .writeHead _ b => b | _ => false)) := by
  simp [ownLast]

@[simp] theorem wasBad_snoc (l : List Ev) (e : Ev) : wasBad (l ++ [e]) = (wasBad l || (match e with | .errorHead => true | _ => false)) := by
  simp [wasBad]

@[simp] theorem wasOff_snoc (l : List Ev) (e : Ev) : wasOff (l ++ [e]) = (wasOff l || (match e with | .shutdown => true | _ => false)) := by
  simp [wasOff]

/-- What holds of a server's connection between moves. -/
structure SInv (v : View) : Prop where
  server : v.client = false
  heads : readHeads v.log = v.next
  init : v.rd = .init → v.wr = .init ∧ v.flight = none ∧ readEnds v.log = v.next ∧ writeHeads v.log = v.next ∧ writeEnds v.log = v.next
  body : v.rd = .cont ∨ v.rd = .body → readEnds v.log + 1 = v.next
  rest : v.rd = .keepAlive → readEnds v.log = v.next
  winit : v.wr = .init → writeHeads v.log = writeEnds v.log
  wbody : ∀ b, v.wr = .body b → writeHeads v.log = writeEnds v.log + 1 ∧ v.flight = none
  wrest : v.wr = .keepAlive → writeHeads v.log = writeEnds v.log ∧ v.flight = none
  flight : ∀ m, v.wr = .init → v.flight = some m → m + 1 = v.next ∧ writeHeads v.log = m
  sync : v.rd ≠ .closed → (∃ b, v.wr = .body b) ∨ v.wr = .keepAlive → writeHeads v.log = v.next
  peer : peerLast v.log = true → v.ka = .disabled ∧ v.rd ≠ .init
  last : ownLast v.log = true → (v.ka = .disabled ∨ v.wr = .body true ∨ v.wr = .closed) ∧ v.wr ≠ .init ∧ v.rd ≠ .init
  bad : wasBad v.log = true → v.wr ≠ .init ∧ v.rd = .closed
  off : wasOff v.log = true → v.ka = .disabled ∧ (v.rd = .init → v.next = 0)
  idle : v.rd = .init → v.ka = .idle ∨ v.next = 0

set_option maxHeartbeats 2000000 in
theorem SInv.prim {v w : View} (h : SInv v) (p : Prim v w) : SInv w := by
  obtain ⟨server, heads, init, body, rest, winit, wbody, wrest, flight, sync, peer, last, bad, off, idle⟩ := h
  cases p with
  | closeRead => constructor <;> grind
  | closeWrite hr => constructor <;> grind
  | readFail hr => constructor <;> grind
  | writeFail l hw => constructor <;> grind
  | idle hr hw hk => constructor <;> grind
  | skip hr => constructor <;> grind
  | continue100 hr hw => constructor <;> simp only [readHeads_snoc, readEnds_snoc, writeHeads_snoc, writeEnds_snoc, peerLast_snoc, ownLast_snoc, wasBad_snoc, wasOff_snoc] <;> grind
  | readEnd hr => constructor <;> simp only [readHeads_snoc, readEnds_snoc, writeHeads_snoc, writeEnds_snoc, peerLast_snoc, ownLast_snoc, wasBad_snoc, wasOff_snoc] <;> grind
  | writeEnd hw => constructor <;> simp only [readHeads_snoc, readEnds_snoc, writeHeads_snoc, writeEnds_snoc, peerLast_snoc, ownLast_snoc, wasBad_snoc, wasOff_snoc] <;> grind
  | headOut hs hw n hf l w k hk hw' hl => constructor <;> simp only [readHeads_snoc, readEnds_snoc, writeHeads_snoc, writeEnds_snoc, peerLast_snoc, ownLast_snoc, wasBad_snoc, wasOff_snoc] <;> grind
  | reqOut hs => simp_all
  | headIn hs hr hf e p k hk => constructor <;> simp only [readHeads_snoc, readEnds_snoc, writeHeads_snoc, writeEnds_snoc, peerLast_snoc, ownLast_snoc, wasBad_snoc, wasOff_snoc] <;> grind
  | respIn hs => simp_all
  | errorOut hs hr hw hf w hw' => constructor <;> simp only [readHeads_snoc, readEnds_snoc, writeHeads_snoc, writeEnds_snoc, peerLast_snoc, ownLast_snoc, wasBad_snoc, wasOff_snoc] <;> grind
  | abandon hr hw => constructor <;> grind
  | shutdown hk => constructor <;> simp only [readHeads_snoc, readEnds_snoc, writeHeads_snoc, writeEnds_snoc, peerLast_snoc, ownLast_snoc, wasBad_snoc, wasOff_snoc] <;> grind
  | shutdownIdle hk => constructor <;> simp only [readHeads_snoc, readEnds_snoc, writeHeads_snoc, writeEnds_snoc, peerLast_snoc, ownLast_snoc, wasBad_snoc, wasOff_snoc] <;> grind
  | wanted k => constructor <;> simp only [readHeads_snoc, readEnds_snoc, writeHeads_snoc, writeEnds_snoc, peerLast_snoc, ownLast_snoc, wasBad_snoc, wasOff_snoc] <;> grind

/-- What holds of a client's connection between moves. -/
structure CInv (v : View) : Prop where
  client : v.client = true
  heads : writeHeads v.log = v.next
  init : v.rd = .init → readHeads v.log = readEnds v.log ∧ (v.wr = .init → readHeads v.log = v.next ∧ v.flight = none) ∧
    (v.wr ≠ .init → readHeads v.log + 1 = v.next ∧ v.flight = some (readHeads v.log))
  body : v.rd = .cont ∨ v.rd = .body → readHeads v.log = v.next ∧ readEnds v.log + 1 = v.next ∧ v.wr ≠ .init ∧ v.flight = none
  rest : v.rd = .keepAlive → readHeads v.log = v.next ∧ readEnds v.log = v.next ∧ v.wr ≠ .init ∧ v.flight = none
  winit : v.wr = .init → v.next = writeEnds v.log
  wbody : ∀ b, v.wr = .body b → v.next = writeEnds v.log + 1
  wrest : v.wr = .keepAlive → v.next = writeEnds v.log
  peer : peerLast v.log = true → v.ka = .disabled ∧ v.wr ≠ .init
  last : ownLast v.log = true → (v.ka = .disabled ∨ v.wr = .body true ∨ v.wr = .closed) ∧ v.wr ≠ .init
  bad : wasBad v.log = false
  off : wasOff v.log = true → v.ka = .disabled ∧ (v.wr = .init → v.rd ≠ .closed → v.next = 0)
  idle : v.wr = .init → v.rd ≠ .closed → v.ka = .idle ∨ v.next = 0

set_option maxHeartbeats 2000000 in
theorem CInv.prim {v w : View} (h : CInv v) (p : Prim v w) : CInv w := by
  obtain ⟨client, heads, init, body, rest, winit, wbody, wrest, peer, last, bad, off, idle⟩ := h
  cases p with
  | closeRead => constructor <;> grind
  | closeWrite hr => constructor <;> grind
  | readFail hr => constructor <;> grind
  | writeFail l hw => constructor <;> grind
  | idle hr hw hk => constructor <;> grind
  | skip hr => constructor <;> grind
  | continue100 hr hw => constructor <;> simp only [readHeads_snoc, readEnds_snoc, writeHeads_snoc, writeEnds_snoc, peerLast_snoc, ownLast_snoc, wasBad_snoc, wasOff_snoc] <;> grind
  | readEnd hr => constructor <;> simp only [readHeads_snoc, readEnds_snoc, writeHeads_snoc, writeEnds_snoc, peerLast_snoc, ownLast_snoc, wasBad_snoc, wasOff_snoc] <;> grind
  | writeEnd hw => constructor <;> simp only [readHeads_snoc, readEnds_snoc, writeHeads_snoc, writeEnds_snoc, peerLast_snoc, ownLast_snoc, wasBad_snoc, wasOff_snoc] <;> grind
  | headOut hs => simp_all
  | reqOut hs hw hr hf l w k hk hw' hl => constructor <;> simp only [readHeads_snoc, readEnds_snoc, writeHeads_snoc, writeEnds_snoc, peerLast_snoc, ownLast_snoc, wasBad_snoc, wasOff_snoc] <;> grind
  | headIn hs => simp_all
  | respIn hs hr hw n hf e p k hk => constructor <;> simp only [readHeads_snoc, readEnds_snoc, writeHeads_snoc, writeEnds_snoc, peerLast_snoc, ownLast_snoc, wasBad_snoc, wasOff_snoc] <;> grind
  | errorOut hs => simp_all
  | abandon hr hw => constructor <;> grind
  | shutdown hk => constructor <;> simp only [readHeads_snoc, readEnds_snoc, writeHeads_snoc, writeEnds_snoc, peerLast_snoc, ownLast_snoc, wasBad_snoc, wasOff_snoc] <;> grind
  | shutdownIdle hk => constructor <;> simp only [readHeads_snoc, readEnds_snoc, writeHeads_snoc, writeEnds_snoc, peerLast_snoc, ownLast_snoc, wasBad_snoc, wasOff_snoc] <;> grind
  | wanted k => constructor <;> simp only [readHeads_snoc, readEnds_snoc, writeHeads_snoc, writeEnds_snoc, peerLast_snoc, ownLast_snoc, wasBad_snoc, wasOff_snoc] <;> grind

/-- A move appends at most one event. -/
theorem prim_log {v w : View} (p : Prim v w) : w.log = v.log ∨ ∃ e, w.log = v.log ++ [e] := by
  cases p <;> first | exact .inl rfl | exact .inr ⟨_, rfl⟩

theorem SInv.event {v w : View} (h : SInv v) (p : Prim v w) (e : Ev) (he : w.log = v.log ++ [e]) : ServerOrder v.log e ∧ ServerPersist v.log e := by
  obtain ⟨server, heads, init, body, rest, winit, wbody, wrest, flight, sync, peer, last, bad, off, idle⟩ := h
  cases p with
  | closeRead | closeWrite | readFail | writeFail | idle | skip | abandon => simp at he
  | continue100 | shutdown | shutdownIdle | wanted => simp at he; subst he; exact ⟨trivial, trivial⟩
  | readEnd hr => simp at he; subst he; exact ⟨by simp only [ServerOrder]; grind, trivial⟩
  | writeEnd hw => simp at he; subst he; exact ⟨by simp only [ServerOrder]; grind, trivial⟩
  | headOut hs hw n hf l w k hk hw' hl =>
    simp at he; subst he; simp only [ServerOrder, ServerPersist, ← ownLast_iff, ← wasBad_iff]; grind
  | reqOut hs => simp [hs] at server
  | headIn hs hr hf e p k hk =>
    simp at he; subst he; simp only [ServerOrder, ServerPersist, ← peerLast_iff, ← ownLast_iff, ← wasBad_iff]
    refine ⟨by grind, by grind, by grind, by grind, ?_⟩
    intro hm
    have : wasOff v.log = true := by
      rw [← Bool.not_eq_false, wasOff_iff]; simpa using hm
    grind
  | respIn hs => simp [hs] at server
  | errorOut hs hr hw hf w hw' => simp at he; subst he; exact ⟨⟨v.next, by grind⟩, trivial⟩

theorem CInv.event {v w : View} (h : CInv v) (p : Prim v w) (e : Ev) (he : w.log = v.log ++ [e]) : ClientOrder v.log e ∧ ClientPersist v.log e := by
  obtain ⟨client, heads, init, body, rest, winit, wbody, wrest, peer, last, bad, off, idle⟩ := h
  cases p with
  | closeRead | closeWrite | readFail | writeFail | idle | skip | abandon => simp at he
  | continue100 | shutdown | shutdownIdle | wanted => simp at he; subst he; exact ⟨trivial, trivial⟩
  | readEnd hr => simp at he; subst he; exact ⟨by simp only [ClientOrder]; grind, trivial⟩
  | writeEnd hw => simp at he; subst he; exact ⟨by simp only [ClientOrder]; grind, trivial⟩
  | headOut hs => simp [hs] at client
  | reqOut hs hw hr hf l w k hk hw' hl =>
    simp at he; subst he; simp only [ClientOrder, ClientPersist, ← peerLast_iff, ← ownLast_iff]
    have hri : v.rd = .init := by cases hv : v.rd <;> grind
    refine ⟨by grind, by grind, by grind, ?_⟩
    intro hm
    have : wasOff v.log = true := by
      rw [← Bool.not_eq_false, wasOff_iff]; simpa using hm
    grind
  | headIn hs => simp [hs] at client
  | respIn hs hr hw n hf e p k hk => simp at he; subst he; exact ⟨by simp only [ClientOrder]; grind, trivial⟩
  | errorOut hs => simp [hs] at client

/-- A server's connection, with its history. -/
structure SHist (v : View) : Prop where
  inv : SInv v
  order : Each ServerOrder v.log
  persist : Each ServerPersist v.log

theorem SHist.prim {v w : View} (h : SHist v) (p : Prim v w) : SHist w := by
  refine ⟨h.inv.prim p, ?_, ?_⟩ <;> rcases prim_log p with hl | ⟨e, hl⟩
  · rw [hl]; exact h.order
  · rw [hl]; exact each_snoc h.order (h.inv.event p e hl).1
  · rw [hl]; exact h.persist
  · rw [hl]; exact each_snoc h.persist (h.inv.event p e hl).2

/-- A client's connection, with its history. -/
structure CHist (v : View) : Prop where
  inv : CInv v
  order : Each ClientOrder v.log
  persist : Each ClientPersist v.log
  quiet : Ev.continue100 ∉ v.log

theorem CHist.prim {v w : View} (h : CHist v) (p : Prim v w) : CHist w := by
  refine ⟨h.inv.prim p, ?_, ?_, ?_⟩
  · rcases prim_log p with hl | ⟨e, hl⟩
    · rw [hl]; exact h.order
    · rw [hl]; exact each_snoc h.order (h.inv.event p e hl).1
  · rcases prim_log p with hl | ⟨e, hl⟩
    · rw [hl]; exact h.persist
    · rw [hl]; exact each_snoc h.persist (h.inv.event p e hl).2
  · have hq := h.quiet
    cases p <;> simp <;> try exact hq
    rename_i hr hw
    exact absurd hw (h.inv.body (.inl hr)).2.2.1

/-- While a server waits to send `100 Continue`. -/
def Waiting (v : View) : Prop :=
  v.rd = .cont → ∃ a n p mid, v.log = a ++ .readHead n true p :: mid ∧ (∀ e ∈ mid, e ≠ .continue100 ∧ ∀ m x q, e ≠ .readHead m x q) ∧
    (v.wr = .init → ∀ e ∈ mid, Quiet e)

/-- `100 Continue` comes before the response, once. -/
def Interim (pre : List Ev) : Ev → Prop
  | .continue100 => ∃ a n p mid, pre = a ++ .readHead n true p :: mid ∧ ∀ e ∈ mid, Quiet e
  | _ => True

theorem Waiting.snoc {v w : View} (h : Waiting v) (e : Ev) (hl : w.log = v.log ++ [e]) (hr : w.rd = .cont → v.rd = .cont)
    (he : e ≠ .continue100 ∧ ∀ m x q, e ≠ .readHead m x q) (hw : w.wr = .init → v.wr = .init ∧ Quiet e) : Waiting w := by
  intro hc
  obtain ⟨a, n, p, mid, h1, h2, h3⟩ := h (hr hc)
  refine ⟨a, n, p, mid ++ [e], by rw [hl, h1]; simp, ?_, ?_⟩
  · intro x hx
    rcases List.mem_append.1 hx with hx | hx
    · exact h2 x hx
    · simp at hx; subst hx; exact he
  · intro hwi x hx
    rcases List.mem_append.1 hx with hx | hx
    · exact h3 (hw hwi).1 x hx
    · simp at hx; subst hx; exact (hw hwi).2

theorem Waiting.prim {v w : View} (h : Waiting v) (hc : SInv v) (p : Prim v w) : Waiting w := by
  cases p with
  | closeRead => intro h'; simp at h'
  | closeWrite hr => intro h'; simp [hr] at h'
  | readFail hr => intro h'; simp at h'
  | writeFail l hw =>
    intro h'
    obtain ⟨a, n, p, mid, h1, h2, h3⟩ := h h'
    exact ⟨a, n, p, mid, h1, h2, by intro h''; simp at h''⟩
  | idle hr hw hk => intro h'; simp at h'
  | skip hr => intro h'; simp at h'
  | continue100 hr hw => intro h'; simp at h'
  | readEnd hr => intro h'; simp at h'
  | writeEnd hw => exact h.snoc .writeEnd rfl id (by simp) (by simp)
  | headOut hs hw n hf l w k hk hw' hl =>
    refine h.snoc (.writeHead n l) rfl id (by simp) ?_
    intro h'; rcases hw' with rfl | ⟨_, rfl⟩ <;> simp at h'
  | reqOut hs => exact absurd hs (by simp [hc.server])
  | headIn hs hr hf e p k hk =>
    intro h'
    cases e
    · simp at h'
    · exact ⟨v.log, v.next, p, [], rfl, by simp, by simp⟩
  | respIn hs => exact absurd hs (by simp [hc.server])
  | errorOut hs hr hw hf w hw' => intro h'; simp at h'
  | abandon hr hw => intro h'; simp [hr] at h'
  | shutdown hk => exact h.snoc .shutdown rfl id (by simp) (fun h' => ⟨h', trivial⟩)
  | shutdownIdle hk => intro h'; simp at h'
  | wanted k => exact h.snoc (.wanted k) rfl id (by simp) (fun h' => ⟨h', trivial⟩)

structure SCont (v : View) : Prop where
  inv : SInv v
  waiting : Waiting v
  interim : Each Interim v.log

theorem SCont.prim {v w : View} (h : SCont v) (p : Prim v w) : SCont w := by
  refine ⟨h.inv.prim p, h.waiting.prim h.inv p, ?_⟩
  have hi := h.interim
  cases p <;> first | exact hi | exact each_snoc hi trivial | skip
  rename_i hr hw
  refine each_snoc hi ?_
  obtain ⟨a, n, p, mid, h1, h2, h3⟩ := h.waiting hr
  exact ⟨a, n, p, mid, h1, h3 hw⟩

theorem start_view (d : Disp) (h : d.Start) : d.view = ⟨d.conn.client, .init, .init, .busy, [], none, 0⟩ := by
  rw [view_live h.done]
  simp [Conn.view, h.reading, h.writing, h.ka, h.log, h.inFlight, h.next, Reading.tag, Writing.tag]

theorem start_sinv (d : Disp) (h : d.Start) (hs : d.conn.client = false) : SInv d.view := by
  rw [start_view d h, hs]
  constructor <;> simp [readHeads, readEnds, writeHeads, writeEnds, peerLast, ownLast, wasBad, wasOff]

theorem start_cinv (d : Disp) (h : d.Start) (hs : d.conn.client = true) : CInv d.view := by
  rw [start_view d h, hs]
  constructor <;> simp [readHeads, readEnds, writeHeads, writeEnds, peerLast, ownLast, wasBad, wasOff]

theorem view_log (d : Disp) : d.view.log = d.conn.log := by
  unfold Disp.view; split <;> rfl

theorem server_hist (env : EncodeEnv) (P : TrailerParser) (as : List Act) (d : Disp) (h : d.Start) (hs : d.conn.client = false) :
    SHist (d.run env P as).view := by
  refine (run_steps env P as d).keep (fun _ _ => SHist.prim) ⟨start_sinv d h hs, ?_, ?_⟩ <;>
    · rw [view_log, h.log]; exact each_nil _

theorem client_hist (env : EncodeEnv) (P : TrailerParser) (as : List Act) (d : Disp) (h : d.Start) (hs : d.conn.client = true) :
    CHist (d.run env P as).view := by
  refine (run_steps env P as d).keep (fun _ _ => CHist.prim) ⟨start_cinv d h hs, ?_, ?_, ?_⟩ <;> rw [view_log, h.log]
  · exact each_nil _
  · exact each_nil _
  · simp

theorem server_cont (env : EncodeEnv) (P : TrailerParser) (as : List Act) (d : Disp) (h : d.Start) (hs : d.conn.client = false) :
    SCont (d.run env P as).view := by
  refine (run_steps env P as d).keep (fun _ _ => SCont.prim) ⟨start_sinv d h hs, ?_, ?_⟩
  · rw [start_view d h]; intro h'; simp at h'
  · rw [view_log, h.log]; exact each_nil _

end Hyper
