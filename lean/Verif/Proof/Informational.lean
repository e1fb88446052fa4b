import Verif.Model.Informational
import Verif.Proof.Input
import Verif.Proof.ConnOrder
import Verif.Proof.Errors
import Verif.Props.Input
import Verif.Spec.Informational

/-! # Facts about the calls of the informational callback -/

namespace Hyper.Hints

open Hyper.Spec Hyper.Input

/-! ## What one call of the parser tells -/

section
variable {cfg : ClientCfg} {Q : Bytes → RespParse}

/-- Reading an interim head and going on. -/
theorem parse_hints (h09 : cfg.h09 = false) (m : Option Bytes) (buf : Bytes) :
    ∃ rs rest hs, InterimHeads Q buf rs rest ∧ rs.map (headOf cfg) = hs.map some ∧ clientHints cfg Q m buf = hs ∧
      (((clientHeads cfg Q).parse m buf).1 = .ok none → ((clientHeads cfg Q).parse m buf).2 = rest) ∧
      ∀ a, ((clientHeads cfg Q).parse m buf).1 = .ok (some a) →
        ∃ len raw, Q rest = .complete len raw ∧ headOf cfg raw = some a.head ∧ ((clientHeads cfg Q).parse m buf).2 = rest.drop len := by
  obtain ⟨rs, rest, hs, g1, g2, g3, g4, g5⟩ := clientParse_sound cfg Q m (buf.length + 1) buf []
  refine ⟨rs, rest, hs, g1, g2, by simpa [clientHints] using g3, g4, fun a ha => ?_⟩
  obtain ⟨_, h | h⟩ := g5 a ha
  · exact h
  · rw [h09] at h; cases h.1

/-- How a call of `parse_headers` or `Buffered::parse` that tells `told` stands to the bytes: `o` is what comes out, `s'` what is unread
afterwards. -/
def Tells (cfg : ClientCfg) (Q : Bytes → RespParse) (s : Bytes) (told : List RespHead) (o : ParseOut ResponseMsg) (s' : Bytes) : Prop :=
  ∃ rs rest, InterimHeads Q s rs rest ∧ rs.map (headOf cfg) = told.map some ∧
    match o with
    | .pending => s' = rest
    | .msg a => ∃ len raw, Q rest = .complete len raw ∧ headOf cfg raw = some a.head ∧ s' = rest.drop len
    | .error _ => True

theorem Tells.nil (s : Bytes) : Tells cfg Q s [] .pending s := ⟨[], s, .nil _, rfl, rfl⟩

/-- An outcome without the error. -/
def outOf : Except ParseErr (Option ResponseMsg) → ParseOut ResponseMsg
  | .ok none => .pending
  | .ok (some a) => .msg a
  | .error e => .error (some e)

theorem attempt_tells (h09 : cfg.h09 = false) (hQ : PrefixStable Q) (m : Option Bytes) (x : Inlet) :
    Tells cfg Q x.rd.stream (x.hintsOnce (clientHints cfg Q m)) (outOf (x.attempt ((clientHeads cfg Q).parse m)).1)
      (x.leave (x.attempt ((clientHeads cfg Q).parse m)).2).rd.stream := by
  have hst : ∀ b, (x.leave b).rd.stream = b ++ segBytes x.rd.net := fun b => rfl
  have hx : x.rd.stream = x.rd.buf ++ segBytes x.rd.net := rfl
  have key : Tells cfg Q x.rd.stream (clientHints cfg Q m x.rd.buf) (outOf ((clientHeads cfg Q).parse m x.rd.buf).1)
      (x.leave ((clientHeads cfg Q).parse m x.rd.buf).2).rd.stream := by
    obtain ⟨rs, rest, hs, g1, g2, g3, g4, g5⟩ := parse_hints (Q := Q) h09 m x.rd.buf
    refine ⟨rs, rest ++ segBytes x.rd.net, hx ▸ g1.extend hQ _, by rw [g3]; exact g2, ?_⟩
    rw [hst]
    cases ho : ((clientHeads cfg Q).parse m x.rd.buf).1 with
    | error e => trivial
    | ok o =>
      cases o with
      | none => dsimp only [outOf]; rw [g4 ho]
      | some a =>
        obtain ⟨len, raw, k1, k2, k3⟩ := g5 a ho
        obtain ⟨p1, p2, p3⟩ := hQ _ _ _ k1
        exact ⟨len, raw, p3 _, k2, by rw [k3, List.drop_append_of_le_length p2]⟩
  have idle : x.rd.buf = [] ∨ x.rd.buf ≠ [] := by by_cases h : x.rd.buf = [] <;> simp [h]
  have none' : Tells cfg Q x.rd.stream [] .pending (x.leave x.rd.buf).rd.stream := by rw [hst, ← hx]; exact .nil _
  unfold Inlet.hintsOnce Inlet.attempt
  by_cases hb : x.rd.buf = []
  · rw [if_pos hb, if_pos hb]
    rw [hb] at none'
    exact none'
  · rw [if_neg hb, if_neg hb]
    cases hp : x.partialLen with
    | none => exact key
    | some n =>
      dsimp only
      by_cases hf : isCompleteFast x.rd.buf n = some true
      · rw [if_pos hf, if_pos hf]; exact key
      · rw [if_neg hf, if_neg hf]; exact none'

theorem Tells.more {s t u : Bytes} {l₁ l₂ : List RespHead} {o : ParseOut ResponseMsg} (h1 : Tells cfg Q s l₁ .pending t)
    (h2 : Tells cfg Q t l₂ o u) : Tells cfg Q s (l₁ ++ l₂) o u := by
  obtain ⟨rs, rest, g1, g2, rfl⟩ := h1
  obtain ⟨rs', rest', k1, k2, k3⟩ := h2
  exact ⟨rs ++ rs', rest', g1.trans k1, by simp [g2, k2], k3⟩

theorem Tells.error {s t : Bytes} {l : List RespHead} {o : ParseOut ResponseMsg} (h : Tells cfg Q s l o t) (e : Option ParseErr) (u : Bytes) :
    Tells cfg Q s l (.error e) u := by
  obtain ⟨rs, rest, g1, g2, _⟩ := h
  exact ⟨rs, rest, g1, g2, trivial⟩

theorem loop_tells (h09 : cfg.h09 = false) (hQ : PrefixStable Q) (m : Option Bytes) (fuel : Nat) : ∀ x : Inlet,
    Tells cfg Q x.rd.stream (x.hintsLoop ((clientHeads cfg Q).parse m) (clientHints cfg Q m) fuel)
      (x.parseLoop ((clientHeads cfg Q).parse m) fuel).1 (x.parseLoop ((clientHeads cfg Q).parse m) fuel).2.rd.stream := by
  induction fuel with
  | zero => intro x; exact .nil _
  | succ fuel ih =>
    intro x
    have ha := attempt_tells h09 hQ m x
    unfold Inlet.parseLoop Inlet.hintsLoop
    rcases hp : x.attempt ((clientHeads cfg Q).parse m) with ⟨o, b⟩
    rw [hp] at ha
    cases o with
    | error e => dsimp only; rw [List.append_nil]; exact ha
    | ok o =>
      cases o with
      | some a => dsimp only; rw [List.append_nil]; exact ha
      | none =>
        dsimp only [outOf] at ha ⊢
        by_cases hmx : x.max ≤ b.length
        · rw [if_pos hmx, if_pos hmx, List.append_nil]; exact ha.error _ _
        · rw [if_neg hmx, if_neg hmx]
          have hpl := pull_facts (x.leave b).setPartial
          rw [setPartial_rd] at hpl
          rcases hr : (x.leave b).rd.readIo.1 with _ | ⟨_ | ⟨_ | ⟨c, cs⟩⟩⟩
          · dsimp only; rw [List.append_nil, hpl.1]; exact ha
          · dsimp only; rw [List.append_nil]; exact ha.error _ _
          · dsimp only; rw [List.append_nil]; exact ha.error _ _
          · dsimp only
            have := ih (x.leave b).setPartial.pull
            rw [hpl.1] at this
            exact ha.more this

end

/-! ## Which request is waited for -/

/-- The request waited for stays or is no longer waited for. -/
def Less (a b : Option Nat) : Prop := b = a ∨ b = none

theorem Less.refl (a : Option Nat) : Less a a := .inl rfl

theorem Less.trans {a b c : Option Nat} (h1 : Less a b) (h2 : Less b c) : Less a c := by
  rcases h2 with e | e
  · rw [e]; exact h1
  · exact .inr e

theorem flight_fail (d : Disp) : Less d.inFlight d.fail.inFlight := by
  unfold Disp.fail Less
  cases d.conn.client <;> simp

theorem flight_failBody (d : Disp) : d.failBody.inFlight = d.inFlight := by
  unfold Disp.failBody
  split <;> rfl

theorem flight_deliver (d : Disp) (k : Nat) (gone : Bool) (f : Chan → Chan) : (d.deliver k gone f).inFlight = d.inFlight := by
  unfold Disp.deliver
  repeat' split
  all_goals first
    | rfl
    | (simp only; split <;> rfl)

theorem flight_afterPiece (d : Disp) (k : Nat) (gone : Bool) (o : BodyRes) : (d.afterPiece k gone o).inFlight = d.inFlight := by
  have hm : ∀ b, (d.markComplete k b).inFlight = d.inFlight := by
    intro b
    unfold Disp.markComplete
    split <;> rfl
  unfold Disp.afterPiece
  split
  · rfl
  · rw [flight_deliver, hm]
  · rw [flight_deliver, hm]
  · simp [Disp.dropBody, hm]
  · rfl

theorem flight_readBody (P : TrailerParser) (d : Disp) (i : ReadIn) (k : Nat) : (d.readBody P i k).inFlight = d.inFlight := by
  have hl : ∀ (d : Disp) g, (d.maybeLose k g).inFlight = d.inFlight := by
    intro d g
    unfold Disp.maybeLose
    split <;> rfl
  unfold Disp.readBody
  repeat' split
  all_goals first
    | rfl
    | (unfold Disp.readPiece; rw [flight_afterPiece, hl])

/-- A head read, or an error, and nobody is waited for; anything else, and it stays. -/
theorem flight_afterHead (d : Disp) (hc : d.conn.client = true) (o : HeadOut) :
    Less d.inFlight (d.afterHead o).inFlight ∧ ((∃ m, o = .msg m) → (d.afterHead o).inFlight = none) := by
  have hm : ∀ m, (d.recvHead m).inFlight = none := by
    intro m
    unfold Disp.recvHead
    simp only [Hyper.conn_newBody, hc, if_true, Hyper.inFlight_newBody]
    cases hf : d.inFlight with
    | none => simp [Disp.fail, hc, Hyper.conn_newBody]
    | some n => rfl
  have he : Less d.inFlight d.recvErr.inFlight := by
    unfold Disp.recvErr
    simp only [hc, if_true]
    cases hf : d.inFlight with
    | none => dsimp only; rw [← hf]; exact flight_fail d
    | some n => exact .inr rfl
  unfold Disp.afterHead
  cases o with
  | pending => exact ⟨.refl _, by simp⟩
  | msg m => exact ⟨.inr (hm m), fun _ => hm m⟩
  | err => exact ⟨he, by simp⟩
  | timeout => exact ⟨he, by simp⟩
  | eof =>
    refine ⟨?_, by simp⟩
    dsimp only
    split <;> exact .refl _

theorem flight_readHead (env : EncodeEnv) (d : Disp) (hc : d.conn.client = true) (i : ReadIn) :
    Less d.inFlight (d.readHeadReady env i).inFlight ∧
    ((∃ m, i.parse = .msg m) → (d.readHeadReady env i).inFlight = none) := by
  unfold Disp.readHeadReady
  have hcl := Hyper.client_pollReadHead d.conn env i.t0 i.t1 i.parse i.notify d.headId
  have h := flight_afterHead { d with conn := (d.conn.pollReadHead env i.t0 i.t1 i.parse i.notify d.headId).2 } (hcl.trans hc)
    (d.conn.pollReadHead env i.t0 i.t1 i.parse i.notify d.headId).1
  refine ⟨h.1, fun ⟨m, hm⟩ => h.2 ⟨m, ?_⟩⟩
  rw [hm]
  rfl

theorem flight_readTurn (env : EncodeEnv) (P : TrailerParser) (d : Disp) (hc : d.conn.client = true) (i : ReadIn) :
    Less d.inFlight (d.readTurn env P i).inFlight := by
  unfold Disp.readTurn
  split
  · exact .refl _
  · split
    · unfold Disp.readHead
      have h := (flight_readHead env d hc i).1
      cases hf : d.inFlight with
      | none =>
        dsimp only
        rw [if_pos hc]
        exact .inl hf
      | some n =>
        dsimp only
        rw [if_pos hc]
        split
        · rw [← hf]; exact h
        · exact .inl hf
    · split
      · exact .inl (flight_readBody P d i _)
      · unfold Disp.readIdle
        dsimp only
        split
        · exact flight_fail { d with conn := _ }
        · exact .refl _

theorem flight_endBody (d : Disp) : Less d.inFlight d.endBody.inFlight := by
  unfold Disp.endBody
  dsimp only
  split
  · exact flight_fail { d with conn := _ }
  · exact .refl _

theorem flight_flush (d : Disp) (f : FlushIn) (i : NotifyIn) : Less d.inFlight (d.flushTurn f i).inFlight := by
  unfold Disp.flushTurn
  dsimp only
  split
  · exact .refl _
  · exact flight_fail { d with conn := _ }

theorem flight_frame (d : Disp) (f : FrameIn) : Less d.inFlight (d.writeFrame f).inFlight := by
  have e := flight_endBody { d with bodyRx := false }
  unfold Disp.writeFrame
  repeat' split
  all_goals first
    | exact .refl _
    | exact e
    | exact flight_fail { d with bodyRx := false }

theorem flight_complete (d : Disp) : Less d.inFlight d.complete.inFlight := by
  unfold Disp.complete
  split
  · exact flight_fail { d with conn := _ }
  · exact .refl _

theorem flight_finish (d : Disp) (s : Bool) (f : FlushIn) : Less d.inFlight (d.finishTurn s f).inFlight := by
  unfold Disp.finishTurn
  split
  · exact .refl _
  · split
    · exact flight_complete { d with conn := _ }
    · split
      · dsimp only
        split
        · exact .refl _
        · split
          · exact flight_complete { d with conn := _ }
          · exact flight_fail { d with conn := _ }
      · exact flight_complete d

/-- A turn of `poll_write`: if it takes a request, that is the one waited for. -/
theorem flight_write (env : EncodeEnv) (P : TrailerParser) (d : Disp) (hc : d.conn.client = true) (i : WriteIn) :
    match d.takes i with
    | some n => (d.step env P (.write i)).inFlight = some n
    | none => Less d.inFlight (d.step env P (.write i)).inFlight := by
  unfold Disp.step
  dsimp only
  by_cases hd : d.done = true
  · have : d.takes i = none := by
      unfold Disp.takes
      split <;> simp [hd]
    rw [this, if_pos hd]; exact .refl _
  · rw [if_neg hd]
    unfold Disp.writeTurn
    by_cases hcl : d.closing = true
    · have : d.takes i = none := by
        unfold Disp.takes
        split <;> simp [hcl]
      rw [this, if_pos hcl]; exact .refl _
    · rw [if_neg hcl]
      by_cases hw : (!d.bodyRx && d.conn.canWriteHead && d.shouldPoll) = true
      · rw [if_pos hw]
        simp only [Bool.and_eq_true, Bool.not_eq_true'] at hw
        obtain ⟨⟨w1, w2⟩, w3⟩ := hw
        unfold Disp.takes Disp.writeHead
        cases i.msg with
        | req h body => simp [hc, hd, hcl, w1, w2, w3]
        | pending => exact .refl _
        | none => dsimp only; rw [if_pos hc]; exact .refl _
        | err => dsimp only; rw [if_pos hc]; exact .refl _
        | resp m => dsimp only; rw [if_pos hc]; exact .refl _
      · rw [if_neg hw]
        have : d.takes i = none := by
          unfold Disp.takes
          split
          · rw [if_neg]
            intro h
            apply hw
            simp only [Bool.and_eq_true] at h ⊢
            exact ⟨⟨h.1.1.2, h.1.2⟩, h.2⟩
          · rfl
        rw [this]
        dsimp only
        repeat' split
        · exact flight_flush d _ _
        · exact flight_frame d _
        · exact .refl _
        · exact flight_endBody d
        · exact .refl _

/-- Any other act. -/
theorem flight_step (env : EncodeEnv) (P : TrailerParser) (d : Disp) (hc : d.conn.client = true) (a : Act) (ha : ∀ i, a ≠ .write i) :
    Less d.inFlight (d.step env P a).inFlight := by
  unfold Disp.step
  cases a with
  | write i => exact absurd rfl (ha i)
  | read i => dsimp only; split; exact .refl _; exact flight_readTurn env P d hc i
  | flush f i => dsimp only; split; exact .refl _; exact flight_flush d f i
  | readAgain => dsimp only; split <;> exact .refl _
  | finish s f => dsimp only; split; exact .refl _; exact flight_finish d s f
  | disable b =>
    dsimp only
    split
    · exact .refl _
    · unfold Disp.disableKeepAlive
      dsimp only
      split <;> exact .refl _
  | want k =>
    dsimp only
    unfold Disp.want
    repeat' split
    all_goals exact .refl _
  | dropReader k => exact .refl _
  | drop => exact .inl (flight_failBody d)

/-! ## The invariant -/

theorem toldTo_append (n : Nat) (a b : List (Nat × RespHead)) : toldTo n (a ++ b) = toldTo n a ++ toldTo n b := by
  simp [toldTo]

theorem toldTo_same (n : Nat) (l : List RespHead) : toldTo n (l.map (fun h => (n, h))) = l := by
  induction l with
  | nil => rfl
  | cons h l ih => simp [toldTo] at ih ⊢; exact ih

theorem toldTo_none {n : Nat} {l : List (Nat × RespHead)} (h : ∀ p ∈ l, p.1 ≠ n) : toldTo n l = [] := by
  simp only [toldTo, List.map_eq_nil_iff, List.filter_eq_nil_iff, beq_iff_eq]
  exact h

theorem Led.refl (cfg : ClientCfg) (Q : Bytes → RespParse) (s : Bytes) : Led cfg Q s [] s := ⟨[], .nil _, rfl⟩

section
variable (cfg : ClientCfg) (Q : Bytes → RespParse) (P : TrailerParser) (mh : Option Nat) (fin : NetEnd) (S : Bytes) (has : Nat → Bool)

/-- Where the connection is, and what the callback of the exchange to come has heard. -/
inductive Now (s : Hinted) : Prop where
  | between (t : Bytes) (l : List RespHead) (rest : Bytes) (hr : Reads (clientHeads cfg Q) P mh fin S s.fed.got t) (hl : Led cfg Q t l rest)
      (ht : toldTo s.fed.got.length s.calls = heardBy (has s.fed.got.length) l)
      (hp : rk s.fed.disp.conn.reading = .closed ∨ (s.fed.inlet.rd.stream = rest ∧ ∀ dec, rk s.fed.disp.conn.reading ≠ .dec dec)) : Now s
  | within (ht : toldTo s.fed.got.length s.calls = [])
      (hp : rk s.fed.disp.conn.reading = .closed ∨ ∃ dec, rk s.fed.disp.conn.reading = .dec dec) : Now s

/-- What the callback of a response already read was told. -/
def Past (got : List (Received ResponseMsg)) (calls : List (Nat × RespHead)) : Prop :=
  ∀ k r, got[k]? = some r → r.id = k ∧ ∃ t l rest len raw, Reads (clientHeads cfg Q) P mh fin S (got.take k) t ∧ Led cfg Q t l rest ∧
    Q rest = .complete len raw ∧ headOf cfg raw = some r.head.head ∧ toldTo k calls = heardBy (has k) l

structure NI (s : Hinted) : Prop where
  fi : FI (clientHeads cfg Q) P mh fin S s.fed
  cinv : CInv s.fed.disp.view
  client : s.fed.disp.conn.client = true
  mine : ∀ n, s.fed.disp.inFlight = some n → s.cb = if has n then some n else none
  tags : ∀ p ∈ s.calls, has p.1 = true ∧ p.1 ≤ s.fed.got.length
  past : Past cfg Q P mh fin S has s.fed.got s.calls
  now : Now cfg Q P mh fin S has s

end

section
variable {cfg : ClientCfg} {Q : Bytes → RespParse} {P : TrailerParser} {mh : Option Nat} {fin : NetEnd} {S : Bytes} {has : Nat → Bool}

theorem Now.quiet {s s' : Hinted} (h : Now cfg Q P mh fin S has s) (hc : s'.calls = s.calls) (hg : s'.fed.got = s.fed.got)
    (hs : s'.fed.inlet.rd.stream = s.fed.inlet.rd.stream) (hq : Quiet s.fed.disp.conn s'.fed.disp.conn) : Now cfg Q P mh fin S has s' := by
  cases h with
  | between t l rest hr hl ht hp =>
    refine .between t l rest (hg ▸ hr) hl (by rw [hg, hc]; exact ht) ?_
    rcases hp with e | ⟨e, e'⟩
    · exact .inl (closed_stays hq e)
    · rcases hq.rd with g | g | ⟨_, g⟩
      · exact .inr ⟨hs.trans e, fun dec => by rw [g]; exact e' dec⟩
      · exact .inl g
      · exact .inr ⟨hs.trans e, fun dec => by rw [g]; simp⟩
  | within ht hp =>
    refine .within (by rw [hg, hc]; exact ht) ?_
    rcases hp with e | ⟨dec, e⟩
    · exact .inl (closed_stays hq e)
    · rcases hq.rd with g | g | ⟨g, _⟩
      · exact .inr ⟨dec, g.trans e⟩
      · exact .inl g
      · rw [e] at g; cases g

/-- Messages that make up the bytes were read to their end. -/
theorem reads_whole {α : Type} {H : HeadFn α} {s t : Bytes} {rs : List (Received α)} (h : Reads H P mh fin s rs t) :
    ∀ r ∈ rs, r.whole = true := by
  induction h with
  | nil => simp
  | cons hw _ _ _ _ ih => simp [hw]; exact ih

/-- Whether the last message is whole tells where the connection is. -/
theorem pos_tells {α : Type} {H : HeadFn α} {f : Fed α} (h : Pos H P mh fin S f) {ws : List (Received α)} {r : Received α} (hg : f.got = ws ++ [r]) :
    if r.whole then rk f.disp.conn.reading = .closed ∨ ∀ dec, rk f.disp.conn.reading ≠ .dec dec
    else rk f.disp.conn.reading = .closed ∨ ∃ dec, rk f.disp.conn.reading = .dec dec := by
  cases h with
  | between t hr _ hk =>
    have : r.whole = true := reads_whole hr r (by rw [hg]; simp)
    rw [if_pos this]
    exact .inr hk
  | within ws' r' t body dec hg' _ hw _ _ _ _ hk =>
    rw [hg] at hg'
    have : r = r' := by simpa using (List.append_inj' hg' rfl).2
    rw [if_neg (by rw [this, hw]; simp)]
    exact .inr ⟨dec, hk⟩
  | stopped ws' r' t hg' _ hb hk => split <;> exact .inl hk

theorem readHeads_got {α : Type} {H : HeadFn α} {f : Fed α} (h : FI H P mh fin S f) : readHeads f.disp.conn.log = f.got.length := by
  have e : readHeads f.disp.conn.log = (f.disp.conn.log.filter isHead).length := by
    unfold readHeads
    rw [List.countP_eq_length_filter]
    congr 1
  rw [e, h.heads, List.length_map]

/-- The request waited for when a response is looked for. -/
theorem waited {s : Hinted} (h : NI cfg Q P mh fin S has s) {i : ReadIn} (hp : s.fed.disp.parses i = true) :
    s.fed.disp.inFlight = some s.fed.got.length := by
  have hr := (step_parses exEnv P s.fed.disp i i rfl hp).2
  simp only [Disp.parses, Bool.and_eq_true, Bool.not_eq_true', h.client, if_true] at hp
  obtain ⟨⟨⟨h1, _⟩, _⟩, h4, _⟩ := hp
  have hv : s.fed.disp.view = s.fed.disp.conn.view s.fed.disp.inFlight s.fed.disp.next := by
    unfold Disp.view
    rw [if_neg (by simp [h1])]
  have hc := h.cinv
  rw [hv] at hc
  obtain ⟨_, c1, c2⟩ := hc.init (by simp [Conn.view, hr, Reading.tag])
  have hw : (s.fed.disp.conn.view s.fed.disp.inFlight s.fed.disp.next).wr ≠ .init := by
    intro e
    have := (c1 e).2
    simp only [Conn.view] at this
    rw [this] at h4
    cases h4
  have := (c2 hw).2
  simp only [Conn.view] at this
  rw [this, readHeads_got h.fi]

/-! ## The acts -/

theorem step_fed (env : EncodeEnv) (s : Hinted) (a : FAct) :
    (s.step env P cfg Q has a).fed = s.fed.step env P (clientHeads cfg Q) a := by
  cases a with
  | pull => rfl
  | act a =>
    cases a with
    | read i =>
      unfold Hinted.step Hinted.read
      dsimp only
      split <;> rfl
    | _ => rfl

/-- The act of the dispatcher. -/
theorem fed_disp {α : Type} (H : HeadFn α) (env : EncodeEnv) (f : Fed α) (a : FAct) :
    match a with
    | .pull => (f.step env P H a).disp = f.disp
    | .act (.read i) => (f.step env P H a).disp = f.disp.step env P (.read (f.readIn H i))
    | .act a' => (f.step env P H a).disp = f.disp.step env P a' := by
  cases a with
  | pull => rfl
  | act a =>
    cases a with
    | read i =>
      simp only [Fed.step]
      unfold Fed.read
      split
      · rfl
      · split <;> rfl
    | _ => rfl

/-- What an act does to the connection itself. -/
theorem keeps (hS : Stable (clientHeads cfg Q)) (env : EncodeEnv) {s : Hinted} (h : NI cfg Q P mh fin S has s) (a : FAct) :
    FI (clientHeads cfg Q) P mh fin S (s.step env P cfg Q has a).fed ∧ CInv (s.step env P cfg Q has a).fed.disp.view ∧
      (s.step env P cfg Q has a).fed.disp.conn.client = true := by
  rw [step_fed]
  refine ⟨fi_step hS env h.fi a, ?_, ?_⟩
  · have hd := fed_disp (P := P) (clientHeads cfg Q) env s.fed a
    have key : ∀ a', CInv (s.fed.disp.step env P a').view := fun a' =>
      (step_steps env P s.fed.disp a').keep (fun _ _ => CInv.prim) h.cinv
    cases a with
    | pull => dsimp only at hd; rw [hd]; exact h.cinv
    | act a => cases a <;> dsimp only at hd <;> rw [hd] <;> exact key _
  · have hd := fed_disp (P := P) (clientHeads cfg Q) env s.fed a
    cases a with
    | pull => dsimp only at hd; rw [hd]; exact h.client
    | act a => cases a <;> dsimp only at hd <;> rw [hd, client_step] <;> exact h.client

theorem Less.mine {a b : Option Nat} {cb : Option Nat} (hl : Less a b) (h : ∀ n, a = some n → cb = if has n then some n else none) :
    ∀ n, b = some n → cb = if has n then some n else none := by
  intro n hn
  rcases hl with e | e
  · exact h n (e ▸ hn)
  · rw [e] at hn; cases hn

/-- An act that neither parses nor decodes. -/
theorem ni_quiet (hS : Stable (clientHeads cfg Q)) (env : EncodeEnv) {s : Hinted} (h : NI cfg Q P mh fin S has s) (a : FAct)
    (hg : (s.step env P cfg Q has a).fed.got = s.fed.got) (hs : (s.step env P cfg Q has a).fed.inlet.rd.stream = s.fed.inlet.rd.stream)
    (hc : (s.step env P cfg Q has a).calls = s.calls) (hq : Quiet s.fed.disp.conn (s.step env P cfg Q has a).fed.disp.conn)
    (hm : ∀ n, (s.step env P cfg Q has a).fed.disp.inFlight = some n → (s.step env P cfg Q has a).cb = if has n then some n else none) :
    NI cfg Q P mh fin S has (s.step env P cfg Q has a) := by
  obtain ⟨k1, k2, k3⟩ := keeps hS env h a
  refine ⟨k1, k2, k3, hm, ?_, ?_, h.now.quiet hc hg hs hq⟩
  · rw [hc, hg]; exact h.tags
  · rw [hc, hg]; exact h.past

/-- What a parse that finds nothing does to the connection. -/
theorem parse_quiet (env : EncodeEnv) (d : Disp) (j : ReadIn) (hj : j.parse = .pending) : Quiet d.conn (d.readHeadReady env j).conn := by
  unfold Disp.readHeadReady
  simp only [hj, Conn.pollReadHead]
  have hq := q_startTimer d.conn j.t0
  split
  · exact (QD.trans (qd_conn d { d.conn.startTimer j.t0 with timing := false } (hq.trans (.of rfl rfl rfl))) (qd_recvErr _)).conn
  · exact (qd_conn d _ hq).conn

/-- A parse that fails ends reading. -/
theorem parse_closed (env : EncodeEnv) (d : Disp) (j : ReadIn) (e : Option ParseErr) (r h2 : Bool) (hj : j.parse = .error e r h2) :
    rk (d.readHeadReady env j).conn.reading = .closed := by
  unfold Disp.readHeadReady
  simp only [hj, Conn.pollReadHead]
  obtain ⟨_, hk⟩ := q_onReadHeadError env (d.conn.startTimer j.t0) e r h2
  have hno := onReadHeadError_no env (d.conn.startTimer j.t0) e r h2
  generalize (d.conn.startTimer j.t0).onReadHeadError env e r h2 = oc at *
  have key : QD { d with conn := oc.2 } (({ d with conn := oc.2 } : Disp).afterHead oc.1) := by
    unfold Disp.afterHead
    split
    · exact QD.refl _
    · rename_i m hm
      exact absurd hm (hno m)
    · exact qd_recvErr _
    · exact qd_recvErr _
    · split
      · exact qd_close _
      · exact QD.refl _
  exact closed_stays key.conn hk

/-- The calls a parse makes. -/
theorem tell_eq {s : Hinted} (h : NI cfg Q P mh fin S has s) {i : ReadIn} (hp : s.fed.disp.parses i = true) :
    s.tell cfg Q = (heardBy (has s.fed.got.length) (s.fed.inlet.hintsLoop ((clientHeads cfg Q).parse s.fed.disp.conn.method)
      (clientHints cfg Q s.fed.disp.conn.method) (s.fed.inlet.rd.net.length + 1))).map (fun h => (s.fed.got.length, h)) := by
  unfold Hinted.tell
  rw [h.mine _ (waited h hp)]
  unfold heardBy
  cases has s.fed.got.length <;> simp

theorem past_same {got : List (Received ResponseMsg)} {calls calls' : List (Nat × RespHead)} (h : Past cfg Q P mh fin S has got calls)
    (hc : ∀ k, k < got.length → toldTo k calls' = toldTo k calls) : Past cfg Q P mh fin S has got calls' := by
  intro k r hk
  obtain ⟨h1, t, l, rest, len, raw, h2, h3, h4, h5, h6⟩ := h k r hk
  have hlt : k < got.length := by
    rcases Nat.lt_or_ge k got.length with g | g
    · exact g
    · rw [List.getElem?_eq_none g] at hk; cases hk
  exact ⟨h1, t, l, rest, len, raw, h2, h3, h4, h5, (hc k hlt).trans h6⟩

theorem past_snoc {got : List (Received ResponseMsg)} {calls : List (Nat × RespHead)} {r : Received ResponseMsg}
    (h : Past cfg Q P mh fin S has got calls) (hr : r.id = got.length ∧ ∃ t l rest len raw, Reads (clientHeads cfg Q) P mh fin S got t ∧
      Led cfg Q t l rest ∧ Q rest = .complete len raw ∧ headOf cfg raw = some r.head.head ∧
      toldTo got.length calls = heardBy (has got.length) l) : Past cfg Q P mh fin S has (got ++ [r]) calls := by
  intro k r' hk
  rcases Nat.lt_trichotomy k got.length with g | g | g
  · rw [List.getElem?_append_left g] at hk
    rw [List.take_append_of_le_length (by omega)]
    exact h k r' hk
  · subst g
    rw [List.getElem?_append_right (by omega)] at hk
    simp at hk
    subst hk
    rw [List.take_append_of_le_length (by omega), List.take_length]
    exact hr
  · rw [List.getElem?_eq_none (by simp; omega)] at hk; cases hk

/-- A turn that parses. -/
theorem ni_parse (h09 : cfg.h09 = false) (hQ : PrefixStable Q) (env : EncodeEnv) {s : Hinted} (h : NI cfg Q P mh fin S has s) (i : ReadIn)
    (hp : s.fed.disp.parses i = true) : NI cfg Q P mh fin S has (s.step env P cfg Q has (.act (.read i))) := by
  have hS := C66_client_stable cfg h09 Q hQ
  obtain ⟨k1, k2, k3⟩ := keeps hS env h (.act (.read i))
  have htl := loop_tells h09 hQ s.fed.disp.conn.method (s.fed.inlet.rd.net.length + 1) s.fed.inlet
  have hpf := (parse_facts hS s.fed.disp.conn.method (s.fed.inlet.rd.net.length + 1) s.fed.inlet).2
  have htell := tell_eq h hp
  have hw := waited h hp
  obtain ⟨hstep, hinit⟩ := step_parses env P s.fed.disp i (s.fed.readIn (clientHeads cfg Q) i) rfl hp
  have hfl := flight_readHead env s.fed.disp h.client (s.fed.readIn (clientHeads cfg Q) i)
  have hdisp := fed_disp (P := P) (clientHeads cfg Q) env s.fed (.act (.read i))
  dsimp only at hdisp
  rw [hstep] at hdisp
  -- what is known before
  obtain ⟨t, l, hr, hl, ht⟩ : ∃ t l, Reads (clientHeads cfg Q) P mh fin S s.fed.got t ∧ Led cfg Q t l s.fed.inlet.rd.stream ∧
      toldTo s.fed.got.length s.calls = heardBy (has s.fed.got.length) l := by
    cases h.now with
    | between t l rest hr hl ht hp =>
      rcases hp with e | ⟨e, _⟩
      · rw [hinit] at e; cases e
      · exact ⟨t, l, hr, e ▸ hl, ht⟩
    | within ht hp =>
      rcases hp with e | ⟨dec, e⟩ <;> rw [hinit] at e <;> cases e
  have hout : ∀ o x, s.fed.inlet.parse ((clientHeads cfg Q).parse s.fed.disp.conn.method) = (o, x) →
      (s.step env P cfg Q has (.act (.read i))).fed.got = s.fed.begin (clientHeads cfg Q) o ∧
      (s.step env P cfg Q has (.act (.read i))).fed.inlet = x ∧
      (s.step env P cfg Q has (.act (.read i))).cb = (if o.isMsg then none else s.cb) ∧
      (s.step env P cfg Q has (.act (.read i))).calls = s.calls ++ s.tell cfg Q ∧
      (s.fed.readIn (clientHeads cfg Q) i).parse = Inlet.seen ((clientHeads cfg Q).view s.fed.disp.conn.method) o x.rd.buf := by
    intro o x e
    simp only [Hinted.step, Hinted.read, hp, if_true, Fed.read, Fed.readIn, e]
    simp
  rcases hpo : s.fed.inlet.parse ((clientHeads cfg Q).parse s.fed.disp.conn.method) with ⟨o, x⟩
  obtain ⟨q1, q2, q3, q4, q5⟩ := hout o x hpo
  have hpo' : s.fed.inlet.parseLoop ((clientHeads cfg Q).parse s.fed.disp.conn.method) (s.fed.inlet.rd.net.length + 1) = (o, x) := hpo
  rw [hpo'] at htl hpf
  generalize hhs : s.fed.inlet.hintsLoop ((clientHeads cfg Q).parse s.fed.disp.conn.method)
      (clientHints cfg Q s.fed.disp.conn.method) (s.fed.inlet.rd.net.length + 1) = hs at htl htell
  rw [htell] at q4
  -- the calls
  have hnow : toldTo s.fed.got.length (s.step env P cfg Q has (.act (.read i))).calls = heardBy (has s.fed.got.length) (l ++ hs) := by
    rw [q4, toldTo_append, toldTo_same, ht]
    unfold heardBy
    cases has s.fed.got.length <;> simp
  have hold : ∀ k, k ≠ s.fed.got.length → toldTo k (s.step env P cfg Q has (.act (.read i))).calls = toldTo k s.calls := by
    intro k hk
    have : toldTo k ((heardBy (has s.fed.got.length) hs).map (fun h => (s.fed.got.length, h))) = [] := ?_
    · rw [q4, toldTo_append, this, List.append_nil]
    apply toldTo_none
    intro p hp'
    simp only [List.mem_map] at hp'
    obtain ⟨_, _, rfl⟩ := hp'
    exact fun e => hk e.symm
  have htags : ∀ p ∈ (s.step env P cfg Q has (.act (.read i))).calls, has p.1 = true ∧ p.1 ≤ s.fed.got.length := by
    intro p hp'
    rw [q4, List.mem_append] at hp'
    rcases hp' with hp' | hp'
    · exact h.tags p hp'
    · simp only [List.mem_map] at hp'
      obtain ⟨y, hy, rfl⟩ := hp'
      refine ⟨?_, Nat.le_refl _⟩
      unfold heardBy at hy
      cases hh : has s.fed.got.length with
      | true => rfl
      | false => rw [hh] at hy; simp at hy
  have hpast : Past cfg Q P mh fin S has s.fed.got (s.step env P cfg Q has (.act (.read i))).calls :=
    past_same h.past (fun k hk => hold k (by omega))
  obtain ⟨rs, rest, t1, t2, t3⟩ := htl
  obtain ⟨rs0, l1, l2⟩ := hl
  have hled : Led cfg Q t (l ++ hs) rest := ⟨rs0 ++ rs, l1.trans t1, by simp [l2, t2]⟩
  have hmine : o.isMsg = false → ∀ n, (s.step env P cfg Q has (.act (.read i))).fed.disp.inFlight = some n →
      (s.step env P cfg Q has (.act (.read i))).cb = if has n then some n else none := by
    intro ho
    rw [q3, ho, step_fed, hdisp]
    exact hfl.1.mine h.mine
  have hkeep : o.isMsg = false → (s.step env P cfg Q has (.act (.read i))).fed.got = s.fed.got := by
    intro ho
    rw [q1]
    cases o <;> first | rfl | cases ho
  cases o with
  | pending =>
    have hg := hkeep rfl
    refine ⟨k1, k2, k3, hmine rfl, by rw [hg]; exact htags, by rw [hg]; exact hpast, ?_⟩
    refine .between t (l ++ hs) rest (hg ▸ hr) hled (by rw [hg]; exact hnow) ?_
    have hq := parse_quiet env s.fed.disp (s.fed.readIn (clientHeads cfg Q) i) q5
    rw [← hdisp, ← step_fed (has := has)] at hq
    rcases hq.rd with g | g | ⟨g, _⟩
    · refine .inr ⟨by rw [q2]; exact t3, fun dec => ?_⟩
      rw [g, hinit]; simp [rk]
    · exact .inl g
    · rw [hinit] at g; cases g
  | error e =>
    have hg := hkeep rfl
    refine ⟨k1, k2, k3, hmine rfl, by rw [hg]; exact htags, by rw [hg]; exact hpast, ?_⟩
    refine .between t (l ++ hs) rest (hg ▸ hr) hled (by rw [hg]; exact hnow) (.inl ?_)
    rw [step_fed, hdisp]
    exact parse_closed env _ _ _ _ _ q5
  | msg a =>
    obtain ⟨len, raw, m1, m2, m3⟩ := t3
    obtain ⟨p1, p2, p3⟩ := hpf
    have hid : s.fed.disp.headId = s.fed.got.length := by
      unfold Disp.headId
      rw [if_pos h.client, hw]
      rfl
    have hg : (s.step env P cfg Q has (.act (.read i))).fed.got = s.fed.got ++ [⟨s.fed.disp.headId, s.fed.disp.conn.method, a, [], none,
        ((clientHeads cfg Q).view s.fed.disp.conn.method a).decode == DecodedLength.ZERO⟩] := q1
    have hnone : (s.step env P cfg Q has (.act (.read i))).fed.disp.inFlight = none := by
      rw [step_fed, hdisp]
      exact hfl.2 ⟨_, q5⟩
    have hlen : toldTo (s.fed.got.length + 1) (s.step env P cfg Q has (.act (.read i))).calls = [] :=
      toldTo_none (fun p hp' e => by have := (htags p hp').2; omega)
    refine ⟨k1, k2, k3, ?_, ?_, ?_, ?_⟩
    · intro n hn; rw [hnone] at hn; cases hn
    · intro p hp'
      rw [hg]
      have := htags p hp'
      exact ⟨this.1, by simp; omega⟩
    · rw [hg]
      exact past_snoc hpast ⟨hid, t, l ++ hs, rest, len, raw, hr, hled, m1, m2, hnow⟩
    · have hpt := pos_tells k1.pos hg
      by_cases hz : ((clientHeads cfg Q).view s.fed.disp.conn.method a).decode = DecodedLength.ZERO
      · rw [if_pos (by simp [hz])] at hpt
        obtain ⟨t0, r0, n0⟩ := pos_init h.fi.pos hinit
        have hparse' : (clientHeads cfg Q).parse s.fed.disp.conn.method t0 = (.ok (some a), x.rd.stream) := (n0.parse p1 _).trans p2
        have hsuf' : x.rd.stream <:+ t0 := p3.trans n0.1
        refine .between x.rd.stream [] x.rd.stream ?_ (Led.refl _ _ _) ?_ ?_
        · rw [hg]
          refine reads_snoc r0 (by simp [hz]) hparse' hsuf' ?_
          have := Body.length (P := P) (mh := mh) (fin := fin) (len := DecodedLength.ZERO) [] x.rd.stream (by decide) (by decide) rfl
          simpa [hz] using this
        · rw [hg]
          simp only [List.length_append, List.length_cons, List.length_nil]
          rw [hlen]
          simp [heardBy]
        · rcases hpt with e | e
          · exact .inl e
          · exact .inr ⟨by rw [q2], e⟩
      · rw [if_neg (by simp [hz])] at hpt
        refine .within ?_ hpt
        rw [hg]
        simp only [List.length_append, List.length_cons, List.length_nil]
        exact hlen

/-- What a decoder yields leaves number and head of the message, and the messages before it. -/
theorem past_add {ws : List (Received ResponseMsg)} {r r' : Received ResponseMsg} {calls : List (Nat × RespHead)}
    (h : Past cfg Q P mh fin S has (ws ++ [r]) calls) (h1 : r'.id = r.id) (h2 : r'.head = r.head) : Past cfg Q P mh fin S has (ws ++ [r']) calls := by
  intro k x hk
  rcases Nat.lt_trichotomy k ws.length with g | g | g
  · rw [List.getElem?_append_left g] at hk
    have := h k x (by rw [List.getElem?_append_left g]; exact hk)
    rw [List.take_append_of_le_length (by omega)] at this ⊢
    exact this
  · subst g
    rw [List.getElem?_append_right (by omega)] at hk
    simp at hk
    subst hk
    have := h ws.length r (by rw [List.getElem?_append_right (by omega)]; simp)
    rw [List.take_append_of_le_length (by omega)] at this ⊢
    rw [h1, h2]
    exact this
  · rw [List.getElem?_eq_none (by simp; omega)] at hk; cases hk

/-- A turn that decodes. -/
theorem ni_decode (hS : Stable (clientHeads cfg Q)) (env : EncodeEnv) {s : Hinted} (h : NI cfg Q P mh fin S has s) (i : ReadIn) (dec : Decoder)
    (hp : s.fed.disp.parses i = false) (hd : s.fed.disp.decodes i = some dec) :
    NI cfg Q P mh fin S has (s.step env P cfg Q has (.act (.read i))) := by
  obtain ⟨k1, k2, k3⟩ := keeps hS env h (.act (.read i))
  have hdisp := fed_disp (P := P) (clientHeads cfg Q) env s.fed (.act (.read i))
  dsimp only at hdisp
  have hk : rk s.fed.disp.conn.reading = .dec dec := by
    unfold Disp.decodes at hd
    rw [← decoder_rk]
    repeat' split at hd
    all_goals first
      | exact hd
      | cases hd
  have hgot : (s.step env P cfg Q has (.act (.read i))).fed.got =
      onLast (fun r => r.add (dec.decode P s.fed.inlet.rd).1 (dec.decode P s.fed.inlet.rd).2.1.isEof) s.fed.got := by
    rw [step_fed]
    simp [Fed.step, Fed.read, hp, hd]
  have hin : (s.step env P cfg Q has (.act (.read i))).fed.inlet.rd = (dec.decode P s.fed.inlet.rd).2.2 := by
    rw [step_fed]
    simp [Fed.step, Fed.read, hp, hd]
  have hcalls : (s.step env P cfg Q has (.act (.read i))).calls = s.calls := by
    simp [Hinted.step, Hinted.read, hp]
  have hcb : (s.step env P cfg Q has (.act (.read i))).cb = s.cb := by
    simp [Hinted.step, Hinted.read, hp]
  have hnow : toldTo s.fed.got.length s.calls = [] := by
    cases h.now with
    | between _ _ _ _ _ _ hp' =>
      rcases hp' with e | ⟨_, e⟩
      · rw [hk] at e; cases e
      · exact absurd hk (e dec)
    | within ht _ => exact ht
  cases h.fi.pos with
  | between _ _ _ hno => exact absurd hk (hno dec)
  | stopped _ _ _ _ _ _ hk' => rw [hk] at hk'; cases hk'
  | within ws r t body dec0 hg hr hw htr hpar hsuf hb hk0 hdo ho =>
    have : dec0 = dec := by rw [hk] at hk0; injection hk0 with e; exact e.symm
    subst this
    rw [hg, onLast_snoc] at hgot
    obtain ⟨a1, a2, a3⟩ := add_keep r (dec0.decode P s.fed.inlet.rd).1 (dec0.decode P s.fed.inlet.rd).2.1.isEof
    have hlen : (s.step env P cfg Q has (.act (.read i))).fed.got.length = s.fed.got.length := by rw [hgot, hg]; simp
    refine ⟨k1, k2, k3, ?_, ?_, ?_, ?_⟩
    · rw [hcb, step_fed, hdisp]
      exact (flight_step env P s.fed.disp h.client _ (by simp)).mine h.mine
    · rw [hcalls, hlen]; exact h.tags
    · rw [hcalls, hgot]
      have := h.past
      rw [hg] at this
      exact past_add this a1 a3
    · have hpt := pos_tells k1.pos hgot
      by_cases hwh : (r.add (dec0.decode P s.fed.inlet.rd).1 (dec0.decode P s.fed.inlet.rd).2.1.isEof).whole = true
      · rw [if_pos hwh] at hpt
        refine .between (dec0.decode P s.fed.inlet.rd).2.2.stream [] _ ?_ (Led.refl _ _ _) ?_ ?_
        · rw [hgot]
          have hstep := outc_step P dec0 hdo s.fed.inlet.rd r.data
          have hbody : ∀ data tr rest, outc P dec0 s.fed.inlet.rd r.data = .complete data tr rest →
              Body P mh fin ((clientHeads cfg Q).view r.method r.head).decode body data tr rest := by
            intro data tr rest e
            rw [ho] at e
            have := body_of_complete P mh ((clientHeads cfg Q).view r.method r.head).decode ⟨body, [], fin⟩ data tr rest e
            simpa [Rd.stream, segBytes] using this
          rcases hD : (dec0.decode P s.fed.inlet.rd).1 with _ | ⟨e | ⟨bs⟩ | ⟨fs⟩⟩
          · rw [hD] at hwh; simp [Received.add, hw] at hwh
          · rw [hD] at hwh; simp [Received.add, hw] at hwh
          · rw [hD] at hwh hstep
            have he : (dec0.decode P s.fed.inlet.rd).2.1.isEof = true := by simpa [Received.add] using hwh
            dsimp only at hstep
            rw [if_pos he] at hstep
            refine reads_snoc hr (by simpa [Received.add] using he) hpar hsuf ?_
            have := hbody _ _ _ hstep
            rw [← htr] at this
            exact this
          · rw [hD] at hstep
            exact reads_snoc (r := { r with trailers := some fs, whole := true }) hr rfl hpar hsuf (hbody _ _ _ hstep)
        · rw [hcalls, hlen, hnow]
          simp [heardBy]
        · rcases hpt with e | e
          · exact .inl e
          · exact .inr ⟨by rw [hin], e⟩
      · rw [if_neg hwh] at hpt
        exact .within (by rw [hcalls, hlen]; exact hnow) hpt

theorem ni_step (h09 : cfg.h09 = false) (hQ : PrefixStable Q) (env : EncodeEnv) {s : Hinted} (h : NI cfg Q P mh fin S has s) (a : FAct) :
    NI cfg Q P mh fin S has (s.step env P cfg Q has a) := by
  have hS := C66_client_stable cfg h09 Q hQ
  have hdisp := fed_disp (P := P) (clientHeads cfg Q) env s.fed a
  cases a with
  | pull =>
    obtain ⟨p1, _, _⟩ := peek_facts s.fed.inlet
    exact ni_quiet hS env h .pull rfl p1 rfl (Quiet.refl _) h.mine
  | act a =>
    by_cases hr : ∃ i, a = .read i
    · obtain ⟨i, rfl⟩ := hr
      dsimp only at hdisp
      by_cases hp : s.fed.disp.parses i = true
      · exact ni_parse h09 hQ env h i hp
      · have hp' : s.fed.disp.parses i = false := by simpa using hp
        cases hd : s.fed.disp.decodes i with
        | some dec => exact ni_decode hS env h i dec hp' hd
        | none =>
          have hq := qd_idle env P s.fed.disp i (s.fed.readIn (clientHeads cfg Q) i) rfl rfl hp' hd
          have hcb : (s.step env P cfg Q has (.act (.read i))).cb = s.cb := by simp [Hinted.step, Hinted.read, hp']
          have hcalls : (s.step env P cfg Q has (.act (.read i))).calls = s.calls := by simp [Hinted.step, Hinted.read, hp']
          refine ni_quiet hS env h _ ?_ ?_ hcalls ?_ ?_
          · rw [step_fed]; simp [Fed.step, Fed.read, hp', hd]
          · rw [step_fed]; simp [Fed.step, Fed.read, hp', hd]
          · rw [step_fed, hdisp]; exact hq.conn
          · rw [hcb, step_fed, hdisp]
            exact (flight_step env P s.fed.disp h.client _ (by simp)).mine h.mine
    · have hq := qd_step env P s.fed.disp a (fun i e => hr ⟨i, e⟩)
      have hd : s.fed.step env P (clientHeads cfg Q) (.act a) = { s.fed with disp := s.fed.disp.step env P a } := by
        cases a with
        | read i => exact absurd ⟨i, rfl⟩ hr
        | _ => rfl
      have hcalls : (s.step env P cfg Q has (.act a)).calls = s.calls := by
        cases a with
        | read i => exact absurd ⟨i, rfl⟩ hr
        | _ => rfl
      refine ni_quiet hS env h _ (by rw [step_fed, hd]) (by rw [step_fed, hd]) hcalls (by rw [step_fed, hd]; exact hq.conn) ?_
      rw [step_fed, hd]
      by_cases hwr : ∃ i, a = .write i
      · obtain ⟨i, rfl⟩ := hwr
        have hf := flight_write env P s.fed.disp h.client i
        simp only [Hinted.step]
        cases ht : s.fed.disp.takes i with
        | some n =>
          rw [ht] at hf
          dsimp only at hf ⊢
          intro n' hn'
          rw [hf] at hn'
          injection hn' with e
          rw [e]
        | none =>
          rw [ht] at hf
          exact Less.mine hf h.mine
      · have hcb : (s.step env P cfg Q has (.act a)).cb = s.cb := by
          cases a with
          | read i => exact absurd ⟨i, rfl⟩ hr
          | write i => exact absurd ⟨i, rfl⟩ hwr
          | _ => rfl
        rw [hcb]
        exact (flight_step env P s.fed.disp h.client a (fun i e => hwr ⟨i, e⟩)).mine h.mine

theorem ni_run (h09 : cfg.h09 = false) (hQ : PrefixStable Q) (env : EncodeEnv) (as : List FAct) : ∀ {s : Hinted}, NI cfg Q P mh fin S has s →
    NI cfg Q P mh fin S has (s.run env P cfg Q has as) := by
  induction as with
  | nil => intro s h; exact h
  | cons a as ih => intro s h; exact ih (ni_step h09 hQ env h a)

theorem ni_start {s : Hinted} (hd : s.fed.disp.Start) (hcl : s.fed.disp.conn.client = true) (hg : s.fed.got = []) (hc : s.calls = []) :
    NI cfg Q P s.fed.disp.conn.maxHeaders s.fed.inlet.rd.fin s.fed.inlet.rd.stream has s := by
  refine ⟨fi_start hd hg, start_cinv _ hd hcl, hcl, ?_, ?_, ?_, ?_⟩
  · intro n hn; rw [hd.inFlight] at hn; cases hn
  · intro p hp; rw [hc] at hp; cases hp
  · intro k r hk; rw [hg] at hk; simp at hk
  · refine .between s.fed.inlet.rd.stream [] _ (by rw [hg]; exact .nil _) (Led.refl _ _ _) ?_ (.inr ⟨rfl, ?_⟩)
    · rw [hc]; simp [toldTo, heardBy]
    · intro dec h; rw [hd.reading] at h; cases h

end

end Hyper.Hints
