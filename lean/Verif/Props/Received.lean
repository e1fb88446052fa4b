import Verif.Proof.Owed
import Verif.Proof.ClosedLoop
import Verif.Props.Input
import Verif.Props.ServerParse

/-!
# C76: nothing of a body is passed on before the `100 Continue` its sender waits for

The theorems on histories of a connection (C26, C28) speak of heads that are marked as the last one, or as waiting for `100 Continue`.  Here the
marks are traced back to the fields of the heads in the bytes received, and the marks are given their effect on the body.
-/

namespace Hyper

open Spec Hyper.Input

/-- A request whose sender waits for `100 Continue` before it sends the body: HTTP/1.1, and the last `Expect` field says so. -/
def Spec.AsksFirst (r : RawRequest) : Prop :=
  r.http11 = true ∧ ∃ vs v, valuesOf (ascii "expect") r.fields = vs ++ [v] ∧ SameToken v (ascii "100-continue")

/-- A request after which the connection may be used again: what its version and its `Connection` fields say, and it has not both a length and a coding. -/
def Spec.LeavesOpen (r : RawRequest) : Prop :=
  Persists r.http11 (valuesOf (ascii "connection") r.fields) true ∧ ¬ (teOf r.fields ≠ [] ∧ clOf r.fields ≠ [])

/-! ## The body of a request that waits -/

/-- C76: as long as neither `100 Continue` nor any other head has been written since a request that waits for it was read, its reader has been given no
data and no trailers. -/
theorem C76_withheld (env : EncodeEnv) (P : TrailerParser) (as : List Act) (d : Disp) (h : d.Start) (hs : d.conn.client = false) (a mid : List Ev)
    (n : Nat) (p : Bool) (hl : (d.run env P as).conn.log = a ++ .readHead n true p :: mid) (hq : ∀ e ∈ mid, Quiet e) (ch : Chan)
    (hc : ch ∈ (d.run env P as).chans) (hn : ch.id = n) : (∀ bs, Item.data bs ∉ ch.items) ∧ ch.trailers = none :=
  (Owed.inv_run env P d h hs as).1.empty a n p mid hl hq ch hc hn

/-- C76: the connection does not keep both waiting: when the reader of such a body asks for it and the response has not been begun, the next turn of
reading writes `100 Continue`, before anything else happens. -/
theorem C76_sent (env : EncodeEnv) (P : TrailerParser) (d : Disp) (i : ReadIn) (k : Nat) (ch : Chan) (dec : Decoder) (hd : d.done = false)
    (hcl : d.closing = false) (hr : d.conn.reading = .cont dec) (hw : d.conn.writing = .init) (ht : d.bodyTx = some k) (hk : d.chans[k]? = some ch)
    (hwant : ch.want = .ready) (hf : i.full = false) :
    ∃ l, (d.step env P (.read i)).conn.log = d.conn.log ++ .continue100 :: l := by
  have h1 : d.conn.canReadHead = false := by simp [Conn.canReadHead, hr]
  have h2 : d.conn.canReadBody = true := by simp [Conn.canReadBody, hr]
  obtain ⟨l, hl, _⟩ := Owed.pollReadBody_continue P i.rd i.notify hr hw
  have key : (d.step env P (.read i)).conn.log = (d.conn.pollReadBody P i.rd i.notify).2.log := by
    simp only [Disp.step, hd, Bool.false_eq_true, if_false, Disp.readTurn, hcl, h1, ht, Disp.readBody, h2, if_true, hk, Option.map_some, hwant, hf,
      Disp.readPiece]
    rw [(Owed.afterPiece_ids _ k i.gone _).2.2.2, (maybeLose_fields _ k i.gone).1]
  exact ⟨l, by rw [key, hl]⟩

/-- A request waits; its body, though it has arrived, is not passed on before it is asked for, and then `100 Continue` goes first. -/
example : ((exDisp false).run exEnv exP [exRead (.msg (exIn 3 true true)) exNo, exRead .pending ⟨ascii "abc", [], .silent⟩]).chans.map sentData = [[]] ∧
    ((exDisp false).run exEnv exP [exRead (.msg (exIn 3 true true)) exNo, exRead .pending ⟨ascii "abc", [], .silent⟩]).conn.log = [.readHead 0 true true] ∧
    ((exDisp false).run exEnv exP [exRead (.msg (exIn 3 true true)) exNo, .want 0, exRead .pending ⟨ascii "abc", [], .silent⟩]).chans.map sentData = [ascii "abc"] ∧
    ((exDisp false).run exEnv exP [exRead (.msg (exIn 3 true true)) exNo, .want 0, exRead .pending ⟨ascii "abc", [], .silent⟩]).conn.log =
      [.readHead 0 true true, .wanted 0, .continue100, .readEnd] := by
  decide +kernel

/-! ## The marks and the fields -/

namespace Received

/-- What a server's parser gives comes from a raw head at the front of the bytes. -/
theorem raw_of_parse {Q : Bytes → Except ParseErr (Option (RawRequest × Nat))} {mo uo : Bytes → Bool} {pc : Bool} {m : Option Bytes} {s body : Bytes}
    {x : RequestMsg} (h : (serverHeads Q mo uo pc).parse m s = (.ok (some x), body)) :
    ∃ raw n, Q s = .ok (some (raw, n)) ∧ serverParse mo uo pc raw = .ok x ∧ body = s.drop n := by
  simp only [serverHeads] at h
  split at h
  · simp at h
  · simp at h
  · rename_i raw n hq
    split at h
    · simp at h
    · rename_i y hp
      simp only [Prod.mk.injEq, Except.ok.injEq, Option.some.injEq] at h
      exact ⟨raw, n, hq, by rw [hp, h.1], h.2.symm⟩

theorem persists_unique {v : Bool} {vs : List Bytes} {b b' : Bool} (h : Persists v vs b) (h' : Persists v vs b') : b = b' := by
  induction h with
  | done b => cases h'; rfl
  | close h1 _ ih => cases h' with | close _ h2 => exact ih h2 | stay h2 _ => exact absurd h1 h2
  | stay h1 _ ih => cases h' with | close h2 _ => exact absurd h2 h1 | stay _ h2 => exact ih h2
  | revive h1 _ ih => cases h' with | revive _ h2 => exact ih h2 | off h2 _ => exact absurd h1 h2
  | off h1 _ ih => cases h' with | revive h2 _ => exact absurd h2 h1 | off _ h2 => exact ih h2

theorem leavesOpen_iff {mo uo : Bytes → Bool} {pc : Bool} {raw : RawRequest} {x : RequestMsg} (h : serverParse mo uo pc raw = .ok x) :
    x.keepAlive = true ↔ LeavesOpen raw := by
  obtain ⟨b, h1, h2⟩ := C18_persistence mo uo pc raw x h
  rw [h2]
  constructor
  · rintro ⟨rfl, h3⟩; exact ⟨h1, h3⟩
  · rintro ⟨h3, h4⟩; exact ⟨persists_unique h1 h3, h4⟩

theorem continues_iff {mo uo : Bytes → Bool} {pc : Bool} {raw : RawRequest} {x : RequestMsg} (h : serverParse mo uo pc raw = .ok x) :
    x.seen.continues = true ↔ x.decode ≠ DecodedLength.ZERO ∧ AsksFirst raw := by
  have he := C18_expect mo uo pc raw x h
  have hv : x.version = if raw.http11 then .h11 else .h10 := by
    obtain ⟨s, _, _, rfl⟩ := serverParse_ok h; rfl
  unfold AsksFirst
  rw [← he]
  unfold MsgIn.continues RequestMsg.seen
  simp only [hv]
  cases raw.http11 <;> simp

/-- An element of what is filtered lies in the list, after what is filtered before it. -/
theorem filter_split {α : Type} {p : α → Bool} {l a b : List α} {x : α} (h : l.filter p = a ++ x :: b) :
    ∃ l1 l2, l = l1 ++ x :: l2 ∧ l1.filter p = a ∧ l2.filter p = b := by
  obtain ⟨l1, l2, rfl, h1, h2⟩ := List.filter_eq_append_iff.1 h
  obtain ⟨m1, m2, rfl, g1, _, g2⟩ := List.filter_eq_cons_iff.1 h2
  refine ⟨l1 ++ m1, m2, by simp, ?_, g2⟩
  rw [List.filter_append, h1, List.filter_eq_nil_iff.2 g1, List.append_nil]

theorem readHeads_filter (l : List Ev) : readHeads l = (l.filter isHead).length := by
  unfold readHeads
  rw [← List.countP_eq_length_filter]
  congr 1

/-- The heads a server reads are numbered in their order. -/
theorem numbered {log : List Ev} (h : Each ServerOrder log) {k n : Nat} {e p : Bool} (hk : (log.filter isHead)[k]? = some (.readHead n e p)) : n = k := by
  obtain ⟨hl, he⟩ := List.getElem?_eq_some_iff.1 hk
  have hs : log.filter isHead = (log.filter isHead).take k ++ .readHead n e p :: (log.filter isHead).drop (k + 1) := by
    rw [← he, List.getElem_cons_drop, List.take_append_drop]
  obtain ⟨l1, l2, g1, g2, _⟩ := filter_split hs
  have := (h l1 _ l2 g1).1
  rw [readHeads_filter, g2, List.length_take] at this
  omega

end Received

/-- C28 and C26: the `k`-th head a server logs is the one that the bytes after the `k` requests before it begin with, and it is marked as waiting for
`100 Continue`, or as leaving the connection open, exactly if its fields say so. -/
theorem C28_marks (env : EncodeEnv) (P : TrailerParser) (Q : Bytes → Except ParseErr (Option (RawRequest × Nat))) (hQ : RequestStable Q) (mo uo : Bytes → Bool)
    (pc : Bool) (f : Fed RequestMsg) (hd : f.disp.Start) (hg : f.got = []) (as : List FAct) (k : Nat) (r : Received RequestMsg)
    (hr : (f.run env P (serverHeads Q mo uo pc) as).got[k]? = some r) :
    ∃ t raw n e p, Reads (serverHeads Q mo uo pc) P f.disp.conn.maxHeaders f.inlet.rd.fin f.inlet.rd.stream
        ((f.run env P (serverHeads Q mo uo pc) as).got.take k) t ∧ Q t = .ok (some (raw, n)) ∧ serverParse mo uo pc raw = .ok r.head ∧
      ((f.run env P (serverHeads Q mo uo pc) as).disp.conn.log.filter isHead)[k]? = some (.readHead r.id e p) ∧
      (e = true ↔ r.head.decode ≠ DecodedLength.ZERO ∧ AsksFirst raw) ∧ (p = true ↔ LeavesOpen raw) := by
  obtain ⟨h1, h2, _⟩ := C66_messages env P _ (C66_server_stable Q hQ mo uo pc) f hd hg as
  obtain ⟨_, t, body, g1, g2⟩ := told_at h1 k r hr
  obtain ⟨raw, n, q1, q2, _⟩ := Received.raw_of_parse g2.head
  refine ⟨t, raw, n, r.head.seen.continues, r.head.keepAlive, g1, q1, q2, ?_, Received.continues_iff q2, Received.leavesOpen_iff q2⟩
  rw [h2, List.getElem?_map, hr]
  rfl

/-- C76, from the bytes: while nothing has been answered to the last request and it is one whose sender waits, its reader has been sent nothing of the body. -/
theorem C76_requests (env : EncodeEnv) (P : TrailerParser) (Q : Bytes → Except ParseErr (Option (RawRequest × Nat))) (hQ : RequestStable Q)
    (mo uo : Bytes → Bool) (pc : Bool) (f : Fed RequestMsg) (hd : f.disp.Start) (hs : f.disp.conn.client = false) (hg : f.got = []) (as : List FAct)
    (ws : List (Received RequestMsg)) (r : Received RequestMsg) (hr : (f.run env P (serverHeads Q mo uo pc) as).got = ws ++ [r])
    (t : Bytes) (raw : RawRequest) (n : Nat) (ht : Reads (serverHeads Q mo uo pc) P f.disp.conn.maxHeaders f.inlet.rd.fin f.inlet.rd.stream ws t)
    (hraw : Q t = .ok (some (raw, n))) (he : AsksFirst raw) (pre mid : List Ev) (x p : Bool)
    (hl : (f.run env P (serverHeads Q mo uo pc) as).disp.conn.log = pre ++ .readHead r.id x p :: mid) (hq : ∀ e ∈ mid, Quiet e) (ch : Chan)
    (hc : ch ∈ (f.run env P (serverHeads Q mo uo pc) as).disp.chans) (hn : ch.id = r.id) : sentData ch = [] ∧ ch.trailers = none := by
  have hk : (f.run env P (serverHeads Q mo uo pc) as).got[ws.length]? = some r := by rw [hr]; simp
  obtain ⟨t', raw', n', e, p', g1, g2, g3, g4, g5, g6⟩ := C28_marks env P Q hQ mo uo pc f hd hg as ws.length r hk
  have htake : (f.run env P (serverHeads Q mo uo pc) as).got.take ws.length = ws := by rw [hr]; simp
  rw [htake] at g1
  have htt : t = t' := reads_unique ws ws ht g1 rfl (fun _ a b ha hb => by rw [ha] at hb; cases hb; exact ⟨rfl, rfl⟩)
  subst htt
  rw [hraw] at g2
  simp only [Except.ok.injEq, Option.some.injEq, Prod.mk.injEq] at g2
  obtain ⟨rfl, rfl⟩ := g2
  obtain ⟨m1, m2, m3, m4⟩ := C66_messages env P _ (C66_server_stable Q hQ mo uo pc) f hd hg as
  have hord := C27_server_order env P (Wire.acts env P (serverHeads Q mo uo pc) f as) f.disp hd hs
  rw [← Wire.run_acts] at hord
  have hlast : (.readHead r.id x p : Ev) = headEv (serverHeads Q mo uo pc) r := by
    have hmid : mid.filter isHead = [] := by
      rw [List.filter_eq_nil_iff]
      intro e he
      have := hq e he
      cases e <;> simp_all [Spec.Quiet, isHead]
    rw [hl, hr, List.filter_append, List.filter_cons_of_pos (by rfl), hmid, List.map_append] at m2
    exact (List.cons.inj (List.append_inj' m2 rfl).2).1
  have hx : x = r.head.seen.continues := by simp only [headEv, Ev.readHead.injEq] at hlast; exact hlast.2.1
  -- the body is that of the last request
  obtain ⟨j, hj⟩ := List.getElem?_of_mem hc
  obtain ⟨r', hr', hcar⟩ := m4 j ch hj
  have hmem := List.mem_of_getElem? hr'
  rw [List.mem_filter] at hmem
  obtain ⟨i, hi⟩ := List.getElem?_of_mem hmem.1
  have hnum : ∀ (k : Nat) (q : Received RequestMsg), (f.run env P (serverHeads Q mo uo pc) as).got[k]? = some q → q.id = k := by
    intro k q hq
    refine Received.numbered hord (e := q.head.seen.continues) (p := q.head.keepAlive) ?_
    rw [m2, List.getElem?_map, hq]
    rfl
  have hii : i = ws.length := by rw [← hnum i r' hi, ← hnum _ r hk, ← hcar.id, hn]
  subst hii
  rw [hk] at hi
  cases hi
  have hz : r.head.decode ≠ DecodedLength.ZERO := by
    have := hmem.2
    simpa [hasBody, serverHeads, RequestMsg.seen] using this
  have hxt : x = true := by rw [hx]; exact (Received.continues_iff g3).2 ⟨hz, he⟩
  rw [hxt] at hl
  rw [Wire.run_acts] at hl hc
  obtain ⟨b1, b2⟩ := C76_withheld env P _ f.disp hd hs pre mid r.id p hl hq ch hc hn
  refine ⟨?_, b2⟩
  unfold sentData
  rw [List.flatten_eq_nil_iff]
  intro y hy
  obtain ⟨it, h1, rfl⟩ := List.mem_map.1 hy
  cases it with
  | data bs => exact absurd h1 (b1 bs)
  | error => rfl

/-- C26, from the bytes: a server takes no request after one that does not leave the connection open. -/
theorem C26_requests (env : EncodeEnv) (P : TrailerParser) (Q : Bytes → Except ParseErr (Option (RawRequest × Nat))) (hQ : RequestStable Q) (mo uo : Bytes → Bool)
    (pc : Bool) (f : Fed RequestMsg) (hd : f.disp.Start) (hs : f.disp.conn.client = false) (hg : f.got = []) (as : List FAct)
    (ws ws' : List (Received RequestMsg)) (r : Received RequestMsg) (hr : (f.run env P (serverHeads Q mo uo pc) as).got = ws ++ r :: ws')
    (t : Bytes) (raw : RawRequest) (n : Nat) (ht : Reads (serverHeads Q mo uo pc) P f.disp.conn.maxHeaders f.inlet.rd.fin f.inlet.rd.stream ws t)
    (hraw : Q t = .ok (some (raw, n))) (hc : ¬ LeavesOpen raw) : ws' = [] := by
  cases ws' with
  | nil => rfl
  | cons r' ws' =>
    refine absurd ?_ hc
    have hk : (f.run env P (serverHeads Q mo uo pc) as).got[ws.length]? = some r := by rw [hr]; simp
    obtain ⟨t', raw', n', e, p', g1, g2, g3, g4, g5, g6⟩ := C28_marks env P Q hQ mo uo pc f hd hg as ws.length r hk
    have htake : (f.run env P (serverHeads Q mo uo pc) as).got.take ws.length = ws := by rw [hr]; simp
    rw [htake] at g1
    have htt : t = t' := reads_unique ws ws ht g1 rfl (fun _ a b ha hb => by rw [ha] at hb; cases hb; exact ⟨rfl, rfl⟩)
    subst htt
    rw [hraw] at g2
    simp only [Except.ok.injEq, Option.some.injEq, Prod.mk.injEq] at g2
    obtain ⟨rfl, rfl⟩ := g2
    obtain ⟨_, m2, _⟩ := C66_messages env P _ (C66_server_stable Q hQ mo uo pc) f hd hg as
    rw [hr, List.map_append, List.map_cons, List.map_cons] at m2
    have hm : (f.run env P (serverHeads Q mo uo pc) as).disp.conn.log.filter isHead =
        (ws.map (headEv (serverHeads Q mo uo pc)) ++ [headEv (serverHeads Q mo uo pc) r]) ++
          headEv (serverHeads Q mo uo pc) r' :: ws'.map (headEv (serverHeads Q mo uo pc)) := by rw [m2]; simp
    obtain ⟨l1, l2, e1, e2, _⟩ := Received.filter_split hm
    have hper := C26_server_persist env P (Wire.acts env P (serverHeads Q mo uo pc) f as) f.disp hd hs
    rw [← Wire.run_acts] at hper
    have hno := (hper l1 _ l2 e1).1 r.id r.head.seen.continues
    have hin : headEv (serverHeads Q mo uo pc) r ∈ l1 := (List.mem_filter.1 (show _ ∈ l1.filter isHead by rw [e2]; simp)).1
    rw [← Received.leavesOpen_iff g3]
    cases hka : r.head.keepAlive with
    | true => rfl
    | false =>
      refine absurd ?_ hno
      have : headEv (serverHeads Q mo uo pc) r = .readHead r.id r.head.seen.continues false := by
        rw [← hka]; rfl
      rwa [this] at hin

/-- C26, from the bytes: before a client writes a request, every response it has read leaves the connection open: the response was not HTTP/0.9, its
version and `Connection` fields say so and it was no upgrade. -/
theorem C26_responses (env : EncodeEnv) (P : TrailerParser) (cfg : ClientCfg) (h09 : cfg.h09 = false) (Q : Bytes → RespParse) (hQ : PrefixStable Q)
    (f : Fed ResponseMsg) (hd : f.disp.Start) (hs : f.disp.conn.client = true) (hg : f.got = []) (as : List FAct) (pre post : List Ev) (n : Nat) (l : Bool)
    (hl : (f.run env P (clientHeads cfg Q) as).disp.conn.log = pre ++ .writeHead n l :: post) (k : Nat) (hk : k < (pre.filter isHead).length) :
    ∃ r t raw len, (f.run env P (clientHeads cfg Q) as).got[k]? = some r ∧
      (∃ rest, Reads (clientHeads cfg Q) P f.disp.conn.maxHeaders f.inlet.rd.fin f.inlet.rd.stream ((f.run env P (clientHeads cfg Q) as).got.take k) rest ∧ t <:+ rest) ∧
      Q t = .complete len raw ∧ headOf cfg raw = some r.head.head ∧
      Persists raw.http11 (valuesOf (ascii "connection") (cfg.unfold raw.fields)) true ∧ r.head.wantsUpgrade = false := by
  obtain ⟨m1, m2, _⟩ := C66_messages env P _ (C66_client_stable cfg h09 Q hQ) f hd hg as
  have hper := C26_client_persist env P (Wire.acts env P (clientHeads cfg Q) f as) f.disp hd hs
  rw [← Wire.run_acts] at hper
  have hno := (hper pre _ post hl).1
  rw [hl, List.filter_append] at m2
  have hlt : k < ((f.run env P (clientHeads cfg Q) as).got).length := by
    have := congrArg List.length m2
    rw [List.length_append, List.length_map] at this
    omega
  have hr : (f.run env P (clientHeads cfg Q) as).got[k]? = some ((f.run env P (clientHeads cfg Q) as).got[k]) := List.getElem?_eq_getElem hlt
  generalize (f.run env P (clientHeads cfg Q) as).got[k] = r at hr
  have hin : headEv (clientHeads cfg Q) r ∈ pre := by
    have h1 : ((f.run env P (clientHeads cfg Q) as).got.map (headEv (clientHeads cfg Q)))[k]? = some (headEv (clientHeads cfg Q) r) := by
      rw [List.getElem?_map, hr]; rfl
    rw [← m2, List.getElem?_append_left hk] at h1
    exact (List.mem_filter.1 (List.mem_of_getElem? h1)).1
  have hka : r.head.keepAlive = true := by
    cases hka : r.head.keepAlive with
    | true => rfl
    | false =>
      refine absurd hin ?_
      have : headEv (clientHeads cfg Q) r = .readHead r.id (ResponseMsg.seen r.method r.head).continues false := by rw [← hka]; rfl
      rw [this]
      exact hno _ _
  obtain ⟨_, t, body, g1, g2⟩ := told_at m1 k r hr
  have hp := g2.head
  simp only [clientHeads, Prod.mk.injEq] at hp
  rcases C26_response_persistence cfg Q _ _ _ _ _ hp.1 with ⟨rest, len, raw, b, q1, q2, q3, q4, q5⟩ | ⟨_, hf⟩
  · obtain ⟨rfl, q6⟩ := q5.1 hka
    exact ⟨r, rest, raw, len, hr, ⟨t, g1, q1⟩, q2, q3, q4, q6⟩
  · rw [hka] at hf; cases hf

namespace Received

/-- A tokeniser for heads of one byte. -/
def exQ : Bytes → Except ParseErr (Option (RawRequest × Nat))
  | [] => .ok none
  | 1 :: _ => .ok (some (⟨mGET, ascii "/", true, []⟩, 1))
  | 2 :: _ => .ok (some (⟨ascii "POST", ascii "/", true, [(hCL, ascii "3"), (ascii "Expect", ascii "100-Continue")]⟩, 1))
  | 3 :: _ => .ok (some (⟨mGET, ascii "/", true, [(ascii "Connection", ascii "close")]⟩, 1))
  | _ => .error .method

theorem exQ_stable : Spec.RequestStable exQ := by
  intro buf r n h
  unfold exQ at h
  split at h <;> simp at h <;> obtain ⟨rfl, rfl⟩ := h <;> exact ⟨by simp, fun more => rfl⟩

def exHeads : HeadFn RequestMsg := serverHeads exQ (fun _ => true) (fun _ => true) false

/-- A request, one that waits for `100 Continue`, the last one, and a fourth that is not read. -/
def exFed : Fed RequestMsg := ⟨exDisp false, { rd := ⟨[], [.data 1 ([2] ++ ascii "abc" ++ [3, 1])], .silent⟩, max := 8192 }, []⟩

def exServe : List FAct :=
  [.act (exRead .pending exNo), .act (exWrite (exResp [] none) .pending), .act (.flush exFlushIn .pending), .act (exRead .pending exNo),
   .act (exRead .pending exNo), .act (.want 0), .act (exRead .pending exNo), .act (exWrite (exResp [] none) .pending), .act (.flush exFlushIn .pending),
   .act (exRead .pending exNo), .act (exWrite (exResp [] none) .pending), .act (.flush exFlushIn .pending), .act (exRead .pending exNo)]

example : (exFed.run exEnv exP exHeads exServe).disp.conn.log.filter isHead = [.readHead 0 false true, .readHead 1 true true, .readHead 2 false false] ∧
    (exFed.run exEnv exP exHeads (exServe.take 5)).disp.conn.log =
      [.readHead 0 false true, .readEnd, .writeHead 0 false, .writeEnd, .readHead 1 true true] ∧
    (exFed.run exEnv exP exHeads (exServe.take 5)).disp.chans.map sentData = [[]] ∧
    (exFed.run exEnv exP exHeads (exServe.take 7)).disp.chans.map sentData = [ascii "abc"] ∧
    (exFed.run exEnv exP exHeads exServe).inlet.rd.stream = [1] :=
  ⟨by decide +kernel, by decide +kernel, by decide +kernel, by decide +kernel, by decide +kernel⟩

end Received

end Hyper
