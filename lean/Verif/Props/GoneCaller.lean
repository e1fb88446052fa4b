import Verif.Props.ClientTask

/-!
# C101: a caller that goes away

The future of a request on an HTTP/1 client connection is dropped before its response has come.  The connection notices when it would take the request from the queue
(`poll_msg`, src/proto/h1/dispatch.rs 678-685) or when it looks for the response (`poll_ready`, 751-762), and closes.
-/

namespace Hyper

open Spec Wire Callers

namespace Gone

variable {env : EncodeEnv} {P : TrailerParser} {H : HeadFn ResponseMsg} {what : Nat → ReqHead × Option BodyLength}

/-- The connection takes up nothing more. -/
def Shut (d : Disp) : Prop := d.done = true ∨ d.closing = true

theorem Shut.still {d d' : Disp} (h : d.closing = true) (hs : Still d d') : Shut d' := by
  cases h1 : d'.done with
  | true => exact .inl h1
  | false =>
    cases h2 : d'.closing with
    | true => exact .inr h2
    | false => rw [(hs h1).2 h2] at h; cases h

theorem Shut.step (env : EncodeEnv) (P : TrailerParser) {d : Disp} (h : Shut d) (a : Act) : Shut (d.step env P a) := by
  have dn : d.done = true → Shut (d.step env P a) := by
    intro hd
    left
    cases a with
    | want k => simp only [Disp.step, Disp.want]; (repeat' split) <;> first | exact hd | rfl
    | dropReader k => simp only [Disp.step, Disp.loseReader]; (repeat' split) <;> first | exact hd | rfl
    | drop => rfl
    | _ => simp only [Disp.step, hd, if_true]
  cases hd : d.done with
  | true => exact dn hd
  | false =>
    have hc : d.closing = true := by
      rcases h with h | h
      · rw [hd] at h; cases h
      · exact h
    cases a with
    | read i => exact .inr (by simp [Disp.step, hd, Disp.readTurn, hc])
    | write i => exact .inr (by simp [Disp.step, hd, Disp.writeTurn, hc])
    | flush f i => simp only [Disp.step, hd, Bool.false_eq_true, if_false]; exact .still hc (still_flush d f i)
    | readAgain => exact .inr (by simp [Disp.step, hd, hc])
    | finish s f => simp only [Disp.step, hd, Bool.false_eq_true, if_false]; exact .still hc (still_finish d s f)
    | disable b => simp only [Disp.step, hd, Bool.false_eq_true, if_false]; exact .still hc (still_disable d b)
    | want k => simp only [Disp.step]; exact .still hc (still_want d k)
    | dropReader k => right; simp only [Disp.step, Disp.loseReader]; (repeat' split) <;> exact hc
    | drop => exact .inl rfl

theorem Shut.fed {f : Fed ResponseMsg} (h : Shut f.disp) (a : FAct) : Shut (f.step env P H a).disp := by
  cases a with
  | pull => exact h
  | act a => rw [fed_disp]; exact h.step env P _

/-- A request that waits, or whose caller has got it back. -/
def Back (s : CSt) (r : CReq) : Prop :=
  r ∈ s.granted ∨ r ∈ s.sending ∨ r ∈ s.queue ∨ CEv.outcome r.id (.error r.retry) ∈ s.log

theorem mem_erase {r x : CReq} {l : List CReq} (h : r ∈ l) : r = x ∨ r ∈ l.erase x := by
  by_cases e : r = x
  · exact .inl e
  · exact .inr ((List.mem_erase_of_ne e).2 h)

theorem done_true (r : CReq) : r.done (.error true) = .outcome r.id (.error r.retry) := by simp [CReq.done]

/-- Nothing is taken from the queue, nobody is given a response, and who waits still does or is given the request back. -/
structure Closed (s s' : CSt) : Prop extends Mum s s' where
  back : ∀ r, Back s r → Back s' r

theorem Closed.refl (s : CSt) : Closed s s := ⟨⟨rfl, rfl⟩, fun _ h => h⟩

theorem Closed.trans {s s' s'' : CSt} (h : Closed s s') (h' : Closed s' s'') : Closed s s'' :=
  ⟨⟨h'.taken.trans h.taken, h'.told.trans h.told⟩, fun r hr => h'.back r (h.back r hr)⟩

/-- Neither taking from the queue nor handing a response over. -/
def calm : CAct → Bool
  | .submitUnbounded _ => false
  | .pollMsg _ => false
  | .pollTask _ _ => false
  | .finishTask _ _ => false
  | .recvOk => false
  | _ => true

theorem closed_step (s : CSt) (c : CAct) (h : calm c = true) : Closed s (s.step c) := by
  cases c with
  | submit b =>
    refine ⟨(idles_submit s b).toMum, fun r hr => ?_⟩
    simp only [CSt.step, CSt.submit]
    (repeat' split) <;> (simp only [Back, List.mem_append] at hr ⊢; grind)
  | permit x =>
    refine ⟨(idles_permit s x).toMum, fun r hr => ?_⟩
    simp only [CSt.step, CSt.permit]
    (repeat' split)
    · rcases hr with hr | hr | hr | hr
      · rcases mem_erase (x := x) hr with rfl | hr
        · exact .inr (.inr (.inr (by rw [done_true]; simp)))
        · exact .inl hr
      · exact .inr (.inl hr)
      · exact .inr (.inr (.inl hr))
      · exact .inr (.inr (.inr (List.mem_append_left _ hr)))
    · rcases hr with hr | hr | hr | hr
      · rcases mem_erase (x := x) hr with rfl | hr
        · exact .inr (.inl (by simp))
        · exact .inl hr
      · exact .inr (.inl (List.mem_append_left _ hr))
      · exact .inr (.inr (.inl hr))
      · exact .inr (.inr (.inr hr))
    · exact hr
  | push x =>
    refine ⟨(idles_push s x).toMum, fun r hr => ?_⟩
    simp only [CSt.step, CSt.push]
    split
    · rcases hr with hr | hr | hr | hr
      · exact .inl hr
      · rcases mem_erase (x := x) hr with rfl | hr
        · exact .inr (.inr (.inl (by simp)))
        · exact .inr (.inl hr)
      · exact .inr (.inr (.inl (List.mem_append_left _ hr)))
      · exact .inr (.inr (.inr hr))
    · exact hr
  | dropTx =>
    refine ⟨(idles_dropTx s).toMum, fun r hr => ?_⟩
    simp only [CSt.step, CSt.dropTx]
    (repeat' split) <;> first
      | exact hr
      | (rcases hr with hr | hr | hr | hr
         · exact .inl hr
         · exact .inr (.inl hr)
         · exact .inr (.inr (.inr (List.mem_append_right _ (List.mem_map.2 ⟨r, hr, done_true r⟩))))
         · exact .inr (.inr (.inr (List.mem_append_left _ hr))))
  | pollSpurious =>
    refine ⟨(idles_pollSpurious s).toMum, fun r hr => ?_⟩
    simp only [CSt.step]
    split <;> exact hr
  | trySpurious =>
    refine ⟨(idles_trySpurious s).toMum, fun r hr => ?_⟩
    simp only [CSt.step]
    split <;> exact hr
  | recvErr =>
    refine ⟨mum_recvErr s, fun r hr => ?_⟩
    simp only [CSt.step, CSt.recvErr]
    (repeat' split) <;> (simp only [Back, List.mem_append] at hr ⊢; grind)
  | dropRx =>
    refine ⟨mum_dropRx s, fun r hr => ?_⟩
    simp only [CSt.step, CSt.dropRx]
    split <;> (simp only [Back, List.mem_append] at hr ⊢; grind)
  | «continue» =>
    refine ⟨(idles_continue s).toMum, fun r hr => ?_⟩
    simp only [CSt.step]
    split
    · simp only [Back, CSt.asksFor, List.mem_append] at hr ⊢; grind
    · exact hr
    · simp only [CSt.tryRecv]
      split
      · rename_i x q e
        rcases hr with hr | hr | hr | hr
        · exact .inl hr
        · exact .inr (.inl hr)
        · rw [e] at hr
          rcases List.mem_cons.1 hr with rfl | hr
          · exact .inr (.inr (.inr (by rw [done_true]; simp)))
          · exact .inr (.inr (.inl hr))
        · exact .inr (.inr (.inr (List.mem_append_left _ hr)))
      · exact hr
    · rcases hr with hr | hr | hr | hr
      · exact .inl hr
      · exact .inr (.inl hr)
      · exact .inr (.inr (.inr (List.mem_append_right _ (List.mem_map.2 ⟨r, hr, done_true r⟩))))
      · exact .inr (.inr (.inr (List.mem_append_left _ hr)))
    · exact hr
  | _ => cases h

/-- A connection that is shut takes up nothing and hands nothing over. -/
theorem step_shut {t : ClientTask} (h : Shut t.fed.disp) (a : TaskAct) :
    Shut (t.step env P H what a).fed.disp ∧ Closed t.chan (t.step env P H what a).chan := by
  cases a with
  | submit b => exact ⟨h, closed_step t.chan (.submit b) rfl⟩
  | permit r => exact ⟨h, closed_step t.chan (.permit r) rfl⟩
  | push r => exact ⟨h, closed_step t.chan (.push r) rfl⟩
  | dropTx => exact ⟨h, closed_step t.chan .dropTx rfl⟩
  | pull => simp only [ClientTask.step]; split <;> exact ⟨h, .refl _⟩
  | «continue» s => 
    simp only [ClientTask.step]
    refine ⟨h, ?_⟩
    split <;> exact closed_step _ _ rfl
  | act a c s =>
    simp only [ClientTask.step]
    split
    · refine ⟨h.fed _, ?_⟩
      cases he : t.effect env P H (t.given what a c s) c s with
      | none => exact .refl _
      | some x =>
        refine closed_step _ _ ?_
        have hp : ∀ i, t.fed.disp.done = false → t.fed.disp.parses i = false := by
          intro i hd
          rcases h with h | h
          · rw [hd] at h; cases h
          · simp [Disp.parses, h]
        have hq : t.fed.disp.done = false → t.fed.disp.polls = false := by
          intro hd
          rcases h with h | h
          · rw [hd] at h; cases h
          · simp [Disp.polls, h]
        unfold ClientTask.effect at he
        cases hd : t.fed.disp.done with
        | true =>
          simp only [hd, if_true] at he
          split at he <;> cases he
          rfl
        | false =>
          simp only [hd, Bool.false_eq_true, if_false, hp _ hd, hq hd] at he
          (repeat' split at he) <;> cases he <;> rfl
    · exact ⟨h, .refl _⟩

theorem run_shut {t : ClientTask} (h : Shut t.fed.disp) (as : List TaskAct) :
    Shut (t.run env P H what as).fed.disp ∧ Closed t.chan (t.run env P H what as).chan := by
  induction as generalizing t with
  | nil => exact ⟨h, .refl _⟩
  | cons a as ih =>
    obtain ⟨h1, h2⟩ := step_shut (env := env) (P := P) (H := H) (what := what) h a
    obtain ⟨h3, h4⟩ := ih h1
    exact ⟨h3, h2.trans h4⟩

/-- Who waits when the connection is shut has the request back when all is over. -/
theorem over_back {t : ClientTask} (ht : t.Start) (as bs : List TaskAct) (a : TaskAct) {r : CReq}
    (hs : Shut ((t.run env P H what as).step env P H what a).fed.disp) (hb : Back ((t.run env P H what as).step env P H what a).chan r)
    (ho : (((t.run env P H what as).step env P H what a).run env P H what bs).chan.over = true) :
    CEv.outcome r.id (.error r.retry) ∈ (((t.run env P H what as).step env P H what a).run env P H what bs).chan.log := by
  have hT : ((t.run env P H what as).step env P H what a).run env P H what bs = t.run env P H what (as ++ a :: bs) := by
    simp [ClientTask.run, List.foldl_append]
  have hk := (run_shut (env := env) (P := P) (H := H) (what := what) hs bs).2.back r hb
  rw [hT] at ho hk ⊢
  obtain ⟨cs, _, e⟩ := run_chan (env := env) (P := P) (H := H) (what := what) t (as ++ a :: bs)
  rw [ht.chan] at e
  rw [e] at ho hk ⊢
  have h := CSt.Acc.init.run cs
  simp only [CSt.over, Bool.and_eq_true, beq_iff_eq, List.isEmpty_iff] at ho
  obtain ⟨⟨p, q⟩, k⟩ := ho
  rcases hk with hk | hk | hk | hk
  · rw [(h.tx q).1] at hk; cases hk
  · rw [(h.tx q).2] at hk; cases hk
  · rw [h.both p q] at hk; cases hk
  · exact hk

theorem fresh_queue {t : ClientTask} (ht : t.Start) (as : List TaskAct) (r : CReq)
    (hr : r ∈ (t.run env P H what as).chan.queue) : r.id ∉ taken (t.run env P H what as).chan.log := by
  obtain ⟨cs, _, e⟩ := run_chan (env := env) (P := P) (H := H) (what := what) t as
  rw [ht.chan] at e
  rw [e] at hr ⊢
  intro hm
  exact (CSt.Unsent.init.run CSt.Acc.init cs).fresh r (List.mem_append_right _ hr) (mem_taken.1 hm)

end Gone

section
variable (env : EncodeEnv) (P : TrailerParser) (H : HeadFn ResponseMsg) (what : Nat → ReqHead × Option BodyLength)

open Gone in
/-- C101 in part, in the queue.  The caller of the request at the head of the queue is gone when the connection asks for the next one.  At that moment no other exchange is in progress: nobody waits for a response.
Whatever follows, the request is not written, nor is any other; nobody is given a response any more; and when both halves are gone, every caller that waited besides has got its request
back, if it asked for that, or else an error.  Missing: that the others' requests are written all the same; they are not (`C101_neighbour`). -/
theorem C101_queued_partial (t : ClientTask) (ht : t.Start) (as bs : List TaskAct) (i : WriteIn) (u v w : ClientTask) (hu : u = t.run env P H what as)
    (hp : u.fed.disp.polls = true) (hi : u.chan.phase = .idle) (r : CReq) (rest : List CReq) (hq : u.chan.queue = r :: rest)
    (hv : v = u.step env P H what (.act (.write i) true false)) (hw : w = v.run env P H what bs) :
    (u.chan.callback = none ∧ told u.chan.log = taken u.chan.log) ∧ v.fed.disp.closing = true ∧
    r.id ∉ taken w.chan.log ∧ taken w.chan.log = taken u.chan.log ∧ told w.chan.log = told u.chan.log ∧
    requests env P t.fed.disp (acts env P H t.fed (feeds env P H what t (as ++ .act (.write i) true false :: bs))) = (taken u.chan.log).map what ∧
    (w.chan.over = true → ∀ x ∈ u.chan.granted ++ u.chan.sending ++ rest, CEv.outcome x.id (.error x.retry) ∈ w.chan.log) := by
  have hI := (Inv.start ht.disp ht.client ht.got ht.chan).run (env := env) (P := P) (H := H) (what := what) as
  rw [← hu] at hI
  obtain ⟨h1, h2, h3, _⟩ := poll_write env hI.client ⟨.pending, .pending, ⟨[], [], []⟩, .pending⟩ hp
  have L := hI.live h1
  have hcb : u.chan.callback = none := by
    have := L.flight
    rw [h3] at this
    simpa using this
  have hch : v.chan = { u.chan with queue := rest, log := u.chan.log ++ [r.drop] } := by
    have he : ∀ j, u.effect env P H (.write j) true false = some (.pollMsg true) := by
      intro j
      unfold ClientTask.effect
      simp [h1, hp]
    rw [hv]
    simp only [ClientTask.step, hi, true_or, if_true, ClientTask.given, he, CSt.step, CSt.pollMsg, hq, ClientTask.onQueue]
  have hcl : v.fed.disp.closing = true := by
    rw [hv]
    simp only [ClientTask.step, hi, true_or, if_true, ClientTask.given, fed_disp, CSt.yields, hq, Bool.false_eq_true, if_false]
    simp only [Disp.polls, Bool.and_eq_true, Bool.not_eq_true'] at hp
    simp [Disp.step, h1, Disp.writeTurn, h2, hp.1.1.2, hp.1.2, hp.2, Disp.writeHead, Disp.close, hI.client]
  have hs : Shut v.fed.disp := .inr hcl
  have hc := (run_shut (env := env) (P := P) (H := H) (what := what) hs bs).2
  rw [← hw] at hc
  have e1 : taken w.chan.log = taken u.chan.log := by rw [hc.taken, hch]; simp
  have e2 : told w.chan.log = told u.chan.log := by rw [hc.told, hch]; simp
  have hT : w = t.run env P H what (as ++ .act (.write i) true false :: bs) := by
    rw [hw, hv, hu]
    simp [ClientTask.run, List.foldl_append]
  refine ⟨⟨hcb, ((L.opened h2).2 hcb).symm⟩, hcl, ?_, e1, e2, ?_, ?_⟩
  · rw [e1, hu]
    exact fresh_queue ht as r (by rw [← hu, hq]; simp)
  · rw [(C91_requests env P H what t ht _).1, ← hT, e1]
  · intro ho x hx
    have hb : Back v.chan x := by
      rw [hch]
      rcases List.mem_append.1 hx with hx | hx
      · rcases List.mem_append.1 hx with hx | hx
        · exact .inl hx
        · exact .inr (.inl hx)
      · exact .inr (.inr (.inl hx))
    subst hw hv hu
    exact over_back ht as bs _ hs hb ho

open Gone in
/-- C101 in part, on the wire.  The caller of the request whose response the connection would read is gone.  Then the connection closes: whatever follows, nothing more is taken from the queue or written, nobody is given a
response, and when both halves are gone, every caller whose request was not begun has got it back, if it asked for that, or else an error.
Missing: as before. -/
theorem C101_waiting_partial (t : ClientTask) (ht : t.Start) (as bs : List TaskAct) (i : ReadIn) (c s : Bool) (u v w : ClientTask) (hu : u = t.run env P H what as)
    (hd : u.fed.disp.done = false) (hcl : u.fed.disp.closing = false) (hh : u.fed.disp.conn.canReadHead = true) (hn : i.ready = false)
    (hi : u.chan.phase = .idle) (hv : v = u.step env P H what (.act (.read i) c s)) (hw : w = v.run env P H what bs) :
    v.fed.disp.closing = true ∧ taken w.chan.log = taken u.chan.log ∧ told w.chan.log = told u.chan.log ∧
    requests env P t.fed.disp (acts env P H t.fed (feeds env P H what t (as ++ .act (.read i) c s :: bs))) = (taken u.chan.log).map what ∧
    (w.chan.over = true → ∀ x ∈ u.chan.granted ++ u.chan.sending ++ u.chan.queue, CEv.outcome x.id (.error x.retry) ∈ w.chan.log) := by
  have hI := (Inv.start ht.disp ht.client ht.got ht.chan).run (env := env) (P := P) (H := H) (what := what) as
  rw [← hu] at hI
  have hdisp : v.fed.disp = u.fed.disp.close := by
    rw [hv]
    simp only [ClientTask.step, hi, true_or, if_true, ClientTask.given, fed_disp]
    simp only [Disp.step, hd, Bool.false_eq_true, if_false, Disp.readTurn, hcl, hh, if_true, Disp.readHead, hI.client]
    have : (u.fed.readIn H i).ready = false := hn
    simp only [this, Bool.false_eq_true, if_false]
    split <;> rfl
  have hch : v.chan = u.chan := by
    have hp : u.fed.disp.parses i = false := by simp [Disp.parses, hI.client, hn]
    have hf : (u.fed.step env P H (.act (.read i))).disp = u.fed.disp.close := by
      rw [← hdisp, hv]
      simp only [ClientTask.step, hi, true_or, if_true, ClientTask.given]
    rw [hv]
    have he : u.effect env P H (.read i) c s = none := by
      unfold ClientTask.effect
      simp [hd, hp, hf, Disp.close]
    simp only [ClientTask.step, hi, true_or, if_true, ClientTask.given, he, ClientTask.onQueue]
  have hcl' : v.fed.disp.closing = true := by rw [hdisp]; rfl
  have hs : Shut v.fed.disp := .inr hcl'
  have hc := (run_shut (env := env) (P := P) (H := H) (what := what) hs bs).2
  rw [← hw] at hc
  have e1 : taken w.chan.log = taken u.chan.log := by rw [hc.taken, hch]
  have hT : w = t.run env P H what (as ++ .act (.read i) c s :: bs) := by
    rw [hw, hv, hu]
    simp [ClientTask.run, List.foldl_append]
  refine ⟨hcl', e1, by rw [hc.told, hch], by rw [(C91_requests env P H what t ht _).1, ← hT, e1], ?_⟩
  intro ho x hx
  have hb : Back v.chan x := by
    rw [hch]
    rcases List.mem_append.1 hx with hx | hx
    · rcases List.mem_append.1 hx with hx | hx
      · exact .inl hx
      · exact .inr (.inl hx)
    · exact .inr (.inr (.inl hx))
  subst hw hv hu
  exact over_back ht as bs _ hs hb ho

end

namespace Gone

/-- Two requests come to be queued, the first while the connection finds the queue empty and before it asks; the first caller goes away; and what follows. -/
def exTwo : List TaskAct :=
  [.act (exWrite .pending .pending) false false, .submit true, .permit ⟨0, true⟩, .push ⟨0, true⟩, .continue false, .submit true, .permit ⟨1, true⟩, .push ⟨1, true⟩]

def exEnd : List TaskAct := [.act (.finish true exFlushIn) false false, .act .drop false false, .continue false, .dropTx]

end Gone

open Gone in
/-- C101 is false for the others: a caller that goes away while its request waits costs the one behind it the connection.  Nothing has been written, nothing has failed, and the second request is not
written either. -/
theorem C101_neighbour :
    let u := exTask.run exEnv parseBlock exUserHeads exWhat exTwo
    let w := (u.step exEnv parseBlock exUserHeads exWhat (.act (exWrite .pending .pending) true false)).run exEnv parseBlock exUserHeads exWhat exEnd
    u.fed.disp.polls = true ∧ u.chan.phase = .idle ∧ u.chan.queue = [⟨0, true⟩, ⟨1, true⟩] ∧ w.chan.over = true ∧ taken w.chan.log = [] ∧
    CEv.outcome 1 (.error true) ∈ w.chan.log :=
  ⟨by decide +kernel, by decide +kernel, by decide +kernel, by decide +kernel, by decide +kernel, by decide +kernel⟩

open Gone in
/-- With both callers there, the first is written. -/
example : taken ((exTask.run exEnv parseBlock exUserHeads exWhat exTwo).step exEnv parseBlock exUserHeads exWhat (.act (exWrite .pending .pending) false false)).chan.log = [0] := by
  decide +kernel

end Hyper
