import Verif.Proof.ClientTask
import Verif.Props.ClosedLoop
import Verif.Props.ClientChan

/-! # C91: each response goes to the caller whose request it answers -/

namespace Hyper

open Spec Input Wire Callers

namespace Callers

variable {env : EncodeEnv} {P : TrailerParser} {H : HeadFn ResponseMsg} {what : Nat → ReqHead × Option BodyLength}

/-! ## The parts of a run -/

theorem run_fed (t : ClientTask) (as : List TaskAct) : (t.run env P H what as).fed = t.fed.run env P H (feeds env P H what t as) := by
  induction as generalizing t with
  | nil => rfl
  | cons a as ih =>
    have hs : (t.step env P H what a).fed = t.fed.run env P H (feed what t a).toList := by
      cases a <;> simp only [ClientTask.step, feed] <;> first | rfl | (split <;> rfl)
    show ((t.step env P H what a).run env P H what as).fed = _
    rw [ih, hs]
    simp only [feeds, Fed.run, List.foldl_append]

/-- Without the sender of HTTP/2. -/
theorem step_chan (t : ClientTask) (a : TaskAct) : ∃ cs : List CAct, CSt.Bounded cs ∧ (t.step env P H what a).chan = t.chan.run cs := by
  have one : ∀ c : CAct, (∀ b, c ≠ .submitUnbounded b) → ∃ cs : List CAct, CSt.Bounded cs ∧ t.chan.step c = t.chan.run cs :=
    fun c hc => ⟨[c], fun x hx => by simp only [List.mem_singleton] at hx; subst hx; exact hc, rfl⟩
  have zero : ∃ cs : List CAct, CSt.Bounded cs ∧ t.chan = t.chan.run cs := ⟨[], fun _ h => (by cases h), rfl⟩
  cases a with
  | submit b => exact one (.submit b) (fun _ e => by cases e)
  | permit r => exact one (.permit r) (fun _ e => by cases e)
  | push r => exact one (.push r) (fun _ e => by cases e)
  | dropTx => exact one (.dropTx) (fun _ e => by cases e)
  | pull => simp only [ClientTask.step]; split <;> exact zero
  | «continue» s => simp only [ClientTask.step]; split <;> exact one _ (fun _ e => by cases e)
  | act a c s =>
    simp only [ClientTask.step]
    split
    · cases he : t.effect env P H (t.given what a c s) c s with
      | none => exact zero
      | some x =>
        refine one x (fun b e => ?_)
        subst e
        unfold ClientTask.effect at he
        repeat' split at he
        all_goals first | cases he | (simp only [Option.some.injEq] at he; split at he <;> cases he)
    · exact zero

theorem run_chan (t : ClientTask) (as : List TaskAct) : ∃ cs : List CAct, CSt.Bounded cs ∧ (t.run env P H what as).chan = t.chan.run cs := by
  induction as generalizing t with
  | nil => exact ⟨[], fun _ h => (by cases h), rfl⟩
  | cons a as ih =>
    obtain ⟨c1, h1, e1⟩ := step_chan (env := env) (P := P) (H := H) (what := what) t a
    obtain ⟨c2, h2, e2⟩ := ih (t.step env P H what a)
    refine ⟨c1 ++ c2, fun x hx => ?_, ?_⟩
    · rcases List.mem_append.1 hx with h | h
      · exact h1 x h
      · exact h2 x h
    · show ((t.step env P H what a).run env P H what as).chan = _
      rw [e2, e1]
      simp [CSt.run]

/-! ## What is taken -/

/-- What an act takes from the queue is what it hands to the connection. -/
theorem step_taken {t : ClientTask} (h : Inv t) (a : TaskAct) :
    (taken (t.step env P H what a).chan.log).map what =
      (taken t.chan.log).map what ++ (((feed what t a).bind (underlying H t.fed)).bind (asked t.fed.disp)).toList := by
  have mum : ∀ {s : CSt}, taken s.log = taken t.chan.log → (taken s.log).map what = (taken t.chan.log).map what ++ [] := fun hm => by rw [hm, List.append_nil]
  cases a with
  | submit b => exact mum (idles_submit _ b).taken
  | permit r => exact mum (idles_permit _ r).taken
  | push r => exact mum (idles_push _ r).taken
  | dropTx => exact mum (idles_dropTx _).taken
  | pull => simp only [ClientTask.step, feed]; split <;> exact mum rfl
  | «continue» s =>
    simp only [ClientTask.step, feed]
    split
    · exact mum (idles_trySpurious _).taken
    · exact mum (idles_continue _).taken
  | act a c s =>
    simp only [ClientTask.step, feed]
    split
    · rename_i hp
      by_cases hw : t.fed.disp.polls = true ∧ ∃ i, a = .write i
      · obtain ⟨hr, i, rfl⟩ := hw
        have hph : t.chan.phase = .idle := hp.resolve_right (by simp [ClientTask.readers])
        have hd0 : t.fed.disp.done = false := by
          simp only [Disp.polls, Bool.and_eq_true, Bool.not_eq_true'] at hr; exact hr.1.1.1.1
        have hg : t.given what (.write i) c s = .write { i with msg := t.chan.yields what c s } := rfl
        have heff : t.effect env P H (.write { i with msg := t.chan.yields what c s }) c s = some (if s then .pollSpurious else .pollMsg c) := by
          unfold ClientTask.effect
          simp [hd0, hr]
        have hcb : t.chan.callback = none := by
          have := (h.live hd0).flight
          rw [(poll_write env h.client { i with msg := t.chan.yields what c s } hr).2.2.1] at this
          simpa using this
        have htk : takes t.fed.disp = true := hr
        rw [hg, heff]
        simp only [Option.bind_some, underlying, ClientTask.onQueue]
        have hask : ∀ (m : MsgOut), asked t.fed.disp (.write { i with msg := m }) = match m with | .req h b => some (h, b) | _ => none := by
          intro m
          cases m <;> simp [asked, htk, h.client]
        rw [hask]
        cases s with
        | true => simp only [if_true, CSt.yields]; exact mum (idles_pollSpurious _).taken
        | false =>
          simp only [Bool.false_eq_true, if_false, CSt.step, hph, if_true, CSt.pollMsg, CSt.yields]
          cases hq : t.chan.queue with
          | nil => dsimp only; cases t.chan.ended <;> simp
          | cons r q =>
            cases c with
            | true => simp
            | false => simp [CSt.setCallback, hcb]
      · have hno : ((underlying H t.fed (.act (t.given what a c s))).bind (asked t.fed.disp)) = none := by
          cases a with
          | write i =>
            have hr : t.fed.disp.polls = false := by
              by_cases e : t.fed.disp.polls = true
              · exact absurd ⟨e, i, rfl⟩ hw
              · simpa using e
            have htk : takes t.fed.disp = false := hr
            simp only [ClientTask.given, underlying, Option.bind_some, asked]
            split
            · simp [htk]
            · rfl
          | _ => rfl
        simp only [Option.bind_some]
        rw [hno]
        refine mum ?_
        have hrecv : taken (ClientTask.onQueue t.chan (some .recvOk)).log = taken t.chan.log := by
          simp only [ClientTask.onQueue, CSt.step, CSt.recvOk]
          repeat' split
          all_goals simp
        have heff : ∀ b : Act, (∀ i, b = .write i → t.fed.disp.polls = false) → taken (ClientTask.onQueue t.chan (t.effect env P H b c s)).log = taken t.chan.log := by
          intro b hb
          unfold ClientTask.effect
          repeat' split
          all_goals first
            | rfl
            | exact hrecv
            | exact (mum_recvErr _).taken
            | exact (mum_dropRx _).taken
            | (rename_i e _; rw [hb _ rfl] at e; cases e)
        refine heff _ (fun i e => ?_)
        by_cases e' : t.fed.disp.polls = true
        · refine absurd ⟨e', ?_⟩ hw
          cases a <;> first | exact ⟨_, rfl⟩ | cases e
        · simpa using e'
    · exact mum rfl

theorem run_taken {t : ClientTask} (h : Inv t) (as : List TaskAct) :
    (taken (t.run env P H what as).chan.log).map what =
      (taken t.chan.log).map what ++ requests env P t.fed.disp (acts env P H t.fed (feeds env P H what t as)) := by
  induction as generalizing t with
  | nil => simp [feeds, acts, requests, ClientTask.run]
  | cons a as ih =>
    have hs : (t.step env P H what a).fed = t.fed.run env P H (feed what t a).toList := by
      have := run_fed (env := env) (P := P) (H := H) (what := what) t [a]
      simpa [ClientTask.run, feeds] using this
    show (taken ((t.step env P H what a).run env P H what as).chan.log).map what = _
    rw [ih (h.step a), step_taken h a, List.append_assoc]
    congr 1
    simp only [feeds]
    cases hf : feed what t a with
    | none => rw [hf] at hs; simp only [Option.toList_none, Fed.run, List.foldl_nil] at hs; simp [hs]
    | some x =>
      rw [hf] at hs
      simp only [Option.toList_some, Fed.run, List.foldl_cons, List.foldl_nil] at hs
      rw [hs]
      simp only [Option.bind_some, Option.toList_some, List.singleton_append, acts]
      cases hu : underlying H t.fed x with
      | none =>
        have : (t.fed.step env P H x).disp = t.fed.disp := by
          cases x with
          | pull => rfl
          | act b => cases b <;> cases hu
        simp [this]
      | some b =>
        have : (t.fed.step env P H x).disp = t.fed.disp.step env P b := by
          cases x with
          | pull => cases hu
          | act c =>
            rw [fed_disp]
            cases c <;> cases hu <;> rfl
        simp [requests, this]

theorem mem_taken {i : Nat} {l : List CEv} : i ∈ taken l ↔ CEv.encoded i ∈ l := by
  simp only [taken, List.mem_filterMap]
  constructor
  · rintro ⟨e, he, h⟩
    split at h
    · cases h; exact he
    · cases h
  · exact fun h => ⟨_, h, rfl⟩

theorem mem_told {i : Nat} {l : List CEv} : i ∈ told l ↔ CEv.outcome i .response ∈ l := by
  simp only [told, List.mem_filterMap]
  constructor
  · rintro ⟨e, he, h⟩
    split at h
    · cases h; exact he
    · cases h
  · exact fun h => ⟨_, h, rfl⟩

/-- Nothing is taken twice. -/
theorem taken_nodup (cs : List CAct) : (taken (CSt.run {} cs).log).Nodup := by
  suffices ∀ s : CSt, s.Acc → s.Unsent → (taken s.log).Nodup → (taken (s.run cs).log).Nodup from this {} CSt.Acc.init CSt.Unsent.init (by simp)
  induction cs with
  | nil => exact fun _ _ _ h => h
  | cons c cs ih =>
    intro s ha hu hn
    refine ih _ (ha.step c) (hu.step ha c) ?_
    have more : ∀ r ∈ s.queue, (taken s.log ++ [r.id]).Nodup := by
      intro r hr
      rw [List.nodup_append]
      refine ⟨hn, by simp, fun x hx y hy e => ?_⟩
      simp only [List.mem_singleton] at hy
      subst hy; subst e
      exact hu.fresh r (by simp [hr]) (mem_taken.1 hx)
    cases c with
    | submit b => rw [(idles_submit s b).taken]; exact hn
    | submitUnbounded b =>
      simp only [CSt.step, CSt.submitUnbounded]
      split
      · exact hn
      · simp only [taken_append]; simpa [taken] using hn
    | permit r => rw [(idles_permit s r).taken]; exact hn
    | push r => rw [(idles_push s r).taken]; exact hn
    | dropTx => rw [(idles_dropTx s).taken]; exact hn
    | pollMsg b =>
      simp only [CSt.step, CSt.pollMsg]
      split
      · cases hq : s.queue with
        | nil => dsimp only; split <;> exact hn
        | cons r q =>
          dsimp only
          split
          · simpa using hn
          · simpa [CSt.setCallback] using more r (by simp [hq])
      · exact hn
    | pollTask b f =>
      simp only [CSt.step, CSt.pollTask]
      split
      · cases hq : s.queue with
        | nil => dsimp only; split <;> exact hn
        | cons r q =>
          dsimp only
          split
          · simpa using hn
          · split
            · simpa using hn
            · simpa using more r (by simp [hq])
      · exact hn
    | pollSpurious => rw [(idles_pollSpurious s).taken]; exact hn
    | trySpurious => rw [(idles_trySpurious s).taken]; exact hn
    | finishTask r o =>
      simp only [CSt.step, CSt.finishTask]
      split
      · rcases o with _ | _ | _ <;> simpa using hn
      · exact hn
    | recvOk =>
      simp only [CSt.step, CSt.recvOk]
      split
      · split
        · simpa using hn
        · exact hn
      · exact hn
    | recvErr => rw [(mum_recvErr s).taken]; exact hn
    | dropRx => rw [(mum_dropRx s).taken]; exact hn
    | «continue» => rw [(idles_continue s).taken]; exact hn

end Callers

/-- A client's connection and its queue as they begin. -/
structure ClientTask.Start (t : ClientTask) : Prop where
  disp : t.fed.disp.Start
  client : t.fed.disp.conn.client = true
  got : t.fed.got = []
  chan : t.chan = {}

section
variable (env : EncodeEnv) (P : TrailerParser) (H : HeadFn ResponseMsg) (what : Nat → ReqHead × Option BodyLength)

/-- C91: in every run, the `k`-th response that is read goes to the caller of the `k`-th request that was taken from the queue, and to nobody else; no response is
lost and none is invented. -/
theorem C91_own (t : ClientTask) (ht : t.Start) (as : List TaskAct) :
    told (t.run env P H what as).chan.log <+: taken (t.run env P H what as).chan.log ∧
      (told (t.run env P H what as).chan.log).length = (t.run env P H what as).fed.got.length := by
  have h := (Inv.start ht.disp ht.client ht.got ht.chan).run (env := env) (P := P) (H := H) (what := what) as
  exact ⟨h.pre, h.len.symm⟩

/-- C91: what the connection writes are the requests taken from the queue, in this order, and each once. -/
theorem C91_requests (t : ClientTask) (ht : t.Start) (as : List TaskAct) :
    requests env P t.fed.disp (acts env P H t.fed (feeds env P H what t as)) = (taken (t.run env P H what as).chan.log).map what ∧
      (taken (t.run env P H what as).chan.log).Nodup ∧
      (t.run env P H what as).fed = t.fed.run env P H (feeds env P H what t as) := by
  refine ⟨?_, ?_, run_fed t as⟩
  · have := run_taken (env := env) (P := P) (H := H) (what := what) (Inv.start ht.disp ht.client ht.got ht.chan) as
    rw [ht.chan] at this
    simpa using this.symm
  · obtain ⟨cs, _, e⟩ := run_chan (env := env) (P := P) (H := H) (what := what) t as
    rw [e, ht.chan]
    exact taken_nodup cs

/-- C91: a request given back to its caller was not written, and when both halves are gone every caller got exactly one answer. -/
theorem C91_answers (t : ClientTask) (ht : t.Start) (as : List TaskAct) (i : Nat) :
    answersTo i (t.run env P H what as).chan.log ≤ 1 ∧
    (CEv.outcome i (.error true) ∈ (t.run env P H what as).chan.log → i ∉ taken (t.run env P H what as).chan.log) ∧
    ((t.run env P H what as).chan.over = true → i < (t.run env P H what as).chan.next → answersTo i (t.run env P H what as).chan.log = 1) ∧
    acceptances (t.run env P H what as).chan.log ≤ demands (t.run env P H what as).chan.log + 1 := by
  obtain ⟨cs, hb, e⟩ := run_chan (env := env) (P := P) (H := H) (what := what) t as
  rw [ht.chan] at e
  rw [e]
  exact ⟨C38_at_most_one cs i, fun h => fun hm => C39_back_not_sent cs i h (mem_taken.1 hm), fun ho hi => C38_exactly_one cs ho i hi, C40_accepted cs hb⟩

/-- C91: the queue is not asked again after it has ended, a callback is not replaced by another, and a head is not read when nobody waits for it
(the assertion of src/proto/h1/dispatch.rs 677 holds and the error of 719-722 does not happen). -/
theorem C91_sound (t : ClientTask) (ht : t.Start) (as : List TaskAct) :
    ((t.run env P H what as).fed.disp.polls = true → (t.run env P H what as).chan.rxClosed = false ∧ (t.run env P H what as).chan.callback = none) ∧
    (∀ i, (t.run env P H what as).fed.disp.parses i = true → ∃ r, (t.run env P H what as).chan.callback = some r ∧
      taken (t.run env P H what as).chan.log = told (t.run env P H what as).chan.log ++ [r.id]) := by
  have h := (Inv.start ht.disp ht.client ht.got ht.chan).run (env := env) (P := P) (H := H) (what := what) as
  constructor
  · intro hp
    obtain ⟨h1, h2, h3, _⟩ := poll_write env h.client ⟨.pending, .pending, ⟨[], [], []⟩, .pending⟩ hp
    have L := h.live h1
    refine ⟨(L.opened h2).1, ?_⟩
    have := L.flight
    rw [h3] at this
    simpa using this
  · intro i hp
    obtain ⟨h1, _, h3, _⟩ := parse_read env P h.client i hp
    have L := h.live h1
    obtain ⟨r, hr⟩ := Option.isSome_iff_exists.1 (L.flight.trans h3)
    exact ⟨r, hr, L.waits r hr⟩

end

/-- C91 with C68: a client with its queue and a server, each fed with what the other puts on the wire.  A caller that is given a response gets the service's
answer to its own request: the request taken by the service's side in that place has the caller's method and target, and the response has the status of the
service's answer to it, its headers and data.  The only other response is the one the server's connection makes on its own to bytes it can not parse. -/
theorem C91_exchange_flat (envC envS : EncodeEnv) (henv : EnvOk envS) (PC PS : TrailerParser) (hPC : ReadsBlocks PC) (hPS : ReadsBlocks PS)
    (cfg : ClientCfg) (h09 : cfg.h09 = false) (QC : Bytes → RespParse) (hSC : PrefixStable QC) (maxC : Nat) (hQC : ReadsResponses maxC QC)
    (QS : Bytes → Except ParseErr (Option (RawRequest × Nat))) (hSS : RequestStable QS) (maxS : Nat) (hQS : ReadsRequests maxS (tokens QS))
    (methodOk uriOk : Bytes → Bool) (preserve : Bool) (what : Nat → ReqHead × Option BodyLength)
    (t : ClientTask) (hc : Fresh t.fed.disp) (hcc : t.fed.disp.conn.client = true) (hcg : t.fed.got = []) (hch : t.chan = {})
    (server : Fed RequestMsg) (hs : Fresh server.disp) (hsc : server.disp.conn.client = false) (hsm : server.disp.conn.method = none) (hsg : server.got = [])
    (hflat : server.disp.conn.out.wbuf.strategy = .flatten)
    (as : List TaskAct) (bs : List FAct) (xs ys : List Act)
    (hxs : xs = acts envC PC (clientHeads cfg QC) t.fed (feeds envC PC (clientHeads cfg QC) what t as))
    (hys : ys = acts envS PS (serverHeads QS methodOk uriOk preserve) server bs)
    (log : List CEv) (hlog : log = (t.run envC PC (clientHeads cfg QC) what as).chan.log)
    (hreq : ∀ i ∈ taken log, RequestOk methodOk uriOk (what i).1 (what i).2)
    (hresp : ∀ (k : Nat) (a : RespOut) (i : Nat), (answers envS PS server.disp ys)[k]? = some a → (taken log)[k]? = some i → ResponseOk envS (what i).1.method a)
    (fairC : ∀ m ∈ messages (story envC PC t.fed.disp [] xs), m.Fair maxS server.disp.conn.maxHeaders)
    (fairS : ∀ m ∈ messages (story envS PS server.disp [] ys), m.Fair maxC t.fed.disp.conn.maxHeaders)
    (netS : server.inlet.rd.stream <+: wire (t.fed.disp.run envC PC xs).conn)
    (netC : t.fed.inlet.rd.stream <+: wire (server.disp.run envS PS ys).conn)
    (k i : Nat) (hi : (told log)[k]? = some i) :
    ∃ r, (t.run envC PC (clientHeads cfg QC) what as).fed.got[k]? = some r ∧ (taken log)[k]? = some i ∧
      ((∃ a m s, (server.run envS PS (serverHeads QS methodOk uriOk preserve) bs).got[k]? = some s ∧
        s.head.method = (what i).1.method ∧ s.head.target = (what i).1.target ∧
        (answers envS PS server.disp ys)[k]? = some a ∧ (messages (story envS PS server.disp [] ys))[k]? = some m ∧ m.OfResponse envS a (what i).1.method ∧
        r.head.head.status = a.head.status ∧
        (∀ n, n ∉ [hCL, hTE, hCONN, hTRAILER, hDATE] → r.head.head.headers.getAll n = (a.head.headers.getAll n).map trimBlanks) ∧
        r.data <+: m.data ∧ (r.whole = true → r.head.decode ≠ DecodedLength.CLOSE_DELIMITED → r.data = m.data ∧ r.trailers = m.trailerFields)) ∨
      (k = (answers envS PS server.disp ys).length ∧ r.head.head.status ∈ [400, 414, 431] ∧ r.data = [])) := by
  have hst : t.Start := ⟨hc.start, hcc, hcg, hch⟩
  obtain ⟨hpre, hlen⟩ := C91_own envC PC (clientHeads cfg QC) what t hst as
  obtain ⟨hrq, _, hfed⟩ := C91_requests envC PC (clientHeads cfg QC) what t hst as
  rw [← hlog] at hpre hlen hrq
  rw [← hxs] at hrq
  have hk : k < (told log).length := (List.getElem?_eq_some_iff.1 hi).1
  have htk : (taken log)[k]? = some i := by
    obtain ⟨rest, hrest⟩ := hpre
    rw [← hrest, List.getElem?_append_left hk]; exact hi
  obtain ⟨r, hr⟩ : ∃ r, (t.run envC PC (clientHeads cfg QC) what as).fed.got[k]? = some r := ⟨_, List.getElem?_eq_getElem (hlen ▸ hk)⟩
  have hrk : (requests envC PC t.fed.disp xs)[k]? = some (what i) := by rw [hrq, List.getElem?_map, htk]; rfl
  refine ⟨r, hr, htk, ?_⟩
  rw [hfed] at hr
  rcases C68_exchange_flat envC envS henv PC PS hPC hPS cfg h09 QC hSC maxC hQC QS hSS maxS hQS methodOk uriOk preserve t.fed hc hcc hcg server hs hsc hsm hsg hflat
    _ bs xs ys hxs hys
    (by rw [hrq]; intro q hq; obtain ⟨j, hj, rfl⟩ := List.mem_map.1 hq; exact hreq j hj)
    (by
      intro j a q h1 h2
      rw [hrq, List.getElem?_map] at h2
      cases hj : (taken log)[j]? with
      | none => rw [hj] at h2; cases h2
      | some x => rw [hj] at h2; simp only [Option.map_some, Option.some.injEq] at h2; subst h2; exact hresp j a x h1 hj)
    fairC fairS netS netC k r hr with ⟨h, body, a, m, s, g1, g2, g3, g4, g5, g6, g7, g8⟩ | h
  · rw [hrk] at g1
    have e : what i = (h, body) := by simpa using g1
    rw [show h = (what i).1 by rw [e]] at g3 g4 g7
    exact .inl ⟨a, m, s, g2, g3, g4, g5, g6, g7, g8⟩
  · exact .inr h

/-! ## Examples -/

namespace Callers

def exWhat (_ : Nat) : ReqHead × Option BodyLength := (⟨mGET, ascii "/", .h11, [], none⟩, none)

def exTask : ClientTask := { fed := exUser }

/-- A request is sent and answered; the connection asks for another one, which is on the queue when the connection is dropped. -/
def exTaskRun : List TaskAct :=
  [.submit true, .permit ⟨0, true⟩, .push ⟨0, true⟩, .act (exWrite .pending .pending) false false, .act (.flush exFlushIn .pending) false false,
    .act (exRead .pending exNo) false false, .act (exRead .pending exNo) false false, .act (.want 0) false false,
    .act (exRead .pending exNo) false false, .act (exRead .pending exNo) false false, .act (exRead .pending exNo) false false,
    .act (exWrite .pending .pending) false false, .continue false, .submit true, .permit ⟨1, true⟩, .push ⟨1, true⟩, .act .drop false false, .continue false, .dropTx]

end Callers

example : (exTask.run exEnv parseBlock exUserHeads exWhat exTaskRun).chan.log =
    [.submitted 0, .accepted 0, .encoded 0, .outcome 0 .response, .asked, .submitted 1, .accepted 1, .outcome 1 (.error true)] ∧
    (exTask.run exEnv parseBlock exUserHeads exWhat exTaskRun).chan.over = true ∧
    (exTask.run exEnv parseBlock exUserHeads exWhat exTaskRun).fed.got.map (fun r => (r.head.head.status, r.data, r.whole)) = [(200, ascii "hi", true)] :=
  ⟨by decide +kernel, by decide +kernel, by decide +kernel⟩

example : exTask.Start := ⟨(exDisp_fresh true none).start, rfl, rfl, rfl⟩

end Hyper
