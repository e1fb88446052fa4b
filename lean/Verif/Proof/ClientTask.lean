import Verif.Spec.ClientTask
import Verif.Proof.ClientChan
import Verif.Proof.ClosedLoop
import Verif.Proof.Errors
import Verif.Proof.Informational

/-! # A client's connection with its queue: the invariant -/

namespace Hyper.Callers

open Hyper

/-! ## The connection -/

/-- The parts of the connection that matter to the queue are the same, or it ended. -/
def Still (d d' : Disp) : Prop := d'.done = false → d'.inFlight = d.inFlight ∧ (d'.closing = false → d.closing = false)

theorem Still.refl (d : Disp) : Still d d := fun _ => ⟨rfl, id⟩

theorem Still.of {d d' : Disp} (h1 : d'.inFlight = d.inFlight) (h2 : d'.closing = d.closing) : Still d d' := fun _ => ⟨h1, fun h => h2 ▸ h⟩

theorem Still.dead {d d' : Disp} (h : d'.done = true) : Still d d' := fun h' => by rw [h] at h'; cases h'

theorem still_fail (d d' : Disp) : Still d d'.fail := .dead rfl

theorem still_close {d d' : Disp} (h : d'.inFlight = d.inFlight) : Still d d'.close := fun _ => ⟨h, fun e => by cases e⟩

theorem deliver_same (d : Disp) (k : Nat) (gone : Bool) (f : Chan → Chan) :
    (d.deliver k gone f).inFlight = d.inFlight ∧ (d.deliver k gone f).closing = d.closing := by
  unfold Disp.deliver Disp.dropBody Disp.sendItem
  split
  · dsimp only
    split <;> exact ⟨rfl, rfl⟩
  · exact ⟨rfl, rfl⟩

theorem afterPiece_same (d : Disp) (k : Nat) (gone : Bool) (o : BodyRes) :
    (d.afterPiece k gone o).inFlight = d.inFlight ∧ (d.afterPiece k gone o).closing = d.closing := by
  have hm : ∀ b, (d.markComplete k b).inFlight = d.inFlight ∧ (d.markComplete k b).closing = d.closing := by
    intro b; unfold Disp.markComplete; split <;> exact ⟨rfl, rfl⟩
  unfold Disp.afterPiece
  split
  · exact ⟨rfl, rfl⟩
  · rw [(deliver_same _ _ _ _).1, (deliver_same _ _ _ _).2]; exact hm _
  · rw [(deliver_same _ _ _ _).1, (deliver_same _ _ _ _).2]; exact hm _
  · exact hm _
  · exact ⟨rfl, rfl⟩

theorem still_readBody (P : TrailerParser) (d : Disp) (i : ReadIn) (k : Nat) : Still d (d.readBody P i k) := by
  unfold Disp.readBody
  repeat' split
  · exact .refl d
  · unfold Disp.readPiece
    refine .of ((afterPiece_same _ _ _ _).1.trans ?_) ((afterPiece_same _ _ _ _).2.trans ?_) <;> unfold Disp.maybeLose <;> split <;> rfl
  all_goals exact .of rfl rfl

theorem still_readIdle (d : Disp) (i : ReadIn) : Still d (d.readIdle i) := by
  unfold Disp.readIdle
  dsimp only
  split
  · exact still_fail _ _
  · exact .of rfl rfl

theorem still_read (env : EncodeEnv) (P : TrailerParser) {d : Disp} (hc : d.conn.client = true) (hd : d.done = false) (i : ReadIn) (h : d.parses i = false) :
    Still d (d.readTurn env P i) := by
  unfold Disp.readTurn
  split
  · exact .refl d
  · rename_i hcl
    split
    · rename_i hr
      unfold Disp.readHead
      simp only [Disp.parses, hc, hd, hcl, hr, if_true] at h
      cases hf : d.inFlight with
      | none => simp only [hc, if_true]; exact still_close rfl
      | some x =>
        simp only [hc, if_true]
        rw [hf] at h
        have : i.ready = false := by simpa using h
        rw [this]
        exact still_close rfl
    · split
      · exact still_readBody P d i _
      · exact still_readIdle d i

theorem still_flush (d : Disp) (f : FlushIn) (i : NotifyIn) : Still d (d.flushTurn f i) := by
  unfold Disp.flushTurn
  dsimp only
  split
  · exact .of rfl rfl
  · exact still_fail _ _

theorem still_endBody {d d' : Disp} (h1 : d'.inFlight = d.inFlight) (h2 : d'.closing = d.closing) : Still d d'.endBody := by
  unfold Disp.endBody
  dsimp only
  split
  · exact still_fail _ _
  · exact .of h1 h2

theorem still_write (env : EncodeEnv) {d : Disp} (hd : d.done = false) (i : WriteIn) (h : d.polls = false) : Still d (d.writeTurn env i) := by
  unfold Disp.writeTurn
  split
  · exact .refl d
  · rename_i hcl
    have hcl' : d.closing = false := by simpa using hcl
    have h' : (!d.bodyRx && d.conn.canWriteHead && d.shouldPoll) = false := by simpa [Disp.polls, hd, hcl'] using h
    rw [h']
    simp only [Bool.false_eq_true, if_false]
    unfold Disp.writeFrame
    repeat' split
    all_goals first | exact still_flush _ _ _ | exact still_endBody rfl rfl | exact still_fail _ _ | exact .of rfl rfl

theorem still_finish (d : Disp) (s : Bool) (f : FlushIn) : Still d (d.finishTurn s f) := by
  unfold Disp.finishTurn
  dsimp only
  repeat' split
  all_goals first | exact .of rfl rfl | exact .dead (done_complete _) | exact still_fail _ _

/-- When the end of a poll is an error, the connection has ended. -/
theorem finish_error (d : Disp) (s : Bool) (f : FlushIn) (h : d.result s f = .error) : (d.finishTurn s f).done = true := by
  unfold Disp.result at h
  unfold Disp.finishTurn
  dsimp only
  split at h
  · cases h
  · rename_i hd
    rw [if_neg hd]
    split at h
    · rename_i hu; rw [if_pos hu]; exact done_complete _
    · rename_i hu
      rw [if_neg hu]
      split at h
      · rename_i hs
        rw [if_pos hs]
        split at h
        · cases h
        · rename_i hp
          rw [if_neg hp]
          split
          · exact done_complete _
          · rfl
      · rename_i hs; rw [if_neg hs]; exact done_complete _

theorem still_disable (d : Disp) (b : Bool) : Still d (d.disableKeepAlive b) := by
  unfold Disp.disableKeepAlive
  dsimp only
  split
  · exact still_close rfl
  · exact .of rfl rfl

theorem still_want (d : Disp) (k : Nat) : Still d (d.want k) := by
  unfold Disp.want
  repeat' split
  all_goals exact .of rfl rfl

/-- What a turn that parses leaves of the connection. -/
theorem parse_read (env : EncodeEnv) (P : TrailerParser) {d : Disp} (hc : d.conn.client = true) (i : ReadIn) (h : d.parses i = true) :
    d.done = false ∧ d.closing = false ∧ d.inFlight.isSome = true ∧ (d.readTurn env P i).done = false ∧
      match (d.conn.pollReadHead env i.t0 i.t1 i.parse i.notify d.headId).1 with
      | .msg _ => (d.readTurn env P i).inFlight = none ∧ (d.readTurn env P i).closing = false
      | .err => (d.readTurn env P i).inFlight = none ∧ (d.readTurn env P i).closing = true
      | .timeout => (d.readTurn env P i).inFlight = none ∧ (d.readTurn env P i).closing = true
      | _ => (d.readTurn env P i).inFlight = d.inFlight := by
  simp only [Disp.parses, hc, if_true, Bool.and_eq_true, Bool.not_eq_true'] at h
  obtain ⟨⟨⟨h1, h2⟩, h3⟩, h4, h5⟩ := h
  obtain ⟨x, hx⟩ := Option.isSome_iff_exists.1 h4
  have he : d.readTurn env P i = d.readHeadReady env i := by
    unfold Disp.readTurn Disp.readHead
    simp [h2, h3, hx, hc, h5]
  have hcl := Hyper.client_pollReadHead d.conn env i.t0 i.t1 i.parse i.notify d.headId
  rw [hc] at hcl
  rw [he]
  refine ⟨h1, h2, h4, ?_⟩
  unfold Disp.readHeadReady
  cases ho : (d.conn.pollReadHead env i.t0 i.t1 i.parse i.notify d.headId).1 with
  | pending => exact ⟨h1, rfl⟩
  | eof => simp only [Disp.afterHead]; split <;> exact ⟨h1, rfl⟩
  | err => simp only [Disp.afterHead, Disp.recvErr, hcl, hx, if_true]; exact ⟨h1, rfl, rfl⟩
  | timeout => simp only [Disp.afterHead, Disp.recvErr, hcl, hx, if_true]; exact ⟨h1, rfl, rfl⟩
  | msg m =>
    simp only [Disp.afterHead, Disp.recvHead, Disp.newBody]
    split <;> simp only [hcl, hx] <;> exact ⟨h1, trivial, h2⟩

/-- What a turn that asks for a message leaves of the connection. -/
theorem poll_write (env : EncodeEnv) {d : Disp} (hc : d.conn.client = true) (i : WriteIn) (h : d.polls = true) :
    d.done = false ∧ d.closing = false ∧ d.inFlight = none ∧ (d.writeTurn env i).done = false ∧
      match i.msg with
      | .req _ _ => (d.writeTurn env i).inFlight.isSome = true ∧ (d.writeTurn env i).closing = false
      | .none => (d.writeTurn env i).inFlight = none ∧ (d.writeTurn env i).closing = true
      | _ => d.writeTurn env i = d := by
  simp only [Disp.polls, Bool.and_eq_true, Bool.not_eq_true'] at h
  obtain ⟨⟨⟨⟨h1, h2⟩, h3⟩, h4⟩, h5⟩ := h
  have hf : d.inFlight = none := by simpa [Disp.shouldPoll, hc] using h5
  have he : d.writeTurn env i = d.writeHead env i.msg := by
    unfold Disp.writeTurn
    simp [h2, h3, h4, h5]
  rw [he]
  refine ⟨h1, h2, hf, ?_⟩
  unfold Disp.writeHead
  cases i.msg <;> simp [hc, h1, h2, hf, Disp.close]

/-! ## The queue -/

@[simp] theorem taken_append (l m : List CEv) : taken (l ++ m) = taken l ++ taken m := by simp [taken]
@[simp] theorem told_append (l m : List CEv) : told (l ++ m) = told l ++ told m := by simp [told]

@[simp] theorem taken_done (r : CReq) (o : Answer) : taken [r.done o] = [] := by simp [taken, CReq.done]
@[simp] theorem told_done_ok (r : CReq) : told [r.done .response] = [r.id] := by simp [told, CReq.done]
@[simp] theorem told_done_err (r : CReq) (b : Bool) : told [r.done (.error b)] = [] := by simp [told, CReq.done]
@[simp] theorem taken_drop (r : CReq) : taken [r.drop] = [] := taken_done _ _
@[simp] theorem told_drop (r : CReq) : told [r.drop] = [] := told_done_err _ _
@[simp] theorem taken_drops (l : List CReq) : taken (l.map CReq.drop) = [] := by simp [taken, CReq.drop, CReq.done, List.filterMap_map, Function.comp_def]
@[simp] theorem told_drops (l : List CReq) : told (l.map CReq.drop) = [] := by simp [told, CReq.drop, CReq.done, List.filterMap_map, Function.comp_def]
@[simp] theorem taken_envelopes (l : List CReq) : taken (l.map CReq.dropEnvelope) = [] := by
  simp [taken, CReq.dropEnvelope, CReq.done, List.filterMap_map, Function.comp_def]
@[simp] theorem told_envelopes (l : List CReq) : told (l.map CReq.dropEnvelope) = [] := by
  simp [told, CReq.dropEnvelope, CReq.done, List.filterMap_map, Function.comp_def]
@[simp] theorem taken_encoded (i : Nat) : taken [.encoded i] = [i] := rfl
@[simp] theorem told_encoded (i : Nat) : told [.encoded i] = [] := rfl
@[simp] theorem taken_asked : taken [.asked] = [] := rfl
@[simp] theorem told_asked : told [.asked] = [] := rfl
@[simp] theorem taken_nil : taken [] = [] := rfl
@[simp] theorem told_nil : told [] = [] := rfl

/-- Nothing was taken and nobody was told anything. -/
structure Mum (s s' : CSt) : Prop where
  taken : taken s'.log = taken s.log
  told : told s'.log = told s.log

/-- Besides, the callback stays. -/
structure Idles (s s' : CSt) : Prop extends Mum s s' where
  callback : s'.callback = s.callback
  rxClosed : s'.rxClosed = s.rxClosed
  phase : s.phase = .idle ∨ s.phase = .wanting → s'.phase = .idle ∨ s'.phase = .wanting

theorem Idles.refl (s : CSt) : Idles s s := ⟨⟨rfl, rfl⟩, rfl, rfl, id⟩

theorem idles_submit (s : CSt) (b : Bool) : Idles s (s.step (.submit b)) := by
  simp only [CSt.step, CSt.submit]
  repeat' split
  all_goals first | exact .refl s | refine ⟨⟨?_, ?_⟩, rfl, rfl, id⟩ <;> simp [taken, told, CReq.done]

theorem idles_permit (s : CSt) (r : CReq) : Idles s (s.step (.permit r)) := by
  simp only [CSt.step, CSt.permit]
  repeat' split
  all_goals first | exact .refl s | exact ⟨⟨by simp, by simp⟩, rfl, rfl, id⟩

theorem idles_push (s : CSt) (r : CReq) : Idles s (s.step (.push r)) := by
  simp only [CSt.step, CSt.push]
  split
  · exact ⟨⟨rfl, rfl⟩, rfl, rfl, id⟩
  · exact .refl s

theorem idles_dropTx (s : CSt) : Idles s (s.step .dropTx) := by
  simp only [CSt.step, CSt.dropTx, CSt.drain]
  repeat' split
  all_goals first | exact .refl s | exact ⟨⟨by simp, by simp⟩, rfl, rfl, id⟩

theorem idles_continue (s : CSt) : Idles s (s.step .continue) := by
  simp only [CSt.step]
  cases h : s.phase with
  | idle => exact .refl s
  | gone => exact .refl s
  | wanting => exact ⟨⟨by simp [CSt.asksFor], by simp [CSt.asksFor]⟩, rfl, rfl, fun _ => .inl rfl⟩
  | closing => exact ⟨⟨rfl, rfl⟩, rfl, rfl, fun e => by rw [h] at e; rcases e with e | e <;> cases e⟩
  | dropping => exact ⟨⟨by simp [CSt.dropInner, CSt.drain], by simp [CSt.dropInner, CSt.drain]⟩, rfl, rfl, fun e => by rw [h] at e; rcases e with e | e <;> cases e⟩
  | trying =>
    simp only [CSt.tryRecv]
    split <;> exact ⟨⟨by simp, by simp⟩, rfl, rfl, fun _ => .inl rfl⟩

theorem idles_trySpurious (s : CSt) : Idles s (s.step .trySpurious) := by
  simp only [CSt.step]
  split
  · exact ⟨⟨rfl, rfl⟩, rfl, rfl, fun _ => .inl rfl⟩
  · exact .refl s

theorem idles_pollSpurious (s : CSt) : Idles s (s.step .pollSpurious) := by
  simp only [CSt.step]
  split
  · exact ⟨⟨rfl, rfl⟩, rfl, rfl, fun _ => .inr rfl⟩
  · exact .refl s

theorem mum_recvErr (s : CSt) : Mum s (s.step .recvErr) := by
  simp only [CSt.step, CSt.recvErr]
  repeat' split
  all_goals first | exact ⟨rfl, rfl⟩ | exact ⟨by simp, by simp⟩

theorem mum_dropRx (s : CSt) : Mum s (s.step .dropRx) := by
  simp only [CSt.step, CSt.dropRx]
  split
  · exact ⟨by simp, by simp⟩
  · exact ⟨rfl, rfl⟩

/-! ## Both together -/

/-- While the connection runs: the request that waits for its response is the last one taken, all others have their responses. -/
structure Live (d : Disp) (s : CSt) : Prop where
  phase : s.phase = .idle ∨ s.phase = .wanting
  flight : s.callback.isSome = d.inFlight.isSome
  waits : ∀ r, s.callback = some r → taken s.log = told s.log ++ [r.id]
  opened : d.closing = false → s.rxClosed = false ∧ (s.callback = none → taken s.log = told s.log)

structure Inv (t : ClientTask) : Prop where
  client : t.fed.disp.conn.client = true
  len : t.fed.got.length = (told t.chan.log).length
  pre : told t.chan.log <+: taken t.chan.log
  live : t.fed.disp.done = false → Live t.fed.disp t.chan

theorem Live.still {d d' : Disp} {s s' : CSt} (h : Live d s) (hd : d'.inFlight = d.inFlight ∧ (d'.closing = false → d.closing = false)) (hs : Idles s s') : Live d' s' :=
  ⟨hs.phase h.phase, by rw [hs.callback, hd.1, h.flight], by rw [hs.callback, hs.taken, hs.told]; exact h.waits,
    by rw [hs.callback, hs.taken, hs.told, hs.rxClosed]; exact fun e => h.opened (hd.2 e)⟩

/-- The queue alone. -/
theorem Inv.queue {t : ClientTask} (h : Inv t) {s : CSt} (hs : Idles t.chan s) : Inv { t with chan := s } :=
  ⟨h.client, by rw [hs.told]; exact h.len, by rw [hs.told, hs.taken]; exact h.pre, fun hd => (h.live hd).still ⟨rfl, id⟩ hs⟩

theorem got_length (env : EncodeEnv) (P : TrailerParser) (H : HeadFn ResponseMsg) (f : Fed ResponseMsg) (a : Act)
    (h : ∀ i, a = .read i → f.disp.parses i = false) : (f.step env P H (.act a)).got.length = f.got.length := by
  have hl : ∀ (g : Received ResponseMsg → Received ResponseMsg) (l : List (Received ResponseMsg)), (onLast g l).length = l.length := by
    intro g l
    induction l with
    | nil => rfl
    | cons x l ih =>
      cases l with
      | nil => rfl
      | cons y l => simp only [onLast, List.length_cons] at ih ⊢; omega
  cases a with
  | read i =>
    simp only [Fed.step, Fed.read, h i rfl]
    simp only [Bool.false_eq_true, if_false]
    split
    · exact hl _ _
    · rfl
  | _ => rfl

theorem fed_disp (env : EncodeEnv) (P : TrailerParser) (H : HeadFn ResponseMsg) (f : Fed ResponseMsg) (a : Act) :
    (f.step env P H (.act a)).disp = f.disp.step env P (match a with | .read i => .read (f.readIn H i) | a => a) := by
  cases a <;> simp only [Fed.step]
  simp only [Fed.read]
  repeat' split
  all_goals rfl

theorem parses_readIn (H : HeadFn ResponseMsg) (f : Fed ResponseMsg) (i : ReadIn) : f.disp.parses (f.readIn H i) = f.disp.parses i := rfl

/-- The head a turn gets is a message when the parse gave one. -/
theorem headOut_msg (env : EncodeEnv) (H : HeadFn ResponseMsg) (t : ClientTask) (i : ReadIn) :
    (t.fed.begin H (t.fed.inlet.parse (H.parse t.fed.disp.conn.method)).1).length =
      t.fed.got.length + (match t.headOut env H i with | .msg _ => 1 | _ => 0) := by
  have hc : ∀ c : Conn, ∀ e rest h2 m, (c.onReadHeadError env e rest h2).1 ≠ .msg m := by
    intro c e rest h2 m
    unfold Conn.onReadHeadError Conn.onParseError
    repeat' split
    all_goals simp
  unfold ClientTask.headOut Fed.readIn Fed.begin
  cases (t.fed.inlet.parse (H.parse t.fed.disp.conn.method)).1 with
  | msg m => simp [Inlet.seen, Conn.pollReadHead]
  | pending =>
    simp only [Inlet.seen, Conn.pollReadHead]
    split
    · rename_i h; split at h <;> cases h
    · rfl
  | error e =>
    simp only [Inlet.seen, Conn.pollReadHead]
    split
    · rename_i h; exact absurd h (hc _ _ _ _ _)
    · rfl

theorem Inv.act {env : EncodeEnv} {P : TrailerParser} {H : HeadFn ResponseMsg} {what : Nat → ReqHead × Option BodyLength} {t : ClientTask} (h : Inv t) (a : Act) (c s : Bool)
    (hp : t.chan.phase = .idle ∨ ClientTask.readers a = true) :
    Inv { fed := t.fed.step env P H (.act (t.given what a c s)), chan := ClientTask.onQueue t.chan (t.effect env P H (t.given what a c s) c s) } := by
  have hcl : (t.fed.step env P H (.act (t.given what a c s))).disp.conn.client = true := by rw [fed_disp, step_client]; exact h.client
  by_cases hd : t.fed.disp.done = true
  · -- the connection has ended
    have hd' : (t.fed.step env P H (.act (t.given what a c s))).disp.done = true := by rw [fed_disp]; exact Hyper.done_step _ env P _ hd
    have hl : (t.fed.step env P H (.act (t.given what a c s))).got.length = t.fed.got.length :=
      got_length env P H t.fed _ (fun i _ => by simp [Disp.parses, hd])
    have hm : Mum t.chan (ClientTask.onQueue t.chan (t.effect env P H (t.given what a c s) c s)) := by
      unfold ClientTask.effect
      rw [if_pos hd]
      split
      · exact mum_dropRx _
      · exact ⟨rfl, rfl⟩
    exact ⟨hcl, by rw [hm.told]; exact hl.trans h.len, by rw [hm.told, hm.taken]; exact h.pre, fun e => by rw [hd'] at e; cases e⟩
  · have hd0 : t.fed.disp.done = false := by simpa using hd
    have L := h.live hd0
    -- most acts leave the callback alone, or end the connection
    have quiet : ∀ b : Act, t.given what a c s = b → (∀ i, b = .read i → t.fed.disp.parses i = false) → Still t.fed.disp (t.fed.step env P H (.act b)).disp →
        (t.effect env P H b c s = none ∨ (t.effect env P H b c s = some .recvErr ∧ (t.fed.step env P H (.act b)).disp.done = true) ∨
          (t.effect env P H b c s = some .dropRx ∧ (t.fed.step env P H (.act b)).disp.done = true)) →
        Inv { fed := t.fed.step env P H (.act b), chan := ClientTask.onQueue t.chan (t.effect env P H b c s) } := by
      intro b hb hr hst he
      subst hb
      have hl := got_length env P H t.fed _ hr
      rcases he with he | ⟨he, hdn⟩ | ⟨he, hdn⟩ <;> rw [he]
      · exact ⟨hcl, hl.trans h.len, h.pre, fun e => L.still (hst e) (.refl _)⟩
      · have hm : Mum t.chan (ClientTask.onQueue t.chan (some .recvErr)) := mum_recvErr _
        exact ⟨hcl, by rw [hm.told]; exact hl.trans h.len, by rw [hm.told, hm.taken]; exact h.pre, fun e => by rw [hdn] at e; cases e⟩
      · have hm : Mum t.chan (ClientTask.onQueue t.chan (some .dropRx)) := mum_dropRx _
        exact ⟨hcl, by rw [hm.told]; exact hl.trans h.len, by rw [hm.told, hm.taken]; exact h.pre, fun e => by rw [hdn] at e; cases e⟩
    have step_of : ∀ (b : Act) (x : Disp), (∀ i, b ≠ .read i) → t.fed.disp.step env P b = x → (t.fed.step env P H (.act b)).disp = x := by
      intro b x hb e
      rw [fed_disp]
      cases b <;> first | exact e | exact absurd rfl (hb _)
    have ended : ∀ b : Act, (if (t.fed.step env P H (.act b)).disp.done = true then some CAct.recvErr else none) = none ∨
        ((if (t.fed.step env P H (.act b)).disp.done = true then some CAct.recvErr else none) = some .recvErr ∧ (t.fed.step env P H (.act b)).disp.done = true) := by
      intro b
      by_cases e : (t.fed.step env P H (.act b)).disp.done = true
      · exact .inr ⟨if_pos e, e⟩
      · exact .inl (if_neg e)
    cases a with
    | read i =>
      have hph : t.chan.phase = .idle := hp.resolve_right (by simp [ClientTask.readers])
      have hdisp : (t.fed.step env P H (.act (.read i))).disp = t.fed.disp.readTurn env P (t.fed.readIn H i) := by
        rw [fed_disp]; simp [Disp.step, hd0]
      by_cases hr : t.fed.disp.parses i = true
      · obtain ⟨_, hco, hsome, hdn, hmat⟩ := parse_read env P h.client (t.fed.readIn H i) (by rw [parses_readIn]; exact hr)
        have hlen : (t.fed.step env P H (.act (.read i))).got.length = t.fed.got.length + (match t.headOut env H i with | .msg _ => 1 | _ => 0) := by
          simp only [Fed.step, Fed.read, hr, if_true]
          exact headOut_msg env H t i
        have heff : t.effect env P H (.read i) c s = (match t.headOut env H i with | .msg _ => some .recvOk | .err => some .recvErr | .timeout => some .recvErr | _ => none) := by
          unfold ClientTask.effect
          rw [if_neg hd]
          simp only [hr, if_true]
          cases t.headOut env H i <;> rfl
        have hho : t.headOut env H i = (t.fed.disp.conn.pollReadHead env (t.fed.readIn H i).t0 (t.fed.readIn H i).t1 (t.fed.readIn H i).parse (t.fed.readIn H i).notify t.fed.disp.headId).1 := rfl
        rw [← hho] at hmat
        obtain ⟨r, hcb⟩ := Option.isSome_iff_exists.1 (L.flight.trans hsome)
        show Inv { fed := t.fed.step env P H (.act (.read i)), chan := ClientTask.onQueue t.chan (t.effect env P H (.read i) c s) }
        rw [heff]
        -- an error of the head
        have bad : ∀ d' : Disp, d'.inFlight = none ∧ d'.closing = true → Mum t.chan (t.chan.step .recvErr) ∧ Live d' (t.chan.step .recvErr) := by
          intro d' e
          refine ⟨mum_recvErr _, ?_⟩
          simp only [CSt.step, hph, if_true, CSt.recvErr, hcb]
          exact ⟨.inl rfl, by simp [e.1], fun _ e' => (by cases e'), fun e' => by rw [e.2] at e'; cases e'⟩
        cases ho : t.headOut env H i with
        | msg m =>
          rw [ho] at hmat hlen
          simp only [ClientTask.onQueue]
          have hs : t.chan.step .recvOk = { t.chan with callback := none, log := t.chan.log ++ [r.done .response] } := by
            simp [CSt.step, hph, CSt.recvOk, hcb]
          rw [hs]
          refine ⟨hcl, ?_, ?_, fun _ => ⟨.inl hph, ?_, fun _ e => (by cases e), fun _ => ⟨(L.opened hco).1, fun _ => ?_⟩⟩⟩
          · simp only [told_append, told_done_ok, List.length_append, List.length_singleton]; rw [← h.len]; exact hlen
          · simp only [told_append, told_done_ok, taken_append, taken_done, List.append_nil]; rw [L.waits r hcb]; exact List.prefix_refl _
          · simp only [Option.isSome_none]; rw [hdisp, hmat.1]; rfl
          · simp only [told_append, told_done_ok, taken_append, taken_done, List.append_nil]; exact L.waits r hcb
        | err =>
          rw [ho] at hmat hlen
          obtain ⟨b1, b2⟩ := bad _ hmat
          exact ⟨hcl, by simp only [ClientTask.onQueue]; rw [b1.told, ← h.len]; exact hlen, by simp only [ClientTask.onQueue]; rw [b1.told, b1.taken]; exact h.pre,
            fun _ => by simp only [hdisp, ClientTask.onQueue]; exact b2⟩
        | timeout =>
          rw [ho] at hmat hlen
          obtain ⟨b1, b2⟩ := bad _ hmat
          exact ⟨hcl, by simp only [ClientTask.onQueue]; rw [b1.told, ← h.len]; exact hlen, by simp only [ClientTask.onQueue]; rw [b1.told, b1.taken]; exact h.pre,
            fun _ => by simp only [hdisp, ClientTask.onQueue]; exact b2⟩
        | pending =>
          rw [ho] at hmat hlen
          exact ⟨hcl, hlen.trans h.len, h.pre, fun _ => by simp only [hdisp]; exact L.still ⟨hmat, fun _ => hco⟩ (.refl _)⟩
        | eof =>
          rw [ho] at hmat hlen
          exact ⟨hcl, hlen.trans h.len, h.pre, fun _ => by simp only [hdisp]; exact L.still ⟨hmat, fun _ => hco⟩ (.refl _)⟩
      · have hr0 : t.fed.disp.parses i = false := by simpa using hr
        refine quiet _ rfl (fun j e => by cases e; exact hr0) ?_ ?_
        · show Still t.fed.disp (t.fed.step env P H (.act (.read i))).disp
          rw [hdisp]; exact still_read env P h.client hd0 _ (by rw [parses_readIn]; exact hr0)
        · have : t.effect env P H (t.given what (.read i) c s) c s = (if (t.fed.step env P H (.act (.read i))).disp.done = true then some .recvErr else none) := by
            show t.effect env P H (.read i) c s = _
            unfold ClientTask.effect
            rw [if_neg hd]
            simp only [hr0, Bool.false_eq_true, if_false]
          rw [this]
          rcases ended (.read i) with e | e
          · exact .inl e
          · exact .inr (.inl e)
    | write i =>
      have hph : t.chan.phase = .idle := hp.resolve_right (by simp [ClientTask.readers])
      have hg : t.given what (.write i) c s = .write { i with msg := t.chan.yields what c s } := rfl
      have hdisp : (t.fed.step env P H (.act (.write { i with msg := t.chan.yields what c s }))).disp = t.fed.disp.writeTurn env { i with msg := t.chan.yields what c s } :=
        step_of _ _ (fun _ e => by cases e) (by simp [Disp.step, hd0])
      by_cases hr : t.fed.disp.polls = true
      · obtain ⟨_, hco, hnone, hdn, hmat⟩ := poll_write env h.client { i with msg := t.chan.yields what c s } hr
        have hcb : t.chan.callback = none := by
          have := L.flight; rw [hnone] at this; simpa using this
        have hlen : (t.fed.step env P H (.act (.write { i with msg := t.chan.yields what c s }))).got.length = t.fed.got.length := rfl
        have heff : t.effect env P H (.write { i with msg := t.chan.yields what c s }) c s = some (if s then .pollSpurious else .pollMsg c) := by
          unfold ClientTask.effect
          rw [if_neg hd]
          simp only [hr, if_true]
        rw [hg] at hcl ⊢
        rw [heff]
        have hso : s = true → t.chan.yields what c s = .pending := by rintro rfl; rfl
        cases hs : s with
        | true =>
          subst hs
          rw [hso rfl] at hmat hdisp
          simp only [if_true, ClientTask.onQueue]
          have hi := idles_pollSpurious t.chan
          refine ⟨hcl, by rw [hi.told]; exact hlen.trans h.len, by rw [hi.told, hi.taken]; exact h.pre, fun _ => ?_⟩
          dsimp only
          rw [hso rfl, hdisp, hmat]
          exact L.still ⟨rfl, id⟩ hi
        | false =>
          subst hs
          simp only [Bool.false_eq_true, if_false, ClientTask.onQueue, CSt.step, hph, if_true]
          rw [show ({ i with msg := t.chan.yields what c false } : WriteIn).msg = t.chan.yields what c false from rfl] at hmat
          cases hq : t.chan.queue with
          | nil =>
            have hs : t.chan.pollMsg c = if t.chan.ended then { t.chan with rxClosed := true } else { t.chan with phase := .wanting } := by simp [CSt.pollMsg, hq]
            have hy : t.chan.yields what c false = if t.chan.ended then .none else .pending := by simp [CSt.yields, hq]
            rw [hy] at hmat
            rw [hs]
            cases he : t.chan.ended with
            | true =>
              rw [he] at hmat
              simp only [if_true] at hmat ⊢
              refine ⟨hcl, hlen.trans h.len, h.pre, fun _ => ?_⟩
              dsimp only
              rw [hdisp, hy, he]
              exact ⟨.inl hph, by simp [hcb, hmat.1], L.waits, fun e => by rw [if_pos rfl, hmat.2] at e; cases e⟩
            | false =>
              rw [he] at hmat
              simp only [Bool.false_eq_true, if_false] at hmat ⊢
              refine ⟨hcl, hlen.trans h.len, h.pre, fun _ => ?_⟩
              dsimp only
              rw [hdisp, hy, he]
              simp only [Bool.false_eq_true, if_false]
              rw [hmat]
              exact ⟨.inr rfl, L.flight, L.waits, L.opened⟩
          | cons r q =>
            have hy : t.chan.yields what c false = if c then .none else .req (what r.id).1 (what r.id).2 := by simp [CSt.yields, hq]
            rw [hy] at hmat
            cases hc : c with
            | true =>
              subst hc
              have hs : t.chan.pollMsg true = { t.chan with queue := q, log := t.chan.log ++ [r.drop] } := by simp [CSt.pollMsg, hq]
              rw [hs]
              simp only [if_true] at hmat
              refine ⟨hcl, by simp only [told_append, told_drop, List.append_nil]; exact hlen.trans h.len, by simp; exact h.pre, fun _ => ?_⟩
              dsimp only
              rw [hdisp, hy]
              exact ⟨.inl hph, by simp [hcb, hmat.1], fun r' e => (by dsimp only at e; rw [hcb] at e; cases e), fun e => by rw [if_pos rfl, hmat.2] at e; cases e⟩
            | false =>
              subst hc
              have hs : t.chan.pollMsg false = { t.chan with queue := q, callback := some r, log := t.chan.log ++ [.encoded r.id] } := by
                simp [CSt.pollMsg, hq, CSt.setCallback, hcb]
              rw [hs]
              simp only [Bool.false_eq_true, if_false] at hmat
              have hall := (L.opened hco).2 hcb
              refine ⟨hcl, by simp only [told_append, told_encoded, List.append_nil]; exact hlen.trans h.len, ?_, fun _ => ?_⟩
              · simp only [told_append, told_encoded, List.append_nil, taken_append, taken_encoded]
                exact h.pre.trans (List.prefix_append _ _)
              · dsimp only
                rw [hdisp, hy]
                simp only [Bool.false_eq_true, if_false]
                refine ⟨.inl hph, by simp [hmat.1], fun r' e => ?_, fun _ => ⟨(L.opened hco).1, fun e => by cases e⟩⟩
                simp only [Option.some.injEq] at e
                subst e
                simp [hall]
      · have hr0 : t.fed.disp.polls = false := by simpa using hr
        refine quiet _ rfl (fun j e => by cases e) ?_ ?_
        · rw [hg, hdisp]; exact still_write env hd0 _ hr0
        · have : t.effect env P H (t.given what (.write i) c s) c s =
              (if (t.fed.step env P H (.act (.write { i with msg := t.chan.yields what c s }))).disp.done = true then some .recvErr else none) := by
            rw [hg]
            unfold ClientTask.effect
            rw [if_neg hd]
            simp only [hr0, Bool.false_eq_true, if_false]
          rw [this]
          rcases ended (.write { i with msg := t.chan.yields what c s }) with e | e
          · exact .inl e
          · exact .inr (.inl e)
    | flush f i =>
      refine quiet (.flush f i) rfl (fun j e => by cases e) ?_ ?_
      · rw [step_of _ _ (fun _ e => by cases e) (show t.fed.disp.step env P (.flush f i) = t.fed.disp.flushTurn f i by simp [Disp.step, hd0])]
        exact still_flush _ _ _
      · have : t.effect env P H (.flush f i) c s = (if (t.fed.step env P H (.act (.flush f i))).disp.done = true then some .recvErr else none) := by
          show t.effect env P H (.flush f i) c s = _
          unfold ClientTask.effect
          rw [if_neg hd]
        rw [this]
        rcases ended (.flush f i) with e | e
        · exact .inl e
        · exact .inr (.inl e)
    | finish b f =>
      have hx := step_of (.finish b f) _ (fun _ e => by cases e) (show t.fed.disp.step env P (.finish b f) = t.fed.disp.finishTurn b f by simp [Disp.step, hd0])
      refine quiet (.finish b f) rfl (fun j e => by cases e) ?_ ?_
      · show Still t.fed.disp (t.fed.step env P H (.act (.finish b f))).disp
        rw [hx]; exact still_finish _ _ _
      · have : t.effect env P H (.finish b f) c s = (if t.fed.disp.result b f = .error then some .recvErr else none) := by
          show t.effect env P H (.finish b f) c s = _
          unfold ClientTask.effect
          rw [if_neg hd]
        rw [this]
        by_cases e : t.fed.disp.result b f = .error
        · refine .inr (.inl ⟨if_pos e, ?_⟩)
          show (t.fed.step env P H (.act (.finish b f))).disp.done = true
          rw [hx]; exact finish_error _ _ _ e
        · exact .inl (if_neg e)
    | readAgain =>
      refine quiet .readAgain rfl (fun j e => by cases e) ?_ (.inl ?_)
      · rw [step_of _ _ (fun _ e => by cases e) (show t.fed.disp.step env P .readAgain = { t.fed.disp with conn := { t.fed.disp.conn with notify := false } } by simp [Disp.step, hd0])]
        exact .of rfl rfl
      · show t.effect env P H .readAgain c s = _
        unfold ClientTask.effect
        rw [if_neg hd]
    | disable b =>
      refine quiet (.disable b) rfl (fun j e => by cases e) ?_ (.inl ?_)
      · rw [step_of _ _ (fun _ e => by cases e) (show t.fed.disp.step env P (.disable b) = t.fed.disp.disableKeepAlive b by simp [Disp.step, hd0])]
        exact still_disable _ _
      · show t.effect env P H (.disable b) c s = _
        unfold ClientTask.effect
        rw [if_neg hd]
    | want k =>
      refine quiet (.want k) rfl (fun j e => by cases e) ?_ (.inl ?_)
      · rw [step_of _ _ (fun _ e => by cases e) (show t.fed.disp.step env P (.want k) = t.fed.disp.want k from rfl)]
        exact still_want _ _
      · show t.effect env P H (.want k) c s = _
        unfold ClientTask.effect
        rw [if_neg hd]
    | dropReader k =>
      refine quiet (.dropReader k) rfl (fun j e => by cases e) ?_ (.inl ?_)
      · rw [step_of _ _ (fun _ e => by cases e) (show t.fed.disp.step env P (.dropReader k) = t.fed.disp.loseReader k from rfl)]
        exact .of rfl rfl
      · show t.effect env P H (.dropReader k) c s = _
        unfold ClientTask.effect
        rw [if_neg hd]
    | drop =>
      refine quiet .drop rfl (fun j e => by cases e) (.dead ?_) (.inr (.inr ⟨?_, ?_⟩))
      · rfl
      · show t.effect env P H .drop c s = _
        unfold ClientTask.effect
        rw [if_neg hd]
      · rfl

theorem Inv.step {env : EncodeEnv} {P : TrailerParser} {H : HeadFn ResponseMsg} {what : Nat → ReqHead × Option BodyLength} {t : ClientTask} (h : Inv t) (a : TaskAct) :
    Inv (t.step env P H what a) := by
  cases a with
  | submit b => exact h.queue (idles_submit _ b)
  | permit r => exact h.queue (idles_permit _ r)
  | push r => exact h.queue (idles_push _ r)
  | dropTx => exact h.queue (idles_dropTx _)
  | pull =>
    simp only [ClientTask.step]
    split
    · exact ⟨h.client, h.len, h.pre, h.live⟩
    · exact h
  | act a c s =>
    simp only [ClientTask.step]
    split
    · rename_i hp; exact h.act a c s hp
    · exact h
  | «continue» s =>
    simp only [ClientTask.step]
    split
    · exact h.queue (idles_trySpurious _)
    · exact h.queue (idles_continue _)

theorem Inv.run {env : EncodeEnv} {P : TrailerParser} {H : HeadFn ResponseMsg} {what : Nat → ReqHead × Option BodyLength} {t : ClientTask} (h : Inv t) (as : List TaskAct) :
    Inv (t.run env P H what as) := by
  induction as generalizing t with
  | nil => exact h
  | cons a as ih => exact ih (h.step a)

theorem Inv.start {t : ClientTask} (hs : t.fed.disp.Start) (hc : t.fed.disp.conn.client = true) (hg : t.fed.got = []) (hq : t.chan = {}) : Inv t := by
  refine ⟨hc, by rw [hg, hq]; rfl, by rw [hq]; exact List.prefix_refl _, fun _ => ?_⟩
  rw [hq]
  exact ⟨.inl rfl, by rw [hs.inFlight]; rfl, (by intro r e; cases e), fun _ => ⟨rfl, fun _ => rfl⟩⟩

end Hyper.Callers
