import Verif.Model.FfiBody
import Verif.Props.ClosedLoop

/-! # C82: the callbacks of the C API mean what its documentation says -/

namespace Hyper

open Ffi

namespace Spec

/-- The data of the answers of a body, up to its end or an error. -/
def heard : List FrameOut → List Bytes
  | .data bs :: t => bs :: heard t
  | .pending :: t | .trailers _ :: t => heard t
  | _ => []

/-- The first answer that ends it. -/
def verdict : List FrameOut → Option FrameOut
  | [] => none
  | .data _ :: t | .pending :: t | .trailers _ :: t => verdict t
  | x :: _ => some x

/-- The buffers an application got. -/
def bufs : List DataTask → List Bytes
  | .buf bs :: t => bs :: bufs t
  | _ => []

/-- What ended the series of its tasks. -/
def lastOf : List DataTask → Option DataTask
  | [] => none
  | .buf _ :: t => lastOf t
  | x :: _ => some x

/-- The task that reports an answer which ends the body. -/
def taskFor : FrameOut → DataTask
  | .none => .empty
  | .panic => .panic
  | _ => .error

/-- The buffers the data callback handed over. -/
def handed : List DataCall → List Bytes
  | [] => []
  | c :: cs =>
    if c.code = 0 then
      match c.out with
      | some bs => bs :: handed cs
      | none => []
    else if c.code = 1 then handed cs
    else []

def polled : List UserPoll → List Bytes
  | [] => []
  | .data bs :: t => bs :: polled t
  | _ :: t => polled t

/-- The last setting that was accepted, or the default. -/
def lastSet {α β : Type} (f : α → Option β) (d : β) (l : List α) : β := (l.filterMap f).getLast?.getD d

end Spec

open Spec

/-! ## Received bodies -/

theorem pollData_heard (ans : List FrameOut) :
    match pollData ans with
    | (none, rest) => heard ans = heard rest ∧ verdict ans = verdict rest
    | (some (.buf bs), rest) => heard ans = bs :: heard rest ∧ verdict ans = verdict rest
    | (some o, _) => heard ans = [] ∧ ∃ x, verdict ans = some x ∧ o = taskFor x := by
  induction ans with
  | nil => simp [pollData, heard, verdict]
  | cons a t ih =>
    cases a with
    | trailers fs => simpa [pollData, heard, verdict] using ih
    | pending => simp [pollData, heard, verdict]
    | data bs => simp [pollData, heard, verdict]
    | none => exact ⟨rfl, _, rfl, rfl⟩
    | error => exact ⟨rfl, _, rfl, rfl⟩
    | panic => exact ⟨rfl, _, rfl, rfl⟩

/-- C82, `hyper_body_data`.  An application that makes these tasks one after the other gets the data of the body in order, nothing twice, nothing left out, whatever
it is mixed with (pauses, trailers); at every moment what it has got, followed by what it will get, is the data of the body.  `HYPER_TASK_EMPTY` it gets only when
the body has ended and all data was handed over, and an error only if the body has failed, after all data that came before. -/
theorem C82_data_tasks (n : Nat) (ans : List FrameOut) :
    (lastOf (dataTasks n ans).1 = none → bufs (dataTasks n ans).1 ++ heard (dataTasks n ans).2 = heard ans ∧ verdict (dataTasks n ans).2 = verdict ans) ∧
    ∀ o, lastOf (dataTasks n ans).1 = some o → bufs (dataTasks n ans).1 = heard ans ∧ ∃ x, verdict ans = some x ∧ o = taskFor x := by
  induction n generalizing ans with
  | zero => exact ⟨fun _ => ⟨rfl, rfl⟩, fun o h => by cases h⟩
  | succ n ih =>
    have hp := pollData_heard ans
    unfold dataTasks
    cases h : pollData ans with
    | mk o rest =>
      rw [h] at hp
      obtain ⟨i1, i2⟩ := ih rest
      cases o with
      | none =>
        obtain ⟨p1, p2⟩ := hp
        simp only
        rw [p1, p2]
        exact ⟨i1, i2⟩
      | some o =>
        cases o with
        | buf bs =>
          obtain ⟨p1, p2⟩ := hp
          simp only [lastOf, bufs]
          rw [p1, p2]
          refine ⟨fun hl => ⟨by rw [List.cons_append, (i1 hl).1], (i1 hl).2⟩, fun o ho => ⟨by rw [(i2 o ho).1], (i2 o ho).2⟩⟩
        | empty => exact ⟨fun hl => by simp [lastOf] at hl, fun o ho => by simp only [lastOf, Option.some.injEq] at ho; subst ho; exact ⟨hp.1.symm, hp.2⟩⟩
        | error => exact ⟨fun hl => by simp [lastOf] at hl, fun o ho => by simp only [lastOf, Option.some.injEq] at ho; subst ho; exact ⟨hp.1.symm, hp.2⟩⟩
        | panic => exact ⟨fun hl => by simp [lastOf] at hl, fun o ho => by simp only [lastOf, Option.some.injEq] at ho; subst ho; exact ⟨hp.1.symm, hp.2⟩⟩

theorem dataTasks_ends (n : Nat) (ans : List FrameOut) (hn : ans.length ≤ n) (h : verdict ans ≠ none) : lastOf (dataTasks n ans).1 ≠ none := by
  induction n generalizing ans with
  | zero => cases ans with
    | nil => exact absurd rfl h
    | cons a t => simp at hn
  | succ n ih =>
    have hp := pollData_heard ans
    have hl : (pollData ans).2.length ≤ n := by
      clear ih hp h
      have : ∀ l : List FrameOut, l ≠ [] → (pollData l).2.length < l.length := by
        intro l
        induction l with
        | nil => intro h; exact absurd rfl h
        | cons a t ih =>
          intro _
          cases a with
          | trailers fs =>
            simp only [pollData]
            cases t with
            | nil => simp [pollData]
            | cons b t => have := ih (by simp); simp only [List.length_cons] at *; omega
          | _ => simp [pollData]
      cases ans with
      | nil => simp [pollData]
      | cons a t => have := this (a :: t) (by simp); simp only [List.length_cons] at *; omega
    unfold dataTasks
    cases hq : pollData ans with
    | mk o rest =>
      rw [hq] at hp hl
      cases o with
      | none => exact ih rest hl (by rw [← hp.2]; exact h)
      | some o =>
        cases o with
        | buf bs => exact ih rest hl (by rw [← hp.2]; exact h)
        | empty => simp [lastOf]
        | error => simp [lastOf]
        | panic => simp [lastOf]

/-- C82: and the end comes, after as many polls as the body has answers. -/
theorem C82_data_ends (ans : List FrameOut) (h : verdict ans ≠ none) : ∃ o, lastOf (dataTasks ans.length ans).1 = some o ∧ bufs (dataTasks ans.length ans).1 = heard ans := by
  have := dataTasks_ends ans.length ans (Nat.le_refl _) h
  cases ho : lastOf (dataTasks ans.length ans).1 with
  | none => exact absurd ho this
  | some o => exact ⟨o, rfl, ((C82_data_tasks ans.length ans).2 o ho).1⟩

/-- What is known of a task of `hyper_body_foreach` that began with the answers `ans` when the answers `rest` are left. -/
structure Eaching (cb : Nat → Int) (ans : List FrameOut) (e : Each) (rest : List FrameOut) : Prop where
  going : e.out = none → e.calls ++ heard rest = heard ans ∧ verdict rest = verdict ans ∧ ∀ k < e.calls.length, cb k = 0
  ok : e.out = some .ok → e.calls = heard ans ∧ verdict ans = some .none ∧ ∀ k < e.calls.length, cb k = 0
  error : e.out = some .error → e.calls = heard ans ∧ verdict ans = some .error ∧ ∀ k < e.calls.length, cb k = 0
  aborted : e.out = some .aborted → e.calls <+: heard ans ∧ e.calls ≠ [] ∧ cb (e.calls.length - 1) ≠ 0 ∧ ∀ k < e.calls.length - 1, cb k = 0
  panic : e.out = some .panic → verdict ans = some .panic

theorem pollEach_keeps (cb : Nat → Int) (ans : List FrameOut) (rest : List FrameOut) (e : Each) (ho : e.out = none) (h : Eaching cb ans e rest) :
    Eaching cb ans (pollEach cb e rest).1 (pollEach cb e rest).2 := by
  induction rest generalizing e with
  | nil => exact h
  | cons a t ih =>
    obtain ⟨g1, g2, g3⟩ := h.going ho
    cases a with
    | pending =>
      refine ⟨fun _ => ⟨g1, g2, g3⟩, ?_, ?_, ?_, ?_⟩ <;> (intro hx; rw [show (pollEach cb e (.pending :: t)).1 = e from rfl, ho] at hx; cases hx)
    | trailers fs =>
      refine ih e ho ⟨fun _ => ⟨g1, g2, g3⟩, ?_, ?_, ?_, ?_⟩ <;> (intro hx; rw [ho] at hx; cases hx)
    | data bs =>
      simp only [pollEach]
      by_cases hc : cb e.calls.length ≠ ITER_CONTINUE
      · rw [if_pos hc]
        refine ⟨fun hx => by simp at hx, fun hx => by simp at hx, fun hx => by simp at hx, fun _ => ⟨⟨heard t, ?_⟩, by simp, ?_, ?_⟩, fun hx => by simp at hx⟩
        · rw [← g1]; simp [heard]
        · simpa [ITER_CONTINUE] using hc
        · intro k hk
          exact g3 k (by simpa using hk)
      · rw [if_neg hc]
        refine ih _ ho ⟨fun _ => ⟨?_, g2, ?_⟩, ?_, ?_, ?_, ?_⟩
        · rw [← g1]; simp [heard]
        · intro k hk
          simp only [List.length_append, List.length_cons, List.length_nil, Nat.zero_add] at hk
          by_cases hk' : k < e.calls.length
          · exact g3 k hk'
          · have : k = e.calls.length := by omega
            subst this
            simpa [ITER_CONTINUE] using hc
        all_goals (intro hx; have hx' : e.out = _ := hx; rw [ho] at hx'; cases hx')
    | none =>
      refine ⟨fun hx => by simp [pollEach] at hx, fun _ => ⟨?_, g2.symm, g3⟩, fun hx => by simp [pollEach] at hx, fun hx => by simp [pollEach] at hx, fun hx => by simp [pollEach] at hx⟩
      rw [← g1]; simp [heard, pollEach]
    | error =>
      refine ⟨fun hx => by simp [pollEach] at hx, fun hx => by simp [pollEach] at hx, fun _ => ⟨?_, g2.symm, g3⟩, fun hx => by simp [pollEach] at hx, fun hx => by simp [pollEach] at hx⟩
      rw [← g1]; simp [heard, pollEach]
    | panic =>
      exact ⟨fun hx => by simp [pollEach] at hx, fun hx => by simp [pollEach] at hx, fun hx => by simp [pollEach] at hx, fun hx => by simp [pollEach] at hx, fun _ => g2.symm⟩

theorem eachPolls_keeps (cb : Nat → Int) (ans : List FrameOut) (n : Nat) (rest : List FrameOut) (e : Each) (h : Eaching cb ans e rest) :
    Eaching cb ans (eachPolls cb n e rest).1 (eachPolls cb n e rest).2 := by
  induction n generalizing e rest with
  | zero => exact h
  | succ n ih =>
    unfold eachPolls
    cases ho : e.out with
    | some o => simpa using h
    | none => simpa using ih _ _ (pollEach_keeps cb ans rest e ho h)

/-- C82, `hyper_body_foreach`, polled any number of times.  While it is not done the callback has been called with the data so far, in order, and asked to go on each
time.  It ends well only when the body has ended and the callback was called with all its data; with the body's error only if the body failed, after all data before it;
and as aborted by the callback exactly if a call, the last one, did not return `HYPER_ITER_CONTINUE`. -/
theorem C82_foreach (cb : Nat → Int) (n : Nat) (ans : List FrameOut) : Eaching cb ans (eachPolls cb n {} ans).1 (eachPolls cb n {} ans).2 :=
  eachPolls_keeps cb ans n ans {} 
    ⟨fun _ => ⟨rfl, rfl, fun k hk => by simp at hk⟩, (fun h => by cases h), (fun h => by cases h), (fun h => by cases h), (fun h => by cases h)⟩

/-! ## Sent bodies -/

/-- C82, `hyper_body_set_data_func`.  The body is the buffers the callback hands over with `HYPER_POLL_READY`, in order, up to the first call that does not go on. -/
theorem C82_data_func (cs : List DataCall) : polled (userRun cs) = handed cs := by
  induction cs with
  | nil => rfl
  | cons c cs ih =>
    unfold userRun userPoll handed
    by_cases h0 : c.code = 0
    · rw [if_pos (show c.code = POLL_READY from h0), if_pos h0]
      cases c.out with
      | none => rfl
      | some bs => simp [polled, ih]
    · rw [if_neg (show ¬ c.code = POLL_READY from h0), if_neg h0]
      by_cases h1 : c.code = 1
      · rw [if_pos (show c.code = POLL_PENDING from h1), if_pos h1]
        simp [polled, ih]
      · rw [if_neg (show ¬ c.code = POLL_PENDING from h1), if_neg h1]
        by_cases h3 : c.code = POLL_ERROR
        · rw [if_pos h3]; rfl
        · rw [if_neg h3]; rfl

/-- C82: what a call means.  It ends the body exactly if it returns `HYPER_POLL_READY` with a null buffer; it fails exactly with a code other than
`HYPER_POLL_READY` and `HYPER_POLL_PENDING`, and aborts exactly with `HYPER_POLL_ERROR`. -/
theorem C82_data_codes (c : DataCall) :
    (userPoll c = .done ↔ c.code = 0 ∧ c.out = none) ∧ (∀ bs, userPoll c = .data bs ↔ c.code = 0 ∧ c.out = some bs) ∧ (userPoll c = .pending ↔ c.code = 1) ∧
    (userPoll c = .error .aborted ↔ c.code = 3) ∧ ∀ k, userPoll c = .error (.badCode k) ↔ (k = c.code ∧ c.code ∉ [0, 1, 3]) := by
  obtain ⟨code, out⟩ := c
  unfold userPoll POLL_READY POLL_PENDING POLL_ERROR
  by_cases h0 : code = 0
  · subst h0; cases out <;> simp [eq_comm]
  · by_cases h1 : code = 1
    · subst h1; simp
    · by_cases h3 : code = 3
      · subst h3; simp
      · simp [h0, h1, h3, eq_comm]

/-- C82: a body that was not configured is empty. -/
theorem C82_unconfigured : userPoll dataNoop = .done := rfl

/-! ## Transports -/

/-- C82, in part: a read callback that keeps its contract — it puts some bytes, no more than there is room for, and returns their number; or it puts none and returns one of
the two other values — is understood: exactly those bytes follow the ones that were there, and all of them are initialised.  Missing: a number that is one of the two other
values (`C82_read_lost`). -/
theorem C82_read_partial (b : ReadBuf) (hf : b.filled ≤ b.capacity) (bs : Bytes) (hl : bs.length ≤ b.remaining) (hn : bs.length < 0xFFFFFFFE) :
    (ioRead b bs bs.length).1 = .ready ∧ (ioRead b bs bs.length).2.filledCells = b.filledCells ++ bs.map some ∧
    (ioRead b bs bs.length).2.capacity = b.capacity ∧ (ioRead b bs bs.length).2.filled ≤ b.capacity ∧
    ioRead b [] 0xFFFFFFFF = (.pending, b) ∧ ioRead b [] 0xFFFFFFFE = (.error, b) := by
  have h1 : ¬ bs.length = IO_PENDING := by unfold IO_PENDING; omega
  have h2 : ¬ bs.length = IO_ERROR := by unfold IO_ERROR; omega
  have hr : bs.length ≤ b.raw.length - b.filled := hl
  have hf' : b.filled ≤ b.raw.length := hf
  have hw : ∀ b : ReadBuf, b.filled ≤ b.raw.length → b.writeSlice [] = b := by
    intro b hb
    unfold ReadBuf.writeSlice writeCells
    simp
  unfold ioRead
  rw [if_neg h1, if_neg h2]
  refine ⟨rfl, ?_, ?_, ?_, ?_, ?_⟩
  · simp only [ReadBuf.filledCells, ReadBuf.advance, ReadBuf.writeSlice, writeCells]
    have e : (List.take b.filled b.raw ++ List.map some bs).length = b.filled + bs.length := by simp; omega
    rw [← e, List.take_left']
    rfl
  · simp only [ReadBuf.capacity, ReadBuf.advance, ReadBuf.writeSlice, writeCells]
    simp; omega
  · simp only [ReadBuf.capacity, ReadBuf.advance, ReadBuf.writeSlice]
    omega
  · rw [if_pos (show 0xFFFFFFFF = IO_PENDING from rfl), hw b hf']
  · rw [if_neg (show ¬ 0xFFFFFFFE = IO_PENDING by decide), if_pos (show 0xFFFFFFFE = IO_ERROR from rfl), hw b hf']

/-- A callback that reads `0xFFFFFFFF` bytes (into a buffer with that much room) and says so is taken to be pending: the bytes are lost. -/
theorem C82_read_lost (b : ReadBuf) (bs : Bytes) (hl : bs.length = 0xFFFFFFFF) : (ioRead b bs bs.length).1 = .pending ∧ (ioRead b bs bs.length).2.filled = b.filled := by
  unfold ioRead
  rw [if_pos (show bs.length = IO_PENDING from hl)]
  exact ⟨rfl, rfl⟩

/-- C82, in part: the same of a write callback.  Missing: the same numbers (`C82_write_twice`). -/
theorem C82_write_partial (n : Nat) (hn : n < 0xFFFFFFFE) : ioWrite n = .wrote n ∧ ioWrite 0xFFFFFFFF = .pending ∧ ioWrite 0xFFFFFFFE = .error := by
  refine ⟨?_, rfl, rfl⟩
  unfold ioWrite
  rw [if_neg (by unfold IO_PENDING; omega), if_neg (by unfold IO_ERROR; omega)]

/-- A callback that has written `0xFFFFFFFF` bytes and says so is taken not to have written any: they will be written again. -/
theorem C82_write_twice : ioWrite 0xFFFFFFFF ≠ .wrote 0xFFFFFFFF := by decide

/-! ## Requests, responses, errors -/

theorem last_snoc {α β : Type} (f : α → Option β) (d : β) (l : List α) (a : α) : lastSet f d (l ++ [a]) = (f a).getD (lastSet f d l) := by
  unfold lastSet
  rw [List.filterMap_append]
  cases h : f a <;> simp [h]

theorem last_rev {α β : Type} (f : α → Option β) (d : β) (l : List α) {r : β} (h : lastSet f d l = r) (a : α) : lastSet f d (l ++ [a]) = (f a).getD r := by
  rw [last_snoc, h]

/-- C82: a request is made of the last settings that were accepted, for each part by itself; a setter that is refused changes nothing. -/
theorem C82_request (H : Http) (ops : List ReqOp) :
    (Req.new.run H ops).method = lastSet (fun | .method m => if H.methodOk m then some m else none | _ => none) (ascii "GET") ops ∧
    (Req.new.run H ops).uri = lastSet (fun | .uri u => if H.uriOk u then some u else none | .parts s a p => H.build s a p | _ => none) (ascii "/") ops ∧
    (Req.new.run H ops).version = lastSet (fun | .version 0 => some .h11 | .version 10 => some .h10 | .version 11 => some .h11 | .version 20 => some .h2 | _ => none) CVersion.h11 ops ∧
    (Req.new.run H ops).body = lastSet (fun | .body b => some (some b) | _ => none) none ops := by
  have key : ∀ l : List ReqOp, ∀ ops, ops = l.reverse →
    (Req.new.run H ops).method = lastSet (fun | .method m => if H.methodOk m then some m else none | _ => none) (ascii "GET") ops ∧
    (Req.new.run H ops).uri = lastSet (fun | .uri u => if H.uriOk u then some u else none | .parts s a p => H.build s a p | _ => none) (ascii "/") ops ∧
    (Req.new.run H ops).version = lastSet (fun | .version 0 => some .h11 | .version 10 => some .h10 | .version 11 => some .h11 | .version 20 => some .h2 | _ => none) CVersion.h11 ops ∧
    (Req.new.run H ops).body = lastSet (fun | .body b => some (some b) | _ => none) none ops := by
    intro l
    induction l with
    | nil => intro ops h; subst h; exact ⟨rfl, rfl, rfl, rfl⟩
    | cons a l ih =>
      intro ops h
      obtain ⟨i1, i2, i3, i4⟩ := ih _ rfl
      subst h
      rw [List.reverse_cons, last_snoc, last_snoc, last_snoc, last_snoc, ← i1, ← i2, ← i3, ← i4]
      have hr : Req.new.run H (l.reverse ++ [a]) = ((Req.new.run H l.reverse).set H a).2 := by simp [Req.run]
      rw [hr]
      generalize Req.new.run H l.reverse = r
      cases a with
      | method m => by_cases hm : H.methodOk m <;> simp [Req.set, hm]
      | uri u => by_cases hm : H.uriOk u <;> simp [Req.set, hm]
      | parts s a p => cases hm : H.build s a p <;> simp [Req.set, hm]
      | body b => simp [Req.set]
      | version v =>
        by_cases h0 : v = 0
        · subst h0; simp [Req.set, versionOf, VERSION_NONE]
        · by_cases h10 : v = 10
          · subst h10; simp [Req.set, versionOf, VERSION_NONE, VERSION_1_0]
          · by_cases h11 : v = 11
            · subst h11; simp [Req.set, versionOf, VERSION_NONE, VERSION_1_0, VERSION_1_1]
            · by_cases h20 : v = 20
              · subst h20; simp [Req.set, versionOf, VERSION_NONE, VERSION_1_0, VERSION_1_1, VERSION_2]
              · have : versionOf v = none := by simp [versionOf, VERSION_NONE, VERSION_1_0, VERSION_1_1, VERSION_2, h0, h10, h11, h20]
                simp [Req.set, this, h0, h10, h11, h20]
  exact key ops.reverse ops (by simp)

/-- C82: a setter says that it has refused exactly if it changed nothing it should have: it returns `HYPERE_INVALID_ARG` only together with the request as it was. -/
theorem C82_refused (H : Http) (r : Req) (op : ReqOp) (h : (r.set H op).1 = false) : (r.set H op).2 = r := by
  cases op with
  | method m => by_cases hm : H.methodOk m <;> simp_all [Req.set]
  | uri m => by_cases hm : H.uriOk m <;> simp_all [Req.set]
  | parts s a p => cases hm : H.build s a p <;> simp_all [Req.set]
  | version v => cases hm : versionOf v <;> simp_all [Req.set]
  | body b => simp [Req.set] at h

/-- C82: a version set and read back (of a response with it) is the same, but for `HYPER_HTTP_VERSION_NONE`, which stands for HTTP/1.1. -/
theorem C82_version (v : Int) (w : CVersion) (h : versionOf v = some w) : responseVersion w = if v = 0 then 11 else v := by
  unfold versionOf VERSION_NONE VERSION_1_0 VERSION_1_1 VERSION_2 at h
  by_cases h0 : v = 0
  · subst h0; simp at h; subst h; rfl
  · by_cases h10 : v = 10
    · subst h10; simp at h; subst h; rfl
    · by_cases h11 : v = 11
      · subst h11; simp at h; subst h; rfl
      · by_cases h20 : v = 20
        · subst h20; simp at h; subst h; rfl
        · simp [h0, h10, h11, h20] at h

/-- C82, `hyper_error_print`: what is written to the buffer is the beginning of the text, all of it if there is room, and never more than there is room. -/
theorem C82_print (room : Nat) (ps : List Bytes) : printTo room ps = ps.flatten.take room := by
  induction ps generalizing room with
  | nil => simp [printTo]
  | cons p ps ih =>
    simp only [printTo, List.flatten_cons]
    by_cases h : p.length ≤ room
    · rw [if_pos h, ih, List.take_append, List.take_of_length_le h]
    · rw [if_neg h, List.take_append_of_le_length (by omega)]

/-- `hyper_response_status` is documented to be "always within the range of 100-599"; it is the status of the head, and heads with others are accepted. -/
theorem C82_status_beyond : (match (Wire.exUserHeads.parse none (ascii "HTTP/1.1 999 X\r\n\r\n")).1 with | .ok (some x) => some x.head.status | _ => none) = some 999 := by decide +kernel

/-- Examples: data, pauses and trailers; the tasks get the data and the end. -/
example : dataTasks 4 [.data [1], .pending, .trailers [], .data [2, 3], .trailers [], .none] = ([.buf [1], .buf [2, 3], .empty], []) := by decide

/-- A callback that stops at the second piece. -/
example : eachPolls (fun k => if k = 1 then 1 else 0) 5 {} [.data [1], .pending, .data [2], .data [3], .none] = (⟨[[1], [2]], some .aborted⟩, [.data [3], .none]) := by decide

example : eachPolls (fun _ => 0) 5 {} [.data [1], .pending, .data [2], .data [3], .none] = (⟨[[1], [2], [3]], some .ok⟩, []) := by decide

example : userRun [⟨0, some [1]⟩, ⟨1, none⟩, ⟨0, some [2]⟩, ⟨0, none⟩, ⟨0, some [9]⟩] = [.data [1], .pending, .data [2], .done] := by decide

example : (ioRead (ReadBuf.uninit 4) [7, 8] 2).2.filledCells = [some 7, some 8] := by decide

example : (Req.new.run ⟨fun m => m == ascii "PUT", fun _ => true, fun _ _ _ => none⟩ [.method (ascii "PUT"), .method (ascii "\r"), .version 12, .version 10, .parts none none none]) =
    ⟨ascii "PUT", ascii "/", .h10, none⟩ := by decide +kernel

example : printTo 5 [ascii "con", ascii "nection", ascii "!"] = ascii "conne" := by decide +kernel

end Hyper
