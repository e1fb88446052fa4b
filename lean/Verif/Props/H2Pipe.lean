import Verif.Model.H2Pipe

/-!
# C46: HTTP/2 bodies are sent completely, in order, and ended exactly once
-/

namespace Hyper

namespace Pipe

/-! ## Specification -/

/-- The payloads of the body's data frames. -/
def UFrame.payload? : UFrame → Option Bytes
  | .data bs _ => some bs
  | _ => none

def UFrame.trailers? : UFrame → Option Trailers
  | .trailers t => some t
  | _ => none

/-- The payloads of the stream's data frames. -/
def OFrame.payload? : OFrame → Option Bytes
  | .data bs _ => some bs
  | _ => none

def OFrame.trailers? : OFrame → Option Trailers
  | .trailers t => some t
  | _ => none

/-- The frame ends the stream. -/
def OFrame.ends : OFrame → Bool
  | .data _ eos => eos
  | .trailers _ => true
  | .reset _ => false

def OFrame.isReset : OFrame → Bool
  | .reset _ => true
  | _ => false

def payloadsIn (fs : List UFrame) : List Bytes := fs.filterMap UFrame.payload?
def payloadsOut (fs : List OFrame) : List Bytes := fs.filterMap OFrame.payload?
def trailersIn (fs : List UFrame) : List Trailers := fs.filterMap UFrame.trailers?
def trailersOut (fs : List OFrame) : List Trailers := fs.filterMap OFrame.trailers?

/-- The stream got the whole body: every data frame in order (and perhaps an empty one to end it), the trailers, and the end of
the stream on the last frame and on no other. -/
structure Whole (given : List UFrame) (out : List OFrame) : Prop where
  data : payloadsOut out = payloadsIn given ∨ payloadsOut out = payloadsIn given ++ [[]]
  trailers : trailersOut out = trailersIn given
  last : ∃ pre f, out = pre ++ [f] ∧ f.ends = true ∧ ∀ g ∈ pre, g.ends = false
  noReset : ∀ f ∈ out, f.isReset = false

/-- The stream got a part of the body, and neither an end nor a reset. -/
structure Part (given : List UFrame) (out : List OFrame) : Prop where
  data : payloadsOut out <+: payloadsIn given
  trailers : trailersOut out = []
  open_ : ∀ f ∈ out, f.ends = false
  noReset : ∀ f ∈ out, f.isReset = false

/-- The body failed after giving `given`: all of it was sent, and then the stream was reset, not ended. -/
structure Cut (given : List UFrame) (out : List OFrame) : Prop where
  data : payloadsOut out = payloadsIn given
  last : ∃ pre r, out = pre ++ [.reset r] ∧ ∀ g ∈ pre, g.ends = false ∧ g.isReset = false

/-! ## Proof -/

structure Inv (s : St) : Prop where
  /-- While the future runs. -/
  running : s.res = none → payloadsOut s.out ++ (s.buffered.map Prod.fst).toList = payloadsIn s.given ∧ trailersIn s.given = [] ∧
    trailersOut s.out = [] ∧ (∀ f ∈ s.out, f.ends = false) ∧ (∀ f ∈ s.out, f.isReset = false)
  ok : s.res = some .ok → Whole s.given s.out
  writeErr : s.res = some .writeErr → Part s.given s.out
  userErr : s.res = some .userErr → Cut s.given s.out

theorem Inv.init : Inv Pipe.init := by
  refine ⟨fun _ => ⟨rfl, rfl, rfl, ?_, ?_⟩, ?_, ?_, ?_⟩ <;> simp [Pipe.init]

theorem payloadsOut_append (a b : List OFrame) : payloadsOut (a ++ b) = payloadsOut a ++ payloadsOut b := List.filterMap_append
theorem payloadsIn_append (a b : List UFrame) : payloadsIn (a ++ b) = payloadsIn a ++ payloadsIn b := List.filterMap_append
theorem trailersOut_append (a b : List OFrame) : trailersOut (a ++ b) = trailersOut a ++ trailersOut b := List.filterMap_append
theorem trailersIn_append (a b : List UFrame) : trailersIn (a ++ b) = trailersIn a ++ trailersIn b := List.filterMap_append

/-- Sending `bs`, the next of what the body gave. -/
theorem Inv.send {s : St} {bs : Bytes} {eos ok : Bool} (hb : s.buffered = none)
    (hd : payloadsOut s.out ++ [bs] = payloadsIn s.given ∨ (eos = true ∧ bs = [] ∧ payloadsOut s.out = payloadsIn s.given))
    (ht : trailersIn s.given = []) (ho : trailersOut s.out = []) (he : ∀ f ∈ s.out, f.ends = false) (hr : ∀ f ∈ s.out, f.isReset = false) :
    Inv (s.send bs eos ok) := by
  have hp : payloadsOut s.out <+: payloadsIn s.given := by
    rcases hd with h | ⟨_, _, h⟩
    · exact ⟨_, h⟩
    · rw [h]; exact List.prefix_refl _
  cases ok with
  | false =>
    refine ⟨fun h => by simp [St.send] at h, fun h => by simp [St.send] at h, fun _ => ?_, fun h => by simp [St.send] at h⟩
    exact ⟨hp, ho, he, hr⟩
  | true =>
    have e1 : payloadsOut (s.out ++ [.data bs eos]) = payloadsOut s.out ++ [bs] := payloadsOut_append _ _
    have e2 : trailersOut (s.out ++ [.data bs eos]) = [] := by rw [trailersOut_append, ho]; rfl
    have hr' : ∀ f ∈ s.out ++ [OFrame.data bs eos], f.isReset = false := by
      intro f hf
      rcases List.mem_append.1 hf with hf | hf
      · exact hr f hf
      · rw [List.mem_singleton.1 hf]; rfl
    cases eos with
    | true =>
      refine ⟨fun h => by simp [St.send] at h, fun _ => ?_, fun h => by simp [St.send] at h, fun h => by simp [St.send] at h⟩
      refine ⟨?_, e2.trans ht.symm, ⟨s.out, _, rfl, rfl, he⟩, hr'⟩
      show payloadsOut (s.out ++ [.data bs true]) = _ ∨ payloadsOut (s.out ++ [.data bs true]) = _
      rw [e1]
      rcases hd with h | ⟨_, hn, h⟩
      · exact .inl h
      · rw [hn, h]; exact .inr rfl
    | false =>
      refine ⟨fun _ => ?_, fun h => by simp [St.send] at h, fun h => by simp [St.send] at h, fun h => by simp [St.send] at h⟩
      rcases hd with h | ⟨hn, _⟩
      · refine ⟨?_, ht, e2, ?_, hr'⟩
        · show payloadsOut (s.out ++ [.data bs false]) ++ (s.buffered.map Prod.fst).toList = payloadsIn s.given
          rw [e1, hb]
          simpa using h
        · intro f hf
          rcases List.mem_append.1 hf with hf | hf
          · exact he f hf
          · rw [List.mem_singleton.1 hf]; rfl
      · cases hn

theorem Inv.fail {s : St} (h : Inv s) (hn : s.res = none) : Inv { s with res := some .writeErr } := by
  obtain ⟨h1, h2, h3, h4, h5⟩ := h.running hn
  refine ⟨fun h => by simp at h, fun h => by simp at h, fun _ => ?_, fun h => by simp at h⟩
  exact ⟨⟨_, h1⟩, h3, h4, h5⟩

theorem Inv.sendBuffered {s : St} (h : Inv s) (hn : s.res = none) (i : In) {bs : Bytes} {eos : Bool} (hb : s.buffered = some (bs, eos)) :
    Inv (s.sendBuffered i bs eos) := by
  obtain ⟨h1, h2, h3, h4, h5⟩ := h.running hn
  have g : Inv ({ s with buffered := none }.send bs eos i.sendOk) := by
    refine Inv.send rfl (.inl ?_) h2 h3 h4 h5
    rw [hb] at h1
    exact h1
  unfold St.sendBuffered
  split
  · split
    · exact h
    · exact h.fail hn
    · exact g
  · exact g

theorem Inv.pollBody {s : St} (h : Inv s) (hn : s.res = none) (i : In) (hb : s.buffered = none) : Inv (s.pollBody i) := by
  obtain ⟨h1, h2, h3, h4, h5⟩ := h.running hn
  have h1' : payloadsOut s.out = payloadsIn s.given := by rw [hb] at h1; simpa using h1
  unfold St.pollBody
  split
  · exact h
  · rename_i bs eos _
    have e1 : payloadsIn (s.given ++ [.data bs eos]) = payloadsIn s.given ++ [bs] := payloadsIn_append _ _
    have e2 : trailersIn (s.given ++ [.data bs eos]) = [] := by rw [trailersIn_append, h2]; rfl
    split
    · refine Inv.send hb (.inl ?_) e2 h3 h4 h5
      show payloadsOut s.out ++ [bs] = payloadsIn (s.given ++ [.data bs eos])
      rw [e1, h1']
    · refine ⟨fun _ => ⟨?_, e2, h3, h4, h5⟩, ?_, ?_, ?_⟩
      · show payloadsOut s.out ++ [bs] = payloadsIn (s.given ++ [.data bs eos])
        rw [e1, h1']
      all_goals intro hc; rw [show _ = s.res from rfl, hn] at hc; cases hc
  · rename_i t _
    have e1 : payloadsIn (s.given ++ [.trailers t]) = payloadsIn s.given := by rw [payloadsIn_append]; exact List.append_nil _
    have e2 : trailersIn (s.given ++ [.trailers t]) = [t] := by rw [trailersIn_append, h2]; rfl
    split
    · refine ⟨fun h => by simp at h, fun _ => ⟨.inl ?_, ?_, ⟨s.out, _, rfl, rfl, h4⟩, ?_⟩, fun h => by simp at h, fun h => by simp at h⟩
      · show payloadsOut (s.out ++ [.trailers t]) = payloadsIn (s.given ++ [.trailers t])
        rw [e1, payloadsOut_append, h1']
        exact List.append_nil _
      · show trailersOut (s.out ++ [.trailers t]) = trailersIn (s.given ++ [.trailers t])
        rw [e2, trailersOut_append, h3]
        rfl
      · intro f hf
        rcases List.mem_append.1 hf with hf | hf
        · exact h5 f hf
        · rw [List.mem_singleton.1 hf]; rfl
    · refine ⟨fun h => by simp at h, fun h => by simp at h, fun _ => ⟨?_, h3, h4, h5⟩, fun h => by simp at h⟩
      show payloadsOut s.out <+: payloadsIn (s.given ++ [.trailers t])
      rw [e1, h1']
      exact List.prefix_refl _
  · have e1 : payloadsIn (s.given ++ [.other]) = payloadsIn s.given := by rw [payloadsIn_append]; exact List.append_nil _
    have e2 : trailersIn (s.given ++ [.other]) = [] := by rw [trailersIn_append, h2]; rfl
    refine ⟨fun _ => ⟨?_, e2, h3, h4, h5⟩, ?_, ?_, ?_⟩
    · show payloadsOut s.out ++ (s.buffered.map Prod.fst).toList = payloadsIn (s.given ++ [.other])
      rw [e1, h1]
    all_goals intro hc; rw [show _ = s.res from rfl, hn] at hc; cases hc
  · refine ⟨fun h => by simp at h, fun h => by simp at h, fun h => by simp at h, fun _ => ⟨?_, s.out, _, rfl, fun g hg => ⟨h4 g hg, h5 g hg⟩⟩⟩
    show payloadsOut (s.out ++ [.reset _]) = payloadsIn s.given
    rw [payloadsOut_append, h1']
    exact List.append_nil _
  · exact Inv.send hb (.inr ⟨rfl, rfl, h1'⟩) h2 h3 h4 h5

theorem Inv.step {s : St} (h : Inv s) (i : In) : Inv (s.step i) := by
  unfold St.step
  split
  · exact h
  · rename_i hn
    split
    · exact h.fail hn
    · exact h.fail hn
    · split
      · rename_i hb
        exact h.sendBuffered hn i hb
      · rename_i hb
        exact h.pollBody hn i hb

theorem Inv.run {s : St} (h : Inv s) (is : List In) : Inv (s.run is) := by
  induction is generalizing s with
  | nil => exact h
  | cons i is ih => exact ih (h.step i)

end Pipe

open Pipe in
/-- C46: if the future succeeds, the stream got the whole body: the user's data frames in order, the trailers, and the end of the stream
on exactly the last frame. -/
theorem C46_complete (is : List In) (h : (Pipe.init.run is).res = some .ok) : Whole (Pipe.init.run is).given (Pipe.init.run is).out :=
  (Inv.init.run is).ok h

open Pipe in
/-- C46: until it ends, what the body gave is what the stream got and the one chunk that waits for capacity: nothing is lost or repeated. -/
theorem C46_nothing_lost (is : List In) (h : (Pipe.init.run is).res = none) :
    payloadsOut (Pipe.init.run is).out ++ ((Pipe.init.run is).buffered.map Prod.fst).toList = payloadsIn (Pipe.init.run is).given ∧
    ∀ f ∈ (Pipe.init.run is).out, f.ends = false ∧ f.isReset = false :=
  have r := (Inv.init.run is).running h
  ⟨r.1, fun f hf => ⟨r.2.2.2.1 f hf, r.2.2.2.2 f hf⟩⟩

open Pipe in
/-- C46: if the user's body fails, the stream is reset after everything the body gave, and not ended. -/
theorem C46_user_error (is : List In) (h : (Pipe.init.run is).res = some .userErr) : Cut (Pipe.init.run is).given (Pipe.init.run is).out :=
  (Inv.init.run is).userErr h

open Pipe in
/-- C46: if the stream fails or is reset by the peer, it got a part of the body in order, and no end. -/
theorem C46_stream_error (is : List In) (h : (Pipe.init.run is).res = some .writeErr) : Part (Pipe.init.run is).given (Pipe.init.run is).out :=
  (Inv.init.run is).writeErr h

namespace Pipe

/-- A body that gives these frames, never says it is at its end, and then is. -/
def script (fs : List UFrame) : List In :=
  fs.flatMap (fun f => [{ body := .frame f }, { capacity := 1 }]) ++ [{ body := .none }]

theorem run_append' (s : St) (a b : List In) : s.run (a ++ b) = (s.run a).run b := List.foldl_append

theorem script_step {s : St} (hr : s.res = none) (hb : s.buffered = none) (f : UFrame) (hf : ∀ t, f ≠ .trailers t) (he : ∀ bs, f ≠ .data bs true) :
    (s.run [{ body := .frame f }, { capacity := 1 }]).res = none ∧ (s.run [{ body := .frame f }, { capacity := 1 }]).buffered = none ∧
    (s.run [{ body := .frame f }, { capacity := 1 }]).given = s.given ++ [f] := by
  cases f with
  | data bs eos =>
    cases eos with
    | true => exact absurd rfl (he bs)
    | false =>
      by_cases hz : bs = []
      · subst hz
        simp [St.run, St.step, St.pollBody, St.send, hr, hb]
      · have hl : ¬ bs.length = 0 := by simpa using hz
        simp [St.run, St.step, St.pollBody, St.sendBuffered, St.send, hr, hb, hz]
  | trailers t => exact absurd rfl (hf t)
  | other => simp [St.run, St.step, St.pollBody, hr, hb]

theorem script_run {s : St} (hr : s.res = none) (hb : s.buffered = none) (fs : List UFrame) (hf : ∀ f ∈ fs, (∀ t, f ≠ .trailers t) ∧ ∀ bs, f ≠ .data bs true) :
    (s.run (script fs)).res = some .ok ∧ (s.run (script fs)).given = s.given ++ fs := by
  induction fs generalizing s with
  | nil => simp [script, St.run, St.step, St.pollBody, St.send, hr, hb]
  | cons f fs ih =>
    have hs := hf f (by simp)
    obtain ⟨h1, h2, h3⟩ := script_step hr hb f hs.1 hs.2
    have e : script (f :: fs) = [{ body := .frame f }, { capacity := 1 }] ++ script fs := rfl
    rw [e, run_append']
    obtain ⟨g1, g2⟩ := ih h1 h2 (fun g hg => hf g (List.mem_cons_of_mem _ hg))
    exact ⟨g1, by rw [g2, h3]; simp⟩

/-- The wait for capacity goes on only as long as the answers are zero. -/
theorem waitCap_go (n : Nat) (k : Nat) (cs : List CapPoll) : waitCap (List.replicate n (.ok 0) ++ .ok (k + 1) :: cs) = .go := by
  induction n with
  | zero => rfl
  | succ n ih => exact ih

end Pipe

open Pipe in
/-- C46: a body of any length does get through: with a stream that has capacity, the future succeeds having taken all of it. -/
theorem C46_succeeds (fs : List UFrame) (hf : ∀ f ∈ fs, (∀ t, f ≠ .trailers t) ∧ ∀ bs, f ≠ .data bs true) :
    (Pipe.init.run (script fs)).res = some .ok ∧ (Pipe.init.run (script fs)).given = fs := by
  have := script_run (s := Pipe.init) rfl rfl fs hf
  exact this

open Pipe in
/-- C46: a chunk that waits has asked for capacity, so that the stream will tell when there is some. -/
theorem C46_asks (is : List In) (h : (Pipe.init.run is).buffered ≠ none) : 0 < (Pipe.init.run is).reserved := by
  suffices ∀ (is : List In) (s : St), (s.buffered ≠ none → 0 < s.reserved) → (s.run is).buffered ≠ none → 0 < (s.run is).reserved from
    this is _ (by simp [Pipe.init]) h
  intro is
  induction is with
  | nil => intro s hs; exact hs
  | cons i is ih =>
    intro s hs
    refine ih (s.step i) ?_
    simp only [St.step]
    cases s.res with
    | some _ => exact hs
    | none =>
      cases i.reset with
      | reset _ => exact hs
      | err => exact hs
      | pending =>
        simp only
        cases hb : s.buffered with
        | some p =>
          have := hs (by simp [hb])
          simp only [St.sendBuffered, St.send]
          (repeat' split) <;> simp_all
        | none =>
          simp only [St.pollBody, St.send]
          (repeat' split) <;> simp_all

open Pipe in
/-- C46: the reset that follows an error of the user's body carries the reason of the first HTTP/2 error among its causes, and
`INTERNAL_ERROR` (2) if that has none or there is none. -/
theorem C46_reset_reason (s : St) (i : In) (causes : List Cause) (hr : s.res = none) (hi : i.reset = .pending) (hb : s.buffered = none)
    (hc : i.body = .error causes) :
    (∀ pre r post, causes = pre ++ .h2 r :: post → (∀ c ∈ pre, c = .other) → (s.step i).out = s.out ++ [.reset (r.getD 2)]) ∧
      ((∀ c ∈ causes, c = .other) → (s.step i).out = s.out ++ [.reset 2]) := by
  have hstep : (s.step i).out = s.out ++ [.reset (h2Reason causes)] := by simp [St.step, hr, hi, hb, St.pollBody, hc]
  rw [hstep]
  refine ⟨?_, ?_⟩
  · intro pre r post hp
    subst hp
    intro h
    have : h2Reason (pre ++ .h2 r :: post) = r.getD 2 := by
      clear hstep hc
      induction pre with
      | nil => rfl
      | cons c pre ih =>
        have := h c (by simp)
        subst this
        exact ih (fun c hc => h c (by simp [hc]))
    rw [this]
  · intro h
    have : h2Reason causes = 2 := by
      clear hstep hc
      induction causes with
      | nil => rfl
      | cons c cs ih =>
        have := h c (by simp)
        subst this
        exact ih (fun c hc => h c (by simp [hc]))
    rw [this]

open Pipe in
/-- C46: no chunk is stuck.  As soon as the stream has capacity, or says so after any number of zero answers, the waiting chunk is sent. -/
theorem C46_no_stuck_chunk (s : St) (hr : s.res = none) (bs : Bytes) (eos : Bool) (hb : s.buffered = some (bs, eos)) (i : In) (hi : i.reset = .pending)
    (ho : i.sendOk = true) (hc : 0 < i.capacity ∨ ∃ n k cs, i.caps = List.replicate n (.ok 0) ++ .ok (k + 1) :: cs) :
    (s.step i).out = s.out ++ [.data bs eos] ∧ (s.step i).buffered = none := by
  have hw : i.capacity = 0 → waitCap i.caps = .go := by
    intro hz
    rcases hc with h | ⟨n, k, cs, h⟩
    · omega
    · rw [h]; exact waitCap_go n k cs
  simp only [St.step, hr, hi, hb, St.sendBuffered]
  split
  · rename_i hz
    rw [hw hz]
    simp [St.send, ho]
  · simp [St.send, ho]

/-- C46, not vacuous: a chunk that waits for capacity twice, an empty frame, trailers. -/
def exPipe : List Pipe.In :=
  [{ body := .frame (.data [1, 2] false) }, {}, { caps := [.ok 0, .ok 0, .pending] }, { caps := [.ok 0, .ok 2] }, {},
   { body := .frame (.data [] false) }, { body := .frame (.trailers [([97], [98])]) }]

example : (Pipe.init.run exPipe).res = some .ok ∧
    (Pipe.init.run exPipe).out = [.data [1, 2] false, .data [] false, .trailers [([97], [98])]] := by decide +kernel

example : (Pipe.init.run [{ body := .frame (.data [1] true) }, { capacity := 3 }]).out = [.data [1] true] ∧
    (Pipe.init.run [{ body := .frame (.data [1] true) }, { capacity := 3 }]).res = some .ok := by decide +kernel

example : (Pipe.init.run [{ body := .frame (.data [1] false) }, { capacity := 3 }, { body := .error [.other, .h2 (some 11)] }]).out =
    [.data [1] false, .reset 11] := by decide +kernel

example : (Pipe.init.run [{ body := .frame (.data [1] false) }, { capacity := 3 }, { body := .none }]).out = [.data [1] false, .data [] true] := by decide +kernel

end Hyper
