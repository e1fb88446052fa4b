import Verif.Model.Upgraded
import Verif.Proof.Upgraded
import Verif.Props.Input
import Verif.Props.ReadBuf

/-!
# C70: what the reader of an upgraded connection gets

`C63` says when an HTTP/1 connection is handed over; here is which bytes its new owner reads: those directly after the message that asked for
the upgrade.
-/

namespace Hyper

open Spec Input

namespace Input

theorem inner_bytes (l : List Seg) : innerBytes (l.map Seg.inner) = segBytes l := by
  induction l with
  | nil => rfl
  | cons a t ih => cases a <;> simp [Seg.inner, innerBytes, segBytes, ih]

/-- Nothing left of a message that was read to its end. -/
theorem stops_whole {α : Type} {H : HeadFn α} {P : TrailerParser} {mh : Option Nat} {fin : NetEnd} {s : Bytes} {ws : List (Received α)}
    {r : Received α} {left : Bytes} (h : Stops H P mh fin s ws r left) (hw : r.whole = true) : Reads H P mh fin s (ws ++ [r]) left := by
  obtain ⟨t, body, h1, h2, h3, h4⟩ := h
  rcases h4 with ⟨_, h4⟩ | ⟨h4, _⟩
  · exact reads_snoc h1 hw h2 h3 h4
  · rw [hw] at h4; cases h4

theorem final_start {α : Type} {H : HeadFn α} {P : TrailerParser} {mh : Option Nat} {fin : NetEnd} {s : Bytes} {f : Fed α} (hg : f.got = []) :
    Final H P mh fin s f := by
  intro ws r h; rw [hg] at h; simp at h

theorem upgrade_set {d : Disp} {s : Bool} {i : FlushIn} (h : d.result s i = .upgrade) : d.conn.upgrade = true := by
  unfold Disp.result at h
  split at h
  · cases h
  · split at h
    · assumption
    · split at h
      · split at h
        · cases h
        · split at h
          · unfold Disp.orError at h; split at h <;> cases h
          · cases h
      · unfold Disp.orError at h; split at h <;> cases h

theorem client_upgrade (cfg : ClientCfg) (Q : Bytes → RespParse) (m : Option Bytes) : ∀ (fuel : Nat) (buf : Bytes) (inf : List RespHead) (x : ResponseMsg),
    (clientParse cfg Q m fuel buf inf).res = .ok (some x) → x.wantsUpgrade = true → x.keepAlive = false ∧ x.decode = DecodedLength.ZERO := by
  have hdec : ∀ (hd : RespHead) (d : DecodedLength), clientDecoder hd m = .ok (some (d, true)) → d = DecodedLength.ZERO := by
    intro hd d h
    unfold clientDecoder at h
    dsimp only at h
    repeat' split at h
    all_goals simp_all
  intro fuel
  induction fuel with
  | zero => intro buf inf x h; simp [clientParse] at h
  | succ n ih =>
    intro buf inf x h hw
    simp only [clientParse] at h
    split at h
    · simp at h
    · simp at h
    · split at h
      · split at h
        · simp at h
        · rename_i d up hd
          simp only [Except.ok.injEq, Option.some.injEq] at h
          subst h
          dsimp only at hw ⊢
          subst hw
          exact ⟨rfl, hdec _ _ hd⟩
        · simp at h
      · simp at h
    · split at h
      · simp at h
      · split at h
        · simp at h
        · rename_i d up hd
          simp only [Except.ok.injEq, Option.some.injEq] at h
          subst h
          dsimp only at hw ⊢
          subst hw
          exact ⟨by simp, hdec _ _ hd⟩
        · split at h
          · simp at h
          · exact ih _ _ _ h hw

end Input

/-! ## The bytes -/

/-- C70: the new owner reads the unread bytes of the connection, each once and in order: first those that lie in the read buffer. -/
theorem C70_reader {α : Type} (f : Fed α) (sizes : List Nat) :
    ∃ got : List Bytes, (f.handOver.reads sizes).1 = got.map (·.map some) ∧
      got.flatten ++ streamBytes (f.handOver.reads sizes).2 = f.inlet.rd.stream := by
  obtain ⟨got, h1, h2⟩ := C35_each_byte_once f.inlet.rd.buf (f.inlet.rd.net.map Seg.inner) sizes
  refine ⟨got, h1, h2.trans ?_⟩
  rw [inner_bytes]
  rfl

/-- C70: after a message that says the connection ends with it (HTTP/1.0, `Connection: close`, a client's upgrade), whatever happens then,
nothing is taken from the connection but that message. -/
theorem C70_last {α : Type} (env : EncodeEnv) (P : TrailerParser) (H : HeadFn α) (hS : Stable H) (f : Fed α) (hd : f.disp.Start) (hg : f.got = [])
    (as : List FAct) (ws : List (Received α)) (r : Received α) (he : (f.run env P H as).got = ws ++ [r]) (hk : (H.view r.method r.head).keepAlive = false) :
    Stops H P f.disp.conn.maxHeaders f.inlet.rd.fin f.inlet.rd.stream ws r (f.run env P H as).inlet.rd.stream ∧
    (r.whole = true → Reads H P f.disp.conn.maxHeaders f.inlet.rd.fin f.inlet.rd.stream (f.run env P H as).got (f.run env P H as).inlet.rd.stream) := by
  have h := (final_run hS env as (fi_start (H := H) (P := P) hd hg) (final_start hg) ws r he hk).2
  exact ⟨h, fun hw => by rw [he]; exact stops_whole h hw⟩

/-- C70, client: when the connection is handed over, the last response is the one that upgrades, and the bytes left are exactly those after it. -/
theorem C70_client (env : EncodeEnv) (P : TrailerParser) (cfg : ClientCfg) (h09 : cfg.h09 = false) (Q : Bytes → RespParse) (hQ : Spec.PrefixStable Q)
    (f : Fed ResponseMsg) (hd : f.disp.Start) (hu : f.disp.conn.upgrade = false) (hg : f.got = []) (as : List FAct) (s : Bool) (i : FlushIn)
    (hn : (f.run env P (clientHeads cfg Q) as).disp.done = false) (hr : (f.run env P (clientHeads cfg Q) as).disp.result s i = .upgrade) :
    (∃ ws r, (f.run env P (clientHeads cfg Q) as).got = ws ++ [r] ∧ r.head.wantsUpgrade = true) ∧
    Reads (clientHeads cfg Q) P f.disp.conn.maxHeaders f.inlet.rd.fin f.inlet.rd.stream (f.run env P (clientHeads cfg Q) as).got
      (f.run env P (clientHeads cfg Q) as).inlet.rd.stream := by
  have hS := C66_client_stable cfg h09 Q hQ
  have hN : NoReuse (clientHeads cfg Q) := by
    intro m b x b' h hw
    simp only [clientHeads, Prod.mk.injEq] at h
    exact (client_upgrade cfg Q m _ _ _ _ h.1 hw).1
  have hfi := fi_start (H := clientHeads cfg Q) (P := P) hd hg
  have ha := asked_run hS hN env as hfi (final_start hg) (.inr (.inl hu))
  rcases ha with ha | ha | ⟨ws, r, h1, h2, h3⟩
  · rw [hn] at ha; cases ha
  · rw [upgrade_set hr] at ha; cases ha
  · refine ⟨⟨ws, r, h1, h2⟩, ?_⟩
    have h := C70_last env P _ hS f hd hg as ws r h1 h3
    refine h.2 ?_
    obtain ⟨t, body, _, g2, _, g4⟩ := h.1
    rcases g4 with ⟨g4, _⟩ | ⟨_, g4, _⟩
    · exact g4
    · simp only [clientHeads, Prod.mk.injEq] at g2
      exact absurd (client_upgrade cfg Q _ _ _ _ _ g2.1 h2).2 g4

/-- C70, server, in part: when the connection is handed over after an answer that ends it (a `101`, or any with `Connection: close`), some request
asked for that, and nothing was taken from the connection but the requests read; if the last one was read to its end, the bytes left are exactly
those after it.  Missing: that the last request was read to its end, and that it is the one that asked; both are false (`C70_body_leaks`,
`C70_refused_later`). -/
theorem C70_server_partial {α : Type} (env : EncodeEnv) (P : TrailerParser) (H : HeadFn α) (hS : Stable H) (f : Fed α) (hd : f.disp.Start)
    (hs : f.disp.conn.client = false) (hu : f.disp.conn.upgrade = false) (hg : f.got = []) (as : List FAct) (s : Bool) (i : FlushIn) (n : Nat)
    (hn : (f.run env P H as).disp.done = false) (hr : (f.run env P H as).disp.result s i = .upgrade)
    (hl : Ev.writeHead n true ∈ (f.run env P H as).disp.conn.log) :
    (∃ r ∈ (f.run env P H as).got, (H.view r.method r.head).wantsUpgrade = true) ∧
    ∃ ws r, (f.run env P H as).got = ws ++ [r] ∧
      Stops H P f.disp.conn.maxHeaders f.inlet.rd.fin f.inlet.rd.stream ws r (f.run env P H as).inlet.rd.stream ∧
      (r.whole = true → Reads H P f.disp.conn.maxHeaders f.inlet.rd.fin f.inlet.rd.stream (f.run env P H as).got (f.run env P H as).inlet.rd.stream) := by
  have hfi := fi_start (H := H) (P := P) hd hg
  have hsi := start_sinv f.disp hd hs
  have hw := wanted_run (P := P) (H := H) env as (f := f) (.inr (.inl hu))
  have hst := standing_run hS env as hfi ⟨hsi, fun ws r h => by rw [hg] at h; simp at h⟩
  have ho := ownLast_of_mem hl
  refine ⟨?_, ?_⟩
  · rcases hw with hw | hw | hw
    · rw [hn] at hw; cases hw
    · rw [upgrade_set hr] at hw; cases hw
    · exact hw
  · have hne : (f.run env P H as).got ≠ [] := by
      intro e
      rcases hw with hw | hw | ⟨r, hw, _⟩
      · rw [hn] at hw; cases hw
      · rw [upgrade_set hr] at hw; cases hw
      · rw [e] at hw; cases hw
    rcases List.eq_nil_or_concat (f.run env P H as).got with e | ⟨ws, r, e⟩
    · exact absurd e hne
    · rw [List.concat_eq_append] at e
      rcases hst.2 ws r e with ⟨_, h⟩ | ⟨_, _, h⟩
      · exact ⟨ws, r, e, h, fun hw => by rw [e]; exact stops_whole h hw⟩
      · rw [view_log, ho] at h; cases h

/-! ## Examples and what is false -/

namespace Input

/-- A tokeniser for heads of one byte: an upgrade, an upgrade with a body, and neither. -/
def upQ : Bytes → Except ParseErr (Option (RawRequest × Nat))
  | [] => .ok none
  | 1 :: _ => .ok (some (⟨mGET, ascii "/", true, [(ascii "Upgrade", ascii "x")]⟩, 1))
  | 2 :: _ => .ok (some (⟨ascii "POST", ascii "/", true, [(ascii "Upgrade", ascii "x"), (hCL, ascii "4")]⟩, 1))
  | 3 :: _ => .ok (some (⟨mGET, ascii "/", true, []⟩, 1))
  | _ => .error .method

theorem upQ_stable : Spec.RequestStable upQ := by
  intro buf r n h
  unfold upQ at h
  split at h <;> simp at h <;> obtain ⟨rfl, rfl⟩ := h <;> exact ⟨by simp, fun more => rfl⟩

def upHeads : HeadFn RequestMsg := serverHeads upQ (fun _ => true) (fun _ => true) false

/-- An upgrade and bytes of the new protocol, some of them in the same read. -/
def upPlain : Fed RequestMsg := (exFed [.data 1 [7, 8], .pending, .data 9 []]).run exEnv exP upHeads
  [.act (exRead .pending exNo), .act (exWrite HandOver.exSwitch .pending), .act (.flush exFlushIn .pending), .act (exRead .pending exNo)]

/-- The reader of the body is dropped after one byte. -/
def upBody : Fed RequestMsg := (exFed [.data 2 [5], .data 6 [6, 6, 7, 8]]).run exEnv exP upHeads
  [.act (exRead .pending exNo), .act (.dropReader 0), .act (exRead .pending exNo), .act (exWrite HandOver.exSwitch .pending), .act (.flush exFlushIn .pending),
   .act (exRead .pending exNo)]

/-- An upgrade that is refused, then a request the connection ends with. -/
def upRefused : Fed RequestMsg := (exFed [.data 1 [], .data 3 [7, 8]]).run exEnv exP upHeads
  [.act (exRead .pending exNo), .act (exWrite (exResp [] none) .pending), .act (.flush exFlushIn .pending), .act (exRead .pending exNo),
   .act (exWrite (exResp [(hCONN, [ascii "close"])] none) .pending), .act (.flush exFlushIn .pending), .act (exRead .pending exNo)]

end Input

/-- The theorems apply to it: the bytes `7 8 9` go to the new owner, two of them from the buffer. -/
example : Stable upHeads ∧ upPlain.disp.done = false ∧ upPlain.disp.result true exFlushIn = .upgrade ∧
    Ev.writeHead 0 true ∈ upPlain.disp.conn.log ∧ upPlain.got.map (·.whole) = [true] ∧ upPlain.inlet.rd.stream = [7, 8, 9] ∧
    (upPlain.handOver.reads [1, 5, 5, 5]).1 = [[some 7], [some 8], [], [some 9]] :=
  ⟨C66_server_stable _ upQ_stable _ _ _, by decide +kernel, by decide +kernel, by decide +kernel, by decide +kernel, by decide +kernel, by decide +kernel⟩

/-- A client's `101`, after a `100`. -/
def Input.upH : Bytes → RespParse
  | 1 :: _ => .complete 1 ⟨100, true, ascii "Continue", []⟩
  | 2 :: _ => .complete 1 ⟨101, true, ascii "Switching Protocols", [(ascii "Upgrade", ascii "x")]⟩
  | _ => .incomplete

def Input.upClient : Fed ResponseMsg :=
  (Fed.mk (exDisp true) { rd := ⟨[], [.data 1 [2, 7], .data 8 []], .silent⟩, max := 8192 } []).run exEnv exP (clientHeads exCfg upH)
    [.act (exWrite (exSend [] none) .pending), .act (.flush exFlushIn .pending), .act (exRead .pending exNo), .act (.flush exFlushIn .pending)]

example : Spec.PrefixStable upH ∧ upClient.disp.done = false ∧ upClient.disp.result true exFlushIn = .upgrade ∧
    upClient.got.map (·.head.head.status) = [101] ∧ upClient.inlet.rd.stream = [7, 8] := by
  refine ⟨?_, by decide +kernel, by decide +kernel, by decide +kernel, by decide +kernel⟩
  intro buf len r h
  unfold upH at h
  split at h <;> simp at h <;> obtain ⟨rfl, rfl⟩ := h <;> exact ⟨by decide, by simp, fun more => rfl⟩

/-- C70 is false of a server in this: of the body of four bytes `5 6 6 6` one was read; the other three are the first bytes the new owner reads. -/
theorem C70_body_leaks :
    upBody.disp.done = false ∧ upBody.disp.result true exFlushIn = .upgrade ∧ Ev.writeHead 0 true ∈ upBody.disp.conn.log ∧
    upBody.got.map (fun r => (r.data, r.whole)) = [([5], false)] ∧ (upBody.handOver.reads [8, 8]).1 = [[some 6, some 6, some 6, some 7, some 8], []] := by
  refine ⟨?_, ?_, ?_, ?_, ?_⟩ <;> decide +kernel

/-- And in this: the upgrade was refused, another request was read and answered, and then the connection is handed over to the first one's. -/
theorem C70_refused_later :
    upRefused.disp.done = false ∧ upRefused.disp.result true exFlushIn = .upgrade ∧
    upRefused.disp.conn.log.filter (fun e => match e with | .writeHead .. => true | _ => false) = [.writeHead 0 false, .writeHead 1 true] ∧
    upRefused.got.map (fun r => (r.head.wantsUpgrade, r.whole)) = [(true, true), (false, true)] ∧ upRefused.inlet.rd.stream = [7, 8] := by
  refine ⟨?_, ?_, ?_, ?_, ?_⟩ <;> decide +kernel

end Hyper
