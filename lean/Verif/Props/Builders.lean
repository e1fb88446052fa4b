import Verif.Model.Builders

/-!
# C83, C84: what is said to a builder is what the connection does

The last thing said about an option counts; options are independent of each other, except where the
documentation says otherwise.
-/

namespace Hyper

namespace Spec

/-- What was last said in answer to a question. -/
def said {α β : Type} (f : α → Option β) (ops : List α) : Option β := (ops.filterMap f).getLast?

/-- Whether a call was made. -/
def called {α : Type} [DecidableEq α] (op : α) (ops : List α) : Bool := ops.contains op

end Spec

namespace Build

open Spec

theorem said_nil {α β : Type} (f : α → Option β) : said f [] = none := rfl

theorem said_snoc {α β : Type} (f : α → Option β) (ops : List α) (op : α) :
    said f (ops ++ [op]) = (f op).or (said f ops) := by
  unfold said
  rw [List.filterMap_append]
  cases h : f op with
  | none => simp [h]
  | some b => simp [h]

theorem called_snoc {α : Type} [DecidableEq α] (x : α) (ops : List α) (op : α) :
    called x (ops ++ [op]) = (called x ops || decide (x = op)) := by
  simp [called, List.contains_append, Bool.beq_eq_decide_eq]

theorem onIf_titleCase (c : Built) (b : Bool) :
    c.onIf b Built.setTitleCase = { c with conn := { c.conn with titleCase := c.conn.titleCase || b } } := by
  cases b <;> simp [Built.onIf, Built.setTitleCase]

theorem onIf_preserveCase (c : Built) (b : Bool) :
    c.onIf b Built.setPreserveCase = { c with preserveCase := c.preserveCase || b } := by
  cases b <;> simp [Built.onIf, Built.setPreserveCase]

theorem onIf_preserveOrder (c : Built) (b : Bool) :
    c.onIf b Built.setPreserveOrder = { c with preserveOrder := c.preserveOrder || b } := by
  cases b <;> simp [Built.onIf, Built.setPreserveOrder]

theorem onIf_h09 (c : Built) (b : Bool) : c.onIf b Built.setH09 = { c with h09 := c.h09 || b } := by
  cases b <;> simp [Built.onIf, Built.setH09]

theorem onIf_halfClose (c : Built) (b : Bool) :
    c.onIf b Built.setHalfClose = { c with conn := { c.conn with halfClose := c.conn.halfClose || b } } := by
  cases b <;> simp [Built.onIf, Built.setHalfClose]

theorem onIf_date (c : Built) (b : Bool) :
    c.onIf (!b) Built.disableDate = { c with conn := { c.conn with dateHeader := c.conn.dateHeader && b } } := by
  cases b <;> simp [Built.onIf, Built.disableDate]

theorem onSome_maxHeaders (c : Built) (o : Option Nat) :
    c.onSome o Built.setMaxHeaders = { c with conn := { c.conn with maxHeaders := o.or c.conn.maxHeaders } } := by
  cases o <;> simp [Built.onSome, Built.setMaxHeaders]

theorem onSome_timeout (c : Built) (o : Option Nat) :
    c.onSome o Built.setTimeout = { c with conn := { c.conn with timeout := o.or c.conn.timeout } } := by
  cases o <;> simp [Built.onSome, Built.setTimeout]

theorem onSome_exact (c : Built) (o : Option Nat) :
    c.onSome o Built.setExact = { c with read := (o.map ReadStrategy.exact).getD c.read } := by
  cases o <;> simp [Built.onSome, Built.setExact]

end Build

namespace Spec

open Build

/-- How the connection writes: with `pipeline_flush` always into one buffer, otherwise as `writev` says, and as
the transport can if it says nothing. -/
def strategyOf (flush : Bool) (writev : Option Bool) (vectored : Bool) : WriteStrategy :=
  if flush then .flatten else if writev.getD vectored then .queue else .flatten

/-- The calls a server's builder takes: a buffer limit of at least 8192 bytes, and a timer where a timeout is
asked for. -/
def h1ServerOk (ops : List H1ServerOp) : Prop :=
  (∀ n, H1ServerOp.maxBuf n ∈ ops → 8192 ≤ n) ∧
  (∀ d, said (fun | H1ServerOp.timeout d => some d | _ => none) ops = some (some d) → .timer ∈ ops)

/-- The connection a server is asked for. -/
def h1Server (ops : List H1ServerOp) (vectored : Bool) (sink : Sink) : Built :=
  let max := (said (fun | .maxBuf n => some n | _ => none) ops).getD 417792
  let flush := (said (fun | .pipelineFlush v => some v | _ => none) ops).getD false
  let keep := (said (fun | .keepAlive v => some v | _ => none) ops).getD true
  { conn :=
      { client := false
        ka := if keep then .busy else .disabled
        log := if keep then [] else [.shutdown]
        halfClose := (said (fun | .halfClose v => some v | _ => none) ops).getD false
        titleCase := (said (fun | .titleCase v => some v | _ => none) ops).getD false
        dateHeader := (said (fun | .date v => some v | _ => none) ops).getD true
        maxHeaders := said (fun | .maxHeaders n => some n | _ => none) ops
        timeout :=
          (said (fun | .timeout d => some d | _ => none) ops).getD (if called .timer ops then some 30 else none)
        out :=
          { wbuf :=
              { headers := Cursor.new [], maxBufSize := max, queue := []
                strategy := strategyOf flush (said (fun | .writev v => some v | _ => none) ops) vectored }
            flushPipeline := flush, sink } }
    parser :=
      { multipleSpaces := (said (fun | .multipleSpaces v => some v | _ => none) ops).getD false
        ignoreInRequests := (said (fun | .ignoreInvalid v => some v | _ => none) ops).getD false }
    timer := called .timer ops
    preserveCase := (said (fun | .preserveCase v => some v | _ => none) ops).getD false
    read := .adaptive false 8192 max }

/-- How big the buffers of a client are: `read_buf_exact_size` and `max_buf_size` replace each other. -/
inductive Size where
  | exact (n : Option Nat)
  | max (n : Nat)

def sizeSaid : H1ClientOp → Option Size
  | .exact n => some (.exact n)
  | .maxBuf n => some (.max n)
  | _ => none

/-- The buffers for reading and the limit for writing. -/
def sizes : Option Size → ReadStrategy × Nat
  | some (.exact (some n)) => (.exact n, 417792)
  | some (.max n) => (.adaptive false 8192 n, n)
  | _ => (.adaptive false 8192 417792, 417792)

/-- The connection a client is asked for. -/
def h1Client (ops : List H1ClientOp) (vectored : Bool) (sink : Sink) : Built :=
  { conn :=
      { client := true
        titleCase := (said (fun | .titleCase v => some v | _ => none) ops).getD false
        maxHeaders := said (fun | .maxHeaders n => some n | _ => none) ops
        out :=
          { wbuf :=
              { headers := Cursor.new [], maxBufSize := (sizes (said sizeSaid ops)).2, queue := []
                strategy := strategyOf false (said (fun | .writev v => some v | _ => none) ops) vectored }
            flushPipeline := false, sink } }
    parser :=
      { spacesAfterName := (said (fun | .spacesAfterName v => some v | _ => none) ops).getD false
        multiline := (said (fun | .multiline v => some v | _ => none) ops).getD false
        ignoreInResponses := (said (fun | .ignoreInvalid v => some v | _ => none) ops).getD false }
    preserveCase := (said (fun | .preserveCase v => some v | _ => none) ops).getD false
    preserveOrder := (said (fun | .preserveOrder v => some v | _ => none) ops).getD false
    h09 := (said (fun | .h09 v => some v | _ => none) ops).getD false
    read := (sizes (said sizeSaid ops)).1 }

end Spec

namespace Build

open Spec

/-- The builder after the calls. -/
def askedServer (ops : List H1ServerOp) : H1Server :=
  { parser :=
      { multipleSpaces := (said (fun | .multipleSpaces v => some v | _ => none) ops).getD false
        ignoreInRequests := (said (fun | .ignoreInvalid v => some v | _ => none) ops).getD false }
    timer := called .timer ops
    halfClose := (said (fun | .halfClose v => some v | _ => none) ops).getD false
    keepAlive := (said (fun | .keepAlive v => some v | _ => none) ops).getD true
    titleCase := (said (fun | .titleCase v => some v | _ => none) ops).getD false
    preserveCase := (said (fun | .preserveCase v => some v | _ => none) ops).getD false
    maxHeaders := said (fun | .maxHeaders n => some n | _ => none) ops
    timeout := ((said (fun | .timeout d => some d | _ => none) ops).map Dur.configured).getD (.default (some 30))
    writev := said (fun | .writev v => some v | _ => none) ops
    maxBuf := said (fun | .maxBuf n => some n | _ => none) ops
    pipelineFlush := (said (fun | .pipelineFlush v => some v | _ => none) ops).getD false
    date := (said (fun | .date v => some v | _ => none) ops).getD true }

theorem snocInd {α : Type} {P : List α → Prop} (h0 : P []) (h1 : ∀ ops op, P ops → P (ops ++ [op])) (ops : List α) : P ops := by
  rw [← List.reverse_reverse ops]
  induction ops.reverse with
  | nil => exact h0
  | cons a t ih => rw [List.reverse_cons]; exact h1 _ _ ih

theorem foldServer_ok (ops : List H1ServerOp) (h : ∀ n, H1ServerOp.maxBuf n ∈ ops → 8192 ≤ n) :
    ops.foldlM H1Server.step {} = some (askedServer ops) := by
  induction ops using snocInd with
  | h0 => rfl
  | h1 ops op ih =>
    rw [List.foldlM_append, ih (fun n hn => h n (by simp [hn]))]
    cases op
    case maxBuf n =>
      have := h n (by simp)
      simp [H1Server.step, askedServer, said_snoc, called_snoc, initBufferSize, this]
    all_goals simp [H1Server.step, askedServer, said_snoc, called_snoc]

theorem foldServer_bad (ops : List H1ServerOp) (n : Nat) (hn : H1ServerOp.maxBuf n ∈ ops) (hlt : ¬ 8192 ≤ n) (b : H1Server) :
    ops.foldlM H1Server.step b = none := by
  induction ops generalizing b with
  | nil => simp at hn
  | cons op ops ih =>
    rw [List.foldlM_cons]
    rcases List.mem_cons.1 hn with rfl | hn
    · simp [H1Server.step, initBufferSize, hlt]
    · cases hs : H1Server.step b op with
      | none => rfl
      | some b' => exact ih hn b'

theorem strategy_eq (c : Built) (writev : Option Bool) (flush vectored : Bool)
    (hs : c.conn.out.wbuf.strategy = if vectored then .queue else .flatten) :
    (c.onSome writev Built.setWritev).setFlushPipeline flush =
      { c with conn := { c.conn with out := { c.conn.out with
          flushPipeline := flush
          wbuf := { c.conn.out.wbuf with strategy := strategyOf flush writev vectored } } } } := by
  obtain ⟨conn, _, _, _, _, _, _⟩ := c
  obtain ⟨_, _, _, _, _, _, _, _, _, _, _, _, _, _, _, _, _, out, _⟩ := conn
  obtain ⟨⟨_, _, _, st⟩, _, _⟩ := out
  simp only at hs
  subst hs
  cases writev with
  | none => cases flush <;> cases vectored <;> rfl
  | some w => cases w <;> cases flush <;> rfl

theorem serve_eq (ops : List H1ServerOp) (vectored : Bool) (sink : Sink)
    (ht : ∀ d, said (fun | H1ServerOp.timeout d => some d | _ => none) ops = some (some d) → .timer ∈ ops)
    (hm : ∀ n, said (fun | H1ServerOp.maxBuf n => some n | _ => none) ops = some n → 8192 ≤ n) :
    (askedServer ops).serve vectored sink = some (h1Server ops vectored sink) := by
  have hk : (((Built.new false vectored sink).setParser (askedServer ops).parser).setTimer (askedServer ops).timer).onIf
      (!(askedServer ops).keepAlive) Built.disableKeepAlive =
      { conn :=
          { client := false
            ka := if (askedServer ops).keepAlive then .busy else .disabled
            log := if (askedServer ops).keepAlive then [] else [.shutdown]
            out := WriteSide.start (if vectored then .queue else .flatten) false sink }
        parser := (askedServer ops).parser
        timer := (askedServer ops).timer } := by
    cases (askedServer ops).keepAlive <;> rfl
  have hc : (askedServer ops).timeout.check (askedServer ops).timer =
      some ((said (fun | H1ServerOp.timeout d => some d | _ => none) ops).getD (if called .timer ops then some 30 else none)) := by
    cases hs : said (fun | H1ServerOp.timeout d => some d | _ => none) ops with
    | none =>
      simp only [askedServer, hs]
      cases called .timer ops <;> rfl
    | some o =>
      cases o with
      | none => simp only [askedServer, hs]; rfl
      | some d =>
        have := ht d hs
        simp only [askedServer, hs, called, List.contains_iff_mem.2 this]
        rfl
  unfold H1Server.serve
  simp only [hk, hc, onIf_halfClose, onIf_titleCase, onIf_preserveCase, onSome_maxHeaders, onSome_timeout, Bool.false_or,
    Option.or_none]
  rw [strategy_eq (vectored := vectored)]
  · cases hb : (askedServer ops).maxBuf with
    | none =>
      have hb' : said (fun | H1ServerOp.maxBuf n => some n | _ => none) ops = none := hb
      simp only [onIf_date, Bool.true_and, h1Server, hb']
      rfl
    | some n =>
      have hb' : said (fun | H1ServerOp.maxBuf n => some n | _ => none) ops = some n := hb
      have := hm n hb'
      simp only [Built.setMaxBuf, initBufferSize, this, if_true, Option.map_some, onIf_date, Bool.true_and, h1Server, hb']
      rfl
  · rfl

theorem said_mem {α β : Type} {f : α → Option β} {ops : List α} {b : β} (h : said f ops = some b) :
    ∃ op ∈ ops, f op = some b := by
  unfold said at h
  have := List.mem_of_getLast? h
  simpa using List.mem_filterMap.1 this

end Build

open Spec Build

/-- **C83** (servers). -/
theorem C83_server (ops : List H1ServerOp) (vectored : Bool) (sink : Sink) (h : h1ServerOk ops) :
    H1Server.build ops vectored sink = some (h1Server ops vectored sink) := by
  unfold H1Server.build
  rw [foldServer_ok ops h.1]
  refine serve_eq ops vectored sink h.2 (fun n hn => ?_)
  obtain ⟨op, hop, hf⟩ := said_mem hn
  cases op <;> simp at hf
  subst hf
  exact h.1 _ hop

/-- Anything else panics. -/
theorem C83_server_panics (ops : List H1ServerOp) (vectored : Bool) (sink : Sink) (h : ¬ h1ServerOk ops) :
    H1Server.build ops vectored sink = none := by
  unfold H1Server.build
  by_cases h1 : ∀ n, H1ServerOp.maxBuf n ∈ ops → 8192 ≤ n
  · rw [foldServer_ok ops h1]
    have h2 : ∃ d, said (fun | H1ServerOp.timeout d => some d | _ => none) ops = some (some d) ∧ H1ServerOp.timer ∉ ops :=
      Classical.byContradiction fun hc => h ⟨h1, fun d hd => Classical.byContradiction fun hm => hc ⟨d, hd, hm⟩⟩
    obtain ⟨d, hd, hm⟩ := h2
    have ht : called .timer ops = false := by
      unfold called
      cases hx : ops.contains H1ServerOp.timer with
      | false => rfl
      | true => exact absurd (List.contains_iff_mem.1 hx) hm
    have hc : (askedServer ops).timeout.check (askedServer ops).timer = none := by
      simp only [askedServer, hd, ht]
      rfl
    show (askedServer ops).serve vectored sink = none
    unfold H1Server.serve
    simp only [hc]
  · have h2 : ∃ n, H1ServerOp.maxBuf n ∈ ops ∧ ¬ 8192 ≤ n :=
      Classical.byContradiction fun hc => h1 fun n hn => Classical.byContradiction fun hx => hc ⟨n, hn, hx⟩
    obtain ⟨n, hn, hlt⟩ := h2
    rw [foldServer_bad ops n hn hlt]
    rfl

namespace Build

/-- The builder after the calls. -/
def askedClient (ops : List H1ClientOp) : H1Client :=
  { h09 := (said (fun | .h09 v => some v | _ => none) ops).getD false
    parser :=
      { spacesAfterName := (said (fun | .spacesAfterName v => some v | _ => none) ops).getD false
        multiline := (said (fun | .multiline v => some v | _ => none) ops).getD false
        ignoreInResponses := (said (fun | .ignoreInvalid v => some v | _ => none) ops).getD false }
    writev := said (fun | .writev v => some v | _ => none) ops
    titleCase := (said (fun | .titleCase v => some v | _ => none) ops).getD false
    preserveCase := (said (fun | .preserveCase v => some v | _ => none) ops).getD false
    maxHeaders := said (fun | .maxHeaders n => some n | _ => none) ops
    preserveOrder := (said (fun | .preserveOrder v => some v | _ => none) ops).getD false
    exact := match said sizeSaid ops with
      | some (.exact n) => n
      | _ => none
    maxBuf := match said sizeSaid ops with
      | some (.max n) => some n
      | _ => none }

theorem foldClient_ok (ops : List H1ClientOp) (h : ∀ n, H1ClientOp.maxBuf n ∈ ops → 8192 ≤ n) :
    ops.foldlM H1Client.step {} = some (askedClient ops) := by
  induction ops using snocInd with
  | h0 => rfl
  | h1 ops op ih =>
    rw [List.foldlM_append, ih (fun n hn => h n (by simp [hn]))]
    cases op
    case maxBuf n =>
      have := h n (by simp)
      simp [H1Client.step, askedClient, said_snoc, sizeSaid, initBufferSize, this]
    all_goals simp [H1Client.step, askedClient, said_snoc, sizeSaid]

theorem foldClient_bad (ops : List H1ClientOp) (n : Nat) (hn : H1ClientOp.maxBuf n ∈ ops) (hlt : ¬ 8192 ≤ n) (b : H1Client) :
    ops.foldlM H1Client.step b = none := by
  induction ops generalizing b with
  | nil => simp at hn
  | cons op ops ih =>
    rw [List.foldlM_cons]
    rcases List.mem_cons.1 hn with rfl | hn
    · simp [H1Client.step, initBufferSize, hlt]
    · cases hs : H1Client.step b op with
      | none => rfl
      | some b' => exact ih hn b'

theorem writev_eq (c : Built) (writev : Option Bool) (vectored : Bool)
    (hs : c.conn.out.wbuf.strategy = if vectored then .queue else .flatten) :
    c.onSome writev Built.setWritev =
      { c with conn := { c.conn with out := { c.conn.out with
          wbuf := { c.conn.out.wbuf with strategy := strategyOf false writev vectored } } } } := by
  obtain ⟨conn, _, _, _, _, _, _⟩ := c
  obtain ⟨_, _, _, _, _, _, _, _, _, _, _, _, _, _, _, _, _, out, _⟩ := conn
  obtain ⟨⟨_, _, _, st⟩, _, _⟩ := out
  simp only at hs
  subst hs
  cases writev with
  | none => cases vectored <;> rfl
  | some w => cases w <;> rfl

end Build

/-- **C83** (clients). -/
theorem C83_client (ops : List H1ClientOp) (vectored : Bool) (sink : Sink) (h : ∀ n, H1ClientOp.maxBuf n ∈ ops → 8192 ≤ n) :
    H1Client.build ops vectored sink = some (h1Client ops vectored sink) := by
  unfold H1Client.build
  rw [foldClient_ok ops h]
  show (askedClient ops).handshake vectored sink = _
  unfold H1Client.handshake
  have hw : ((Built.new true vectored sink).setParser (askedClient ops).parser).onSome (askedClient ops).writev Built.setWritev =
      { conn :=
          { client := true
            out :=
              { wbuf :=
                  { headers := Cursor.new [], maxBufSize := 417792, queue := []
                    strategy := strategyOf false (askedClient ops).writev vectored }
                flushPipeline := false, sink } }
        parser := (askedClient ops).parser } := by
    rw [writev_eq (vectored := vectored) (hs := rfl)]
    rfl
  simp only [hw, onIf_titleCase, onIf_preserveCase, onIf_preserveOrder, onIf_h09, onSome_maxHeaders, onSome_exact]
  have hx : ∀ n, said sizeSaid ops = some (.max n) → 8192 ≤ n := by
    intro n hn
    obtain ⟨op, hop, hf⟩ := said_mem hn
    cases op <;> simp [sizeSaid] at hf
    subst hf
    exact h _ hop
  cases hs : said sizeSaid ops with
  | none =>
    have e1 : (askedClient ops).exact = none := by simp only [askedClient, hs]
    have e2 : (askedClient ops).maxBuf = none := by simp only [askedClient, hs]
    simp only [e1, e2, h1Client, hs]
    simp [sizes]
    (repeat' apply And.intro) <;> rfl
  | some z =>
    cases z with
    | exact n =>
      have e1 : (askedClient ops).exact = n := by simp only [askedClient, hs]
      have e2 : (askedClient ops).maxBuf = none := by simp only [askedClient, hs]
      simp only [e1, e2, h1Client, hs]
      cases n <;> (simp [sizes]; (repeat' apply And.intro) <;> rfl)
    | max n =>
      have e1 : (askedClient ops).exact = none := by simp only [askedClient, hs]
      have e2 : (askedClient ops).maxBuf = some n := by simp only [askedClient, hs]
      have := hx n hs
      simp only [e1, e2, h1Client, hs, Built.setMaxBuf, initBufferSize, this, if_true]
      simp [sizes]
      (repeat' apply And.intro) <;> rfl

/-- A limit below 8192 panics. -/
theorem C83_client_panics (ops : List H1ClientOp) (vectored : Bool) (sink : Sink) (n : Nat) (hn : H1ClientOp.maxBuf n ∈ ops)
    (hlt : n < 8192) : H1Client.build ops vectored sink = none := by
  unfold H1Client.build
  rw [foldClient_bad ops n hn (by omega)]
  rfl

/-- A server with every kind of option, said twice; the second time counts.  `pipeline_flush` wins over `writev`. -/
example : H1Server.build
    [.keepAlive false, .keepAlive true, .maxBuf 8192, .maxBuf 9000, .pipelineFlush true, .writev true, .timeout (some 5), .timer]
      true ⟨[], [], [], false⟩ =
    some { conn := { client := false, timeout := some 5,
                     out := ⟨⟨Cursor.new [], 9000, [], .flatten⟩, true, ⟨[], [], [], false⟩⟩ },
           timer := true, read := .adaptive false 8192 9000 } := by
  decide +kernel

/-- Without a timer the timeout of 30 seconds is not used, and one that is asked for panics. -/
example : (H1Server.build [] true ⟨[], [], [], false⟩).map (fun b => b.conn.timeout) = some none ∧
    (H1Server.build [.timer] true ⟨[], [], [], false⟩).map (fun b => b.conn.timeout) = some (some 30) ∧
    H1Server.build [.timeout (some 5)] true ⟨[], [], [], false⟩ = none ∧
    (H1Server.build [.timeout (some 5), .timeout none] true ⟨[], [], [], false⟩).map (fun b => b.conn.timeout) = some none := by
  refine ⟨?_, ?_, ?_, ?_⟩ <;> decide +kernel

/-- The two sizes of a client replace each other. -/
example : (H1Client.build [.exact (some 7), .maxBuf 8192] true ⟨[], [], [], false⟩).map (fun b => b.read) =
      some (.adaptive false 8192 8192) ∧
    (H1Client.build [.maxBuf 8192, .exact (some 7)] true ⟨[], [], [], false⟩).map (fun b => (b.read, b.conn.out.wbuf.maxBufSize)) =
      some (.exact 7, 417792) := by
  refine ⟨?_, ?_⟩ <;> decide +kernel

namespace Spec

/-- The calls a server's HTTP/2 builder takes. -/
def h2ServerOk (ops : List H2ServerOp) : Prop :=
  (∀ n, H2ServerOp.maxSendBuf n ∈ ops → n < 2 ^ 32) ∧
  (∀ d, said (fun | H2ServerOp.interval d => some d | _ => none) ops = some (some d) → .timer ∈ ops)

/-- Whether the windows adapt: a size that is given ends it. -/
def h2ServerAdaptive (ops : List H2ServerOp) : Bool :=
  (said (fun | .adaptive v => some v | .streamWindow (some _) => some false | .connWindow (some _) => some false | _ => none)
    ops).getD false

/-- The windows; those that adapt begin with that of the protocol. -/
def h2ServerStream (ops : List H2ServerOp) : Nat :=
  (said (fun | .streamWindow n => n | .adaptive true => some 65535 | _ => none) ops).getD (2 ^ 20)

def h2ServerConn (ops : List H2ServerOp) : Nat :=
  (said (fun | .connWindow n => n | .adaptive true => some 65535 | _ => none) ops).getD (2 ^ 20)

/-- Pings are sent to measure the bandwidth or to keep the connection alive. -/
def h2Pings (adaptive : Bool) (stream : Nat) (interval : Option Nat) (timeout : Nat) (whileIdle : Bool) : Option Ping.Config :=
  if adaptive = true ∨ interval ≠ none then some ⟨if adaptive then some stream else none, interval, timeout, whileIdle⟩ else none

/-- The connection a server is asked for. -/
def h2Server (ops : List H2ServerOp) : H2Built :=
  { told :=
      { streamWindow := some (h2ServerStream ops)
        connWindow := some (h2ServerConn ops)
        maxFrameSize := some ((said (fun | .maxFrameSize n => n | _ => none) ops).getD 16384)
        maxHeaderList := some ((said (fun | .maxHeaderList n => some n | _ => none) ops).getD 16384)
        maxSendBuf := some ((said (fun | .maxSendBuf n => some n | _ => none) ops).getD 409600)
        maxLocalResets := some ((said (fun | .maxLocalResets n => some n | _ => none) ops).getD (some 1024))
        maxPendingResets := (said (fun | .maxPendingResets n => some n | _ => none) ops).getD none
        headerTable := (said (fun | .headerTable n => some n | _ => none) ops).getD none
        maxStreams := (said (fun | .maxStreams n => some n | _ => none) ops).getD (some 200)
        connectProtocol := called .connectProtocol ops }
    ping := h2Pings (h2ServerAdaptive ops) (h2ServerStream ops)
      ((said (fun | .interval d => some d | _ => none) ops).getD none)
      ((said (fun | .timeout d => some d | _ => none) ops).getD 20) true
    date := (said (fun | .date v => some v | _ => none) ops).getD true }

/-- The calls a client's HTTP/2 builder takes. -/
def h2ClientOk (ops : List H2ClientOp) : Prop :=
  (∀ n, H2ClientOp.maxSendBuf n ∈ ops → n < 2 ^ 32) ∧
  (∀ d, said (fun | H2ClientOp.interval d => some d | _ => none) ops = some (some d) → .timer ∈ ops)

/-- As `h2ServerAdaptive`. -/
def h2ClientAdaptive (ops : List H2ClientOp) : Bool :=
  (said (fun | .adaptive v => some v | .streamWindow (some _) => some false | .connWindow (some _) => some false | _ => none)
    ops).getD false

def h2ClientStream (ops : List H2ClientOp) : Nat :=
  (said (fun | .streamWindow n => n | .adaptive true => some 65535 | _ => none) ops).getD (2 * 2 ^ 20)

def h2ClientConn (ops : List H2ClientOp) : Nat :=
  (said (fun | .connWindow n => n | .adaptive true => some 65535 | _ => none) ops).getD (5 * 2 ^ 20)

/-- The connection a client is asked for. -/
def h2Client (ops : List H2ClientOp) : H2Built :=
  { told :=
      { streamWindow := some (h2ClientStream ops)
        connWindow := some (h2ClientConn ops)
        maxSendStreams := some ((said (fun | .maxSendStreams n => n | _ => none) ops).getD 100)
        maxFrameSize := (said (fun | .maxFrameSize n => some n | _ => none) ops).getD (some 16384)
        maxHeaderList := some ((said (fun | .maxHeaderList n => some n | _ => none) ops).getD 16384)
        maxSendBuf := some ((said (fun | .maxSendBuf n => some n | _ => none) ops).getD (2 ^ 20))
        maxLocalResets := some ((said (fun | .maxLocalResets n => some n | _ => none) ops).getD (some 1024))
        maxResetStreams := said (fun | .maxResetStreams n => some n | _ => none) ops
        maxPendingResets := (said (fun | .maxPendingResets n => some n | _ => none) ops).getD none
        headerTable := (said (fun | .headerTable n => some n | _ => none) ops).getD none
        maxStreams := (said (fun | .maxStreams n => some n | _ => none) ops).getD none
        resetDuration := said (fun | .resetDuration d => some d | _ => none) ops
        push := some false }
    ping := h2Pings (h2ClientAdaptive ops) (h2ClientStream ops)
      ((said (fun | .interval d => some d | _ => none) ops).getD none)
      ((said (fun | .timeout d => some d | _ => none) ops).getD 20)
      ((said (fun | .whileIdle v => some v | _ => none) ops).getD false) }

end Spec

namespace Build

/-- The builder after the calls. -/
def askedServer2 (ops : List H2ServerOp) : H2Server :=
  { adaptive := h2ServerAdaptive ops
    connWindow := h2ServerConn ops
    streamWindow := h2ServerStream ops
    maxFrameSize := (said (fun | .maxFrameSize n => n | _ => none) ops).getD 16384
    connectProtocol := called .connectProtocol ops
    maxStreams := (said (fun | .maxStreams n => some n | _ => none) ops).getD (some 200)
    maxPendingResets := (said (fun | .maxPendingResets n => some n | _ => none) ops).getD none
    maxLocalResets := (said (fun | .maxLocalResets n => some n | _ => none) ops).getD (some 1024)
    interval := (said (fun | .interval d => some d | _ => none) ops).getD none
    timeout := (said (fun | .timeout d => some d | _ => none) ops).getD 20
    maxSendBuf := (said (fun | .maxSendBuf n => some n | _ => none) ops).getD 409600
    headerTable := (said (fun | .headerTable n => some n | _ => none) ops).getD none
    maxHeaderList := (said (fun | .maxHeaderList n => some n | _ => none) ops).getD 16384
    date := (said (fun | .date v => some v | _ => none) ops).getD true
    timer := called .timer ops }

theorem foldServer2_ok (ops : List H2ServerOp) (h : ∀ n, H2ServerOp.maxSendBuf n ∈ ops → n < 2 ^ 32) :
    ops.foldlM H2Server.step {} = some (askedServer2 ops) := by
  induction ops using snocInd with
  | h0 => rfl
  | h1 ops op ih =>
    rw [List.foldlM_append, ih (fun n hn => h n (by simp [hn]))]
    cases op
    case maxSendBuf n =>
      have : n ≤ u32Max := by have := h n (by simp); unfold u32Max; omega
      simp [H2Server.step, askedServer2, h2ServerAdaptive, h2ServerConn, h2ServerStream, said_snoc, called_snoc, this]
    case streamWindow n =>
      cases n <;> simp [H2Server.step, askedServer2, h2ServerAdaptive, h2ServerConn, h2ServerStream, said_snoc, called_snoc]
    case connWindow n =>
      cases n <;> simp [H2Server.step, askedServer2, h2ServerAdaptive, h2ServerConn, h2ServerStream, said_snoc, called_snoc]
    case maxFrameSize n =>
      cases n <;> simp [H2Server.step, askedServer2, h2ServerAdaptive, h2ServerConn, h2ServerStream, said_snoc, called_snoc]
    case adaptive v =>
      cases v <;> simp [H2Server.step, askedServer2, h2ServerAdaptive, h2ServerConn, h2ServerStream, said_snoc, called_snoc, specWindow]
    all_goals simp [H2Server.step, askedServer2, h2ServerAdaptive, h2ServerConn, h2ServerStream, said_snoc, called_snoc]

theorem foldServer2_bad (ops : List H2ServerOp) (n : Nat) (hn : H2ServerOp.maxSendBuf n ∈ ops) (hlt : ¬ n < 2 ^ 32) (b : H2Server) :
    ops.foldlM H2Server.step b = none := by
  induction ops generalizing b with
  | nil => simp at hn
  | cons op ops ih =>
    rw [List.foldlM_cons]
    rcases List.mem_cons.1 hn with rfl | hn
    · have : ¬ n ≤ u32Max := by unfold u32Max; omega
      simp [H2Server.step, this]
    · cases hs : H2Server.step b op with
      | none => rfl
      | some b' => exact ih hn b'

theorem pings_eq (adaptive timer : Bool) (stream timeout : Nat) (interval : Option Nat) (whileIdle : Bool)
    (h : interval ≠ none → timer = true) :
    pings timer ⟨if adaptive then some stream else none, interval, timeout, whileIdle⟩ =
      some (h2Pings adaptive stream interval timeout whileIdle) := by
  cases interval with
  | none => cases adaptive <;> simp [pings, pingEnabled, h2Pings]
  | some d =>
    have := h (by simp)
    subst this
    simp [pings, pingEnabled, h2Pings]

theorem pings_none (adaptive : Bool) (stream timeout : Nat) (d : Nat) (whileIdle : Bool) :
    pings false ⟨if adaptive then some stream else none, some d, timeout, whileIdle⟩ = none := by
  simp [pings, pingEnabled]

theorem onSome_told {α : Type} (o : Option α) (t : H2Told) (f : H2Told → α → H2Told) (g : H2Told → Option α → H2Told)
    (h0 : g t none = t) (h1 : ∀ a, g t (some a) = f t a) : t.onSome o f = g t o := by
  cases o with
  | none => exact h0.symm
  | some a => exact (h1 a).symm

/-- The calls to the builder of `h2` for a server. -/
theorem told_server (b : H2Server) :
    H2Server.serve b = (pings b.timer ⟨if b.adaptive then some b.streamWindow else none, b.interval, b.timeout, true⟩).map (fun p =>
      ⟨{ streamWindow := some b.streamWindow, connWindow := some b.connWindow, maxFrameSize := some b.maxFrameSize
         maxHeaderList := some b.maxHeaderList, maxLocalResets := some b.maxLocalResets, maxSendBuf := some b.maxSendBuf
         maxStreams := b.maxStreams, maxPendingResets := b.maxPendingResets, headerTable := b.headerTable
         connectProtocol := b.connectProtocol }, p, b.date⟩) := by
  obtain ⟨_, _, _, _, connect, ms, mp, _, _, _, _, ht, _, _, _⟩ := b
  unfold H2Server.serve
  cases ms <;> cases mp <;> cases ht <;> cases connect <;> rfl

end Build

/-- **C84** (servers). -/
theorem C84_server (ops : List H2ServerOp) (h : h2ServerOk ops) : H2Server.build ops = some (h2Server ops) := by
  unfold H2Server.build
  rw [foldServer2_ok ops h.1]
  show H2Server.serve (askedServer2 ops) = _
  rw [told_server, pings_eq]
  · rfl
  · intro hi
    cases hs : said (fun | H2ServerOp.interval d => some d | _ => none) ops with
    | none => exact absurd (by simp only [askedServer2, hs]; rfl) hi
    | some o =>
      cases o with
      | none => exact absurd (by simp only [askedServer2, hs]; rfl) hi
      | some d => simpa [askedServer2, called] using h.2 d hs

/-- Anything else panics. -/
theorem C84_server_panics (ops : List H2ServerOp) (h : ¬ h2ServerOk ops) : H2Server.build ops = none := by
  unfold H2Server.build
  by_cases h1 : ∀ n, H2ServerOp.maxSendBuf n ∈ ops → n < 2 ^ 32
  · rw [foldServer2_ok ops h1]
    have h2 : ∃ d, said (fun | H2ServerOp.interval d => some d | _ => none) ops = some (some d) ∧ H2ServerOp.timer ∉ ops :=
      Classical.byContradiction fun hc => h ⟨h1, fun d hd => Classical.byContradiction fun hm => hc ⟨d, hd, hm⟩⟩
    obtain ⟨d, hd, hm⟩ := h2
    show H2Server.serve (askedServer2 ops) = _
    have ht : (askedServer2 ops).timer = false := by simpa [askedServer2, called] using hm
    have hi : (askedServer2 ops).interval = some d := by simp only [askedServer2, hd]; rfl
    rw [told_server, ht, hi, pings_none]
    rfl
  · have h2 : ∃ n, H2ServerOp.maxSendBuf n ∈ ops ∧ ¬ n < 2 ^ 32 :=
      Classical.byContradiction fun hc => h1 fun n hn => Classical.byContradiction fun hx => hc ⟨n, hn, hx⟩
    obtain ⟨n, hn, hlt⟩ := h2
    rw [foldServer2_bad ops n hn hlt]
    rfl

namespace Build

/-- The builder after the calls. -/
def askedClient2 (ops : List H2ClientOp) : H2Client :=
  { adaptive := h2ClientAdaptive ops
    connWindow := h2ClientConn ops
    streamWindow := h2ClientStream ops
    maxSendStreams := (said (fun | .maxSendStreams n => n | _ => none) ops).getD 100
    maxFrameSize := (said (fun | .maxFrameSize n => some n | _ => none) ops).getD (some 16384)
    maxHeaderList := (said (fun | .maxHeaderList n => some n | _ => none) ops).getD 16384
    interval := (said (fun | .interval d => some d | _ => none) ops).getD none
    timeout := (said (fun | .timeout d => some d | _ => none) ops).getD 20
    whileIdle := (said (fun | .whileIdle v => some v | _ => none) ops).getD false
    maxResetStreams := said (fun | .maxResetStreams n => some n | _ => none) ops
    maxSendBuf := (said (fun | .maxSendBuf n => some n | _ => none) ops).getD (2 ^ 20)
    maxPendingResets := (said (fun | .maxPendingResets n => some n | _ => none) ops).getD none
    maxLocalResets := (said (fun | .maxLocalResets n => some n | _ => none) ops).getD (some 1024)
    headerTable := (said (fun | .headerTable n => some n | _ => none) ops).getD none
    maxStreams := (said (fun | .maxStreams n => some n | _ => none) ops).getD none
    resetDuration := said (fun | .resetDuration d => some d | _ => none) ops
    timer := called .timer ops }

theorem foldClient2_ok (ops : List H2ClientOp) (h : ∀ n, H2ClientOp.maxSendBuf n ∈ ops → n < 2 ^ 32) :
    ops.foldlM H2Client.step {} = some (askedClient2 ops) := by
  induction ops using snocInd with
  | h0 => rfl
  | h1 ops op ih =>
    rw [List.foldlM_append, ih (fun n hn => h n (by simp [hn]))]
    cases op
    case maxSendBuf n =>
      have : n ≤ u32Max := by have := h n (by simp); unfold u32Max; omega
      simp [H2Client.step, askedClient2, h2ClientAdaptive, h2ClientConn, h2ClientStream, said_snoc, called_snoc, this]
    case streamWindow n =>
      cases n <;> simp [H2Client.step, askedClient2, h2ClientAdaptive, h2ClientConn, h2ClientStream, said_snoc, called_snoc]
    case connWindow n =>
      cases n <;> simp [H2Client.step, askedClient2, h2ClientAdaptive, h2ClientConn, h2ClientStream, said_snoc, called_snoc]
    case maxSendStreams n =>
      cases n <;> simp [H2Client.step, askedClient2, h2ClientAdaptive, h2ClientConn, h2ClientStream, said_snoc, called_snoc]
    case adaptive v =>
      cases v <;> simp [H2Client.step, askedClient2, h2ClientAdaptive, h2ClientConn, h2ClientStream, said_snoc, called_snoc, specWindow]
    all_goals simp [H2Client.step, askedClient2, h2ClientAdaptive, h2ClientConn, h2ClientStream, said_snoc, called_snoc]

theorem foldClient2_bad (ops : List H2ClientOp) (n : Nat) (hn : H2ClientOp.maxSendBuf n ∈ ops) (hlt : ¬ n < 2 ^ 32) (b : H2Client) :
    ops.foldlM H2Client.step b = none := by
  induction ops generalizing b with
  | nil => simp at hn
  | cons op ops ih =>
    rw [List.foldlM_cons]
    rcases List.mem_cons.1 hn with rfl | hn
    · have : ¬ n ≤ u32Max := by unfold u32Max; omega
      simp [H2Client.step, this]
    · cases hs : H2Client.step b op with
      | none => rfl
      | some b' => exact ih hn b'

theorem told_client (b : H2Client) :
    H2Client.handshake b = (pings b.timer ⟨if b.adaptive then some b.streamWindow else none, b.interval, b.timeout, b.whileIdle⟩).map
      (fun p =>
      ⟨{ maxSendStreams := some b.maxSendStreams, streamWindow := some b.streamWindow, connWindow := some b.connWindow
         maxHeaderList := some b.maxHeaderList, maxSendBuf := some b.maxSendBuf, maxLocalResets := some b.maxLocalResets
         push := some false, maxFrameSize := b.maxFrameSize, maxResetStreams := b.maxResetStreams
         maxPendingResets := b.maxPendingResets, headerTable := b.headerTable, maxStreams := b.maxStreams
         resetDuration := b.resetDuration }, p, false⟩) := by
  obtain ⟨_, _, _, _, mf, _, _, _, _, mr, _, mp, _, ht, ms, rd, _⟩ := b
  unfold H2Client.handshake
  cases mf <;> cases mr <;> cases mp <;> cases ht <;> cases ms <;> cases rd <;> rfl

end Build

/-- **C84** (clients). -/
theorem C84_client (ops : List H2ClientOp) (h : h2ClientOk ops) : H2Client.build ops = some (h2Client ops) := by
  unfold H2Client.build
  rw [foldClient2_ok ops h.1]
  show H2Client.handshake (askedClient2 ops) = _
  rw [told_client, pings_eq]
  · rfl
  · intro hi
    cases hs : said (fun | H2ClientOp.interval d => some d | _ => none) ops with
    | none => exact absurd (by simp only [askedClient2, hs]; rfl) hi
    | some o =>
      cases o with
      | none => exact absurd (by simp only [askedClient2, hs]; rfl) hi
      | some d => simpa [askedClient2, called] using h.2 d hs

/-- Anything else panics. -/
theorem C84_client_panics (ops : List H2ClientOp) (h : ¬ h2ClientOk ops) : H2Client.build ops = none := by
  unfold H2Client.build
  by_cases h1 : ∀ n, H2ClientOp.maxSendBuf n ∈ ops → n < 2 ^ 32
  · rw [foldClient2_ok ops h1]
    have h2 : ∃ d, said (fun | H2ClientOp.interval d => some d | _ => none) ops = some (some d) ∧ H2ClientOp.timer ∉ ops :=
      Classical.byContradiction fun hc => h ⟨h1, fun d hd => Classical.byContradiction fun hm => hc ⟨d, hd, hm⟩⟩
    obtain ⟨d, hd, hm⟩ := h2
    show H2Client.handshake (askedClient2 ops) = _
    have ht : (askedClient2 ops).timer = false := by simpa [askedClient2, called] using hm
    have hi : (askedClient2 ops).interval = some d := by simp only [askedClient2, hd]; rfl
    rw [told_client, ht, hi, pings_none]
    rfl
  · have h2 : ∃ n, H2ClientOp.maxSendBuf n ∈ ops ∧ ¬ n < 2 ^ 32 :=
      Classical.byContradiction fun hc => h1 fun n hn => Classical.byContradiction fun hx => hc ⟨n, hn, hx⟩
    obtain ⟨n, hn, hlt⟩ := h2
    rw [foldClient2_bad ops n hn hlt]
    rfl

/-- Whatever was said before: windows that adapt begin with those of the protocol, on the stream, on the connection
and in the measurement. -/
theorem C84_adaptive (ops : List H2ServerOp) (b : H2Built) (h : H2Server.build ops = some b) (p : Ping.Config) (w : Nat)
    (hp : b.ping = some p) (hw : p.bdpInitialWindow = some w) :
    w = 65535 ∧ b.told.streamWindow = some 65535 ∧ b.told.connWindow = some 65535 := by
  have hk : h2ServerAdaptive ops = true → h2ServerStream ops = 65535 ∧ h2ServerConn ops = 65535 := by
    clear h
    induction ops using snocInd with
    | h0 => intro h; simp [h2ServerAdaptive, said_nil] at h
    | h1 ops op ih =>
      unfold h2ServerAdaptive h2ServerStream h2ServerConn at *
      simp only [said_snoc]
      cases op
      case streamWindow n => cases n <;> simp_all
      case connWindow n => cases n <;> simp_all
      case adaptive v => cases v <;> simp
      all_goals simpa using ih
  have hok : h2ServerOk ops := Classical.byContradiction fun hc => by rw [C84_server_panics ops hc] at h; cases h
  rw [C84_server ops hok] at h
  obtain rfl := Option.some.inj h
  have hp' : h2Pings (h2ServerAdaptive ops) (h2ServerStream ops)
      ((said (fun | .interval d => some d | _ => none) ops).getD none)
      ((said (fun | .timeout d => some d | _ => none) ops).getD 20) true = some p := hp
  unfold h2Pings at hp'
  split at hp'
  · obtain rfl := Option.some.inj hp'
    cases ha : h2ServerAdaptive ops with
    | false => simp [ha] at hw
    | true =>
      have := hk ha
      simp only [ha, if_true, Option.some.injEq] at hw
      simp only [h2Server, this, and_true]
      omega
  · cases hp'

/-- Ending the adaptation does not bring back the windows that were asked for before. -/
theorem C84_forgets :
    (H2Server.build [.streamWindow (some 1000000), .adaptive true, .adaptive false]).map (fun b => b.told.streamWindow) =
      some (some 65535) := by
  decide +kernel

/-- A client that keeps the connection alive and lets the windows adapt. -/
example : H2Client.build [.interval (some 10), .timer, .streamWindow (some 5), .adaptive true, .maxFrameSize none] =
    some { told :=
             { streamWindow := some 65535, connWindow := some 65535, maxSendStreams := some 100, maxHeaderList := some 16384
               maxSendBuf := some 1048576, maxLocalResets := some (some 1024), push := some false }
           ping := some ⟨some 65535, some 10, 20, false⟩ } ∧
    H2Client.build [.interval (some 10)] = none := by
  refine ⟨?_, ?_⟩ <;> decide +kernel

namespace Spec

/-- What was last said is not zero. -/
def isOn {α : Type} (f : α → Option Int) (ops : List α) : Bool := decide ((said f ops).getD 0 ≠ 0)

end Spec

namespace Build

theorem isOn_snoc {α : Type} (f : α → Option Int) (ops : List α) (op : α) :
    isOn f (ops ++ [op]) = match f op with
      | some v => decide (v ≠ 0)
      | none => isOn f ops := by
  unfold isOn
  rw [said_snoc]
  cases f op <;> rfl

theorem foldFfi (ops : List FfiOp) : ops.foldl FfiOptions.step {} =
    { multiline := isOn (fun | .multiline v => some v | _ => none) ops
      preserveCase := isOn (fun | .preserveCase v => some v | _ => none) ops
      preserveOrder := isOn (fun | .preserveOrder v => some v | _ => none) ops
      http2 := isOn (fun | .http2 v => some v | _ => none) ops } := by
  induction ops using snocInd with
  | h0 => rfl
  | h1 ops op ih =>
    rw [List.foldl_append, ih]
    cases op <;> simp [FfiOptions.step, isOn_snoc]

end Build

/-- **C83** (C API): the connection is of the protocol last asked for, and an HTTP/1 connection has the options last
asked for, in any order of the calls. -/
theorem C83_ffi (ops : List FfiOp) (vectored : Bool) (sink : Sink) :
    FfiOptions.build ops vectored sink =
      if isOn (fun | .http2 v => some v | _ => none) ops then some (Sum.inl (h2Client []))
      else some (Sum.inr
        { conn := { client := true, out := WriteSide.start (if vectored then .queue else .flatten) false sink }
          parser := { multiline := isOn (fun | .multiline v => some v | _ => none) ops }
          preserveCase := isOn (fun | .preserveCase v => some v | _ => none) ops
          preserveOrder := isOn (fun | .preserveOrder v => some v | _ => none) ops }) := by
  unfold FfiOptions.build
  rw [foldFfi]
  unfold FfiOptions.handshake
  by_cases h : isOn (fun | FfiOp.http2 v => some v | _ => none) ops = true
  · simp only [h, if_true]
    rw [C84_client [] ⟨by simp, by simp [said_nil]⟩]
    rfl
  · simp only [h]
    rw [C83_client _ _ _ (by simp)]
    rfl

/-- HTTP/2 switched on and off again, and the case kept. -/
example : FfiOptions.build [.http2 1, .preserveCase (-1), .http2 0] false ⟨[], [], [], false⟩ =
    some (Sum.inr
      { conn := { client := true, out := ⟨⟨Cursor.new [], 417792, [], .flatten⟩, false, ⟨[], [], [], false⟩⟩ }
        preserveCase := true }) := by
  decide +kernel

end Hyper
