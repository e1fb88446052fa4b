import Verif.Proof.Standoff

/-! # C81: two connections do not wait for each other -/

namespace Hyper

open Spec Input

namespace Wire

/-- Everything about the two sides that does not change: their environments, parsers of heads and trailers, and limits. -/
structure Sides where
  envC : EncodeEnv
  envS : EncodeEnv
  PC : TrailerParser
  PS : TrailerParser
  cfg : ClientCfg
  QC : Bytes → RespParse
  maxC : Nat
  QS : Bytes → Except ParseErr (Option (RawRequest × Nat))
  maxS : Nat
  methodOk : Bytes → Bool
  uriOk : Bytes → Bool
  preserve : Bool

/-- How the client's connection recognises heads. -/
def Sides.HC (s : Sides) : HeadFn ResponseMsg := clientHeads s.cfg s.QC

/-- How the server's connection recognises heads. -/
def Sides.HS (s : Sides) : HeadFn RequestMsg := serverHeads s.QS s.methodOk s.uriOk s.preserve

/-- The assumptions about them: those of C68, and that the tokenisers find a head as soon as it is there (C69). -/
structure Sides.Ok (s : Sides) : Prop where
  env : EnvOk s.envS
  blocksC : ReadsBlocks s.PC
  blocksS : ReadsBlocks s.PS
  h09 : s.cfg.h09 = false
  stableC : PrefixStable s.QC
  readsC : ReadsResponses s.maxC s.QC
  localC : ResponseLocal s.QC
  stableS : RequestStable s.QS
  readsS : ReadsRequests s.maxS (tokens s.QS)
  localS : RequestLocal s.QS

/-- A client's connection and a server's after runs of theirs, in which all that each has put on the wire, or will flush, reaches the other. -/
structure Talk (s : Sides) (client : Fed ResponseMsg) (server : Fed RequestMsg) (as bs : List FAct) : Prop where
  freshC : Fresh client.disp
  isC : client.disp.conn.client = true
  gotC : client.got = []
  markC : client.inlet.partialLen = none
  freshS : Fresh server.disp
  isS : server.disp.conn.client = false
  methodS : server.disp.conn.method = none
  gotS : server.got = []
  markS : server.inlet.partialLen = none
  req : ∀ q ∈ requests s.envC s.PC client.disp (acts s.envC s.PC s.HC client as), RequestOk s.methodOk s.uriOk q.1 q.2
  resp : ∀ (k : Nat) (a : RespOut) (q : ReqHead × Option BodyLength), (answers s.envS s.PS server.disp (acts s.envS s.PS s.HS server bs))[k]? = some a →
    (requests s.envC s.PC client.disp (acts s.envC s.PC s.HC client as))[k]? = some q → ResponseOk s.envS q.1.method a
  fairC : ∀ m ∈ messages (story s.envC s.PC client.disp [] (acts s.envC s.PC s.HC client as)), m.Fair s.maxS server.disp.conn.maxHeaders
  fairS : ∀ m ∈ messages (story s.envS s.PS server.disp [] (acts s.envS s.PS s.HS server bs)), m.Fair s.maxC client.disp.conn.maxHeaders
  netS : server.inlet.rd.stream = wire (client.run s.envC s.PC s.HC as).disp.conn
  netC : client.inlet.rd.stream = wire (server.run s.envS s.PS s.HS bs).disp.conn

/-- Heads that the server's connection puts in the buffer on its own meet a drained queue (C65). -/
abbrev Talk.Gate (s : Sides) (server : Fed RequestMsg) (bs : List FAct) : Prop := Wire.Gated s.envS s.PS server.disp (acts s.envS s.PS s.HS server bs)

variable {s : Sides} {client : Fed ResponseMsg} {server : Fed RequestMsg} {as bs : List FAct}

/-- With the flattening strategy they always do. -/
theorem Talk.flat (T : Talk s client server as bs) (hf : server.disp.conn.out.wbuf.strategy = .flatten) : Talk.Gate s server bs :=
  WI.gated s.envS s.PS _ (hf ▸ T.freshS.wi) (Poll.vi_start T.freshS.start)

/-- The client's messages as the server reads them. -/
theorem Talk.requests_read (T : Talk s client server as bs) (ok : s.Ok) (j : Nat) (m : Message) (μ : Option Bytes)
    (hm : (messages (story s.envC s.PC client.disp [] (acts s.envC s.PC s.HC client as)))[j]? = some m) :
    ∃ h body, (requests s.envC s.PC client.disp (acts s.envC s.PC s.HC client as))[j]? = some (h, body) ∧ m.Of h body ∧
      ∃ x : RequestMsg, Readable s.HS s.PS server.disp.conn.maxHeaders μ m x ∧ x.decode ≠ DecodedLength.CLOSE_DELIMITED := by
  have hasks := asks_run s.envC s.PC (acts s.envC s.PC s.HC client as) T.isC (Poll.vi_start T.freshC.start) (st := []) (qs := []) .nil
  rw [List.nil_append] at hasks
  obtain ⟨h, body, h1, h2⟩ := hasks.messages.2.2 j m hm
  obtain ⟨x, x1, _, _, _, x5⟩ := request_read ok.stableS ok.readsS s.methodOk s.uriOk s.preserve s.PS ok.blocksS _ h2 (T.req _ (List.mem_of_getElem? h1)) (T.fairC m (List.mem_of_getElem? hm)) μ
  exact ⟨h, body, h1, h2, x, x1, x5⟩

theorem Talk.asks (T : Talk s client server as bs) : (messages (story s.envC s.PC client.disp [] (acts s.envC s.PC s.HC client as))).length =
      (requests s.envC s.PC client.disp (acts s.envC s.PC s.HC client as)).length ∧
    Piece.interim ∉ story s.envC s.PC client.disp [] (acts s.envC s.PC s.HC client as) := by
  have hasks := asks_run s.envC s.PC (acts s.envC s.PC s.HC client as) T.isC (Poll.vi_start T.freshC.start) (st := []) (qs := []) .nil
  rw [List.nil_append] at hasks
  exact ⟨hasks.messages.1, hasks.messages.2.1⟩

/-- The server's messages as the client reads them. -/
theorem Talk.responses_read (T : Talk s client server as bs) (g : Talk.Gate s server bs) (ok : s.Ok) (j : Nat) (m : Message)
    (hm : (messages (story s.envS s.PS server.disp [] (acts s.envS s.PS s.HS server bs)))[j]? = some m) :
    (Mute m ∨ ∃ μ, ∃ x : ResponseMsg, Readable s.HC s.PC client.disp.conn.maxHeaders μ m x) ∧
    ∀ r', (client.run s.envC s.PC s.HC as).got[j]? = some r' → Mute m ∨ ∃ x : ResponseMsg, Readable s.HC s.PC client.disp.conn.maxHeaders r'.method m x := by
  have hstS := C66_server_stable s.QS ok.stableS s.methodOk s.uriOk s.preserve
  have hstC := C66_client_stable s.cfg ok.h09 s.QC ok.stableC
  have know := client_methods s.envC s.PC s.HC hstC client T.freshC.start T.isC T.gotC as
  have serve := server_answers s.envS s.PS s.HS hstS (fun _ _ => rfl) server T.freshS T.methodS T.isS T.gotS bs g
  obtain ⟨b, μs, said, rest, hrest⟩ := serve.said
  have hfair := T.fairS m (List.mem_of_getElem? hm)
  rcases said.at j m hm with ⟨a, μ, g1, g2, g3⟩ | ⟨g1, status, g2⟩
  · have h3 : ((server.run s.envS s.PS s.HS bs).got.map (fun r => r.head.method))[j]? = some μ := by
      rw [← hrest, List.getElem?_append_left (List.getElem?_eq_some_iff.1 g2).1]; exact g2
    rw [List.getElem?_map] at h3
    cases hgot : (server.run s.envS s.PS s.HS bs).got[j]? with
    | none => rw [hgot] at h3; cases h3
    | some w =>
      rw [hgot] at h3
      simp only [Option.map_some, Option.some.injEq] at h3
      obtain ⟨h, body, _, k1, _, _, k4, _⟩ := C67_requests s.envC s.envS s.PS s.PC ok.blocksS s.QS ok.stableS s.maxS ok.readsS s.methodOk s.uriOk s.preserve client.disp T.freshC
        T.isC (acts s.envC s.PC s.HC client as) T.req server T.freshS.start T.gotS T.fairC (by rw [T.netS, run_acts]; exact List.prefix_refl _) bs j w hgot
      have hμ : μ = h.method := h3.symm.trans k4
      have hr := response_read ok.h09 ok.stableC ok.readsC s.PC ok.blocksC client.disp.conn.maxHeaders ok.env g3 (by rw [hμ]; exact T.resp j a _ g1 k1) hfair
      have hr' : Mute m ∨ ∃ x : ResponseMsg, Readable s.HC s.PC client.disp.conn.maxHeaders (some μ) m x := by
        rcases hr with hr | ⟨x, hx, _⟩
        · exact .inl hr
        · exact .inr ⟨x, hx⟩
      refine ⟨hr'.imp id (fun ⟨x, hx⟩ => ⟨_, x, hx⟩), fun r' hr2 => ?_⟩
      obtain ⟨rest', hrest'⟩ := know.got
      have e1 : ((client.run s.envC s.PC s.HC as).got.map (·.method))[j]? = some r'.method := by rw [List.getElem?_map, hr2]; rfl
      have e2 : ((requests s.envC s.PC client.disp (acts s.envC s.PC s.HC client as)).map (fun q => some q.1.method))[j]? = some r'.method := by
        rw [← hrest', List.getElem?_append_left (List.getElem?_eq_some_iff.1 e1).1]; exact e1
      rw [List.getElem?_map, k1] at e2
      simp only [Option.map_some, Option.some.injEq] at e2
      rw [← e2, ← hμ]
      exact hr'
  · have hr := fun μ => error_read ok.h09 ok.stableC ok.readsC s.PC ok.blocksC client.disp.conn.maxHeaders ok.env g2 hfair μ
    refine ⟨?_, fun r' _ => ?_⟩
    · rcases hr none with h | ⟨x, x1, _⟩
      · exact .inl h
      · exact .inr ⟨_, x, x1⟩
    · rcases hr r'.method with h | ⟨x, x1, _⟩
      · exact .inl h
      · exact .inr ⟨x, x1⟩

theorem reads_whole {α : Type} {H : HeadFn α} {P : TrailerParser} {mh : Option Nat} {str t : Bytes} {ws : List (Received α)} (h : Reads H P mh .silent str ws t) :
    ∀ r ∈ ws, r.whole = true ∧ (H.view r.method r.head).decode ≠ DecodedLength.CLOSE_DELIMITED := by
  induction h with
  | nil => intro r hr; cases hr
  | cons a b c d e ih =>
    intro r hr
    rcases List.mem_cons.1 hr with rfl | hr
    · exact ⟨a, fun hc => by have := (body_close d hc).2.2.2; cases this⟩
    · exact ih r hr

theorem Replies.length {env : EncodeEnv} {b : Bool} {ps : List Piece} {as : List RespOut} {μs : List Bytes} (h : Replies env b ps as μs) :
    (Wire.messages ps).length = as.length + (if b then 1 else 0) := by
  induction h with
  | nil => rfl
  | interim h ih => rw [messages_append]; simpa [Wire.messages] using ih
  | answer h hm he ih => rw [messages_append, List.length_append, ih]; simp [Wire.messages]
  | error h hm ih => rw [messages_append, List.length_append, ih]; simp [Wire.messages]

end Wire

open Wire

variable {s : Sides} {client : Fed ResponseMsg} {server : Fed RequestMsg} {as bs : List FAct}

/-- C81, the server's side between messages.  When a server's connection waits for the head of a request and all bytes have arrived, it has read all requests
the client's connection has taken, to their ends: all data the user's bodies have yielded (up to the lengths announced) and the trailers. -/
theorem C81_requests (ok : s.Ok) (T : Talk s client server as bs) (i : ReadIn) (hw : AwaitsHead s.HS (server.run s.envS s.PS s.HS bs) i) :
    (server.run s.envS s.PS s.HS bs).got.length = (requests s.envC s.PC client.disp (acts s.envC s.PC s.HC client as)).length ∧
    ∀ (k : Nat) (r : Received RequestMsg), (server.run s.envS s.PS s.HS bs).got[k]? = some r →
      ∃ h body m, (requests s.envC s.PC client.disp (acts s.envC s.PC s.HC client as))[k]? = some (h, body) ∧
        (messages (story s.envC s.PC client.disp [] (acts s.envC s.PC s.HC client as)))[k]? = some m ∧ m.Of h body ∧
        r.whole = true ∧ r.data = m.data ∧ r.trailers = m.trailerFields := by
  have hst : Stable s.HS := C66_server_stable s.QS ok.stableS s.methodOk s.uriOk s.preserve
  have hE : Ending s.HS := C69_server_ending s.QS ok.localS s.methodOk s.uriOk s.preserve
  obtain ⟨t, hr, ht⟩ := awaits_head hst hE s.envS server T.freshS.start T.gotS T.markS bs i hw
  have hall := reads_whole hr
  rw [T.netS] at hr
  obtain ⟨a1, a2⟩ := T.asks
  have hon := (C65_client_wire s.envC s.PC client.disp T.freshC T.isC (acts s.envC s.PC s.HC client as)).2
  rw [← run_acts] at hon
  have hmute : ∀ (j : Nat) (m : Message), (messages (story s.envC s.PC client.disp [] (acts s.envC s.PC s.HC client as)))[j]? = some m → ¬ Mute m := by
    intro j m hm hmu
    obtain ⟨_, _, _, _, x, hx, _⟩ := T.requests_read ok j m none hm
    have := hx.head []
    rw [hmu.1] at this
    exact server_nothing ok.stableS ok.readsS s.methodOk s.uriOk s.preserve _ _ _ this
  refine ⟨?_, fun k r hk => ?_⟩
  · rcases all_read hst (server_nothing ok.stableS ok.readsS s.methodOk s.uriOk s.preserve) hon (fun h => absurd h a2) hr ht
      (fun j m r h1 _ => by obtain ⟨_, _, _, _, x, hx, _⟩ := T.requests_read ok j m r.method h1; exact .inr ⟨x, hx⟩)
      (fun m h1 => by obtain ⟨_, _, _, _, x, hx, _⟩ := T.requests_read ok _ m none h1; exact .inr ⟨_, x, hx⟩) with h | ⟨_, _, m, h1, h2⟩
    · exact h.trans a1
    · exact absurd h2 (hmute _ _ h1)
  · obtain ⟨h, body, m, g1, g2, g3, _, _, _, _, g8⟩ := C67_requests s.envC s.envS s.PS s.PC ok.blocksS s.QS ok.stableS s.maxS ok.readsS s.methodOk s.uriOk s.preserve client.disp
      T.freshC T.isC (acts s.envC s.PC s.HC client as) T.req server T.freshS.start T.gotS T.fairC (by rw [T.netS, run_acts]; exact List.prefix_refl _) bs k r hk
    have hwh := (hall r (List.mem_of_getElem? hk)).1
    exact ⟨h, body, m, g1, g2, g3, hwh, g8 hwh⟩

/-- C81, the server's side within a body.  When a server's connection waits for more of the body of a request and all bytes have arrived, this is the last
request the client's connection has taken, and the client's connection has not ended it: it is writing the body, or it was closed for writing, or is done.  If it
is still polling the user's body, the server has got all data this has yielded. -/
theorem C81_request_body (ok : s.Ok) (T : Talk s client server as bs) (i : ReadIn) (hw : AwaitsBody s.PS (server.run s.envS s.PS s.HS bs) i) :
    (server.run s.envS s.PS s.HS bs).got.length = (requests s.envC s.PC client.disp (acts s.envC s.PC s.HC client as)).length ∧
    ∃ r m, (server.run s.envS s.PS s.HS bs).got.getLast? = some r ∧ (messages (story s.envC s.PC client.disp [] (acts s.envC s.PC s.HC client as))).getLast? = some m ∧
      ((∃ e, (client.run s.envC s.PC s.HC as).disp.conn.writing = .body e) ∨ (client.run s.envC s.PC s.HC as).disp.conn.writing = .closed ∨
        (client.run s.envC s.PC s.HC as).disp.done = true) ∧
      ((∃ e, (client.run s.envC s.PC s.HC as).disp.conn.writing = .body e) → (client.run s.envC s.PC s.HC as).disp.bodyRx = true →
        (client.run s.envC s.PC s.HC as).disp.done = false → r.data = m.data) := by
  have hst : Stable s.HS := C66_server_stable s.QS ok.stableS s.methodOk s.uriOk s.preserve
  obtain ⟨ws, r, t, body, h1, h2, h3, h4⟩ := awaits_body hst s.envS server T.freshS.start T.gotS bs i hw
  rw [T.netS] at h2
  obtain ⟨a1, a2⟩ := T.asks
  have hwi := T.freshC.wi.run s.envC s.PC (acts s.envC s.PC s.HC client as) (Poll.vi_start T.freshC.start) (gated_client s.envC s.PC _ _ T.isC)
  rw [← run_acts] at hwi
  obtain ⟨pre, m, g1, g2, g3, g4, g5⟩ := part_read hst (server_nothing ok.stableS ok.readsS s.methodOk s.uriOk s.preserve) hwi (fun h => absurd h a2) h2 h3 h4
    (fun j m r h1 _ => by obtain ⟨_, _, _, _, x, hx, _⟩ := T.requests_read ok j m r.method h1; exact .inr ⟨x, hx⟩)
  refine ⟨by rw [h1, g2, a1], r, m, by rw [h1]; simp, ?_, g4, g5⟩
  rw [g1, messages_append, show messages [.message m] = [m] from rfl]
  simp

/-- C81, the client's side between messages.  When a client's connection waits for the head of a response and all bytes have arrived, it has read all messages
of the server's connection, to their ends, but possibly a last one whose head the server's connection could not encode and of which it has sent nothing.  What is missing is as in C68: a server's
connection with the queueing strategy has to be `Gated`. -/
theorem C81_responses_partial (ok : s.Ok) (T : Talk s client server as bs) (g : Talk.Gate s server bs) (i : ReadIn) (hw : AwaitsHead s.HC (client.run s.envC s.PC s.HC as) i) :
    ((client.run s.envC s.PC s.HC as).got.length = (messages (story s.envS s.PS server.disp [] (acts s.envS s.PS s.HS server bs))).length ∨
      ((client.run s.envC s.PC s.HC as).got.length + 1 = (messages (story s.envS s.PS server.disp [] (acts s.envS s.PS s.HS server bs))).length ∧
        ((∃ e, (server.run s.envS s.PS s.HS bs).disp.conn.writing = .body e) ∨ (server.run s.envS s.PS s.HS bs).disp.conn.writing = .closed ∨
          (server.run s.envS s.PS s.HS bs).disp.done = true) ∧
        ∃ m, (messages (story s.envS s.PS server.disp [] (acts s.envS s.PS s.HS server bs)))[(client.run s.envC s.PC s.HC as).got.length]? = some m ∧ Mute m)) ∧
    ∀ (k : Nat) (r : Received ResponseMsg), (client.run s.envC s.PC s.HC as).got[k]? = some r →
      ∃ m, (messages (story s.envS s.PS server.disp [] (acts s.envS s.PS s.HS server bs)))[k]? = some m ∧
        r.whole = true ∧ r.data = m.data ∧ r.trailers = m.trailerFields := by
  have hst : Stable s.HC := C66_client_stable s.cfg ok.h09 s.QC ok.stableC
  have hE : Ending s.HC := C69_client_ending s.cfg ok.h09 s.QC ok.stableC ok.localC
  obtain ⟨t, hr, ht⟩ := awaits_head hst hE s.envC client T.freshC.start T.gotC T.markC as i hw
  have hall := reads_whole hr
  rw [T.netC] at hr
  have hon := (C65_wire_partial s.envS s.PS server.disp T.freshS _ g).2
  rw [← run_acts] at hon
  have hsk := client_skips ok.h09 ok.stableC ok.readsC
  refine ⟨all_read hst (client_nothing ok.h09 ok.stableC) hon (fun _ => hsk) hr ht (fun j m r h1 h2 => (T.responses_read g ok j m h1).2 r h2)
    (fun m h1 => (T.responses_read g ok _ m h1).1), fun k r hk => ?_⟩
  obtain ⟨m, hm, hmat⟩ := told_wire hst (client_nothing ok.h09 ok.stableC) hon (fun _ => hsk.1) (List.prefix_refl _) (.inl ⟨t, hr⟩)
    (fun j m r' h1 h2 => (T.responses_read g ok j m h1).2 r' h2) k r hk
  obtain ⟨w1, w2⟩ := hall r (List.mem_of_getElem? hk)
  exact ⟨m, hm, w1, hmat.whole w1 w2⟩

/-- C81, the client's side within a body.  When a client's connection waits for more of the body of a response and all bytes have arrived, the message is the
last one of the server's connection, which has not ended it; if it is still polling the service's body, the client has got all data this has yielded.  As in C68,
a server's connection with the queueing strategy has to be `Gated`. -/
theorem C81_response_body_partial (ok : s.Ok) (T : Talk s client server as bs) (g : Talk.Gate s server bs) (i : ReadIn) (hw : AwaitsBody s.PC (client.run s.envC s.PC s.HC as) i) :
    (client.run s.envC s.PC s.HC as).got.length = (messages (story s.envS s.PS server.disp [] (acts s.envS s.PS s.HS server bs))).length ∧
    ∃ r m, (client.run s.envC s.PC s.HC as).got.getLast? = some r ∧ (messages (story s.envS s.PS server.disp [] (acts s.envS s.PS s.HS server bs))).getLast? = some m ∧
      ((∃ e, (server.run s.envS s.PS s.HS bs).disp.conn.writing = .body e) ∨ (server.run s.envS s.PS s.HS bs).disp.conn.writing = .closed ∨
        (server.run s.envS s.PS s.HS bs).disp.done = true) ∧
      ((∃ e, (server.run s.envS s.PS s.HS bs).disp.conn.writing = .body e) → (server.run s.envS s.PS s.HS bs).disp.bodyRx = true →
        (server.run s.envS s.PS s.HS bs).disp.done = false → r.data = m.data) := by
  have hst : Stable s.HC := C66_client_stable s.cfg ok.h09 s.QC ok.stableC
  obtain ⟨ws, r, t, body, h1, h2, h3, h4⟩ := awaits_body hst s.envC client T.freshC.start T.gotC as i hw
  rw [T.netC] at h2
  have hwi := T.freshS.wi.run s.envS s.PS _ (Poll.vi_start T.freshS.start) g
  rw [← run_acts] at hwi
  have hsk := client_skips ok.h09 ok.stableC ok.readsC
  obtain ⟨pre, m, g1, g2, g3, g4, g5⟩ := part_read hst (client_nothing ok.h09 ok.stableC) hwi (fun _ => hsk) h2 h3 h4
    (fun j m r' e1 e2 => (T.responses_read g ok j m e1).2 r' (by rw [h1]; exact e2))
  refine ⟨by rw [h1, g2], r, m, by rw [h1]; simp, ?_, g4, g5⟩
  rw [g1, messages_append, show messages [.message m] = [m] from rfl]
  simp

theorem awaits_live {α : Type} {H : HeadFn α} {P : TrailerParser} {f : Fed α} {i : ReadIn} (h : AwaitsHead H f i ∨ AwaitsBody P f i) : f.disp.done = false := by
  rcases h with h | ⟨dec, h, _⟩
  · have := h.1
    simp only [Disp.parses, Bool.and_eq_true, Bool.not_eq_true'] at this
    exact this.1.1.1
  · unfold Disp.decodes at h
    split at h
    · cases h
    · rename_i hn
      simp only [Bool.or_eq_true, not_or, Bool.not_eq_true] at hn
      exact hn.1.1

/-- C81, no standoff.  When all bytes have arrived on both sides, the two connections do not both wait for bytes of the other, except in one way: the server's
connection is within the body of a request whose end the client's connection has not written, because the user's body has not ended, or has failed.  As in C68, a server's connection with the queueing strategy has to be `Gated`. -/
theorem C81_no_standoff_partial (ok : s.Ok) (T : Talk s client server as bs) (g : Talk.Gate s server bs) (i j : ReadIn)
    (hc : AwaitsHead s.HC (client.run s.envC s.PC s.HC as) i ∨ AwaitsBody s.PC (client.run s.envC s.PC s.HC as) i)
    (hs : AwaitsHead s.HS (server.run s.envS s.PS s.HS bs) j ∨ AwaitsBody s.PS (server.run s.envS s.PS s.HS bs) j) :
    AwaitsBody s.PS (server.run s.envS s.PS s.HS bs) j ∧
    ((∃ e, (client.run s.envC s.PC s.HC as).disp.conn.writing = .body e) ∨ (client.run s.envC s.PC s.HC as).disp.conn.writing = .closed) := by
  have hcd := awaits_live hc
  have hsd := awaits_live hs
  rcases hs with hs | hs
  · exfalso
    have hstS : Stable s.HS := C66_server_stable s.QS ok.stableS s.methodOk s.uriOk s.preserve
    have hstC : Stable s.HC := C66_client_stable s.cfg ok.h09 s.QC ok.stableC
    have hist := (server_hist s.envS s.PS (acts s.envS s.PS s.HS server bs) server.disp T.freshS.start T.isS).inv
    rw [← run_acts, view_live hsd] at hist
    have hp := hs.1
    simp only [Disp.parses, Bool.and_eq_true, Bool.not_eq_true'] at hp
    have hrd : (server.run s.envS s.PS s.HS bs).disp.conn.reading = .init := by
      have := hp.1.2
      simp only [Conn.canReadHead, Bool.and_eq_true, beq_iff_eq] at this; exact this.1
    obtain ⟨i1, _, _, i4, _⟩ := hist.init (by simp [Conn.view, hrd, Reading.tag])
    have hwr : (server.run s.envS s.PS s.HS bs).disp.conn.writing = .init := by
      have : (server.run s.envS s.PS s.HS bs).disp.conn.writing.tag = .init := i1
      revert this
      cases (server.run s.envS s.PS s.HS bs).disp.conn.writing <;> simp [Writing.tag]
    have hnot : ¬ ((∃ e, (server.run s.envS s.PS s.HS bs).disp.conn.writing = .body e) ∨ (server.run s.envS s.PS s.HS bs).disp.conn.writing = .closed ∨
        (server.run s.envS s.PS s.HS bs).disp.done = true) := by
      rw [hwr, hsd]
      rintro (⟨_, h⟩ | h | h) <;> cases h
    rcases hc with hc | hc
    · -- how many requests there are
      have hk := client_methods s.envC s.PC s.HC hstC client T.freshC.start T.isC T.gotC as
      have hch := (client_hist s.envC s.PC (acts s.envC s.PC s.HC client as) client.disp T.freshC.start T.isC).inv
      rw [← run_acts, view_live hcd] at hch
      have headsC := (C66_messages s.envC s.PC s.HC hstC client T.freshC.start T.gotC as).2.1
      have hpc := hc.1
      have hcl : (client.run s.envC s.PC s.HC as).disp.conn.client = true := hch.client
      simp only [Disp.parses, hcl, if_true, Bool.and_eq_true, Bool.not_eq_true'] at hpc
      have hrc : (client.run s.envC s.PC s.HC as).disp.conn.reading = .init := by
        have := hpc.1.2
        simp only [Conn.canReadHead, Bool.and_eq_true, beq_iff_eq] at this; exact this.1
      obtain ⟨_, c2, c3⟩ := hch.init (by simp [Conn.view, hrc, Reading.tag])
      have hfl : (client.run s.envC s.PC s.HC as).disp.inFlight ≠ none := by
        intro e; have := hpc.2.1; rw [e] at this; cases this
      have hlenC : (client.run s.envC s.PC s.HC as).got.length + 1 = (requests s.envC s.PC client.disp (acts s.envC s.PC s.HC client as)).length := by
        rw [hk.next]
        by_cases hw : ((client.run s.envC s.PC s.HC as).disp.conn.view (client.run s.envC s.PC s.HC as).disp.inFlight (client.run s.envC s.PC s.HC as).disp.next).wr = .init
        · exact absurd (c2 hw).2 hfl
        · have := (c3 hw).1
          rw [readHeads_filter] at this
          rw [show ((client.run s.envC s.PC s.HC as).disp.conn.view (client.run s.envC s.PC s.HC as).disp.inFlight (client.run s.envC s.PC s.HC as).disp.next).log =
            (client.run s.envC s.PC s.HC as).disp.conn.log from rfl, headsC, List.length_map] at this
          exact this
      -- how many answers
      have headsS := (C66_messages s.envS s.PS s.HS hstS server T.freshS.start T.gotS bs).2.1
      have h1 := hist.heads
      rw [readHeads_filter] at h1
      change ((server.run s.envS s.PS s.HS bs).disp.conn.log.filter isHead).length = _ at h1
      rw [headsS, List.length_map] at h1
      have serve := server_answers s.envS s.PS s.HS hstS (fun _ _ => rfl) server T.freshS T.methodS T.isS T.gotS bs g
      obtain ⟨b, μs, said, _⟩ := serve.said
      have hlog := (C65_wire_partial s.envS s.PS server.disp T.freshS _ g).1
      rw [← run_acts] at hlog
      have hb : b = false := by
        cases b with
        | false => rfl
        | true =>
          have hmem := said.count.2.2 rfl
          rw [hlog] at hmem
          exact absurd i1 (hist.bad (wasBad_mem (List.mem_filter.1 hmem).1)).1
      have hcount := said.count.2.1 hb
      rw [hlog, writeHeads_filter] at hcount
      have hml := said.length
      rw [hb] at hml
      simp only [Bool.false_eq_true, if_false, Nat.add_zero] at hml
      have e1 := (C81_requests ok T j hs).1
      rcases (C81_responses_partial ok T g i hc).1 with e2 | ⟨_, e2, _⟩
      · have i4' : writeHeads (server.run s.envS s.PS s.HS bs).disp.conn.log = _ := i4
        omega
      · exact hnot e2
    · obtain ⟨_, _, _, _, _, h, _⟩ := C81_response_body_partial ok T g i hc
      exact hnot h
  · refine ⟨hs, ?_⟩
    obtain ⟨_, _, _, _, _, h, _⟩ := C81_request_body ok T j hs
    rcases h with h | h | h
    · exact .inl h
    · exact .inr h
    · rw [hcd] at h; cases h

/-- C81, no standoff, with the flattening strategy: nothing is missing. -/
theorem C81_no_standoff_flat (ok : s.Ok) (T : Talk s client server as bs) (hf : server.disp.conn.out.wbuf.strategy = .flatten) (i j : ReadIn)
    (hc : AwaitsHead s.HC (client.run s.envC s.PC s.HC as) i ∨ AwaitsBody s.PC (client.run s.envC s.PC s.HC as) i)
    (hs : AwaitsHead s.HS (server.run s.envS s.PS s.HS bs) j ∨ AwaitsBody s.PS (server.run s.envS s.PS s.HS bs) j) :
    AwaitsBody s.PS (server.run s.envS s.PS s.HS bs) j ∧
    ((∃ e, (client.run s.envC s.PC s.HC as).disp.conn.writing = .body e) ∨ (client.run s.envC s.PC s.HC as).disp.conn.writing = .closed) :=
  C81_no_standoff_partial ok T (T.flat hf) i j hc hs

/-! ## Examples -/

namespace Wire

def exSides : Sides := ⟨exEnv, exEnv, parseBlock, parseBlock, exUserCfg, refReplies 100, 100, refTokens 100, 100, fun _ => true, fun _ => true, false⟩

theorem exSides_ok : exSides.Ok :=
  ⟨⟨by unfold DateOk; decide +kernel, by intro s r h; cases h⟩, parseBlock_reads, parseBlock_reads, rfl, refReplies_stable 100, refReplies_reads 100, refReplies_local 100,
    refTokens_stable 100, refTokens_reads 100, refTokens_local 100⟩

/-- A request with a body of five bytes, of which the user's body has yielded two. -/
def exUpload : List FAct :=
  [.act (exWrite (exSend [] (some (.known 5))) .pending), .act (exWrite .pending (.frame (.data (ascii "ab") false))), .act (.flush exFlushIn .pending)]

def exUploadHead : Bytes := ascii "GET / HTTP/1.1\r\ncontent-length: 5\r\n\r\n"

def exUploader : Fed ResponseMsg := ⟨exDisp true, { rd := ⟨[], [], .silent⟩, max := 8192 }, []⟩

def exTaker : Fed RequestMsg := exFed [.data 71 ((exUploadHead ++ ascii "ab").drop 1)]

def exTake : List FAct := [.act (.read exTurn), .act (.want 0), .act (.read exTurn)]

theorem exUpload_talk : Talk exSides exUploader exTaker exUpload exTake := by
  have hq : requests exEnv parseBlock (exDisp true) (acts exEnv parseBlock exUserHeads exUploader exUpload) = [(⟨mGET, ascii "/", .h11, [], none⟩, some (.known 5))] := by decide +kernel
  have ha : answers exEnv parseBlock (exDisp false) (acts exEnv parseBlock exServer exTaker exTake) = [] := by decide +kernel
  have hm : (messages (story exEnv parseBlock (exDisp true) [] (acts exEnv parseBlock exUserHeads exUploader exUpload))).map (fun m => (m.head, m.framing, m.trailers, m.frames)) =
      [(exUploadHead, .body ⟨.length 5, false⟩, true, [.data (ascii "ab") false])] := by decide +kernel
  have hm' : messages (story exEnv parseBlock (exDisp false) [] (acts exEnv parseBlock exServer exTaker exTake)) = [] := by
    have : (messages (story exEnv parseBlock (exDisp false) [] (acts exEnv parseBlock exServer exTaker exTake))).length = 0 := by decide +kernel
    exact List.eq_nil_of_length_eq_zero this
  refine ⟨exDisp_fresh true none, rfl, rfl, rfl, exDisp_fresh false none, rfl, rfl, rfl, rfl, ?_, ?_, ?_, ?_, ?_, ?_⟩
  · intro q hmem
    have hmem' : q ∈ requests exEnv parseBlock (exDisp true) (acts exEnv parseBlock exUserHeads exUploader exUpload) := hmem
    rw [hq, List.mem_singleton] at hmem'
    subst hmem'
    exact ⟨⟨⟨⟨by decide +kernel, by decide +kernel⟩, by intro f hf; cases hf⟩, by simp, by simp⟩, ⟨by decide, by decide +kernel, by decide, by decide +kernel, by decide, ⟨"/", by decide +kernel⟩⟩,
      by unfold ShortNames; decide +kernel, ⟨⟨0, (by intro v hv; cases hv), by simp⟩, by intro v hv; cases hv⟩, .inr rfl, rfl, rfl⟩
  · intro k a q h _
    have h' : (answers exEnv parseBlock (exDisp false) (acts exEnv parseBlock exServer exTaker exTake))[k]? = some a := h
    rw [ha] at h'
    cases h'
  · intro m hmem
    have h := List.mem_map_of_mem (f := fun m : Message => (m.head, m.framing, m.trailers, m.frames)) hmem
    have h' : (m.head, m.framing, m.trailers, m.frames) ∈ [(exUploadHead, Writing.body ⟨.length 5, false⟩, true, [UserFrame.data (ascii "ab") false])] := hm ▸ h
    simp only [List.mem_cons, List.not_mem_nil, or_false, Prod.mk.injEq] at h'
    obtain ⟨e1, e2, e3, e4⟩ := h'
    refine ⟨by rw [e1]; decide +kernel, ?_, ?_, ?_⟩
    · intro e n h1 h2; rw [e2] at h1; cases h1; cases h2; decide
    · rw [e4]; intro f hf bs e he; subst he; simp at hf; obtain ⟨rfl, _⟩ := hf; decide
    · rw [e4]; intro t ht; cases ht
  · intro m hmem
    have h' : m ∈ messages (story exEnv parseBlock (exDisp false) [] (acts exEnv parseBlock exServer exTaker exTake)) := hmem
    rw [hm'] at h'
    cases h'
  · show exTaker.inlet.rd.stream = wire (exUploader.run exEnv parseBlock exUserHeads exUpload).disp.conn
    decide +kernel
  · show exUploader.inlet.rd.stream = wire (exTaker.run exEnv parseBlock exServer exTake).disp.conn
    decide +kernel

theorem exUploader_waits : AwaitsHead exSides.HC (exUploader.run exEnv parseBlock exSides.HC exUpload) exTurn := by
  refine ⟨?_, ?_, ?_, ?_⟩
  · show (exUploader.run exEnv parseBlock exUserHeads exUpload).disp.parses exTurn = true
    decide +kernel
  · have : (match ((exUploader.run exEnv parseBlock exUserHeads exUpload).inlet.parse (exUserHeads.parse (exUploader.run exEnv parseBlock exUserHeads exUpload).disp.conn.method)).1 with
        | .pending => true | _ => false) = true := by decide +kernel
    revert this
    show _ → ((exUploader.run exEnv parseBlock exUserHeads exUpload).inlet.parse (exUserHeads.parse (exUploader.run exEnv parseBlock exUserHeads exUpload).disp.conn.method)).1 = .pending
    cases ((exUploader.run exEnv parseBlock exUserHeads exUpload).inlet.parse (exUserHeads.parse (exUploader.run exEnv parseBlock exUserHeads exUpload).disp.conn.method)).1 <;> simp
  · show (exUploader.run exEnv parseBlock exUserHeads exUpload).inlet.rd.fin = .silent
    decide +kernel
  · show segBytes ((exUploader.run exEnv parseBlock exUserHeads exUpload).inlet.parse (exUserHeads.parse (exUploader.run exEnv parseBlock exUserHeads exUpload).disp.conn.method)).2.rd.net = []
    decide +kernel

theorem exTaker_waits : AwaitsBody exSides.PS (exTaker.run exEnv parseBlock exSides.HS exTake) exTurn := by
  have h : (match (exTaker.run exEnv parseBlock exServer exTake).disp.decodes exTurn with
      | some d => (match (d.decode parseBlock (exTaker.run exEnv parseBlock exServer exTake).inlet.rd).1 with | .pending => true | _ => false) &&
          (segBytes (d.decode parseBlock (exTaker.run exEnv parseBlock exServer exTake).inlet.rd).2.2.net == [])
      | none => false) = true := by decide +kernel
  have hf : (exTaker.run exEnv parseBlock exServer exTake).inlet.rd.fin = .silent := by decide +kernel
  cases hd : (exTaker.run exEnv parseBlock exServer exTake).disp.decodes exTurn with
  | none => rw [hd] at h; cases h
  | some d =>
    rw [hd] at h
    simp only [Bool.and_eq_true, beq_iff_eq] at h
    refine ⟨d, hd, ?_, hf, h.2⟩
    have := h.1
    show (d.decode parseBlock (exTaker.run exEnv parseBlock exServer exTake).inlet.rd).1 = .pending
    revert this
    cases (d.decode parseBlock (exTaker.run exEnv parseBlock exServer exTake).inlet.rd).1 <;> simp

end Wire

/-- The one way in which both wait: the server has got the two bytes that there are of the request's body. -/
example : (∃ e, (exUploader.run exEnv parseBlock exUserHeads exUpload).disp.conn.writing = .body e) ∧
    ∃ r m, (exTaker.run exEnv parseBlock exServer exTake).got.getLast? = some r ∧
      (messages (story exEnv parseBlock (exDisp true) [] (acts exEnv parseBlock exUserHeads exUploader exUpload))).getLast? = some m ∧ r.data = m.data ∧ m.data = ascii "ab" := by
  have hw := (C81_no_standoff_flat exSides_ok exUpload_talk (by decide +kernel) exTurn exTurn (.inl exUploader_waits) (.inr exTaker_waits)).2
  have hb : (match (exUploader.run exEnv parseBlock exUserHeads exUpload).disp.conn.writing with | .body _ => true | _ => false) = true := by decide +kernel
  have hb' : ∃ e, (exUploader.run exEnv parseBlock exUserHeads exUpload).disp.conn.writing = .body e := by
    rcases hw with h | h
    · exact h
    · exfalso
      have h' : (exUploader.run exEnv parseBlock exUserHeads exUpload).disp.conn.writing = .closed := h
      rw [h'] at hb; cases hb
  obtain ⟨_, r, m, h1, h2, _, h4⟩ := C81_request_body exSides_ok exUpload_talk exTurn exTaker_waits
  have e := h4 hb' (by show (exUploader.run exEnv parseBlock exUserHeads exUpload).disp.bodyRx = true; decide +kernel)
    (by show (exUploader.run exEnv parseBlock exUserHeads exUpload).disp.done = false; decide +kernel)
  have hd : ((messages (story exEnv parseBlock (exDisp true) [] (acts exEnv parseBlock exUserHeads exUploader exUpload))).getLast?).map (·.data) = some (ascii "ab") := by decide +kernel
  have h2' : (messages (story exEnv parseBlock (exDisp true) [] (acts exEnv parseBlock exUserHeads exUploader exUpload))).getLast? = some m := h2
  refine ⟨hb', r, m, h1, h2', e, ?_⟩
  rw [h2'] at hd
  simpa using hd

namespace Wire

/-- The service's body has yielded one of the two bytes of its answer. -/
def exStarted : List FAct :=
  [.act (.read exTurn), .act (exWrite (exResp [(ascii "x", [ascii "v"])] (some (.known 2))) .pending), .act (exWrite .pending (.frame (.data (ascii "h") false))),
    .act (.flush exFlushIn .pending)]

def exAwaiter : Fed ResponseMsg := ⟨exDisp true, { rd := ⟨[], [.data 72 (exReplies.dropLast.drop 1)], .silent⟩, max := 8192 }, []⟩

def exAwait : List FAct :=
  [.act (exWrite (exSend [] none) .pending), .act (.flush exFlushIn .pending), .act (.read exTurn), .act (.want 0), .act (.read exTurn)]

theorem exAwait_talk : Talk exSides exAwaiter exService exAwait exStarted := by
  have hq : requests exEnv parseBlock (exDisp true) (acts exEnv parseBlock exUserHeads exAwaiter exAwait) = [(⟨mGET, ascii "/", .h11, [], none⟩, none)] := by decide +kernel
  have ha : answers exEnv parseBlock (exDisp false) (acts exEnv parseBlock exServer exService exStarted) =
      [⟨⟨.h11, 200, [(ascii "x", [ascii "v"])], none, none⟩, some (.known 2)⟩] := by decide +kernel
  have hm : (messages (story exEnv parseBlock (exDisp true) [] (acts exEnv parseBlock exUserHeads exAwaiter exAwait))).map (fun m => (m.head, m.framing, m.trailers, m.frames)) =
      [(exAsked, .keepAlive, true, [])] := by decide +kernel
  have hm' : (messages (story exEnv parseBlock (exDisp false) [] (acts exEnv parseBlock exServer exService exStarted))).map (fun m => (m.head, m.framing, m.trailers, m.frames)) =
      [(exReplies.dropLast.dropLast, .body ⟨.length 2, false⟩, false, [.data (ascii "h") false])] := by decide +kernel
  refine ⟨exDisp_fresh true none, rfl, rfl, rfl, exDisp_fresh false none, rfl, rfl, rfl, rfl, ?_, ?_, ?_, ?_, ?_, ?_⟩
  · intro q hmem
    have hmem' : q ∈ requests exEnv parseBlock (exDisp true) (acts exEnv parseBlock exUserHeads exAwaiter exAwait) := hmem
    rw [hq, List.mem_singleton] at hmem'
    subst hmem'
    exact ⟨⟨⟨⟨by decide +kernel, by decide +kernel⟩, by intro f hf; cases hf⟩, by simp, by simp⟩, ⟨by decide, by decide +kernel, by decide, by decide +kernel, by decide, ⟨"/", by decide +kernel⟩⟩,
      by unfold ShortNames; decide +kernel, ⟨⟨0, (by intro v hv; cases hv), by simp⟩, by intro v hv; cases hv⟩, .inr rfl, rfl, rfl⟩
  · intro k a q h _
    have h' : (answers exEnv parseBlock (exDisp false) (acts exEnv parseBlock exServer exService exStarted))[k]? = some a := h
    rw [ha] at h'
    have := List.mem_of_getElem? h'
    rw [List.mem_singleton] at this
    subst this
    exact ⟨⟨⟨by decide +kernel, by decide +kernel⟩, by intro f hf; simp [HeaderMap.fields] at hf; rw [hf]; exact ⟨⟨by decide, by decide +kernel, by decide +kernel⟩, by decide +kernel⟩⟩,
      (by intro m h; cases h), (by intro n h; cases h; decide), (by intro r h; cases h), by unfold ShortNames; decide +kernel,
      (by intro v hv; cases hv), (by intro v hv; cases hv), .inl ⟨by decide, by decide⟩⟩
  · intro m hmem
    have h := List.mem_map_of_mem (f := fun m : Message => (m.head, m.framing, m.trailers, m.frames)) hmem
    have h' : (m.head, m.framing, m.trailers, m.frames) ∈ [(exAsked, Writing.keepAlive, true, [])] := hm ▸ h
    simp only [List.mem_cons, List.not_mem_nil, or_false, Prod.mk.injEq] at h'
    obtain ⟨e1, e2, e3, e4⟩ := h'
    refine ⟨by rw [e1]; decide +kernel, ?_, ?_, ?_⟩
    · intro e n h1; rw [e2] at h1; cases h1
    · rw [e4]; intro f hf; cases hf
    · rw [e4]; intro t ht; cases ht
  · intro m hmem
    have h := List.mem_map_of_mem (f := fun m : Message => (m.head, m.framing, m.trailers, m.frames)) hmem
    have h' : (m.head, m.framing, m.trailers, m.frames) ∈ [(exReplies.dropLast.dropLast, Writing.body ⟨.length 2, false⟩, false, [UserFrame.data (ascii "h") false])] := hm' ▸ h
    simp only [List.mem_cons, List.not_mem_nil, or_false, Prod.mk.injEq] at h'
    obtain ⟨e1, e2, e3, e4⟩ := h'
    refine ⟨by rw [e1]; decide +kernel, ?_, ?_, ?_⟩
    · intro e n h1 h2; rw [e2] at h1; cases h1; cases h2; decide
    · rw [e4]; intro f hf bs e he; subst he; simp at hf; obtain ⟨rfl, _⟩ := hf; decide
    · rw [e4]; intro t ht; cases ht
  · show exService.inlet.rd.stream = wire (exAwaiter.run exEnv parseBlock exUserHeads exAwait).disp.conn
    decide +kernel
  · show exAwaiter.inlet.rd.stream = wire (exService.run exEnv parseBlock exServer exStarted).disp.conn
    decide +kernel

theorem exAwaiter_waits : AwaitsBody exSides.PC (exAwaiter.run exEnv parseBlock exSides.HC exAwait) exTurn := by
  have h : (match (exAwaiter.run exEnv parseBlock exUserHeads exAwait).disp.decodes exTurn with
      | some d => (match (d.decode parseBlock (exAwaiter.run exEnv parseBlock exUserHeads exAwait).inlet.rd).1 with | .pending => true | _ => false) &&
          (segBytes (d.decode parseBlock (exAwaiter.run exEnv parseBlock exUserHeads exAwait).inlet.rd).2.2.net == [])
      | none => false) = true := by decide +kernel
  have hf : (exAwaiter.run exEnv parseBlock exUserHeads exAwait).inlet.rd.fin = .silent := by decide +kernel
  cases hd : (exAwaiter.run exEnv parseBlock exUserHeads exAwait).disp.decodes exTurn with
  | none => rw [hd] at h; cases h
  | some d =>
    rw [hd] at h
    simp only [Bool.and_eq_true, beq_iff_eq] at h
    refine ⟨d, hd, ?_, hf, h.2⟩
    have := h.1
    show (d.decode parseBlock (exAwaiter.run exEnv parseBlock exUserHeads exAwait).inlet.rd).1 = .pending
    revert this
    cases (d.decode parseBlock (exAwaiter.run exEnv parseBlock exUserHeads exAwait).inlet.rd).1 <;> simp

end Wire

/-- The client waits for the rest of the body; it has got what there is.  So the server does not wait for a request. -/
example : (∃ r, (exAwaiter.run exEnv parseBlock exUserHeads exAwait).got.getLast? = some r ∧ r.data = ascii "h") ∧
    ¬ AwaitsHead exServer (exService.run exEnv parseBlock exServer exStarted) exTurn := by
  have hfl : exService.disp.conn.out.wbuf.strategy = .flatten := by decide +kernel
  constructor
  · obtain ⟨_, r, m, h1, h2, _, h4⟩ := C81_response_body_partial exSides_ok exAwait_talk (exAwait_talk.flat hfl) exTurn exAwaiter_waits
    have hb : (match (exService.run exEnv parseBlock exServer exStarted).disp.conn.writing with | .body _ => true | _ => false) = true := by decide +kernel
    have hb' : ∃ e, (exService.run exEnv parseBlock exServer exStarted).disp.conn.writing = .body e := by
      revert hb
      cases (exService.run exEnv parseBlock exServer exStarted).disp.conn.writing <;> simp
    have e := h4 hb' (by show (exService.run exEnv parseBlock exServer exStarted).disp.bodyRx = true; decide +kernel)
      (by show (exService.run exEnv parseBlock exServer exStarted).disp.done = false; decide +kernel)
    have hd : ((messages (story exEnv parseBlock (exDisp false) [] (acts exEnv parseBlock exServer exService exStarted))).getLast?).map (·.data) = some (ascii "h") := by decide +kernel
    have h2' : (messages (story exEnv parseBlock (exDisp false) [] (acts exEnv parseBlock exServer exService exStarted))).getLast? = some m := h2
    refine ⟨r, h1, e.trans ?_⟩
    rw [h2'] at hd
    simpa using hd
  · intro h
    have hb := (C81_no_standoff_flat exSides_ok exAwait_talk hfl exTurn exTurn (.inr exAwaiter_waits) (.inl h)).1
    obtain ⟨d, hd, _⟩ := hb
    have hd' : (exService.run exEnv parseBlock exServer exStarted).disp.decodes exTurn = some d := hd
    have : ((exService.run exEnv parseBlock exServer exStarted).disp.decodes exTurn).isSome = false := by decide +kernel
    rw [hd'] at this
    cases this

/-- And a server's connection that has answered does wait for the next request. -/
example : (exService.run exEnv parseBlock exServer exServiceRun).disp.parses exTurn = true ∧
    (match ((exService.run exEnv parseBlock exServer exServiceRun).inlet.parse (exServer.parse (exService.run exEnv parseBlock exServer exServiceRun).disp.conn.method)).1 with
      | .pending => true | _ => false) = true :=
  ⟨by decide +kernel, by decide +kernel⟩

end Hyper
