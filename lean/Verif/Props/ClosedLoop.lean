import Verif.Proof.ClosedLoop
import Verif.Props.EndToEnd

/-! # C68: the responses a client's connection reads are the service's answers to its requests -/

namespace Hyper

open Spec Input

namespace Wire

/-- The reference parser of responses, which waits for more where it finds no head. -/
def refReplies (max : Nat) (bs : Bytes) : RespParse :=
  match refResponse max bs with
  | .complete n r => .complete n r
  | _ => .incomplete

theorem refReplies_reads (max : Nat) : ReadsResponses max (refReplies max) := by
  intro http11 status reason bs fs rest hs1 hs2 hr hw hf hmax
  have := refResponse_reads max http11 status reason bs fs rest hs1 hs2 hr hw hf hmax
  simp only at this ⊢
  unfold refReplies
  rw [this]

theorem refReplies_stable (max : Nat) : PrefixStable (refReplies max) := by
  intro buf len r h
  have h' : refResponse max buf = .complete len r := by
    unfold refReplies at h
    split at h
    · rename_i e; cases h; exact e
    · cases h
  have key : 0 < len ∧ len ≤ buf.length ∧ ∀ more, refResponse max (buf ++ more) = .complete len r := by
    clear h
    unfold refResponse at h'
    split at h'
    · rename_i ht
      have hlen : 7 ≤ buf.length := by
        have := congrArg List.length ht
        rw [List.length_take, show (ascii "HTTP/1.").length = 7 from by decide] at this
        omega
      have hdl : (buf.drop 7).length = buf.length - 7 := List.length_drop
      split at h'
      · rename_i v r1 e1
        split at h'
        · rename_i r2 e2
          split at h'
          · rename_i rest e3
            cases hb : refBlock max rest with
            | none => rw [hb] at h'; cases h'
            | some p =>
              obtain ⟨fs, q⟩ := p
              rw [hb] at h'
              simp only [RespParse.complete.injEq] at h'
              obtain ⟨rfl, rfl⟩ := h'
              have b0 := (refBlock_more [] _ _ _ _ hb).2
              have w2 := (while_more e2 []).2.2
              have w3 := (while_more e3 []).2.2
              rw [e1] at hdl
              simp only [List.length_cons] at hdl w3
              refine ⟨by omega, by omega, fun more => ?_⟩
              obtain ⟨f1, f2, _⟩ := while_more e2 more
              obtain ⟨g1, g2, _⟩ := while_more e3 more
              unfold refResponse
              rw [List.take_append_of_le_length hlen, if_pos ht, List.drop_append_of_le_length hlen, e1]
              simp only [List.cons_append] at g1 ⊢
              simp only [f1, f2, g1, g2, (refBlock_more more _ _ _ _ hb).1, List.length_append, RespParse.complete.injEq, and_true]
              omega
          · cases h'
        · cases h'
      · cases h'
    · cases h'
  refine ⟨key.1, key.2.1, fun more => ?_⟩
  unfold refReplies
  rw [key.2.2 more]

end Wire

open Wire

/-- The responses a client's connection reads, whatever pieces make up the server's wire. -/
theorem Wire.exchange (envC envS : EncodeEnv) (henv : EnvOk envS) (PC PS : TrailerParser) (hPC : ReadsBlocks PC) (hPS : ReadsBlocks PS)
    (cfg : ClientCfg) (h09 : cfg.h09 = false) (QC : Bytes → RespParse) (hSC : PrefixStable QC) (maxC : Nat) (hQC : ReadsResponses maxC QC)
    (QS : Bytes → Except ParseErr (Option (RawRequest × Nat))) (hSS : RequestStable QS) (maxS : Nat) (hQS : ReadsRequests maxS (tokens QS))
    (methodOk uriOk : Bytes → Bool) (preserve : Bool)
    (client : Fed ResponseMsg) (hc : Fresh client.disp) (hcc : client.disp.conn.client = true) (hcg : client.got = [])
    (server : Fed RequestMsg) (hs : Fresh server.disp) (hsg : server.got = [])
    (as bs : List FAct) (xs ys : List Act) (hxs : xs = acts envC PC (clientHeads cfg QC) client as)
    (hys : ys = acts envS PS (serverHeads QS methodOk uriOk preserve) server bs)
    (hreq : ∀ q ∈ requests envC PC client.disp xs, RequestOk methodOk uriOk q.1 q.2)
    (hresp : ∀ (k : Nat) (a : RespOut) (q : ReqHead × Option BodyLength), (answers envS PS server.disp ys)[k]? = some a → (requests envC PC client.disp xs)[k]? = some q →
      ResponseOk envS q.1.method a)
    (fairC : ∀ m ∈ messages (story envC PC client.disp [] xs), m.Fair maxS server.disp.conn.maxHeaders)
    (netS : server.inlet.rd.stream <+: wire (client.disp.run envC PC xs).conn)
    (netC : client.inlet.rd.stream <+: wire (server.disp.run envS PS ys).conn)
    (st : List Piece) (hon : OnWire (server.disp.run envS PS ys) st) {b : Bool} {μs : List Bytes} (said : Replies envS b st (answers envS PS server.disp ys) μs)
    (seen : μs <+: (server.run envS PS (serverHeads QS methodOk uriOk preserve) bs).got.map (fun r => r.head.method))
    (fairS : ∀ m ∈ messages st, m.Fair maxC client.disp.conn.maxHeaders)
    (k : Nat) (r : Received ResponseMsg) (hr : (client.run envC PC (clientHeads cfg QC) as).got[k]? = some r) :
    (∃ h body a m s, (requests envC PC client.disp xs)[k]? = some (h, body) ∧
      (server.run envS PS (serverHeads QS methodOk uriOk preserve) bs).got[k]? = some s ∧ s.head.method = h.method ∧ s.head.target = h.target ∧
      (answers envS PS server.disp ys)[k]? = some a ∧ (messages st)[k]? = some m ∧ m.OfResponse envS a h.method ∧
      r.method = some h.method ∧ Matches (clientHeads cfg QC) PC client.disp.conn.maxHeaders m r ∧
      r.head.head.status = a.head.status ∧
      (∀ n, n ∉ [hCL, hTE, hCONN, hTRAILER, hDATE] → r.head.head.headers.getAll n = (a.head.headers.getAll n).map trimBlanks) ∧
      r.data <+: m.data ∧ (r.whole = true → r.head.decode ≠ DecodedLength.CLOSE_DELIMITED → r.data = m.data ∧ r.trailers = m.trailerFields)) ∨
    (k = (answers envS PS server.disp ys).length ∧ r.head.head.status ∈ [400, 414, 431] ∧ r.data = []) := by
  have hstS := C66_server_stable QS hSS methodOk uriOk preserve
  have hstC := C66_client_stable cfg h09 QC hSC
  have know := client_methods envC PC _ hstC client hc.start hcc hcg as
  rw [← hxs] at know
  -- the method of the request in place `j`, on both sides
  have hmeth : ∀ (j : Nat) (μ : Bytes) (q : ReqHead × Option BodyLength), μs[j]? = some μ → (requests envC PC client.disp xs)[j]? = some q →
      ∃ s, (server.run envS PS (serverHeads QS methodOk uriOk preserve) bs).got[j]? = some s ∧ s.head.method = q.1.method ∧ s.head.target = q.1.target ∧ μ = q.1.method := by
    intro j μ q h1 h2
    obtain ⟨rest, hrest⟩ := seen
    have h3 : ((server.run envS PS (serverHeads QS methodOk uriOk preserve) bs).got.map (fun r => r.head.method))[j]? = some μ := by
      rw [← hrest, List.getElem?_append_left (List.getElem?_eq_some_iff.1 h1).1]; exact h1
    rw [List.getElem?_map] at h3
    cases hgot : (server.run envS PS (serverHeads QS methodOk uriOk preserve) bs).got[j]? with
    | none => rw [hgot] at h3; cases h3
    | some s =>
      rw [hgot] at h3
      simp only [Option.map_some, Option.some.injEq] at h3
      obtain ⟨h, body, _, g1, _, _, g4, g5, _⟩ := C67_requests envC envS PS PC hPS QS hSS maxS hQS methodOk uriOk preserve client.disp hc hcc xs hreq server hs.start hsg
        fairC netS bs j s hgot
      rw [h2] at g1
      cases g1
      exact ⟨s, rfl, g4, g5, h3.symm.trans g4⟩
  have hmr : ∀ (j : Nat) (r' : Received ResponseMsg), (client.run envC PC (clientHeads cfg QC) as).got[j]? = some r' →
      ∃ q, (requests envC PC client.disp xs)[j]? = some q ∧ r'.method = some q.1.method := by
    intro j r' h
    obtain ⟨rest, hrest⟩ := know.got
    have h1 : ((client.run envC PC (clientHeads cfg QC) as).got.map (·.method))[j]? = some r'.method := by rw [List.getElem?_map, h]; rfl
    have h2 : ((requests envC PC client.disp xs).map (fun q => some q.1.method))[j]? = some r'.method := by
      rw [← hrest, List.getElem?_append_left (List.getElem?_eq_some_iff.1 h1).1]; exact h1
    rw [List.getElem?_map] at h2
    cases hq : (requests envC PC client.disp xs)[j]? with
    | none => rw [hq] at h2; cases h2
    | some q => rw [hq] at h2; simp only [Option.map_some, Option.some.injEq] at h2; exact ⟨q, rfl, h2.symm⟩
  have hmq : ∀ (j : Nat) (r' : Received ResponseMsg) {q : ReqHead × Option BodyLength}, (client.run envC PC (clientHeads cfg QC) as).got[j]? = some r' →
      (requests envC PC client.disp xs)[j]? = some q → r'.method = some q.1.method := by
    intro j r' q h1 h2
    obtain ⟨q', g1, g2⟩ := hmr j r' h1
    rw [h2] at g1; cases g1; exact g2
  have hread : ∀ (j : Nat) (m : Message) (r' : Received ResponseMsg), (messages st)[j]? = some m →
      (client.run envC PC (clientHeads cfg QC) as).got[j]? = some r' →
      (∃ q a, (requests envC PC client.disp xs)[j]? = some q ∧ (answers envS PS server.disp ys)[j]? = some a ∧ m.OfResponse envS a q.1.method ∧
        (∃ s, (server.run envS PS (serverHeads QS methodOk uriOk preserve) bs).got[j]? = some s ∧ s.head.method = q.1.method ∧ s.head.target = q.1.target) ∧
        (Mute m ∨ ∃ x : ResponseMsg, Readable (clientHeads cfg QC) PC client.disp.conn.maxHeaders r'.method m x ∧ x.head.status = a.head.status ∧
          (∀ k, k ∉ [hCL, hTE, hCONN, hTRAILER, hDATE] → x.head.headers.getAll k = (a.head.headers.getAll k).map trimBlanks))) ∨
      (j = (answers envS PS server.disp ys).length ∧
        (Mute m ∨ ∃ x : ResponseMsg, Readable (clientHeads cfg QC) PC client.disp.conn.maxHeaders r'.method m x ∧ x.head.status ∈ [400, 414, 431] ∧ m.data = [])) := by
    intro j m r' h1 h2
    obtain ⟨q, q1, q2⟩ := hmr j r' h2
    have hfair := fairS m (List.mem_of_getElem? h1)
    rcases said.at j m h1 with ⟨a, μ, g1, g2, g3⟩ | ⟨g1, status, g2⟩
    · obtain ⟨s, s1, s2, s3, rfl⟩ := hmeth j μ q g2 q1
      refine .inl ⟨q, a, q1, g1, g3, ⟨s, s1, s2, s3⟩, ?_⟩
      rw [q2]
      exact response_read h09 hSC hQC PC hPC _ henv g3 (hresp j a q g1 q1) hfair
    · refine .inr ⟨g1, ?_⟩
      rcases error_read h09 hSC hQC PC hPC client.disp.conn.maxHeaders henv g2 hfair r'.method with h | ⟨x, x1, x2, x3⟩
      · exact .inl h
      · exact .inr ⟨x, x1, by rw [x2]; exact g2.1, x3⟩
  obtain ⟨m, hm, hmat⟩ := told_wire hstC (client_nothing h09 hSC) hon (fun _ => client_passes hSC hQC) netC
    (C66_messages envC PC _ hstC client hc.start hcg as).1
    (fun j m r' h1 h2 => by
      rcases hread j m r' h1 h2 with ⟨_, _, _, _, _, _, h | ⟨x, hx, _⟩⟩ | ⟨_, h | ⟨x, hx, _⟩⟩
      · exact .inl h
      · exact .inr ⟨x, hx⟩
      · exact .inl h
      · exact .inr ⟨x, hx⟩) k r hr
  have hsame : ∀ x : ResponseMsg, Readable (clientHeads cfg QC) PC client.disp.conn.maxHeaders r.method m x → x = r.head := by
    intro x hx
    have := (hx.head []).symm.trans (hmat.head.head [])
    simp only [Prod.mk.injEq, Except.ok.injEq, Option.some.injEq] at this
    exact this.1
  have hnm : ¬ Mute m := by
    intro h
    have := hmat.head.head []
    rw [h.1, List.append_nil] at this
    exact client_nothing h09 hSC _ _ _ this
  rcases hread k m r hm hr with ⟨q, a, h1, h2, h3, ⟨s, s1, s2, s3⟩, h4⟩ | ⟨h1, h2⟩
  · obtain ⟨x, x1, x2, x3⟩ := h4.resolve_left hnm
    obtain rfl := hsame x x1
    exact .inl ⟨q.1, q.2, a, m, s, h1, s1, s2, s3, h2, hm, h3, (hmq k r hr h1), hmat, x2, x3, hmat.data, hmat.whole⟩
  · obtain ⟨x, x1, x2, x3⟩ := h2.resolve_left hnm
    obtain rfl := hsame x x1
    refine .inr ⟨h1, x2, ?_⟩
    have := hmat.data
    rw [x3] at this
    exact List.eq_nil_of_prefix_nil this

/-- C68.  A client's connection and a server's, each fed with what the other has put on the wire (or a beginning of it, cut into reads in any way), in any
runs of theirs.  The `k`-th response the client's connection reads is the service's answer to the `k`-th request of the client's user: the server's connection
has read that request, with this method and target, and its `k`-th answer was encoded for that method; the response has the status of the answer, its
headers (but for those of framing and connection options, Trailer and Date, and blanks around values), data that the service's body yielded, and if its end
was recognised on the wire, all of it and the trailers.  The only other response there can be is the one, after all answers, that the server's connection
makes on its own to bytes it can not parse; it has no data.

Messages are as the types of the `http` crate allow them, with right framing headers (`RequestOk`, `ResponseOk`), within the other side's limits (`Fair`).
What is missing is as in C65: a server's connection with the queueing strategy has to be `Gated`. -/
theorem C68_exchange_partial (envC envS : EncodeEnv) (henv : EnvOk envS) (PC PS : TrailerParser) (hPC : ReadsBlocks PC) (hPS : ReadsBlocks PS)
    (cfg : ClientCfg) (h09 : cfg.h09 = false) (QC : Bytes → RespParse) (hSC : PrefixStable QC) (maxC : Nat) (hQC : ReadsResponses maxC QC)
    (QS : Bytes → Except ParseErr (Option (RawRequest × Nat))) (hSS : RequestStable QS) (maxS : Nat) (hQS : ReadsRequests maxS (tokens QS))
    (methodOk uriOk : Bytes → Bool) (preserve : Bool)
    (client : Fed ResponseMsg) (hc : Fresh client.disp) (hcc : client.disp.conn.client = true) (hcg : client.got = [])
    (server : Fed RequestMsg) (hs : Fresh server.disp) (hsc : server.disp.conn.client = false) (hsm : server.disp.conn.method = none) (hsg : server.got = [])
    (as bs : List FAct) (xs ys : List Act) (hxs : xs = acts envC PC (clientHeads cfg QC) client as)
    (hys : ys = acts envS PS (serverHeads QS methodOk uriOk preserve) server bs)
    (hgate : Wire.Gated envS PS server.disp ys)
    (hreq : ∀ q ∈ requests envC PC client.disp xs, RequestOk methodOk uriOk q.1 q.2)
    (hresp : ∀ (k : Nat) (a : RespOut) (q : ReqHead × Option BodyLength), (answers envS PS server.disp ys)[k]? = some a → (requests envC PC client.disp xs)[k]? = some q →
      ResponseOk envS q.1.method a)
    (fairC : ∀ m ∈ messages (story envC PC client.disp [] xs), m.Fair maxS server.disp.conn.maxHeaders)
    (fairS : ∀ m ∈ messages (story envS PS server.disp [] ys), m.Fair maxC client.disp.conn.maxHeaders)
    (netS : server.inlet.rd.stream <+: wire (client.disp.run envC PC xs).conn)
    (netC : client.inlet.rd.stream <+: wire (server.disp.run envS PS ys).conn)
    (k : Nat) (r : Received ResponseMsg) (hr : (client.run envC PC (clientHeads cfg QC) as).got[k]? = some r) :
    (∃ h body a m s, (requests envC PC client.disp xs)[k]? = some (h, body) ∧
      (server.run envS PS (serverHeads QS methodOk uriOk preserve) bs).got[k]? = some s ∧ s.head.method = h.method ∧ s.head.target = h.target ∧
      (answers envS PS server.disp ys)[k]? = some a ∧ (messages (story envS PS server.disp [] ys))[k]? = some m ∧ m.OfResponse envS a h.method ∧
      r.head.head.status = a.head.status ∧
      (∀ n, n ∉ [hCL, hTE, hCONN, hTRAILER, hDATE] → r.head.head.headers.getAll n = (a.head.headers.getAll n).map trimBlanks) ∧
      r.data <+: m.data ∧ (r.whole = true → r.head.decode ≠ DecodedLength.CLOSE_DELIMITED → r.data = m.data ∧ r.trailers = m.trailerFields)) ∨
    (k = (answers envS PS server.disp ys).length ∧ r.head.head.status ∈ [400, 414, 431] ∧ r.data = []) := by
  have hstS := C66_server_stable QS hSS methodOk uriOk preserve
  have serve := server_answers envS PS (serverHeads QS methodOk uriOk preserve) hstS (fun _ _ => rfl) server hs hsm hsc hsg bs (hys ▸ hgate)
  rw [← hys] at serve
  obtain ⟨b, μs, said, seen⟩ := serve.said
  rcases Wire.exchange envC envS henv PC PS hPC hPS cfg h09 QC hSC maxC hQC QS hSS maxS hQS methodOk uriOk preserve client hc hcc hcg server hs hsg as bs xs ys hxs hys hreq hresp fairC netS netC _
    (C65_wire_partial envS PS server.disp hs ys hgate).2 said seen fairS k r hr with ⟨h, body, a, m, t, h1, h2, h3, h4, h5, h6, h7, _, _, h8, h9, h10⟩ | h
  · exact .inl ⟨h, body, a, m, t, h1, h2, h3, h4, h5, h6, h7, h8, h9, h10⟩
  · exact .inr h

/-- C68, with the flattening strategy: nothing is missing. -/
theorem C68_exchange_flat (envC envS : EncodeEnv) (henv : EnvOk envS) (PC PS : TrailerParser) (hPC : ReadsBlocks PC) (hPS : ReadsBlocks PS)
    (cfg : ClientCfg) (h09 : cfg.h09 = false) (QC : Bytes → RespParse) (hSC : PrefixStable QC) (maxC : Nat) (hQC : ReadsResponses maxC QC)
    (QS : Bytes → Except ParseErr (Option (RawRequest × Nat))) (hSS : RequestStable QS) (maxS : Nat) (hQS : ReadsRequests maxS (tokens QS))
    (methodOk uriOk : Bytes → Bool) (preserve : Bool)
    (client : Fed ResponseMsg) (hc : Fresh client.disp) (hcc : client.disp.conn.client = true) (hcg : client.got = [])
    (server : Fed RequestMsg) (hs : Fresh server.disp) (hsc : server.disp.conn.client = false) (hsm : server.disp.conn.method = none) (hsg : server.got = [])
    (hflat : server.disp.conn.out.wbuf.strategy = .flatten)
    (as bs : List FAct) (xs ys : List Act) (hxs : xs = acts envC PC (clientHeads cfg QC) client as)
    (hys : ys = acts envS PS (serverHeads QS methodOk uriOk preserve) server bs)
    (hreq : ∀ q ∈ requests envC PC client.disp xs, RequestOk methodOk uriOk q.1 q.2)
    (hresp : ∀ (k : Nat) (a : RespOut) (q : ReqHead × Option BodyLength), (answers envS PS server.disp ys)[k]? = some a → (requests envC PC client.disp xs)[k]? = some q →
      ResponseOk envS q.1.method a)
    (fairC : ∀ m ∈ messages (story envC PC client.disp [] xs), m.Fair maxS server.disp.conn.maxHeaders)
    (fairS : ∀ m ∈ messages (story envS PS server.disp [] ys), m.Fair maxC client.disp.conn.maxHeaders)
    (netS : server.inlet.rd.stream <+: wire (client.disp.run envC PC xs).conn)
    (netC : client.inlet.rd.stream <+: wire (server.disp.run envS PS ys).conn)
    (k : Nat) (r : Received ResponseMsg) (hr : (client.run envC PC (clientHeads cfg QC) as).got[k]? = some r) :
    (∃ h body a m s, (requests envC PC client.disp xs)[k]? = some (h, body) ∧
      (server.run envS PS (serverHeads QS methodOk uriOk preserve) bs).got[k]? = some s ∧ s.head.method = h.method ∧ s.head.target = h.target ∧
      (answers envS PS server.disp ys)[k]? = some a ∧ (messages (story envS PS server.disp [] ys))[k]? = some m ∧ m.OfResponse envS a h.method ∧
      r.head.head.status = a.head.status ∧
      (∀ n, n ∉ [hCL, hTE, hCONN, hTRAILER, hDATE] → r.head.head.headers.getAll n = (a.head.headers.getAll n).map trimBlanks) ∧
      r.data <+: m.data ∧ (r.whole = true → r.head.decode ≠ DecodedLength.CLOSE_DELIMITED → r.data = m.data ∧ r.trailers = m.trailerFields)) ∨
    (k = (answers envS PS server.disp ys).length ∧ r.head.head.status ∈ [400, 414, 431] ∧ r.data = []) :=
  C68_exchange_partial envC envS henv PC PS hPC hPS cfg h09 QC hSC maxC hQC QS hSS maxS hQS methodOk uriOk preserve client hc hcc hcg server hs hsc hsm hsg as bs xs ys
    hxs hys (WI.gated envS PS ys (hflat ▸ hs.wi) (Poll.vi_start hs.start)) hreq hresp fairC fairS netS netC k r hr

/-! ## Examples -/

namespace Wire

/-- What the server writes. -/
def exReplies : Bytes :=
  ascii "HTTP/1.1 200 OK\r\nx: v\r\ncontent-length: 2\r\ndate: today\r\n\r\nhi"

/-- What the client writes. -/
def exAsked : Bytes := ascii "GET / HTTP/1.1\r\n\r\n"

def exUser : Fed ResponseMsg := ⟨exDisp true, { rd := ⟨[], [.data (exReplies.getD 0 0) ((exReplies.take 30).drop 1), .pending, .data (exReplies.getD 30 0) (exReplies.drop 31)], .silent⟩, max := 8192 }, []⟩

def exService : Fed RequestMsg := exFed [.data 71 (exAsked.drop 1)]

def exUserCfg : ClientCfg := ⟨false, false, false, fun _ => none⟩

def exUserHeads : HeadFn ResponseMsg := clientHeads exUserCfg (refReplies 100)

/-- The client sends its request and reads. -/
def exUserRun : List FAct :=
  [.act (exWrite (exSend [] none) .pending), .act (.flush exFlushIn .pending), .act (exRead .pending exNo), .act (exRead .pending exNo), .act (.want 0)] ++
    List.replicate 4 (.act (exRead .pending exNo))

/-- The server reads it and answers. -/
def exServiceRun : List FAct :=
  [.act (exRead .pending exNo), .act (exWrite (exResp [(ascii "x", [ascii "v"])] (some (.known 2))) .pending),
    .act (exWrite .pending (.frame (.data (ascii "hi") true))), .act (.flush exFlushIn .pending)]

end Wire

/-- Each is fed with what the other puts on the wire; the client reads the answer to its request. -/
example : wire ((exDisp true).run exEnv parseBlock (acts exEnv parseBlock exUserHeads exUser exUserRun)).conn = exAsked ∧ exService.inlet.rd.stream = exAsked ∧
    wire ((exDisp false).run exEnv parseBlock (acts exEnv parseBlock exServer exService exServiceRun)).conn = exReplies ∧ exUser.inlet.rd.stream = exReplies ∧
    (exUser.run exEnv parseBlock exUserHeads exUserRun).got.map (fun r => (r.head.head.status, r.data, r.whole)) = [(200, ascii "hi", true)] :=
  ⟨by decide +kernel, by decide +kernel, by decide +kernel, by decide +kernel, by decide +kernel⟩

deriving instance DecidableEq for RespOut

/-- All that C68 assumes holds of this. -/
example : ∃ (h : ReqHead) (a : RespOut) (m : Message), m.OfResponse exEnv a h.method ∧ h.method = mGET ∧ a.head.status = 200 ∧ m.data = ascii "hi" := by
  have hq : requests exEnv parseBlock (exDisp true) (acts exEnv parseBlock exUserHeads exUser exUserRun) = [(⟨mGET, ascii "/", .h11, [], none⟩, none)] := by decide +kernel
  have ha : answers exEnv parseBlock (exDisp false) (acts exEnv parseBlock exServer exService exServiceRun) =
      [⟨⟨.h11, 200, [(ascii "x", [ascii "v"])], none, none⟩, some (.known 2)⟩] := by decide +kernel
  have hm : (messages (story exEnv parseBlock (exDisp true) [] (acts exEnv parseBlock exUserHeads exUser exUserRun))).map (fun m => (m.head, m.framing, m.trailers, m.frames)) =
      [(exAsked, .keepAlive, true, [])] := by decide +kernel
  have hm' : (messages (story exEnv parseBlock (exDisp false) [] (acts exEnv parseBlock exServer exService exServiceRun))).map (fun m => (m.head, m.framing, m.trailers, m.frames)) =
      [(exReplies.dropLast.dropLast, .body ⟨.length 2, false⟩, false, [.data (ascii "hi") true])] := by decide +kernel
  obtain ⟨r, hr, h1, h2, h3, h4⟩ : ∃ r, (exUser.run exEnv parseBlock exUserHeads exUserRun).got[0]? = some r ∧ r.head.head.status = 200 ∧ r.data = ascii "hi" ∧ r.whole = true ∧
      r.head.decode = ⟨2⟩ := by
    have : ((exUser.run exEnv parseBlock exUserHeads exUserRun).got.map (fun r => (r.head.head.status, r.data, r.whole, r.head.decode)))[0]? = some (200, ascii "hi", true, ⟨2⟩) := by
      decide +kernel
    rw [List.getElem?_map] at this
    cases hg : (exUser.run exEnv parseBlock exUserHeads exUserRun).got[0]? with
    | none => rw [hg] at this; cases this
    | some r => rw [hg] at this; simp only [Option.map_some, Option.some.injEq, Prod.mk.injEq] at this; exact ⟨r, rfl, this⟩
  have := C68_exchange_flat exEnv exEnv ⟨by unfold DateOk; decide +kernel, by intro s r h; cases h⟩ parseBlock parseBlock parseBlock_reads parseBlock_reads
    exUserCfg rfl (refReplies 100) (refReplies_stable 100) 100 (refReplies_reads 100) (refTokens 100) (refTokens_stable 100) 100 (refTokens_reads 100)
    (fun _ => true) (fun _ => true) false exUser (exDisp_fresh true none) rfl rfl exService (exDisp_fresh false none) rfl rfl rfl rfl exUserRun exServiceRun _ _ rfl rfl
    (by
      intro q hmem
      have hmem' : q ∈ requests exEnv parseBlock (exDisp true) (acts exEnv parseBlock exUserHeads exUser exUserRun) := hmem
      rw [hq, List.mem_singleton] at hmem'
      subst hmem'
      exact ⟨⟨⟨⟨by decide +kernel, by decide +kernel⟩, by intro f hf; cases hf⟩, by simp, by simp⟩, ⟨by decide, by decide +kernel, by decide, by decide +kernel, by decide, ⟨"/", by decide +kernel⟩⟩,
        by unfold ShortNames; decide +kernel, ⟨⟨0, (by intro v hv; cases hv), by simp⟩, by intro v hv; cases hv⟩, .inr rfl, rfl, rfl⟩)
    (by
      intro k a q h _
      have h' : (answers exEnv parseBlock (exDisp false) (acts exEnv parseBlock exServer exService exServiceRun))[k]? = some a := h
      rw [ha] at h'
      have := List.mem_of_getElem? h'
      rw [List.mem_singleton] at this
      subst this
      exact ⟨⟨⟨by decide +kernel, by decide +kernel⟩, by intro f hf; simp [HeaderMap.fields] at hf; rw [hf]; exact ⟨⟨by decide, by decide +kernel, by decide +kernel⟩, by decide +kernel⟩⟩,
        (by intro m h; cases h), (by intro n h; cases h; decide), (by intro r h; cases h), by unfold ShortNames; decide +kernel,
        (by intro v hv; cases hv), (by intro v hv; cases hv), .inl ⟨by decide, by decide⟩⟩)
    (by
      intro m hmem
      have h := List.mem_map_of_mem (f := fun m : Message => (m.head, m.framing, m.trailers, m.frames)) hmem
      have h' : (m.head, m.framing, m.trailers, m.frames) ∈ [(exAsked, Writing.keepAlive, true, [])] := hm ▸ h
      simp only [List.mem_cons, List.not_mem_nil, or_false, Prod.mk.injEq] at h'
      obtain ⟨e1, e2, e3, e4⟩ := h'
      refine ⟨by rw [e1]; decide +kernel, ?_, ?_, ?_⟩
      · intro e n h1; rw [e2] at h1; cases h1
      · rw [e4]; intro f hf; cases hf
      · rw [e4]; intro t ht; cases ht)
    (by
      intro m hmem
      have h := List.mem_map_of_mem (f := fun m : Message => (m.head, m.framing, m.trailers, m.frames)) hmem
      have h' : (m.head, m.framing, m.trailers, m.frames) ∈ [(exReplies.dropLast.dropLast, Writing.body ⟨.length 2, false⟩, false, [UserFrame.data (ascii "hi") true])] := hm' ▸ h
      simp only [List.mem_cons, List.not_mem_nil, or_false, Prod.mk.injEq] at h'
      obtain ⟨e1, e2, e3, e4⟩ := h'
      refine ⟨by rw [e1]; decide +kernel, ?_, ?_, ?_⟩
      · intro e n h1 h2; rw [e2] at h1; cases h1; cases h2; decide
      · rw [e4]; intro f hf bs e he; subst he; simp at hf; obtain ⟨rfl, _⟩ := hf; decide
      · rw [e4]; intro t ht; cases ht)
    (by
      show exService.inlet.rd.stream <+: wire ((exDisp true).run exEnv parseBlock (acts exEnv parseBlock exUserHeads exUser exUserRun)).conn
      rw [show exService.inlet.rd.stream = exAsked from by decide +kernel,
        show wire ((exDisp true).run exEnv parseBlock (acts exEnv parseBlock exUserHeads exUser exUserRun)).conn = exAsked from by decide +kernel]
      exact List.prefix_refl _)
    (by
      show exUser.inlet.rd.stream <+: wire ((exDisp false).run exEnv parseBlock (acts exEnv parseBlock exServer exService exServiceRun)).conn
      rw [show exUser.inlet.rd.stream = exReplies from by decide +kernel,
        show wire ((exDisp false).run exEnv parseBlock (acts exEnv parseBlock exServer exService exServiceRun)).conn = exReplies from by decide +kernel]
      exact List.prefix_refl _)
    0 r hr
  rcases this with ⟨h, body, a, m, s, g1, g2, g3, g4, g5, g6, g7, g8, g9, g10, g11⟩ | ⟨g, _⟩
  · have e : (requests exEnv parseBlock (exDisp true) (acts exEnv parseBlock exUserHeads exUser exUserRun))[0]? = some (h, body) := g1
    rw [hq] at e
    simp only [List.getElem?_cons_zero, Option.some.injEq, Prod.mk.injEq] at e
    refine ⟨h, a, m, g7, by rw [← e.1], g8.symm.trans h1, ?_⟩
    rw [← (g11 h3 (by rw [h4]; decide)).1]
    exact h2
  · have : (0 : Nat) = (answers exEnv parseBlock (exDisp false) (acts exEnv parseBlock exServer exService exServiceRun)).length := g
    rw [ha] at this
    cases this

end Hyper
