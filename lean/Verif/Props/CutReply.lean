import Verif.Proof.CutReply
import Verif.Props.ClosedLoop
import Verif.Props.CutOff

/-! # C94: a response that was cut off is not taken for a complete one -/

namespace Hyper

open Spec Input Wire

/-- C94.  A client's connection and a server's, each fed with what the other has put on the wire (or a beginning of it, cut into reads in any way), in any runs of theirs.  If the
client's connection has read a response to an end that it recognised on the wire, then the service has ended the body of its answer, or gave it none, or the client has read as many bytes
as the answer announced; the only other response there can be is the one the server's connection makes on its own to bytes it can not parse.

What is missing is as in C68: a server's connection with the queueing strategy has to be `Gated`; and bodies that end with the connection, for which it is false (`C94_torn`). -/
theorem C94_ended_partial (envC envS : EncodeEnv) (henv : EnvOk envS) (PC PS : TrailerParser) (hPC : ReadsBlocks PC) (hPS : ReadsBlocks PS)
    (cfg : ClientCfg) (h09 : cfg.h09 = false) (QC : Bytes → RespParse) (hSC : PrefixStable QC) (maxC : Nat) (hQC : ReadsResponses maxC QC)
    (QS : Bytes → Except ParseErr (Option (RawRequest × Nat))) (hSS : RequestStable QS) (maxS : Nat) (hQS : ReadsRequests maxS (tokens QS))
    (methodOk uriOk : Bytes → Bool) (preserve : Bool)
    (client : Fed ResponseMsg) (hc : Fresh client.disp) (hcc : client.disp.conn.client = true) (hcg : client.got = [])
    (server : Fed RequestMsg) (hs : Fresh server.disp) (hsc : server.disp.conn.client = false) (hsm : server.disp.conn.method = none) (hsg : server.got = [])
    (as bs : List FAct) (xs ys : List Act) (hxs : xs = acts envC PC (clientHeads cfg QC) client as)
    (hys : ys = acts envS PS (serverHeads QS methodOk uriOk preserve) server bs)
    (hgate : Wire.Gated envS PS server.disp ys)
    (hreq : ∀ q ∈ requests envC PC client.disp xs, RequestOk methodOk uriOk q.1 q.2)
    (hresp : ∀ (k : Nat) (a : RespOut) (q : ReqHead × Option BodyLength), (answers envS PS server.disp ys)[k]? = some a → (requests envC PC client.disp xs)[k]? = some q →
      ResponseOk envS q.1.method a)
    (fairC : ∀ m ∈ messages (story envC PC client.disp [] xs), m.Fair maxS server.disp.conn.maxHeaders)
    (fairS : ∀ m ∈ messages (story envS PS server.disp [] ys), m.Fair maxC client.disp.conn.maxHeaders)
    (netS : server.inlet.rd.stream <+: wire (client.disp.run envC PC xs).conn)
    (netC : client.inlet.rd.stream <+: wire (server.disp.run envS PS ys).conn)
    (k : Nat) (r : Received ResponseMsg) (hr : (client.run envC PC (clientHeads cfg QC) as).got[k]? = some r) (hw : r.whole = true)
    (hcd : r.head.decode ≠ DecodedLength.CLOSE_DELIMITED) :
    (∃ h body a, (requests envC PC client.disp xs)[k]? = some (h, body) ∧ (answers envS PS server.disp ys)[k]? = some a ∧
      (k ∈ endings envS PS server.disp [] ys ∨ a.body = none ∨ ReplyAnnounces h.method a r.data.length)) ∨
    (k = (answers envS PS server.disp ys).length ∧ r.head.head.status ∈ [400, 414, 431] ∧ r.data = []) := by
  have hstS := C66_server_stable QS hSS methodOk uriOk preserve
  have hstC := C66_client_stable cfg h09 QC hSC
  have serve := server_answers envS PS (serverHeads QS methodOk uriOk preserve) hstS (fun _ _ => rfl) server hs hsm hsc hsg bs (hys ▸ hgate)
  rw [← hys] at serve
  obtain ⟨b, μs, said, seen⟩ := serve.said
  have ex := fun st hon said fair => Wire.exchange envC envS henv PC PS hPC hPS cfg h09 QC hSC maxC hQC QS hSS maxS hQS methodOk uriOk preserve client hc hcc hcg server hs hsg
    as bs xs ys hxs hys hreq hresp fairC netS netC st hon (b := b) (μs := μs) said seen fair k r hr
  rcases ex _ (C65_wire_partial envS PS server.disp hs ys hgate).2 said fairS with ⟨h, body, a, m, t, h1, h2, h3, h4, h5, h6, h7, hrm, hmat, h8, h9, h10, h11⟩ | hright
  rotate_left
  · exact .inr hright
  left
  refine ⟨h, body, a, h1, h5, ?_⟩
  have hdata := (h11 hw hcd).1
  have htold := (C66_messages envC PC _ hstC client hc.start hcg as).1
  obtain ⟨_, tt, bd, _, hat⟩ := told_at htold k r hr
  obtain ⟨next, hn⟩ := hat.whole hw
  have hbody := body_of_complete PC _ _ ⟨bd, [], _⟩ _ _ _ hn
  have hx := hmat.head.head []
  rw [hrm, List.append_nil] at hx
  have hnone : ∀ b, (clientHeads cfg QC).parse (some h.method) [] ≠ (.ok (some r.head), b) := fun b => client_nothing h09 hSC _ _ b
  rcases response_framing (cfg := cfg) hSC hQC client.disp.conn.maxHeaders henv h7 (hresp k a _ h5 h1) (fairS m (List.mem_of_getElem? h6)) hx hnone hcd with ⟨hch, hin⟩ | ⟨hch, hl⟩
  · have wi := (hs.wi).run envS PS ys (Poll.vi_start hs.start) hgate
    have hcut := Cut.run envS PS ys (E := []) (Poll.vi_start hs.start) hs.wi hgate (fun k m hk => by simp [messages] at hk)
    rw [List.nil_append] at hcut
    rcases hcut k m h6 hin with b' | ⟨hlast, hun⟩
    · rcases List.mem_append.1 b' with b' | b'
      · exact .inl b'
      · rw [hys] at b'
        obtain ⟨a', g1, g2⟩ := bares_answers envS PS _ hstS (fun _ _ => rfl) server hs hsm hsc hsg bs (hys ▸ hgate) k b'
        rw [← hys, h5] at g1
        cases g1
        exact .inr (.inl g2)
    · exfalso
      obtain ⟨pre, body', fs, e1, e2, e3, e4, e5, e6, e7⟩ := hun.bytes wi
      obtain ⟨m1, hm1⟩ : ∃ m1 : Message, m1 = { m with frames := fs ++ [.data [0] false] } := ⟨_, rfl⟩
      have hon : OnWire (server.disp.run envS PS ys) (pre ++ [.message m1]) := by
        refine .last e2 (body := body') ?_ (.inr ?_) e7
        · rw [hm1]; exact e3
        · intro more
          have := e6 (.data [0] false :: more)
          rw [hm1]
          simpa [Message.written] using this
      rw [e1, messages_last, List.length_append, List.length_singleton] at hlast
      have hfair := fairS m (List.mem_of_getElem? h6)
      have hfs : ∀ g ∈ fs, g ∈ m.frames := by
        intro g hg
        rcases e5 with e5 | e5 <;> rw [e5]
        · exact hg
        · simp [hg]
      have hfair1 : m1.Fair maxC client.disp.conn.maxHeaders := by
        rw [hm1]
        refine ⟨hfair.fields, hfair.length, ?_, ?_⟩
        · intro g hg bs e he
          rcases List.mem_append.1 hg with hg | hg
          · exact hfair.fit g (hfs g hg) bs e he
          · rw [List.mem_singleton.1 hg] at he
            cases he
            decide
        · intro t ht
          rw [(userData_goes e4 _).2] at ht
          cases ht
      have said1 : Replies envS b (pre ++ [.message m1]) (answers envS PS server.disp ys) μs := by
        rw [hm1]
        rw [e1] at said
        exact said.reframe _
      have hfairs : ∀ m' ∈ messages (pre ++ [Piece.message m1]), m'.Fair maxC client.disp.conn.maxHeaders := by
        intro m' hm'
        rw [messages_last] at hm'
        rcases List.mem_append.1 hm' with hm' | hm'
        · exact fairS m' (by rw [e1, messages_last]; exact List.mem_append_left _ hm')
        · rw [List.mem_singleton.1 hm']; exact hfair1
      rcases ex _ hon said1 hfairs with ⟨_, _, _, m2, _, _, _, _, _, _, g6, _, _, _, _, _, _, g11⟩ | ⟨hright, _⟩
      · have hkk : k = (messages pre).length := by omega
        rw [messages_last, hkk, List.getElem?_append_right (Nat.le_refl _), Nat.sub_self] at g6
        simp only [List.getElem?_cons_zero, Option.some.injEq] at g6
        subst g6
        have hdata1 := (g11 hw hcd).1
        obtain ⟨e, ts, i1, i2⟩ := hin
        have d0 : m.data = userData fs := by
          unfold Message.data
          rw [i1]
          simp only [i2, bodySent]
          rcases e5 with e5 | e5
          · rw [e5]
          · rw [e5, (userData_goes e4 _).1]; simp [userData]
        have d1 : m1.data = userData fs ++ [0] := by
          rw [hm1]
          unfold Message.data
          simp only [i1, i2, bodySent]
          rw [(userData_goes e4 _).1]; simp [userData]
        have := congrArg List.length (hdata1.symm.trans hdata)
        rw [d0, d1, List.length_append, List.length_singleton] at this
        omega
      · have := (List.getElem?_eq_some_iff.1 h5).1
        omega
  · right
    have hlen : r.data.length = r.head.decode.val := body_length hbody hch hcd
    rw [hlen]
    exact hl

/-- C94, with the flattening strategy. -/
theorem C94_ended_flat (envC envS : EncodeEnv) (henv : EnvOk envS) (PC PS : TrailerParser) (hPC : ReadsBlocks PC) (hPS : ReadsBlocks PS)
    (cfg : ClientCfg) (h09 : cfg.h09 = false) (QC : Bytes → RespParse) (hSC : PrefixStable QC) (maxC : Nat) (hQC : ReadsResponses maxC QC)
    (QS : Bytes → Except ParseErr (Option (RawRequest × Nat))) (hSS : RequestStable QS) (maxS : Nat) (hQS : ReadsRequests maxS (tokens QS))
    (methodOk uriOk : Bytes → Bool) (preserve : Bool)
    (client : Fed ResponseMsg) (hc : Fresh client.disp) (hcc : client.disp.conn.client = true) (hcg : client.got = [])
    (server : Fed RequestMsg) (hs : Fresh server.disp) (hsc : server.disp.conn.client = false) (hsm : server.disp.conn.method = none) (hsg : server.got = [])
    (hflat : server.disp.conn.out.wbuf.strategy = .flatten)
    (as bs : List FAct) (xs ys : List Act) (hxs : xs = acts envC PC (clientHeads cfg QC) client as)
    (hys : ys = acts envS PS (serverHeads QS methodOk uriOk preserve) server bs)
    (hreq : ∀ q ∈ requests envC PC client.disp xs, RequestOk methodOk uriOk q.1 q.2)
    (hresp : ∀ (k : Nat) (a : RespOut) (q : ReqHead × Option BodyLength), (answers envS PS server.disp ys)[k]? = some a → (requests envC PC client.disp xs)[k]? = some q →
      ResponseOk envS q.1.method a)
    (fairC : ∀ m ∈ messages (story envC PC client.disp [] xs), m.Fair maxS server.disp.conn.maxHeaders)
    (fairS : ∀ m ∈ messages (story envS PS server.disp [] ys), m.Fair maxC client.disp.conn.maxHeaders)
    (netS : server.inlet.rd.stream <+: wire (client.disp.run envC PC xs).conn)
    (netC : client.inlet.rd.stream <+: wire (server.disp.run envS PS ys).conn)
    (k : Nat) (r : Received ResponseMsg) (hr : (client.run envC PC (clientHeads cfg QC) as).got[k]? = some r) (hw : r.whole = true)
    (hcd : r.head.decode ≠ DecodedLength.CLOSE_DELIMITED) :
    (∃ h body a, (requests envC PC client.disp xs)[k]? = some (h, body) ∧ (answers envS PS server.disp ys)[k]? = some a ∧
      (k ∈ endings envS PS server.disp [] ys ∨ a.body = none ∨ ReplyAnnounces h.method a r.data.length)) ∨
    (k = (answers envS PS server.disp ys).length ∧ r.head.head.status ∈ [400, 414, 431] ∧ r.data = []) :=
  C94_ended_partial envC envS henv PC PS hPC hPS cfg h09 QC hSC maxC hQC QS hSS maxS hQS methodOk uriOk preserve client hc hcc hcg server hs hsc hsm hsg as bs xs ys
    hxs hys (WI.gated envS PS ys (hflat ▸ hs.wi) (Poll.vi_start hs.start)) hreq hresp fairC fairS netS netC k r hr hw hcd

/-- C94, through a proxy.  The proxy's connection to the server behind it reads whatever bytes come (`up`, any run); the connection to the proxy's client answers with responses read
there, untouched, with what was read of their bodies, and these bodies end only once they have been read to their ends (`RelaysBack`).  If hyper's client on the other side reads such a
response to an end that it recognised on the wire, its data is all the data the proxy has read, and the proxy has read the response to its end, or has all the bytes of the length
announced; but for responses with both framing fields (`C92_length_beside_coding`), and the answer hyper's server makes on its own to bytes that are no request. -/
theorem C94_through_a_proxy_partial (envU : EncodeEnv) (PU : TrailerParser) (envC envS : EncodeEnv) (henv : EnvOk envS) (PC PS : TrailerParser) (hPC : ReadsBlocks PC) (hPS : ReadsBlocks PS)
    (cfg : ClientCfg) (h09 : cfg.h09 = false) (QC : Bytes → RespParse) (hSC : PrefixStable QC) (maxC : Nat) (hQC : ReadsResponses maxC QC)
    (QS : Bytes → Except ParseErr (Option (RawRequest × Nat))) (hSS : RequestStable QS) (maxS : Nat) (hQS : ReadsRequests maxS (tokens QS))
    (methodOk uriOk : Bytes → Bool) (preserve : Bool)
    (client : Fed ResponseMsg) (hc : Fresh client.disp) (hcc : client.disp.conn.client = true) (hcg : client.got = [])
    (server : Fed RequestMsg) (hs : Fresh server.disp) (hsc : server.disp.conn.client = false) (hsm : server.disp.conn.method = none) (hsg : server.got = [])
    (as bs : List FAct) (xs ys : List Act) (hxs : xs = acts envC PC (clientHeads cfg QC) client as)
    (hys : ys = acts envS PS (serverHeads QS methodOk uriOk preserve) server bs)
    (hgate : Wire.Gated envS PS server.disp ys)
    (hT : ∀ buf len r, QC buf = .complete len r → ResponseTokens cfg r)
    (up : Fed ResponseMsg) (hus : up.disp.Start) (hup : up.got = []) (cs : List FAct)
    (hvis : ∀ x ∈ (up.run envU PU (clientHeads cfg QC) cs).got, ∀ v ∈ x.head.head.headers.getAll hTE, ∀ b ∈ v, Visible b)
    (hreq : ∀ q ∈ requests envC PC client.disp xs, RequestOk methodOk uriOk q.1 q.2)
    (hback : RelaysBack (up.run envU PU (clientHeads cfg QC) cs).got (requests envC PC client.disp xs) envS PS server.disp ys)
    (fairC : ∀ m ∈ messages (story envC PC client.disp [] xs), m.Fair maxS server.disp.conn.maxHeaders)
    (fairS : ∀ m ∈ messages (story envS PS server.disp [] ys), m.Fair maxC client.disp.conn.maxHeaders)
    (netS : server.inlet.rd.stream <+: wire (client.disp.run envC PC xs).conn)
    (netC : client.inlet.rd.stream <+: wire (server.disp.run envS PS ys).conn)
    (k : Nat) (r : Received ResponseMsg) (hr : (client.run envC PC (clientHeads cfg QC) as).got[k]? = some r) (hw : r.whole = true)
    (hcd : r.head.decode ≠ DecodedLength.CLOSE_DELIMITED) :
    (∃ x ∈ (up.run envU PU (clientHeads cfg QC) cs).got, (∃ h body, (requests envC PC client.disp xs)[k]? = some (h, body) ∧ x.method = some h.method) ∧
      (answers envS PS server.disp ys)[k]? = some (forwardResponse x.head) ∧
      ((r.data = x.data ∧ (x.whole = true ∨
          (x.head.decode ≠ DecodedLength.CHUNKED ∧ x.head.decode ≠ DecodedLength.CLOSE_DELIMITED ∧ x.data.length = x.head.decode.val))) ∨
        (x.head.head.headers.getAll hTE ≠ [] ∧ x.head.head.headers.getAll hCL ≠ []))) ∨
    (k = (answers envS PS server.disp ys).length ∧ r.head.head.status ∈ [400, 414, 431] ∧ r.data = []) := by
  have hgot : ∀ x ∈ (up.run envU PU (clientHeads cfg QC) cs).got, ∀ method, x.method = some method → ResponseOk envS method (forwardResponse x.head) ∧
      ((NoBody (some method) x.head.head.status ∧ x.head.decode = DecodedLength.ZERO) ∨
        ((x.head.decode = DecodedLength.CHUNKED ∨ x.head.decode = DecodedLength.CLOSE_DELIMITED) ∧ (x.head.head.headers.getAll hTE ≠ [] ∨ x.head.head.headers.getAll hCL = [])) ∨
        ∃ n, x.head.decode = ⟨n⟩ ∧ n ≤ 2 ^ 64 - 3) ∧ (NoBody (some method) x.head.head.status → x.head.decode = DecodedLength.ZERO) := by
    intro x hx method hme
    obtain ⟨buf, hb⟩ := got_parsed envU PU (clientHeads cfg QC) cs up (by rw [hup]; simp) x hx
    rw [hme] at hb
    refine ⟨C92_response_ok_partial cfg h09 QC hT method _ buf x.head hb envS (fun v hv _ => hvis x hx v hv), ?_⟩
    obtain ⟨buf', len, raw, ka, up', h1, h2, h3⟩ := clientParse_msg h09 _ buf [] x.head hb
    rcases (delivered_cases h2 h3).2 with b | ⟨b0, b1, b2⟩ | ⟨b0, n, b1, b2, _⟩
    · exact ⟨.inl b, fun _ => b.2⟩
    · exact ⟨.inr (.inl ⟨b1, b2⟩), fun h => absurd h b0⟩
    · exact ⟨.inr (.inr ⟨n, b1, b2⟩), fun h => absurd h b0⟩
  have hst := C66_client_stable cfg h09 QC hSC
  have htold := (C66_messages envU PU _ hst up hus hup cs).1
  have hshort : ∀ x ∈ (up.run envU PU (clientHeads cfg QC) cs).got, x.head.decode ≠ DecodedLength.CHUNKED → x.head.decode ≠ DecodedLength.CLOSE_DELIMITED →
      x.data.length ≤ x.head.decode.val := by
    intro x hx g1 g2
    obtain ⟨j, hj⟩ := List.getElem?_of_mem hx
    obtain ⟨_, t, bd, _, hat⟩ := told_at htold j x hj
    exact Nat.le_trans hat.data.length_le (reading_length PU _ _ x.head.decode g1 g2 bd)
  have hresp : ∀ (k : Nat) (a : RespOut) (q : ReqHead × Option BodyLength), (answers envS PS server.disp ys)[k]? = some a → (requests envC PC client.disp xs)[k]? = some q →
      ResponseOk envS q.1.method a := by
    intro j a q ha hq
    obtain ⟨x, hx, h1, h2, _⟩ := hback j a q ha hq
    rw [h2]
    exact (hgot x hx _ h1).1
  rcases C68_exchange_partial envC envS henv PC PS hPC hPS cfg h09 QC hSC maxC hQC QS hSS maxS hQS methodOk uriOk preserve client hc hcc hcg server hs hsc hsm hsg as bs xs ys hxs hys
    hgate hreq hresp fairC fairS netS netC k r hr with ⟨h, body, a, m, s, g1, _, _, _, g5, g6, _, _, _, g10, g11⟩ | h
  rotate_left
  · exact .inr h
  left
  rcases C94_ended_partial envC envS henv PC PS hPC hPS cfg h09 QC hSC maxC hQC QS hSS maxS hQS methodOk uriOk preserve client hc hcc hcg server hs hsc hsm hsg as bs xs ys hxs hys
    hgate hreq hresp fairC fairS netS netC k r hr hw hcd with ⟨h', body', a', e1, e2, hend⟩ | ⟨h, _⟩
  rotate_left
  · have := (List.getElem?_eq_some_iff.1 g5).1
    omega
  rw [g1] at e1
  rw [g5] at e2
  cases e1
  cases e2
  obtain ⟨x, hx, h1, h2, h3⟩ := hback k a _ g5 g1
  subst h2
  obtain ⟨hd1, hd2⟩ := h3 m g6
  obtain ⟨_, hcase, hno⟩ := hgot x hx _ h1
  refine ⟨x, hx, ⟨h, body, g1, h1⟩, g5, ?_⟩
  have hpre : r.data <+: x.data := g10.trans hd1
  have hsame : x.head.decode ≠ DecodedLength.CHUNKED → x.head.decode ≠ DecodedLength.CLOSE_DELIMITED → x.head.decode.val ≤ r.data.length →
      r.data = x.data ∧ (x.whole = true ∨ (x.head.decode ≠ DecodedLength.CHUNKED ∧ x.head.decode ≠ DecodedLength.CLOSE_DELIMITED ∧ x.data.length = x.head.decode.val)) := by
    intro c1 c2 c3
    have := hshort x hx c1 c2
    have hle := hpre.length_le
    have he : r.data = x.data := hpre.eq_of_length_le (by omega)
    exact ⟨he, .inr ⟨c1, c2, by omega⟩⟩
  have hzero : x.head.decode = DecodedLength.ZERO →
      r.data = x.data ∧ (x.whole = true ∨ (x.head.decode ≠ DecodedLength.CHUNKED ∧ x.head.decode ≠ DecodedLength.CLOSE_DELIMITED ∧ x.data.length = x.head.decode.val)) := by
    intro c
    exact hsame (by rw [c]; decide) (by rw [c]; decide) (by rw [c]; exact Nat.zero_le _)
  have hlen : ∀ n, n ≤ 2 ^ 64 - 3 → (⟨n⟩ : DecodedLength) ≠ DecodedLength.CHUNKED ∧ (⟨n⟩ : DecodedLength) ≠ DecodedLength.CLOSE_DELIMITED := by
    intro n hn
    constructor <;> (intro e; have := congrArg DecodedLength.val e; simp only [DecodedLength.CHUNKED, DecodedLength.CLOSE_DELIMITED, u64Max] at this; omega)
  have hbody : (forwardResponse x.head).body = forwardBody x.head.decode := rfl
  have hheads : (forwardResponse x.head).head = x.head.head := rfl
  rcases hend with b | b | b
  · obtain ⟨c1, c2⟩ := hd2 b
    exact .inl ⟨(g11 hw hcd).1.trans c2, .inl c1⟩
  · left
    rw [hbody] at b
    rcases hcase with ⟨_, c⟩ | ⟨c | c, _⟩ | ⟨n, c, cn⟩
    · exact hzero c
    · rw [c, forwardBody_chunked] at b; cases b
    · rw [c, forwardBody_close] at b; cases b
    · rw [c, forwardBody_length cn] at b
      split at b
      · rename_i h0; exact hzero (by rw [c, h0]; rfl)
      · cases b
  · unfold ReplyAnnounces at b
    rw [hbody, hheads] at b
    rcases b with ⟨b, _⟩ | b | ⟨b, v, hv, _⟩
    · exact .inl (hzero (hno b))
    · left
      rcases hcase with ⟨_, c⟩ | ⟨c | c, _⟩ | ⟨n, c, cn⟩
      · exact hzero c
      · rw [c, forwardBody_chunked] at b; cases b
      · rw [c, forwardBody_close] at b; cases b
      · rw [c, forwardBody_length cn] at b
        split at b
        · cases b
        · cases b
          exact hsame (by rw [c]; exact (hlen _ cn).1) (by rw [c]; exact (hlen _ cn).2) (by rw [c]; exact Nat.le_refl _)
    · have hcl : x.head.head.headers.getAll hCL ≠ [] := by intro e; rw [e] at hv; cases hv
      rcases hcase with ⟨_, c⟩ | ⟨_, c | c⟩ | ⟨n, c, cn⟩
      · exact .inl (hzero c)
      · exact .inr ⟨c, hcl⟩
      · exact absurd c hcl
      · rw [c, forwardBody_length cn] at b
        split at b <;> cases b

/-! ## Examples -/

namespace Wire

/-- A client's run: a request of HTTP/1.0, and the reading of what comes. -/
def exOld : List FAct :=
  [.act (exWrite (.req ⟨mGET, ascii "/", .h10, [], none⟩ none) .pending), .act (.flush exFlushIn .pending), .act (exRead .pending exNo), .act (.want 0)] ++
    List.replicate 4 (.act (exRead .pending exNo))

def exOldBytes : Bytes := ascii "GET / HTTP/1.0\r\n\r\n"

/-- The server's run: it answers with a body of unknown length, which fails after two bytes. -/
def exFails : List FAct :=
  [.act (exRead .pending exNo), .act (exWrite (exResp [] (some .unknown)) .pending), .act (exWrite .pending (.frame (.data (ascii "ab") false))), .act (.flush exFlushIn .pending),
   .act (exWrite .pending (.frame .error)), .act (.flush exFlushIn .pending)]

def exFailsBytes : Bytes := ascii "HTTP/1.0 200 <none>\r\ndate: today\r\n\r\nab"

/-- The client, with these bytes and then the end of the connection as its input. -/
def exReader (bs : Bytes) : Fed ResponseMsg := ⟨exDisp true, { rd := ⟨[], [.data (bs.headD 0) bs.tail], .eof⟩, max := 8192 }, []⟩

/-- The same for a request of HTTP/1.1: what the server writes. -/
def exChunksBytes : Bytes := ascii "HTTP/1.1 200 OK\r\ntransfer-encoding: chunked\r\ndate: today\r\n\r\n2\r\nab\r\n"

end Wire

/-- C94 fails for bodies that end with the connection: the service's body has failed and has not ended, the server's connection is given up, and the client has a complete response with a
part of the data; nobody on that side is told. -/
theorem C94_torn :
    wire ((exDisp true).run exEnv parseBlock (acts exEnv parseBlock exUserHeads (exReader exFailsBytes) exOld)).conn = exOldBytes ∧
    wire ((exDisp false).run exEnv parseBlock (acts exEnv parseBlock exServer (exInput exOldBytes) exFails)).conn = exFailsBytes ∧
    endings exEnv parseBlock (exDisp false) [] (acts exEnv parseBlock exServer (exInput exOldBytes) exFails) = [] ∧
    ((exReader exFailsBytes).run exEnv parseBlock exUserHeads exOld).got.map (fun r => (r.data, r.whole, r.head.decode)) = [(ascii "ab", true, DecodedLength.CLOSE_DELIMITED)] :=
  ⟨by decide +kernel, by decide +kernel, by decide +kernel, by decide +kernel⟩

/-- The same service and a request of HTTP/1.1: the body goes in chunks, and the client's response is not complete. -/
example :
    wire ((exDisp false).run exEnv parseBlock (acts exEnv parseBlock exServer (exInput exAsked) exFails)).conn = exChunksBytes ∧
    ((exReader exChunksBytes).run exEnv parseBlock exUserHeads exUserRun).got.map (fun r => (r.data, r.whole, r.head.decode)) = [(ascii "ab", false, DecodedLength.CHUNKED)] :=
  ⟨by decide +kernel, by decide +kernel⟩

/-- A response whose body has been ended; the other assumptions of C94 are those of C68, and hold of this run (Props/ClosedLoop.lean). -/
example : endings exEnv parseBlock (exDisp false) [] (acts exEnv parseBlock exServer exService exServiceRun) = [0] ∧
    (exUser.run exEnv parseBlock exUserHeads exUserRun).got.map (fun r => (r.data, r.whole, r.head.decode)) = [(ascii "hi", true, ⟨2⟩)] :=
  ⟨by decide +kernel, by decide +kernel⟩

/-- What is announced. -/
example : ReplyAnnounces mGET ⟨⟨.h11, 200, [], none, none⟩, some (.known 3)⟩ 3 ∧ ¬ ReplyAnnounces mGET ⟨⟨.h11, 200, [], none, none⟩, some (.known 3)⟩ 2 ∧
    ReplyAnnounces mHEAD ⟨⟨.h11, 200, [], none, none⟩, some (.known 3)⟩ 0 ∧ ¬ ReplyAnnounces mGET ⟨⟨.h11, 200, [], none, none⟩, some .unknown⟩ 0 := by
  refine ⟨.inr (.inl rfl), ?_, .inl ⟨.inl rfl, rfl⟩, ?_⟩
  · rintro (⟨_, h⟩ | h | ⟨h, _⟩) <;> cases h
  · rintro (⟨h, _⟩ | h | ⟨_, v, h, _⟩)
    · have := (noBody_iff _ _).1 h
      revert this; decide
    · cases h
    · cases h

/-- What the proxy is assumed to do is done by a run in which a response is handed back and its body ended after its end has been read. -/
example : RelaysBack (exUp.run exEnv parseBlock exUserHeads exUserRun).got [(⟨mGET, ascii "/", .h11, [], none⟩, none)] exEnv parseBlock (exDisp false)
    (acts exEnv parseBlock exServer exService exBackRun) := by
  have hgot : (exUp.run exEnv parseBlock exUserHeads exUserRun).got.map (fun r => (r.method, r.head, r.data, r.whole)) = [(some mGET, exBack, ascii "hi", true)] := by decide +kernel
  have ha : answers exEnv parseBlock (exDisp false) (acts exEnv parseBlock exServer exService exBackRun) = [forwardResponse exBack] := by decide +kernel
  have hd : (messages (story exEnv parseBlock (exDisp false) [] (acts exEnv parseBlock exServer exService exBackRun))).map (fun m => m.data) = [ascii "hi"] := by decide +kernel
  intro k a q h1 h2
  rw [ha] at h1
  cases k with
  | succ k => simp at h1
  | zero =>
    simp only [List.getElem?_cons_zero, Option.some.injEq] at h1 h2
    subst h1 h2
    have : (some mGET, exBack, ascii "hi", true) ∈ (exUp.run exEnv parseBlock exUserHeads exUserRun).got.map (fun r => (r.method, r.head, r.data, r.whole)) := by rw [hgot]; simp
    obtain ⟨p, hp, e⟩ := List.mem_map.mp this
    simp only [Prod.mk.injEq] at e
    obtain ⟨p1, p2, p3, p4⟩ := e
    refine ⟨p, hp, p1, by rw [p2], ?_⟩
    intro m hm0
    have : ((messages (story exEnv parseBlock (exDisp false) [] (acts exEnv parseBlock exServer exService exBackRun))).map (fun m => m.data))[0]? = some m.data := by
      rw [List.getElem?_map, hm0]; rfl
    rw [hd] at this
    simp only [List.getElem?_cons_zero, Option.some.injEq] at this
    rw [← this, p3]
    exact ⟨List.prefix_refl _, fun _ => ⟨p4, rfl⟩⟩

end Hyper
