import Verif.Proof.Forward
import Verif.Props.ClosedLoop

/-!
# C92: handing a received message on

A proxy gives the request it received to a connection of its own, untouched (`forwardRequest`, `forwardBody`).
-/

namespace Hyper

open Spec Wire

/-- C92, requests.  Every request hyper's server accepts, whatever its framing fields were, can be handed on to hyper's client: the head is one whose framing
headers are right, which is what C24, C25 and C67 ask of the user. -/
theorem C92_request_ok (mo uo : Bytes → Bool) (pc : Bool) (r : RawRequest) (m : RequestMsg) (hm : serverParse mo uo pc r = .ok m) (ht : RequestTokens r)
    (shown : Bytes → Bytes) (hshown : TargetOk uo (shown r.target)) : RequestOk mo uo (forwardRequest shown m) (forwardBody m.decode) :=
  forward_requestOk hm ht hshown

theorem ofLength_injective {d d' : DecodedLength} (h : Decoder.ofLength d none none = Decoder.ofLength d' none none) : d = d' := by
  unfold Decoder.ofLength at h
  obtain ⟨n⟩ := d
  obtain ⟨n'⟩ := d'
  repeat' split at h
  all_goals first
    | (rename_i a b; rw [a, b]; done)
    | (cases h; rfl)
    | (cases h; done)
    | simp_all

theorem map_trimmed {fs : List (Bytes × Bytes)} (h : ∀ f ∈ fs, trimBlanks f.2 = f.2) (k : Bytes) : (valuesOf k fs).map trimBlanks = valuesOf k fs := by
  refine Eq.trans (List.map_congr_left (g := id) (fun v hv => ?_)) (List.map_id _)
  unfold valuesOf at hv
  obtain ⟨f, hf, rfl⟩ := List.mem_map.mp hv
  exact h f (List.mem_filter.mp hf).1

/-- C92, requests.  A request hyper's server accepted and hyper's client wrote out again is read by the next server of hyper's exactly as by the first: the same
method, version, header values, framing of the body, wish for `100 Continue` and for an upgrade; the connection is no less persistent.  The body's writer has the framing
of the body's reader, so no byte of the body is left over and none is missing.  `Q` is any parser that reads well-formed heads of `max` fields. -/
theorem C92_request_read_again (max : Nat) (Q : Bytes → Option (RawRequest × Nat)) (hQ : ReadsRequests max Q) (mo uo : Bytes → Bool) (pc pc' title : Bool)
    (r : RawRequest) (m : RequestMsg) (hm : serverParse mo uo pc r = .ok m) (ht : RequestTokens r) (shown : Bytes → Bytes) (hshown : TargetOk uo (shown r.target)) :
    ∃ out e, clientEncode title (forwardRequest shown m) (forwardBody m.decode) [] = some (out, e) ∧
      (∀ mh ms, Decoder.ofLength m.decode mh ms = readerFor mh ms (framingOf e.kind)) ∧
      ∀ rest, fieldCount out ≤ max → ∃ r' m', Q (out ++ rest) = some (r', out.length) ∧ serverParse mo uo pc' r' = .ok m' ∧
        m'.method = m.method ∧ m'.target = shown m.target ∧ m'.version = m.version ∧ (∀ k, m'.headers.getAll k = m.headers.getAll k) ∧
        m'.decode = m.decode ∧ m'.expectContinue = m.expectContinue ∧ m'.wantsUpgrade = m.wantsUpgrade ∧ (m.keepAlive = true → m'.keepAlive = true) := by
  have hok := C92_request_ok mo uo pc r m hm ht shown hshown
  have hset := forward_setLength hm hok.wf.headers
  have hver : ∃ t, versionText m.version = some t := by
    rcases hok.version with h | h
    · have h : m.version = .h10 := h
      rw [h]; exact ⟨_, rfl⟩
    · have h : m.version = .h11 := h
      rw [h]; exact ⟨_, rfl⟩
  obtain ⟨t, hver⟩ := hver
  have henc : ∃ out e, clientEncode title (forwardRequest shown m) (forwardBody m.decode) [] = some (out, e) ∧
      e = (setLength m.method m.version m.headers (forwardBody m.decode)).2 := by
    unfold clientEncode
    simp only [forwardRequest, hver, Option.map_some]
    exact ⟨_, _, rfl, rfl⟩
  obtain ⟨out, e, henc, he⟩ := henc
  have hreader : ∀ mh ms, Decoder.ofLength m.decode mh ms = readerFor mh ms (framingOf e.kind) := by rw [he]; exact hset.2
  refine ⟨out, e, henc, hreader, fun rest hcount => ?_⟩
  have hmax : ∀ n, e.kind = .length n → n ≤ 2 ^ 64 - 3 := by
    intro n hn
    have h := hreader none none
    rw [hn] at h
    rcases accepted_cases hm with ⟨d, _⟩ | ⟨d, _⟩ | ⟨k, v, d, hk, _⟩
    · rw [d] at h; cases h
    · rw [d] at h; cases h; decide
    · rw [d, ofLength_length hk] at h; cases h; exact hk
  obtain ⟨r', m', g1, g2, g3, g4, g5, _, g7, g8, g9⟩ := client_to_server max Q hQ mo uo pc' title (forwardRequest shown m) (forwardBody m.decode) out rest e hok.wf hok.line
    hok.names hok.user hok.method hok.uri henc hcount hmax
  obtain ⟨s, hs, hte, hms⟩ := serverParse_ok hm
  have hi := reqInv_run pc r s hs
  obtain ⟨s', hs', hte', hms'⟩ := serverParse_ok g2
  have hi' := reqInv_run pc' r' s' hs'
  have hhs : m.headers = s.headers := by rw [hms]
  have hhs' : m'.headers = s'.headers := by rw [hms']
  have hval : ∀ k, valuesOf k r'.fields = (m.headers.getAll k).map trimBlanks := by
    intro k
    rw [g9]
    exact congrArg _ (hset.1 k)
  have hvo : ∀ k, k ≠ hCL → valuesOf k r'.fields = valuesOf k r.fields := by
    intro k hk
    rw [hval, hhs, hi.others k hk, map_trimmed ht.trimmed]
  have hdec : m'.decode = m.decode := ofLength_injective (by rw [g3, hreader])
  have h11 : r'.http11 = r.http11 := by
    rw [g8]
    show decide (m.version ≠ .h10) = _
    rw [hms]
    cases r.http11 <;> simp
  have hmet : r'.method = r.method := by
    rw [g7]
    show m.method = _
    rw [hms]
  refine ⟨r', m', g1, g2, g4, g5, ?_, ?_, hdec, ?_, ?_, ?_⟩
  · rw [hms, hms']; simp only [h11]
  · intro k
    by_cases hk : k = hCL
    · subst hk
      rcases accepted_cases hm with ⟨d, _, t, c, l⟩ | ⟨d, t, l⟩ | ⟨n, v, d, hn, t, l, hv⟩
      · rw [l]
        rcases accepted_cases g2 with ⟨_, _, _, _, l'⟩ | ⟨_, _, l'⟩ | ⟨n', v', d', hn', _, l', _⟩
        · exact l'
        · exact l'
        · exfalso
          have : clOf r'.fields = [] := by
            show valuesOf hCL r'.fields = []
            rw [hval, l]; rfl
          rw [hdec, d] at d'
          simp only [DecodedLength.CHUNKED, u64Max, DecodedLength.mk.injEq] at d'
          omega
      · have hcl : clOf r'.fields = [] := by
          show valuesOf hCL r'.fields = []
          rw [hval, l]; rfl
        have hte0 : teOf r'.fields = [] := by
          show valuesOf hTE r'.fields = []
          rw [hval, t]; rfl
        rw [l, hhs', (hi'.clNone hte0 hcl).2.2]
      · have hcl : clOf r'.fields = [v] := by
          show valuesOf hCL r'.fields = _
          rw [hval, l]
          show [trimBlanks v] = [v]
          rw [digits_trim hv]
        have hte0 : teOf r'.fields = [] := by
          show valuesOf hTE r'.fields = []
          rw [hval, t]; rfl
        obtain ⟨_, _, _, _, _, c5⟩ := hi'.clSome hte0 (by rw [hcl]; simp)
        rw [l, hhs', c5, hcl]; rfl
    · rw [hhs', hi'.others k hk, hvo k hk, hhs, hi.others k hk]
  · rw [hms, hms']
    show s'.expectContinue = s.expectContinue
    rw [hi'.expect, hi.expect, hvo _ (by decide)]
  · rw [hms, hms']
    show s'.wantsUpgrade = s.wantsUpgrade
    rw [hi'.upgrade, hi.upgrade, hvo _ (by decide), h11, hmet]
  · intro hka
    rw [hms] at hka
    rw [hms']
    have hka : (if (s.isTe && s.isCl) = true then false else s.keepAlive) = true := hka
    show (if (s'.isTe && s'.isCl) = true then false else s'.keepAlive) = true
    have hk1 : s.keepAlive = true := by
      split at hka
      · cases hka
      · exact hka
    have hk2 : s'.keepAlive = true := by rw [hi'.keepAlive, hvo _ (by decide), h11, ← hi.keepAlive]; exact hk1
    have hno : (s'.isTe && s'.isCl) = false := by
      cases h1 : s'.isTe with
      | false => rfl
      | true =>
        have hTe := hi'.isTe.mp h1
        have : teOf r'.fields = teOf r.fields := hvo hTE (by decide)
        rw [this] at hTe
        have hc0 := (hi.teNoCl hTe).1
        cases h2 : s'.isCl with
        | false => rfl
        | true =>
          have := hi'.isCl.mp h2
          have hz : clOf r'.fields = [] := by
            show valuesOf hCL r'.fields = []
            rw [hval, hhs, hc0]; rfl
          exact absurd hz this
    rw [hno]; exact hk2

/-- C92, connections: no smuggling.  A server's connection of the proxy reads whatever bytes come (`f`, any run); a client's connection of the proxy is given, in any order and any
interleaving, requests that were read there, untouched, and of their bodies what was read (`Forwards`).  Then every request the server behind the proxy reads on the second connection is
one that the proxy has read: the same method, target and header values (but for those of framing and connection options), and data that the proxy has read as the data of that very
request. -/
theorem C92_no_smuggling (env env' env'' : EncodeEnv) (P P' P'' : TrailerParser) (hP : ReadsBlocks P) (Q : Bytes → Except ParseErr (Option (RawRequest × Nat)))
    (hS : RequestStable Q) (hT : ∀ buf raw n, Q buf = .ok (some (raw, n)) → RequestTokens raw) (max : Nat) (hQ : ReadsRequests max (tokens Q)) (methodOk uriOk : Bytes → Bool)
    (preserve preserve' : Bool) (shown : Bytes → Bytes) (hshown : ∀ t, uriOk t = true → TargetOk uriOk (shown t))
    (proxy : Fed RequestMsg) (hp : proxy.got = []) (cs : List FAct)
    (d : Disp) (hd : Fresh d) (hc : d.conn.client = true) (as : List Act)
    (hfwd : Forwards shown (proxy.run env'' P'' (serverHeads Q methodOk uriOk preserve) cs).got env P' d as)
    (f : Fed RequestMsg) (hf : f.disp.Start) (hg : f.got = []) (fair : ∀ m ∈ messages (story env P' d [] as), m.Fair max f.disp.conn.maxHeaders)
    (hnet : f.inlet.rd.stream <+: wire (d.run env P' as).conn) (bs : List FAct) (k : Nat) (r : Received RequestMsg)
    (hr : (f.run env' P (serverHeads Q methodOk uriOk preserve') bs).got[k]? = some r) :
    ∃ q ∈ (proxy.run env'' P'' (serverHeads Q methodOk uriOk preserve) cs).got, (requests env P' d as)[k]? = some (forwardRequest shown q.head, forwardBody q.head.decode) ∧
      r.head.method = q.head.method ∧ r.head.target = shown q.head.target ∧ (∀ n, n ∉ [hCL, hTE, hCONN] → r.head.headers.getAll n = q.head.headers.getAll n) ∧ r.data <+: q.data ∧
      (r.whole = true → ∃ m : Message, (messages (story env P' d [] as))[k]? = some m ∧ r.data = m.data) := by
  have hgot : ∀ q ∈ (proxy.run env'' P'' (serverHeads Q methodOk uriOk preserve) cs).got, ∃ raw, RequestTokens raw ∧ serverParse methodOk uriOk preserve raw = .ok q.head := by
    intro q hq
    obtain ⟨buf, hb⟩ := got_parsed env'' P'' (serverHeads Q methodOk uriOk preserve) cs proxy (by rw [hp]; simp) q hq
    simp only [serverHeads] at hb
    split at hb
    · cases hb
    · cases hb
    · rename_i raw n hQb
      split at hb
      · cases hb
      · rename_i m hm
        simp only [Except.ok.injEq, Option.some.injEq] at hb
        subst hb
        exact ⟨raw, hT buf raw n hQb, hm⟩
  have hok : ∀ q ∈ requests env P' d as, RequestOk methodOk uriOk q.1 q.2 := by
    intro q hq
    obtain ⟨j, hj⟩ := List.getElem?_of_mem hq
    obtain ⟨x, hx, e, _⟩ := hfwd j q hj
    obtain ⟨raw, h1, h2⟩ := hgot x hx
    rw [e]
    exact C92_request_ok methodOk uriOk preserve raw x.head h2 h1 shown (hshown _ (serverParse_line h2).2)
  obtain ⟨h, body, m, h1, h2, _, h4, h5, h6, h7, h8⟩ := C67_requests env env' P P' hP Q hS max hQ methodOk uriOk preserve' d hd hc as hok f hf hg fair hnet bs k r hr
  obtain ⟨x, hx, e, hdat⟩ := hfwd k _ h1
  simp only [Prod.mk.injEq] at e
  obtain ⟨rfl, rfl⟩ := e
  obtain ⟨raw, t1, t2⟩ := hgot x hx
  refine ⟨x, hx, h1, h4, h5, ?_, h7.trans (hdat m h2), fun hw => ⟨m, h2, (h8 hw).1⟩⟩
  intro n hn
  rw [h6 n hn]
  have hne : n ≠ hCL := by intro e; exact hn (by rw [e]; simp)
  have := (C17_fields_shown methodOk uriOk preserve raw x.head t2).1 n hne
  show (x.head.headers.getAll n).map trimBlanks = _
  rw [this, map_trimmed t1.trimmed]

/-- C92, responses.  Every response hyper's client delivers (HTTP/0.9 aside) can be handed on to the connection that asked, in the sense of C21, C25 and C68: its framing
headers are right, provided that its Transfer-Encoding is plain ASCII (`C92_opaque_coding` shows that this is needed). -/
theorem C92_response_ok_partial (cfg : ClientCfg) (h09 : cfg.h09 = false) (H : Bytes → RespParse) (hT : ∀ buf len r, H buf = .complete len r → ResponseTokens cfg r) (method : Bytes)
    (fuel : Nat) (buf : Bytes) (m : ResponseMsg) (hm : (clientParse cfg H (some method) fuel buf []).res = .ok (some m)) (env : EncodeEnv)
    (hte : ∀ v ∈ m.head.headers.getAll hTE, ¬ NoBody (some method) m.head.status → ∀ b ∈ v, Visible b) : ResponseOk env method (forwardResponse m) := by
  obtain ⟨buf', len, r, ka, up, h1, h2, h3⟩ := clientParse_msg h09 fuel buf [] m hm
  exact forward_responseOk h2 h3 (hT _ _ _ h1) env hte

theorem ofLength_lengths {d : DecodedLength} (h : d = DecodedLength.CHUNKED ∨ d = DecodedLength.CLOSE_DELIMITED) (mh ms : Option Nat) (n : Nat) :
    Decoder.ofLength d mh ms ≠ readerFor mh ms (.length n) := by
  rcases h with rfl | rfl <;> (intro e; cases e)

/-- C92, responses.  A response hyper's client delivers and that has not both framing fields (nor one in answer to CONNECT, nor two lengths in answer to HEAD) is written by
the connection that asked, in any state, and the body's writer goes by a length exactly if the body's reader did, the same length: no body is cut short or left open. -/
theorem C92_response_written_partial (cfg : ClientCfg) (h09 : cfg.h09 = false) (H : Bytes → RespParse) (hT : ∀ buf len r, H buf = .complete len r → ResponseTokens cfg r) (method : Bytes)
    (fuel : Nat) (buf : Bytes) (m : ResponseMsg) (hm : (clientParse cfg H (some method) fuel buf []).res = .ok (some m)) (env : EncodeEnv) (c : Conn) (hc : c.method = some method)
    (dst : Bytes) (hone : m.head.headers.getAll hTE = [] ∨ m.head.headers.getAll hCL = [])
    (hhead : method = ascii "HEAD" → (m.head.headers.getAll hCL).length ≤ 1)
    (hcon : method = ascii "CONNECT" → 200 ≤ m.head.status → m.head.status ≤ 299 → m.head.headers.getAll hTE = [] ∧ m.head.headers.getAll hCL = []) :
    ∃ out e, serverEncode env (c.respMsg (forwardResponse m)).2 dst = (out, .ok e) ∧
      ∀ mh ms n, framingOf e.kind = .length n ↔ Decoder.ofLength m.decode mh ms = readerFor mh ms (.length n) := by
  obtain ⟨buf', len, r, ka, up, h1, h2, h3⟩ := clientParse_msg h09 fuel buf [] m hm
  obtain ⟨hs, _⟩ := clientHead_sound h2 (hT _ _ _ h1)
  obtain ⟨hst, hcases⟩ := delivered_cases h2 h3
  obtain ⟨f1, _, f3⟩ := respMsg_facts c (forwardResponse m) hs.map hs.short
  have hver : (c.respMsg (forwardResponse m)).2.head.version = .h10 ∨ (c.respMsg (forwardResponse m)).2.head.version = .h11 := by
    have hv := (clientHead_ok h2).2.2.1
    have hv' : m.head.version = .h10 ∨ m.head.version = .h11 := by rw [hv]; cases r.http11 <;> simp
    show (enforceVersion c.version c.ka m.head.version m.head.headers).2.1 = _ ∨ (enforceVersion c.version c.ka m.head.version m.head.headers).2.1 = _
    unfold enforceVersion
    split
    · exact .inl rfl
    · split <;> exact hv'
    · exact hv'
  have e1 := f3 hTE (by decide)
  have e2 := f3 hCL (by decide)
  have hmeth : (c.respMsg (forwardResponse m)).2.reqMethod = some method := hc
  have hstat : (c.respMsg (forwardResponse m)).2.head.status = m.head.status := rfl
  have hbody : (c.respMsg (forwardResponse m)).2.body = forwardBody m.decode := rfl
  have e1 : (c.respMsg (forwardResponse m)).2.head.headers.getAll hTE = m.head.headers.getAll hTE := e1
  have e2 : (c.respMsg (forwardResponse m)).2.head.headers.getAll hCL = m.head.headers.getAll hCL := e2
  obtain ⟨out, e, henc, hfits⟩ := encode_forward (env := env) (dst := dst) f1.wf (hver.imp_right .inl) hst (by rw [e1, e2]; exact hone)
    (by
      intro h
      rw [hmeth] at h
      rw [e2]
      exact hhead (Option.some.inj h))
    (by
      intro h
      rw [hmeth, hstat] at h
      rw [e1, e2]
      have hr := h.2
      unfold isSuccess at hr
      simp only [decide_eq_true_eq, Bool.and_eq_true] at hr
      exact hcon (Option.some.inj h.1) (by omega) (by omega))
    (by
      rw [hmeth, hstat, hbody, e1, e2]
      rcases hcases with ⟨h1, h2⟩ | ⟨h1, h2, h3⟩ | ⟨h1, n, h2, h3, h4, h5⟩
      · exact .inl ⟨h1, by rw [h2, forwardBody_zero]⟩
      · refine .inr (.inl ⟨h1, ?_, ?_⟩)
        · rcases h2 with h | h <;> rw [h]
          · exact forwardBody_chunked
          · exact forwardBody_close
        · rcases h3 with h | h
          · exact hone.resolve_left h
          · exact h
      · refine .inr (.inr ⟨h1, ?_, h4⟩)
        rw [h2, forwardBody_length h3]
        split
        · exact .inl rfl
        · exact .inr ⟨n, rfl⟩)
  refine ⟨out, e, henc, fun mh ms n => ?_⟩
  rw [hbody] at hfits
  rcases hcases with ⟨_, h2⟩ | ⟨_, h2, _⟩ | ⟨_, k, h2, h3, _⟩
  · rw [hfits.1 (by rw [h2, forwardBody_zero]), h2]
    constructor
    · intro h; cases h; rfl
    · intro h; cases h; rfl
  · constructor
    · intro h
      exact absurd h (hfits.2.2 (by rcases h2 with h | h <;> rw [h]; exact forwardBody_chunked; exact forwardBody_close) n)
    · intro h; exact absurd h (ofLength_lengths h2 mh ms n)
  · have hk : framingOf e.kind = .length k := by
      by_cases h0 : k = 0
      · subst h0; exact hfits.1 (by rw [h2, forwardBody_length h3, if_pos rfl])
      · exact hfits.2.1 k (by rw [h2, forwardBody_length h3, if_neg h0])
    rw [hk, h2, ofLength_length h3]
    constructor
    · intro h; cases h; rfl
    · intro h; cases h; rfl

/-- C92, connections, responses.  The proxy's connection to the server behind it reads whatever bytes come (`up`, any run); the connection to the proxy's client answers the request in
place `k` with a response read there in answer to a request of the same method, untouched, and with what was read of its body.  Then what hyper's client on the other side reads in
place `k` is such a response: the same status and header values (but for those of framing, connection options, trailer names and date), and data that the proxy has read as the data of
that very response; or it is the answer hyper's server makes on its own to bytes that are no request. -/
theorem C92_no_response_smuggling_partial (envC envS envU : EncodeEnv) (henv : EnvOk envS) (PC PS PU : TrailerParser) (hPC : ReadsBlocks PC) (hPS : ReadsBlocks PS)
    (cfg : ClientCfg) (h09 : cfg.h09 = false) (QC : Bytes → RespParse) (hSC : PrefixStable QC) (maxC : Nat) (hQC : ReadsResponses maxC QC)
    (hT : ∀ buf len r, QC buf = .complete len r → ResponseTokens cfg r)
    (QS : Bytes → Except ParseErr (Option (RawRequest × Nat))) (hSS : RequestStable QS) (maxS : Nat) (hQS : ReadsRequests maxS (tokens QS))
    (methodOk uriOk : Bytes → Bool) (preserve : Bool)
    (up : Fed ResponseMsg) (hup : up.got = []) (cs : List FAct)
    (hvis : ∀ x ∈ (up.run envU PU (clientHeads cfg QC) cs).got, ∀ v ∈ x.head.head.headers.getAll hTE, ∀ b ∈ v, Visible b)
    (client : Fed ResponseMsg) (hc : Fresh client.disp) (hcc : client.disp.conn.client = true) (hcg : client.got = [])
    (server : Fed RequestMsg) (hs : Fresh server.disp) (hsc : server.disp.conn.client = false) (hsm : server.disp.conn.method = none) (hsg : server.got = [])
    (as bs : List FAct) (xs ys : List Act) (hxs : xs = acts envC PC (clientHeads cfg QC) client as)
    (hys : ys = acts envS PS (serverHeads QS methodOk uriOk preserve) server bs)
    (hgate : Wire.Gated envS PS server.disp ys)
    (hreq : ∀ q ∈ requests envC PC client.disp xs, RequestOk methodOk uriOk q.1 q.2)
    (hback : ForwardsBack (up.run envU PU (clientHeads cfg QC) cs).got (requests envC PC client.disp xs) envS PS server.disp ys)
    (fairC : ∀ m ∈ messages (story envC PC client.disp [] xs), m.Fair maxS server.disp.conn.maxHeaders)
    (fairS : ∀ m ∈ messages (story envS PS server.disp [] ys), m.Fair maxC client.disp.conn.maxHeaders)
    (netS : server.inlet.rd.stream <+: wire (client.disp.run envC PC xs).conn)
    (netC : client.inlet.rd.stream <+: wire (server.disp.run envS PS ys).conn)
    (k : Nat) (r : Received ResponseMsg) (hr : (client.run envC PC (clientHeads cfg QC) as).got[k]? = some r) :
    (∃ x ∈ (up.run envU PU (clientHeads cfg QC) cs).got, (∃ h body, (requests envC PC client.disp xs)[k]? = some (h, body) ∧ x.method = some h.method) ∧
      (answers envS PS server.disp ys)[k]? = some (forwardResponse x.head) ∧ r.head.head.status = x.head.head.status ∧
      (∀ n, n ∉ [hCL, hTE, hCONN, hTRAILER, hDATE] → r.head.head.headers.getAll n = (x.head.head.headers.getAll n).map trimBlanks) ∧ r.data <+: x.data) ∨
    (k = (answers envS PS server.disp ys).length ∧ r.head.head.status ∈ [400, 414, 431] ∧ r.data = []) := by
  have hgot : ∀ x ∈ (up.run envU PU (clientHeads cfg QC) cs).got, ∀ method, x.method = some method → ResponseOk envS method (forwardResponse x.head) := by
    intro x hx method hme
    obtain ⟨buf, hb⟩ := got_parsed envU PU (clientHeads cfg QC) cs up (by rw [hup]; simp) x hx
    rw [hme] at hb
    exact C92_response_ok_partial cfg h09 QC hT method _ buf x.head hb envS (fun v hv _ => hvis x hx v hv)
  rcases C68_exchange_partial envC envS henv PC PS hPC hPS cfg h09 QC hSC maxC hQC QS hSS maxS hQS methodOk uriOk preserve client hc hcc hcg server hs hsc hsm hsg as bs xs ys hxs hys
    hgate hreq (by
      intro j a q ha hq
      obtain ⟨x, hx, h1, h2, _⟩ := hback j a q ha hq
      rw [h2]
      exact hgot x hx _ h1) fairC fairS netS netC k r hr with ⟨h, body, a, m, s, g1, _, _, _, g5, g6, _, g8, g9, g10, _⟩ | h
  · obtain ⟨x, hx, h1, h2, h3⟩ := hback k a _ g5 g1
    subst h2
    exact .inl ⟨x, hx, ⟨h, body, g1, h1⟩, g5, g8, g9, g10.trans (h3 m g6)⟩
  · exact .inr h

/-! ### Where handing a response on goes wrong -/

/-- A connection to a client that speaks this version and has sent this method. -/
def exPeer (version : Version) (method : Bytes) : Conn := { (exDisp false).conn with version := version, method := some method }

/-- What the client's parser gives for a response with these fields. -/
def exAnswer (method : Bytes) (fields : List (Bytes × Bytes)) : Option ResponseMsg :=
  match (clientParse ⟨false, false, false, fun _ => none⟩ (fun _ => .complete 1 ⟨200, true, ascii "OK", fields⟩) (some method) 1 [0] []).res with
  | .ok m => m
  | .error _ => none

/-- The result of handing it on. -/
def exHandedOn (version : Version) (method : Bytes) (fields : List (Bytes × Bytes)) : Option EncodeRes :=
  (exAnswer method fields).map (fun m => (serverEncode exEnv ((exPeer version method).respMsg (forwardResponse m)).2 []).2)

/-- C92 fails for a response that has Transfer-Encoding and then Content-Length, handed on to a client that speaks HTTP/1.0: it was read as chunked, but is written with that length, and cut
off there; handed on to a client that speaks HTTP/1.1 it is refused. -/
theorem C92_length_beside_coding :
    (exAnswer (ascii "GET") [(ascii "transfer-encoding", ascii "chunked"), (ascii "content-length", ascii "5")]).map ResponseMsg.decode = some DecodedLength.CHUNKED ∧
    (exHandedOn .h10 (ascii "GET") [(ascii "transfer-encoding", ascii "chunked"), (ascii "content-length", ascii "5")]).map
      (fun e => match e with | .ok e => some e.kind | _ => none) = some (some (.length 5)) ∧
    exHandedOn .h11 (ascii "GET") [(ascii "transfer-encoding", ascii "chunked"), (ascii "content-length", ascii "5")] = some .userHeader ∧
    exHandedOn .h10 (ascii "GET") [(ascii "content-length", ascii "5"), (ascii "transfer-encoding", ascii "chunked")] = some .userHeader := by decide +kernel

/-- C92 fails for a response whose codings, but for the last, are not ASCII: read as chunked, it is written as chunked with the codings in one field, which hyper's client does not
read as chunked. -/
theorem C92_opaque_coding :
    (exAnswer (ascii "GET") [(ascii "transfer-encoding", [195, 169]), (ascii "transfer-encoding", ascii "chunked")]).map ResponseMsg.decode = some DecodedLength.CHUNKED ∧
    (exHandedOn .h11 (ascii "GET") [(ascii "transfer-encoding", [195, 169]), (ascii "transfer-encoding", ascii "chunked")]).map
      (fun e => match e with | .ok e => some e.kind | _ => none) = some (some (.chunked none)) ∧
    (exAnswer (ascii "GET") [(ascii "transfer-encoding", [195, 169]), (ascii "transfer-encoding", ascii "chunked")]).map (fun m =>
      (serverEncode exEnv ((exPeer .h11 (ascii "GET")).respMsg (forwardResponse m)).2 []).1.take 49) =
        some (ascii "HTTP/1.1 200 OK\r\ntransfer-encoding: " ++ [195, 169] ++ ascii ", chunked\r\n") ∧
    (exAnswer (ascii "GET") [(ascii "transfer-encoding", [195, 169] ++ ascii ", chunked")]).map ResponseMsg.decode = some DecodedLength.CLOSE_DELIMITED := by decide +kernel

/-- C92 fails for what has no body: two lengths in answer to HEAD, or a length in answer to CONNECT, are read but refused when handed on. -/
theorem C92_refused :
    (exAnswer (ascii "HEAD") [(ascii "content-length", ascii "5"), (ascii "content-length", ascii "5")]).isSome = true ∧
    exHandedOn .h11 (ascii "HEAD") [(ascii "content-length", ascii "5"), (ascii "content-length", ascii "5")] = some .userHeader ∧
    (exAnswer (ascii "CONNECT") [(ascii "content-length", ascii "5")]).isSome = true ∧
    exHandedOn .h11 (ascii "CONNECT") [(ascii "content-length", ascii "5")] = some .userHeader := by decide +kernel

/-- C92 fails for a response of HTTP/0.9, which a client may be told to accept: handing it on panics. -/
theorem C92_http09_panics (H : Bytes → RespParse) (buf : Bytes) (hH : H buf = .versionErr) (cfg : ClientCfg) (h09 : cfg.h09 = true) (env : EncodeEnv) (c : Conn)
    (hv : c.version ≠ .h10) (hm : c.method = some (ascii "GET")) (dst : Bytes) :
    ∃ m, (clientParse cfg H (some (ascii "GET")) 1 buf []).res = .ok (some m) ∧ serverEncode env (c.respMsg (forwardResponse m)).2 dst = (dst, .panic) := by
  have hd : clientDecoder (h09Head cfg) (some (ascii "GET")) = .ok (some (DecodedLength.CLOSE_DELIMITED, false)) := by
    unfold clientDecoder h09Head
    cases cfg.preserveCase <;> decide +kernel
  refine ⟨⟨h09Head cfg, DecodedLength.CLOSE_DELIMITED, false, false⟩, ?_, ?_⟩
  · simp only [clientParse, hH, h09, if_true, hd]
    rfl
  · have h1 : (c.respMsg (forwardResponse ⟨h09Head cfg, DecodedLength.CLOSE_DELIMITED, false, false⟩)).2.head.version = .h09 := by
      show (enforceVersion c.version c.ka .h09 []).2.1 = .h09
      unfold enforceVersion
      split
      · rename_i h; exact absurd h hv
      · split <;> rfl
      · rfl
    have h2 : (c.respMsg (forwardResponse ⟨h09Head cfg, DecodedLength.CLOSE_DELIMITED, false, false⟩)).2.head.status = 200 := rfl
    have h3 : (c.respMsg (forwardResponse ⟨h09Head cfg, DecodedLength.CLOSE_DELIMITED, false, false⟩)).2.reqMethod = some (ascii "GET") := hm
    generalize (c.respMsg (forwardResponse ⟨h09Head cfg, DecodedLength.CLOSE_DELIMITED, false, false⟩)).2 = em at h1 h2 h3
    have hp : (encodePrep em).1 = em := by
      unfold encodePrep
      rw [if_neg (by omega), if_neg (by rw [h3]; intro h; exact absurd h.1 (by decide)), if_neg (by unfold isInformational; simp; omega)]
    generalize hq : encodePrep em = q at hp
    obtain ⟨m1, bad, l, w⟩ := q
    have hp : m1 = em := hp
    subst hp
    have hl : statusLine env m1.head = none := by
      unfold statusLine
      rw [if_neg (by rw [h1]; simp), h1]
      rfl
    simp only [serverEncode, hq, hl]

/-! ## Examples -/

theorem trimBlanks_again (v : Bytes) : trimBlanks (trimBlanks v) = trimBlanks v := by
  obtain ⟨x, y, hx, hy, h⟩ := trimBlanks_padded v
  have hb : ∀ z : Byte, z = 32 ∨ z = 9 → isBlankByte z = true := by
    rintro z (rfl | rfl) <;> decide
  have := trimBlanks_pad (trimBlanks v) (fun z hz => hb z (hx z hz)) (fun z hz => hb z (hy z hz))
  rw [← h] at this
  exact this.symm

theorem refBlock_tokens : ∀ (n : Nat) (bs : Bytes) (p : List (Bytes × Bytes) × Bytes), refBlock n bs = some p →
    (∀ f ∈ p.1, ∀ b ∈ f.2, isValueByte b = true) ∧ ∀ f ∈ p.1, trimBlanks f.2 = f.2 := by
  intro n
  induction n with
  | zero =>
    intro bs p h
    unfold refBlock at h
    split at h
    · cases h; simp
    · cases h
    · rename_i h0 _; cases h0
  | succ n ih =>
    intro bs p h
    unfold refBlock at h
    split at h
    · cases h; simp
    · rename_i h0 _; cases h0
    · rename_i n' hn _
      have hn : n' = n := by injection hn with hn; exact hn.symm
      subst hn
      split at h
      · cases h
      · rename_i f rest hf
        simp only [Option.map_eq_some_iff] at h
        obtain ⟨q, hq, rfl⟩ := h
        obtain ⟨i1, i2⟩ := ih rest q hq
        have hf2 : ∃ r : Bytes, f.2 = trimBlanks (r.takeWhile isValueByte) := by
          unfold refField at hf
          simp only at hf
          split at hf
          · cases hf
          · split at hf
            · rename_i r _
              split at hf
              · simp only [Option.some.injEq, Prod.mk.injEq] at hf
                obtain ⟨rfl, _⟩ := hf
                exact ⟨r, rfl⟩
              · cases hf
            · cases hf
        obtain ⟨r, hr⟩ := hf2
        constructor
        · intro g hg
          rcases List.mem_cons.mp hg with rfl | hg
          · rw [hr]
            intro b hb
            exact List.all_eq_true.mp List.all_takeWhile b (trim_mem b hb)
          · exact i1 g hg
        · intro g hg
          rcases List.mem_cons.mp hg with rfl | hg
          · rw [hr, trimBlanks_again]
          · exact i2 g hg

/-- The reference parser gives tokens. -/
theorem refTokens_tokens (max : Nat) : ∀ buf raw n, refTokens max buf = .ok (some (raw, n)) → RequestTokens raw := by
  intro buf raw n h
  simp only [refTokens, Except.ok.injEq, refRequest] at h
  split at h
  · split at h
    · cases h
    · rename_i hne
      split at h
      · cases h
      · simp only [Option.map_eq_some_iff, Prod.mk.injEq] at h
        obtain ⟨p, hp, rfl, _⟩ := h
        obtain ⟨h1, h2⟩ := refBlock_tokens _ _ _ hp
        exact ⟨fun e => hne (.inl e), fun b hb => List.all_eq_true.mp List.all_takeWhile b hb, h1, h2⟩
  · cases h

/-- A request whose framing fields contradict each other. -/
def exTorn : RawRequest :=
  ⟨ascii "POST", ascii "/a", true, [(ascii "Content-Length", ascii "3"), (ascii "X", ascii "v"), (ascii "Transfer-Encoding", ascii "gzip, chunked")]⟩

/-- What it is taken for. -/
def exTaken : RequestMsg :=
  ⟨ascii "POST", ascii "/a", .h11, [(ascii "x", [ascii "v"]), (ascii "transfer-encoding", [ascii "gzip, chunked"])], none, DecodedLength.CHUNKED, false, false, false⟩

theorem exTorn_tokens : RequestTokens exTorn := ⟨by decide +kernel, by decide +kernel, by decide +kernel, by decide +kernel⟩

/-- It is handed on as the chunked request it is taken for. -/
example : serverParse (fun _ => true) (fun _ => true) false exTorn = .ok exTaken ∧ ∃ out e, clientEncode false (forwardRequest id exTaken) (forwardBody exTaken.decode) [] = some (out, e) ∧
    out = ascii "POST /a HTTP/1.1\r\nx: v\r\ntransfer-encoding: gzip, chunked\r\n\r\n" ∧ framingOf e.kind = .chunked ∧
    ∀ rest, ∃ r' m', tokens (refTokens 100) (out ++ rest) = some (r', out.length) ∧ serverParse (fun _ => true) (fun _ => true) false r' = .ok m' ∧ m'.decode = DecodedLength.CHUNKED := by
  have hm : serverParse (fun _ => true) (fun _ => true) false exTorn = .ok exTaken := by decide +kernel
  obtain ⟨out, e, h1, h2, h3⟩ := C92_request_read_again 100 (tokens (refTokens 100)) (refTokens_reads 100) (fun _ => true) (fun _ => true) false false false exTorn exTaken hm exTorn_tokens
    id ⟨by decide +kernel, by decide +kernel, by decide +kernel, ⟨"/a", by decide +kernel⟩, rfl⟩
  have hc : clientEncode false (forwardRequest id exTaken) (forwardBody exTaken.decode) [] =
      some (ascii "POST /a HTTP/1.1\r\nx: v\r\ntransfer-encoding: gzip, chunked\r\n\r\n", ⟨.chunked none, false⟩) := by decide +kernel
  rw [hc] at h1
  simp only [Option.some.injEq, Prod.mk.injEq] at h1
  obtain ⟨rfl, rfl⟩ := h1
  refine ⟨hm, _, _, hc, rfl, rfl, fun rest => ?_⟩
  obtain ⟨r', m', g1, g2, _, _, _, _, g7, _⟩ := h3 rest (by decide +kernel)
  exact ⟨r', m', g1, g2, g7⟩

namespace Wire

/-- The bytes of such a request with the chunks `ab` and `cde`, and what looks like another request in its data if the length is believed. -/
def exTornBytes : Bytes :=
  ascii ("POST /a HTTP/1.1\r\nContent-Length: 3\r\nX: v\r\nTransfer-Encoding: gzip, chunked\r\n\r\n" ++ "2\r\nab\r\n3\r\ncde\r\n0\r\n\r\n")

/-- The proxy's connection that gets it. -/
def exProxy : Fed RequestMsg := Input.exFed [.data 80 (exTornBytes.drop 1)]

/-- The proxy's connection to the next server. -/
def exOn : List Act :=
  [exWrite (.req (forwardRequest id exTaken) (forwardBody exTaken.decode)) .pending, exWrite .pending (.frame (.data (ascii "ab") false)),
   exWrite .pending (.frame (.data (ascii "cde") false)), exWrite .pending .eof, .flush exFlushIn .pending]

def exOnBytes : Bytes :=
  ascii ("POST /a HTTP/1.1\r\nx: v\r\ntransfer-encoding: gzip, chunked\r\n\r\n" ++ "2\r\nab\r\n3\r\ncde\r\n0\r\n\r\n")

/-- The next server. -/
def exNext : Fed RequestMsg := Input.exFed [.data 80 (exOnBytes.drop 1)]

/-- Some targets `http::Uri` takes. -/
def exUri (t : Bytes) : Bool := decide (t = ascii "/" ∨ t = ascii "/a")

def exEnds : HeadFn RequestMsg := serverHeads (refTokens 100) (fun _ => true) exUri false

end Wire

example : (exProxy.run exEnv parseBlock exEnds exHear).got.map (fun r => (r.head, r.data)) = [(exTaken, ascii "abcde")] ∧
    (exNext.run exEnv parseBlock exEnds exHear).got.map (fun r => (r.head.method, r.head.target, r.data, r.whole)) = [(ascii "POST", ascii "/a", ascii "abcde", true)] := by
  constructor <;> decide +kernel

/-- All that C92 assumes of the connections holds of this. -/
example : ∃ q ∈ (exProxy.run exEnv parseBlock exEnds exHear).got, q.head.method = ascii "POST" ∧ q.data = ascii "abcde" := by
  have hgot : (exProxy.run exEnv parseBlock exEnds exHear).got.map (fun r => (r.head, r.data)) = [(exTaken, ascii "abcde")] := by decide +kernel
  have hq : requests exEnv exP (exDisp true) exOn = [(forwardRequest id exTaken, forwardBody exTaken.decode)] := by decide +kernel
  have hm : (messages (story exEnv exP (exDisp true) [] exOn)).map (fun m => (m.head, m.framing, m.frames)) =
      [(ascii "POST /a HTTP/1.1\r\nx: v\r\ntransfer-encoding: gzip, chunked\r\n\r\n", .body ⟨.chunked none, false⟩, [.data (ascii "ab") false, .data (ascii "cde") false])] := by
    decide +kernel
  have hd : (messages (story exEnv exP (exDisp true) [] exOn)).map (fun m => m.data) = [ascii "abcde"] := by decide +kernel
  obtain ⟨p, hp, p1, p2⟩ : ∃ p ∈ (exProxy.run exEnv parseBlock exEnds exHear).got, p.head = exTaken ∧ p.data = ascii "abcde" := by
    have : (exTaken, ascii "abcde") ∈ (exProxy.run exEnv parseBlock exEnds exHear).got.map (fun r => (r.head, r.data)) := by rw [hgot]; simp
    obtain ⟨p, hp, e⟩ := List.mem_map.mp this
    simp only [Prod.mk.injEq] at e
    exact ⟨p, hp, e⟩
  obtain ⟨r, hr, h1, h2⟩ : ∃ r, (exNext.run exEnv parseBlock exEnds exHear).got[0]? = some r ∧ r.head.method = ascii "POST" ∧ r.data = ascii "abcde" := by
    have : ((exNext.run exEnv parseBlock exEnds exHear).got.map (fun r => (r.head.method, r.data)))[0]? = some (ascii "POST", ascii "abcde") := by decide +kernel
    rw [List.getElem?_map] at this
    cases hg : (exNext.run exEnv parseBlock exEnds exHear).got[0]? with
    | none => rw [hg] at this; cases this
    | some r => rw [hg] at this; simp only [Option.map_some, Option.some.injEq, Prod.mk.injEq] at this; exact ⟨r, rfl, this⟩
  obtain ⟨q, g1, _, g3, _, _, g6, _⟩ := C92_no_smuggling exEnv exEnv exEnv parseBlock exP parseBlock parseBlock_reads (refTokens 100) (refTokens_stable 100) (refTokens_tokens 100) 100
    (refTokens_reads 100) (fun _ => true) exUri false false id
    (by
      intro t ht
      rcases of_decide_eq_true ht with rfl | rfl
      · exact ⟨by decide +kernel, by decide +kernel, by decide +kernel, ⟨"/", by decide +kernel⟩, ht⟩
      · exact ⟨by decide +kernel, by decide +kernel, by decide +kernel, ⟨"/a", by decide +kernel⟩, ht⟩)
    exProxy rfl exHear (exDisp true) (exDisp_fresh true none) rfl exOn
    (by
      intro k x hx
      rw [hq] at hx
      cases k with
      | succ k => simp at hx
      | zero =>
        simp only [List.getElem?_cons_zero, Option.some.injEq] at hx
        subst hx
        refine ⟨p, hp, by rw [p1], ?_⟩
        intro m hm0
        have : ((messages (story exEnv exP (exDisp true) [] exOn)).map (fun m => m.data))[0]? = some m.data := by rw [List.getElem?_map, hm0]; rfl
        rw [hd] at this
        simp only [List.getElem?_cons_zero, Option.some.injEq] at this
        rw [← this, p2]
        exact List.prefix_refl _)
    exNext (exDisp_start _ _) rfl
    (by
      intro m hmem
      have h := List.mem_map_of_mem (f := fun m : Message => (m.head, m.framing, m.frames)) hmem
      rw [hm] at h
      simp only [List.mem_cons, List.not_mem_nil, or_false, Prod.mk.injEq] at h
      obtain ⟨e1, e2, e3⟩ := h
      refine ⟨by rw [e1]; decide +kernel, ?_, ?_, ?_⟩
      · intro e n h1 h2; rw [e2] at h1; cases h1; cases h2
      · rw [e3]; intro f hf bs e he; subst he; simp at hf; rcases hf with ⟨rfl, _⟩ | ⟨rfl, _⟩ <;> decide
      · rw [e3]; intro t ht; cases ht)
    (by rw [show exNext.inlet.rd.stream = exOnBytes from by decide +kernel, show wire ((exDisp true).run exEnv exP exOn).conn = exOnBytes from by decide +kernel]
        exact List.prefix_refl _)
    exHear 0 r hr
  exact ⟨q, g1, by rw [← g3, h1], by
    have hm2 : (q.head, q.data) ∈ (exProxy.run exEnv parseBlock exEnds exHear).got.map (fun r => (r.head, r.data)) := List.mem_map_of_mem (f := fun r : Received RequestMsg => (r.head, r.data)) g1
    rw [hgot] at hm2
    simp only [List.mem_singleton, Prod.mk.injEq] at hm2
    exact hm2.2⟩

/-- A response handed on: read as chunked, written as chunked; read with a length, written with it. -/
example : (exAnswer (ascii "GET") [(ascii "transfer-encoding", ascii "gzip, chunked")]).map ResponseMsg.decode = some DecodedLength.CHUNKED ∧
    (exHandedOn .h11 (ascii "GET") [(ascii "transfer-encoding", ascii "gzip, chunked")]).map (fun e => match e with | .ok e => some e.kind | _ => none) = some (some (.chunked none)) ∧
    (exHandedOn .h10 (ascii "GET") [(ascii "transfer-encoding", ascii "gzip, chunked")]).map (fun e => match e with | .ok e => some e.kind | _ => none) = some (some .closeDelimited) ∧
    (exHandedOn .h11 (ascii "GET") [(ascii "content-length", ascii "5")]).map (fun e => match e with | .ok e => some e.kind | _ => none) = some (some (.length 5)) := by decide +kernel

theorem refReplies_tokens (max : Nat) (cfg : ClientCfg) (hf : cfg.obsFoldAllowed = false) : ∀ buf len r, refReplies max buf = .complete len r → ResponseTokens cfg r := by
  intro buf len r h
  have h : refResponse max buf = .complete len r := by
    unfold refReplies at h
    split at h
    · rename_i h'; rw [h', h]
    · cases h
  unfold refResponse at h
  repeat' split at h
  all_goals first
    | (cases h; done)
    | skip
  rename_i hp
  simp only [RespParse.complete.injEq] at h
  obtain ⟨_, rfl⟩ := h
  obtain ⟨h1, _⟩ := refBlock_tokens _ _ _ hp
  refine ⟨fun b hb => ?_, ?_⟩
  · simp only [refReason] at hb
    split at hb
    · cases hb
    · exact List.all_eq_true.mp List.all_takeWhile b hb
  unfold ClientCfg.unfold
  rw [if_neg (by rw [hf]; simp)]
  exact h1

namespace Wire

/-- The response that comes back to the proxy. -/
def exBackBytes : Bytes := ascii "HTTP/1.1 200 OK\r\nx: v\r\ncontent-length: 2\r\n\r\nhi"

def exUp : Fed ResponseMsg := ⟨exDisp true, { rd := ⟨[], [.data 72 (exBackBytes.drop 1)], .silent⟩, max := 8192 }, []⟩

def exBack : ResponseMsg := ⟨⟨.h11, 200, [(ascii "x", [ascii "v"]), (hCL, [ascii "2"])], none, some (ascii "OK")⟩, ⟨2⟩, true, false⟩

/-- The proxy answers with it. -/
def exBackRun : List FAct :=
  [.act (exRead .pending exNo), .act (exWrite (.resp (forwardResponse exBack)) .pending), .act (exWrite .pending (.frame (.data (ascii "hi") true))), .act (.flush exFlushIn .pending)]

end Wire

/-- The response read on one side is the answer on the other, as `C92_no_response_smuggling_partial` assumes; the other assumptions are those of C68. -/
example : ForwardsBack (exUp.run exEnv parseBlock exUserHeads exUserRun).got [(⟨mGET, ascii "/", .h11, [], none⟩, none)] exEnv parseBlock (exDisp false)
      (acts exEnv parseBlock exServer exService exBackRun) ∧
    (answers exEnv parseBlock (exDisp false) (acts exEnv parseBlock exServer exService exBackRun)).length = 1 := by
  have hgot : (exUp.run exEnv parseBlock exUserHeads exUserRun).got.map (fun r => (r.method, r.head, r.data)) = [(some mGET, exBack, ascii "hi")] := by decide +kernel
  have ha : answers exEnv parseBlock (exDisp false) (acts exEnv parseBlock exServer exService exBackRun) = [forwardResponse exBack] := by decide +kernel
  have hd : (messages (story exEnv parseBlock (exDisp false) [] (acts exEnv parseBlock exServer exService exBackRun))).map (fun m => m.data) = [ascii "hi"] := by decide +kernel
  obtain ⟨p, hp, p1, p2, p3⟩ : ∃ p ∈ (exUp.run exEnv parseBlock exUserHeads exUserRun).got, p.method = some mGET ∧ p.head = exBack ∧ p.data = ascii "hi" := by
    have : (some mGET, exBack, ascii "hi") ∈ (exUp.run exEnv parseBlock exUserHeads exUserRun).got.map (fun r => (r.method, r.head, r.data)) := by rw [hgot]; simp
    obtain ⟨p, hp, e⟩ := List.mem_map.mp this
    simp only [Prod.mk.injEq] at e
    exact ⟨p, hp, e⟩
  refine ⟨?_, by rw [ha]; rfl⟩
  intro k a q h1 h2
  rw [ha] at h1
  cases k with
  | succ k => simp at h1
  | zero =>
    simp only [List.getElem?_cons_zero, Option.some.injEq] at h1 h2
    subst h1 h2
    refine ⟨p, hp, p1, by rw [p2], ?_⟩
    intro m hm0
    have : ((messages (story exEnv parseBlock (exDisp false) [] (acts exEnv parseBlock exServer exService exBackRun))).map (fun m => m.data))[0]? = some m.data := by
      rw [List.getElem?_map, hm0]; rfl
    rw [hd] at this
    simp only [List.getElem?_cons_zero, Option.some.injEq] at this
    rw [← this, p3]
    exact List.prefix_refl _

end Hyper
