import Verif.Proof.CutOff
import Verif.Props.EndToEnd
import Verif.Props.Forward

/-! # C93: a body that was cut off is not taken for a complete one -/

namespace Hyper

open Spec Input

namespace Wire

theorem userData_goes {fs : List UserFrame} (h : ∀ f ∈ fs, GoesOn f) (gs : List UserFrame) : userData (fs ++ gs) = userData fs ++ userData gs ∧ userTrailers (fs ++ gs) = userTrailers gs := by
  induction fs with
  | nil => exact ⟨rfl, rfl⟩
  | cons f fs ih =>
    have h1 := h f (by simp)
    obtain ⟨i1, i2⟩ := ih (fun g hg => h g (by simp [hg]))
    cases f with
    | data bs e => cases e with
      | true => exact absurd h1 id
      | false => simp [userData, userTrailers, i1, i2]
    | unknown => simp [userData, userTrailers, i1, i2]
    | trailers t => exact absurd h1 id
    | error => exact absurd h1 id

theorem body_length {P : TrailerParser} {mh : Option Nat} {fin : NetEnd} {len : DecodedLength} {s data rest : Bytes} {tr : Option Fields}
    (h : Body P mh fin len s data tr rest) (h1 : len ≠ DecodedLength.CHUNKED) (h2 : len ≠ DecodedLength.CLOSE_DELIMITED) : data.length = len.val := by
  cases h with
  | length _ _ _ _ g => exact g
  | chunked _ _ _ _ _ _ _ g => exact absurd g h1
  | close _ g => exact absurd g h2

/-- What is known of an open body, whether the connection goes on with it or not. -/
theorem Unended.bytes {s : WriteStrategy} {d : Disp} {st : List Piece} {m : Message} (w : WI s d st) (h : Unended d st m) :
    ∃ (pre : List Piece) (body : Bytes) (fs : List UserFrame), st = pre ++ [.message m] ∧ (∀ p ∈ pre, p.Whole) ∧ wire d.conn = pre.flatMap Piece.bytes ++ (m.head ++ body) ∧
      (∀ f ∈ fs, GoesOn f) ∧ (m.frames = fs ∨ m.frames = fs ++ [.error]) ∧ Partly { m with frames := fs } body ∧
      ((∃ e, d.conn.writing = .body e) ∨ d.conn.writing = .closed ∨ d.done = true) := by
  cases h with
  | going pre e ts hs hf hd hr hb hk =>
    obtain ⟨pre', m', body, hs', a, hw, hp, _⟩ := w.going_of hd hb
    obtain ⟨rfl, hm⟩ := List.append_inj' (hs.symm.trans hs') rfl
    cases hm
    exact ⟨pre, body, m.frames, hs, a, by rw [hw, List.append_assoc], hf, .inl rfl, hp, .inl ⟨e, hb⟩⟩
  | stopped pre body fs hs h hw hf hm hp hc => exact ⟨pre, body, fs, hs, h, by rw [hw, List.append_assoc], hf, hm, hp, .inr hc⟩

end Wire

open Wire

/-- C93.  A client's connection and a server's, in any runs of theirs; the bytes that come to the server are what the client has put on the wire, or a beginning
of it, cut into reads in any way.  If the server's connection has read a request to its end, then the client's user has ended the body of that request, or the
server has read as many bytes as the user announced; but for bodies of unknown length that are not sent at all (`C93_unsent`). -/
theorem C93_ended_partial (env env' : EncodeEnv) (P P' : TrailerParser) (hP : ReadsBlocks P) (Q : Bytes → Except ParseErr (Option (RawRequest × Nat)))
    (hS : RequestStable Q) (max : Nat) (hQ : ReadsRequests max (tokens Q)) (methodOk uriOk : Bytes → Bool) (preserve : Bool)
    (d : Disp) (hd : Fresh d) (hc : d.conn.client = true) (as : List Act)
    (hok : ∀ q ∈ requests env P' d as, RequestOk methodOk uriOk q.1 q.2)
    (f : Fed RequestMsg) (hf : f.disp.Start) (hg : f.got = []) (fair : ∀ m ∈ messages (story env P' d [] as), m.Fair max f.disp.conn.maxHeaders)
    (hnet : f.inlet.rd.stream <+: wire (d.run env P' as).conn) (bs : List FAct) (k : Nat) (r : Received RequestMsg)
    (hr : (f.run env' P (serverHeads Q methodOk uriOk preserve) bs).got[k]? = some r) (hw : r.whole = true) :
    ∃ h body, (requests env P' d as)[k]? = some (h, body) ∧
      (k ∈ endings env P' d [] as ∨ Announces h body r.data.length ∨ (Unsent h body r.head.version ∧ r.data = [])) := by
  have hst := C66_server_stable Q hS methodOk uriOk preserve
  have hasks := asks_run env P' as hc (Poll.vi_start hd.start) (st := []) (qs := []) .nil
  rw [List.nil_append] at hasks
  obtain ⟨_, a2, a3⟩ := hasks.messages
  have hread : ∀ (j : Nat) (m : Message) (μ : Option Bytes), (messages (story env P' d [] as))[j]? = some m → ∃ h body, (requests env P' d as)[j]? = some (h, body) ∧ m.Of h body ∧
      ∃ x : RequestMsg, Readable (serverHeads Q methodOk uriOk preserve) P f.disp.conn.maxHeaders μ m x ∧ x.decode ≠ DecodedLength.CLOSE_DELIMITED ∧
        (x.decode = DecodedLength.CHUNKED → InChunks m) := by
    intro j m μ hm
    obtain ⟨h, body, h1, h2⟩ := a3 j m hm
    obtain ⟨x, x1, _, _, _, x5, x6⟩ := request_framed hS hQ methodOk uriOk preserve P hP _ h2 (hok _ (List.mem_of_getElem? h1)) (fair m (List.mem_of_getElem? hm)) μ
    exact ⟨h, body, h1, h2, x, x1, x5, x6⟩
  have hnone := server_nothing hS hQ methodOk uriOk preserve
  have htold := (C66_messages env' P _ hst f hf hg bs).1
  obtain ⟨m, hm, hmat⟩ := told_wire hst hnone (C65_client_wire env P' d hd hc as).2 (fun h => absurd h a2) hnet
    htold (fun j m r' h1 _ => by obtain ⟨_, _, _, _, x, hx, _⟩ := hread j m r'.method h1; exact .inr ⟨x, hx⟩) k r hr
  obtain ⟨h, body, h1, h2, x, hx, x4, x5⟩ := hread k m r.method hm
  have hxe : x = r.head := by
    have := (hx.head []).symm.trans (hmat.head.head [])
    simp only [Prod.mk.injEq, Except.ok.injEq, Option.some.injEq] at this
    exact this.1
  subst hxe
  have hdata := (hmat.whole hw x4).1
  obtain ⟨_, t, bd, _, hat⟩ := told_at htold k r hr
  obtain ⟨next, hn⟩ := hat.whole hw
  have hbody := body_of_complete P _ _ ⟨bd, [], _⟩ _ _ _ hn
  refine ⟨h, body, h1, ?_⟩
  by_cases hch : r.head.decode = DecodedLength.CHUNKED
  · left
    have hin := x5 hch
    have wi := (hd.wi).run env P' as (Poll.vi_start hd.start) (gated_client env P' as d hc)
    have hcut := Cut.run env P' as (E := []) (Poll.vi_start hd.start) hd.wi (gated_client env P' as d hc) (fun k m hk => by simp [messages] at hk)
    rw [List.nil_append, bares_client env P' as d [] hc, List.append_nil] at hcut
    rcases hcut k m hm hin with b | ⟨hlast, hun⟩
    · exact b
    · exfalso
      obtain ⟨pre, body', fs, e1, e2, e3, e4, e5, e6, e7⟩ := hun.bytes wi
      obtain ⟨m1, hm1⟩ : ∃ m1 : Message, m1 = { m with frames := fs ++ [.data [0] false] } := ⟨_, rfl⟩
      have hon : OnWire (d.run env P' as) (pre ++ [.message m1]) := by
        refine .last e2 (body := body') ?_ (.inr ?_) e7
        · rw [hm1]; exact e3
        · intro more
          have := e6 (.data [0] false :: more)
          rw [hm1]
          simpa [Message.written] using this
      rw [e1, messages_last, List.length_append, List.length_singleton] at hlast
      have hfair := fair m (List.mem_of_getElem? hm)
      have hfs : ∀ g ∈ fs, g ∈ m.frames := by
        intro g hg
        rcases e5 with e5 | e5 <;> rw [e5]
        · exact hg
        · simp [hg]
      have hof : m1.Of h body := by
        obtain ⟨c, ev, frames, hcc, rfl⟩ := h2
        exact ⟨c, ev, _, hcc, hm1⟩
      have hfair1 : m1.Fair max f.disp.conn.maxHeaders := by
        rw [hm1]
        refine ⟨hfair.fields, hfair.length, ?_, ?_⟩
        · intro g hg bs e he
          rcases List.mem_append.1 hg with hg | hg
          · exact hfair.fit g (hfs g hg) bs e he
          · rw [List.mem_singleton.1 hg] at he
            cases he
            decide
        · intro t ht
          rw [(userData_goes e4 _).2] at ht
          cases ht
      have hread1 : ∀ (j : Nat) (m' : Message) (μ : Option Bytes), (messages (pre ++ [Piece.message m1]))[j]? = some m' →
          ∃ x : RequestMsg, Readable (serverHeads Q methodOk uriOk preserve) P f.disp.conn.maxHeaders μ m' x := by
        intro j m' μ hj
        rw [messages_last] at hj
        by_cases hlt : j < (messages pre).length
        · rw [List.getElem?_append_left hlt] at hj
          obtain ⟨_, _, _, _, x, hx, _⟩ := hread j m' μ (by rw [e1, messages_last, List.getElem?_append_left hlt]; exact hj)
          exact ⟨x, hx⟩
        · rw [List.getElem?_append_right (by omega)] at hj
          have hj0 : j - (messages pre).length = 0 := by
            have := (List.getElem?_eq_some_iff.1 hj).1
            simp only [List.length_singleton] at this; omega
          rw [hj0] at hj
          simp only [List.getElem?_cons_zero, Option.some.injEq] at hj
          subst hj
          obtain ⟨x, hx, _⟩ := request_framed hS hQ methodOk uriOk preserve P hP f.disp.conn.maxHeaders hof (hok _ (List.mem_of_getElem? h1)) hfair1 μ
          exact ⟨x, hx⟩
      obtain ⟨m2, hm2, hmat2⟩ := told_wire hst hnone hon (fun h => absurd h (by
          intro hp
          rcases List.mem_append.1 hp with hp | hp
          · exact a2 (by rw [e1]; exact List.mem_append_left _ hp)
          · simp at hp)) hnet htold (fun j m' r' g1 _ => .inr (hread1 j m' r'.method g1)) k r hr
      have hkk : k = (messages pre).length := by omega
      rw [messages_last, hkk, List.getElem?_append_right (Nat.le_refl _), Nat.sub_self] at hm2
      simp only [List.getElem?_cons_zero, Option.some.injEq] at hm2
      subst hm2
      have hdata1 := (hmat2.whole hw x4).1
      obtain ⟨e, ts, i1, i2⟩ := hin
      have d0 : m.data = userData fs := by
        unfold Message.data
        rw [i1]
        simp only [i2, bodySent]
        rcases e5 with e5 | e5
        · rw [e5]
        · rw [e5, (userData_goes e4 _).1]; simp [userData]
      have d1 : m1.data = userData fs ++ [0] := by
        rw [hm1]
        unfold Message.data
        simp only [i1, i2, bodySent]
        rw [(userData_goes e4 _).1]; simp [userData]
      have := congrArg List.length (hdata1.symm.trans hdata)
      rw [d0, d1, List.length_append, List.length_singleton] at this
      omega
  · right
    have hlen : r.data.length = r.head.decode.val := body_length hbody hch x4
    have hh := hx.head []
    rw [List.append_nil] at hh
    rcases request_length hQ methodOk uriOk preserve _ h2 (hok _ (List.mem_of_getElem? h1)) (fair m (List.mem_of_getElem? hm)) r.method hh hch with b | ⟨b, c⟩
    · rw [hlen]; exact .inl b
    · exact .inr ⟨b, List.eq_nil_of_length_eq_zero (hlen.trans c)⟩

theorem Wire.reading_length (P : TrailerParser) (mh : Option Nat) (fin : NetEnd) (len : DecodedLength) (h1 : len ≠ DecodedLength.CHUNKED) (h2 : len ≠ DecodedLength.CLOSE_DELIMITED)
    (s : Bytes) : (outc P (Decoder.ofLength len mh none) ⟨s, [], fin⟩ []).data.length ≤ len.val := by
  unfold outc Decoder.ofLength
  rw [if_neg h1, if_neg h2, Decoder.length_poll P _ _ _ _ (by omega), stream_one]
  unfold lengthOutcome
  split
  · simp [Outcome.data]; omega
  · cases fin <;> simp [Outcome.data] <;> omega

/-- C93, through a proxy.  A server's connection of the proxy reads whatever bytes come; a client's connection of the proxy is given requests that were read there, untouched, with what
was read of their bodies, and their bodies end only once they have been read to their ends (`Relays`).  If the server behind the proxy reads a request to its end, its data is all the data of
the request the proxy has read, and the proxy has read that to its end, or has all the bytes of the length announced; but for chunked bodies toward a server that speaks HTTP/1.0, which
are not sent at all (`C93_unsent`). -/
theorem C93_through_a_proxy_partial (env env' env'' : EncodeEnv) (P P' P'' : TrailerParser) (hP : ReadsBlocks P) (Q : Bytes → Except ParseErr (Option (RawRequest × Nat)))
    (hS : RequestStable Q) (hT : ∀ buf raw n, Q buf = .ok (some (raw, n)) → RequestTokens raw) (max : Nat) (hQ : ReadsRequests max (tokens Q)) (methodOk uriOk : Bytes → Bool)
    (preserve preserve' : Bool) (shown : Bytes → Bytes) (hshown : ∀ t, uriOk t = true → TargetOk uriOk (shown t))
    (proxy : Fed RequestMsg) (hps : proxy.disp.Start) (hp : proxy.got = []) (cs : List FAct)
    (d : Disp) (hd : Fresh d) (hc : d.conn.client = true) (as : List Act)
    (hfwd : Relays shown (proxy.run env'' P'' (serverHeads Q methodOk uriOk preserve) cs).got env P' d as)
    (f : Fed RequestMsg) (hf : f.disp.Start) (hg : f.got = []) (fair : ∀ m ∈ messages (story env P' d [] as), m.Fair max f.disp.conn.maxHeaders)
    (hnet : f.inlet.rd.stream <+: wire (d.run env P' as).conn) (bs : List FAct) (k : Nat) (r : Received RequestMsg)
    (hr : (f.run env' P (serverHeads Q methodOk uriOk preserve') bs).got[k]? = some r) (hw : r.whole = true) :
    ∃ q ∈ (proxy.run env'' P'' (serverHeads Q methodOk uriOk preserve) cs).got, (requests env P' d as)[k]? = some (forwardRequest shown q.head, forwardBody q.head.decode) ∧
      ((r.data = q.data ∧ (q.whole = true ∨ (q.head.decode ≠ DecodedLength.CHUNKED ∧ q.data.length = q.head.decode.val))) ∨
        (q.head.decode = DecodedLength.CHUNKED ∧ r.head.version = .h10 ∧ r.data = [])) := by
  have hgot : ∀ q ∈ (proxy.run env'' P'' (serverHeads Q methodOk uriOk preserve) cs).got, ∃ raw, RequestTokens raw ∧ serverParse methodOk uriOk preserve raw = .ok q.head := by
    intro q hq
    obtain ⟨buf, hb⟩ := got_parsed env'' P'' (serverHeads Q methodOk uriOk preserve) cs proxy (by rw [hp]; simp) q hq
    simp only [serverHeads] at hb
    split at hb
    · cases hb
    · cases hb
    · rename_i raw n hQb
      split at hb
      · cases hb
      · rename_i m hm
        simp only [Except.ok.injEq, Option.some.injEq] at hb
        subst hb
        exact ⟨raw, hT buf raw n hQb, hm⟩
  have hok : ∀ q ∈ requests env P' d as, RequestOk methodOk uriOk q.1 q.2 := by
    intro q hq
    obtain ⟨j, hj⟩ := List.getElem?_of_mem hq
    obtain ⟨x, hx, e, _⟩ := hfwd j q hj
    obtain ⟨raw, h1, h2⟩ := hgot x hx
    rw [e]
    exact C92_request_ok methodOk uriOk preserve raw x.head h2 h1 shown (hshown _ (serverParse_line h2).2)
  have hst := C66_server_stable Q hS methodOk uriOk preserve
  have htold := (C66_messages env'' P'' _ hst proxy hps hp cs).1
  have hshort : ∀ q ∈ (proxy.run env'' P'' (serverHeads Q methodOk uriOk preserve) cs).got, q.head.decode ≠ DecodedLength.CHUNKED → q.head.decode ≠ DecodedLength.CLOSE_DELIMITED →
      q.data.length ≤ q.head.decode.val := by
    intro q hq g1 g2
    obtain ⟨j, hj⟩ := List.getElem?_of_mem hq
    obtain ⟨_, t, bd, _, hat⟩ := told_at htold j q hj
    exact Nat.le_trans hat.data.length_le (reading_length P'' _ _ q.head.decode g1 g2 bd)
  obtain ⟨h, body, m, h1, h2, _, _, _, _, h7, h8⟩ := C67_requests env env' P P' hP Q hS max hQ methodOk uriOk preserve' d hd hc as hok f hf hg fair hnet bs k r hr
  obtain ⟨h', body', h1', hend⟩ := C93_ended_partial env env' P P' hP Q hS max hQ methodOk uriOk preserve' d hd hc as hok f hf hg fair hnet bs k r hr hw
  rw [h1] at h1'
  cases h1'
  obtain ⟨x, hx, e, hdat⟩ := hfwd k _ h1
  simp only [Prod.mk.injEq] at e
  obtain ⟨rfl, rfl⟩ := e
  obtain ⟨raw, t1, t2⟩ := hgot x hx
  refine ⟨x, hx, h1, ?_⟩
  obtain ⟨hd1, hd2⟩ := hdat m h2
  have hpre : r.data <+: x.data := h7.trans hd1
  have hsame : x.head.decode ≠ DecodedLength.CHUNKED → x.head.decode ≠ DecodedLength.CLOSE_DELIMITED → r.data.length = x.head.decode.val →
      r.data = x.data ∧ (x.whole = true ∨ (x.head.decode ≠ DecodedLength.CHUNKED ∧ x.data.length = x.head.decode.val)) := by
    intro g1 g2 g3
    have := hshort x hx g1 g2
    have he : r.data = x.data := hpre.eq_of_length_le (by omega)
    exact ⟨he, .inr ⟨g1, by rw [← he]; exact g3⟩⟩
  rcases hend with b | b | ⟨⟨b1, b2⟩, b3⟩
  · obtain ⟨g1, g2⟩ := hd2 b
    exact .inl ⟨(h8 hw).1.trans g2, .inl g1⟩
  · left
    rcases accepted_cases t2 with ⟨c1, _, _, _, c5⟩ | ⟨c1, _, c3⟩ | ⟨n, v, c1, c2, _, c4, c5⟩
    · rw [c1, forwardBody_chunked] at b
      rcases b with ⟨b, _⟩ | b | ⟨_, b⟩
      · cases b
      · cases b
      · exact absurd c5 b.1
    · rw [c1, forwardBody_zero] at b
      rcases b with ⟨_, b⟩ | b | ⟨b, _⟩
      · exact hsame (by rw [c1]; decide) (by rw [c1]; decide) (by rw [b, c1]; rfl)
      · cases b
      · exact absurd rfl b
    · have n1 : x.head.decode ≠ DecodedLength.CHUNKED := by
        rw [c1]; intro e; have := congrArg DecodedLength.val e; simp only [DecodedLength.CHUNKED, u64Max] at this; omega
      have n2 : x.head.decode ≠ DecodedLength.CLOSE_DELIMITED := by
        rw [c1]; intro e; have := congrArg DecodedLength.val e; simp only [DecodedLength.CLOSE_DELIMITED, u64Max] at this; omega
      refine hsame n1 n2 ?_
      rw [c1, forwardBody_length c2] at b
      rw [c1]
      rcases b with ⟨b, b'⟩ | b | ⟨_, b⟩
      · split at b
        · rename_i h0; rw [b', h0]
        · cases b
      · split at b
        · cases b
        · cases b; rfl
      · have hb : AgreedLength (x.head.headers.getAll hCL) r.data.length := b
        rw [c4] at hb
        have h1 := (contentLengthParseAllValues_iff _ _).2 hb
        have h2 := (contentLengthParseAllValues_iff _ _).2 (agreed_single c5)
        rw [h1] at h2; cases h2; rfl
  · right
    rcases accepted_cases t2 with ⟨c1, _, c3, _, _⟩ | ⟨c1, _, _⟩ | ⟨n, v, c1, c2, _, _, _⟩
    · refine ⟨c1, ?_, b3⟩
      rcases b2 with b2 | ⟨b2, _⟩
      · exact b2
      · exact absurd b2 c3
    · rw [c1, forwardBody_zero] at b1; cases b1
    · rw [c1, forwardBody_length c2] at b1; split at b1 <;> cases b1

/-- C93 fails for bodies of unknown length that are not sent: once the server has answered as HTTP/1.0, a request whose body does not know its length, and which has no Content-Length, is
written without any framing field and without its body; the body is not even polled, and nobody is told. -/
theorem C93_unsent (c : Conn) (hv : c.version = .h10) (h : ReqHead) (hcl : h.headers.getAll hCL = []) (ev : Ev) :
    (reqMessage c h (some .unknown) ev).framing = .keepAlive ∧ ∀ more, (reqMessage c h (some .unknown) ev).written more = ⟨[], .keepAlive, .ok⟩ := by
  have hver : (connReq c.version c.ka h).2.version = .h10 := by
    show (enforceVersion c.version _ h.version h.headers).2.1 = _
    unfold enforceVersion; rw [hv]
  have hget : (connReq c.version c.ka h).2.headers.getAll hCL = [] := by
    rcases enforceVersion_headers c.version (if connectionAnyClose h.headers then KA.disabled else if c.ka = .disabled then .disabled else .busy) h.version h.headers with e | ⟨w, _, e⟩
    · show HeaderMap.getAll (enforceVersion c.version _ h.version h.headers).2.2 hCL = []
      rw [e]; exact hcl
    · show HeaderMap.getAll (enforceVersion c.version _ h.version h.headers).2.2 hCL = []
      rw [e, getAll_insert, if_neg (by decide)]; exact hcl
  have hparse : contentLengthParseAll (connReq c.version c.ka h).2.headers = none := by
    show contentLengthParseAllValues (HeaderMap.getAll _ hCL) = none
    rw [hget]; rfl
  have hf : (reqMessage c h (some .unknown) ev).framing = .keepAlive := by
    unfold reqMessage
    cases henc : clientEncode c.titleCase (connReq c.version c.ka h).2 (some .unknown) [] with
    | none =>
      unfold clientEncode at henc
      simp [versionText, hver] at henc
    | some r =>
      have hr : r.2 = Encoder.length 0 := by
        unfold clientEncode at henc
        simp only [Option.map_eq_some_iff] at henc
        obtain ⟨t, _, rfl⟩ := henc
        simp [setLength, hver, hparse]
      simp only [hr]
      rfl
  exact ⟨hf, fun more => by unfold Message.written; rw [hf]; unfold writeFrames; rfl⟩

/-! ## Examples -/

namespace Wire

/-- A client's run: a request is answered by a server of HTTP/1.0 that keeps the connection; then the user posts three bytes without announcing their number. -/
def exStream : List Act :=
  [exWrite (exSend [] none) .pending, .flush exFlushIn .pending, exRead (.msg { exIn 0 false true with version := .h10 }) exNo, .flush exFlushIn .pending,
   exWrite (.req ⟨ascii "POST", ascii "/b", .h11, [], none⟩ (some .unknown)) .pending,
   exWrite .pending (.frame (.data (ascii "abc") false)), exWrite .pending .eof, .flush exFlushIn .pending]

def exStreamBytes : Bytes := ascii "GET / HTTP/1.1\r\n\r\nPOST /b HTTP/1.0\r\nconnection: keep-alive\r\n\r\n"

/-- A server reads a request, wants its body and answers, as often as told. -/
def exListen (n : Nat) : List FAct :=
  (List.range n).flatMap (fun k => List.replicate 3 (.act (exRead .pending exNo)) ++ [.act (.want k)] ++ List.replicate 6 (.act (exRead .pending exNo)) ++
    [.act (exWrite (exResp [] none) .pending), .act (.flush exFlushIn .pending)])

/-- The client's run `exAsk`, cut off before the trailers of the first request. -/
def exCut : List Act := exAsk.take 3

def exCutBytes : Bytes := ascii "POST /a HTTP/1.1\r\nx: v \r\ntrailer: sum\r\ntransfer-encoding: chunked\r\n\r\n2\r\nab\r\n3\r\ncde\r\n"

/-- The bytes as a server's input. -/
def exInput (bs : Bytes) : Fed RequestMsg := exFed [.data (bs.headD 0) bs.tail]

end Wire

/-- C93 fails for this run: the user's body has not ended and was not read, but the server has the complete request, with no data; the client has no error. -/
theorem C93_lost :
    wire ((exDisp true).run exEnv exP exStream).conn = exStreamBytes ∧ ((exDisp true).run exEnv exP exStream).done = false ∧
    ((requests exEnv exP (exDisp true) exStream).map (fun q => (q.1.method, q.2)))[1]? = some (ascii "POST", some .unknown) ∧
    endings exEnv exP (exDisp true) [] exStream = [] ∧
    ((exInput exStreamBytes).run exEnv parseBlock exServer (exListen 2)).got.map (fun r => (r.head.method, r.data, r.whole)) = [(mGET, [], true), (ascii "POST", [], true)] :=
  ⟨by decide +kernel, by decide +kernel, by decide +kernel, by decide +kernel, by decide +kernel⟩

/-- A body that has ended, and one that has not: the second is not complete to the server. -/
example : endings exEnv exP (exDisp true) [] exAsk = [0] ∧ endings exEnv exP (exDisp true) [] exCut = [] ∧
    wire ((exDisp true).run exEnv exP exCut).conn = exCutBytes ∧
    ((exInput exBytes).run exEnv parseBlock exServer (exListen 2)).got.map (fun r => (r.data, r.whole)) = [(ascii "abcde", true), ([], true)] ∧
    ((exInput exCutBytes).run exEnv parseBlock exServer (exListen 2)).got.map (fun r => (r.data, r.whole)) = [(ascii "abcde", false)] :=
  ⟨by decide +kernel, by decide +kernel, by decide +kernel, by decide +kernel, by decide +kernel⟩

/-- A length that was announced and reached counts, though the user's body has not ended; and what is announced. -/
example : Announces ⟨ascii "POST", ascii "/", .h11, [], none⟩ (some (.known 3)) 3 ∧ ¬ Announces ⟨ascii "POST", ascii "/", .h11, [], none⟩ (some (.known 3)) 4 ∧
    Unsent ⟨mGET, ascii "/", .h11, [], none⟩ (some .unknown) .h11 ∧ ¬ Unsent ⟨ascii "POST", ascii "/", .h11, [], none⟩ (some .unknown) .h11 := by
  refine ⟨.inr (.inl rfl), ?_, ⟨rfl, .inr ⟨rfl, .inl rfl⟩⟩, ?_⟩
  · rintro (⟨h, _⟩ | h | ⟨_, h⟩)
    · cases h
    · cases h
    · exact h.1 rfl
  · rintro ⟨_, h | ⟨_, h⟩⟩
    · cases h
    · revert h; decide

/-- What the proxy is assumed to do is done by a run in which a body is handed on and ended after its end has been read. -/
example : Relays id (exProxy.run exEnv parseBlock exEnds exHear).got exEnv exP (exDisp true) exOn ∧ endings exEnv exP (exDisp true) [] exOn = [0] := by
  have hgot : (exProxy.run exEnv parseBlock exEnds exHear).got.map (fun r => (r.head, r.data, r.whole)) = [(exTaken, ascii "abcde", true)] := by decide +kernel
  have hq : requests exEnv exP (exDisp true) exOn = [(forwardRequest id exTaken, forwardBody exTaken.decode)] := by decide +kernel
  have hd : (messages (story exEnv exP (exDisp true) [] exOn)).map (fun m => m.data) = [ascii "abcde"] := by decide +kernel
  refine ⟨?_, by decide +kernel⟩
  obtain ⟨p, hp, p1, p2, p3⟩ : ∃ p ∈ (exProxy.run exEnv parseBlock exEnds exHear).got, p.head = exTaken ∧ p.data = ascii "abcde" ∧ p.whole = true := by
    have : (exTaken, ascii "abcde", true) ∈ (exProxy.run exEnv parseBlock exEnds exHear).got.map (fun r => (r.head, r.data, r.whole)) := by rw [hgot]; simp
    obtain ⟨p, hp, e⟩ := List.mem_map.mp this
    simp only [Prod.mk.injEq] at e
    exact ⟨p, hp, e⟩
  intro k x hx
  rw [hq] at hx
  cases k with
  | succ k => simp at hx
  | zero =>
    simp only [List.getElem?_cons_zero, Option.some.injEq] at hx
    subst hx
    refine ⟨p, hp, by rw [p1], ?_⟩
    intro m hm0
    have : ((messages (story exEnv exP (exDisp true) [] exOn)).map (fun m => m.data))[0]? = some m.data := by rw [List.getElem?_map, hm0]; rfl
    rw [hd] at this
    simp only [List.getElem?_cons_zero, Option.some.injEq] at this
    rw [← this, p2]
    exact ⟨List.prefix_refl _, fun _ => ⟨p3, rfl⟩⟩

end Hyper
