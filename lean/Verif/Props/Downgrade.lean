import Verif.Props.DownCross
import Verif.Props.ClosedLoop

/-!
# C107, C108: requests and responses that arrive over HTTP/2 and are handed on over one HTTP/1 connection
-/

namespace Hyper

open Spec Wire

/-- What is assumed of a request that arrived over HTTP/2: what the types of the `http` crate guarantee, that the peer's server takes its method and target, and of its framing fields that
all lengths are the same number, which is 0 if the stream has ended without content, and that the last coding, if there are any, is plain ASCII. -/
structure Spec.Handed (methodOk uriOk : Bytes → Bool) (r : Srv.Req) (path : Bytes) (ended : Bool) : Prop where
  headers : MapOk r.headers
  names : ShortNames r.headers
  method_ne : r.method ≠ []
  method : ∀ b ∈ r.method, isTchar b = true
  target_ne : path ≠ []
  target : ∀ b ∈ path, isValueByte b = true ∧ isBlankByte b = false
  short : path.length ≤ 65534
  utf8 : Utf8 path
  length : ∃ n, (∀ v ∈ r.headers.getAll (ascii "content-length"), IsLength v n) ∧ (ended = true → n = 0)
  coding : ∀ v, (r.headers.getAll (ascii "transfer-encoding")).getLast? = some v → ∀ b ∈ v, Visible b
  takenMethod : methodOk r.method = true
  takenTarget : uriOk path = true

/-- The request was given to the service of some HTTP/2 connection, with this body, and is handed on, marked as HTTP/1.1. -/
def Spec.FromH2 (methodOk uriOk : Bytes → Bool) (r : Srv.Req) (target : Bytes) (q : ReqHead × Option BodyLength) : Prop :=
  ∃ as x ended, .call r (some x) ∈ (Srv.init.run as).log ∧ Handed methodOk uriOk r target ended ∧ q = (forwardDownRequest .h11 target r, forwardDownBody ended x)

namespace DownCross

theorem handed_ok {methodOk uriOk : Bytes → Bool} {r : Srv.Req} {target : Bytes} {q : ReqHead × Option BodyLength} (h : FromH2 methodOk uriOk r target q) :
    RequestOk methodOk uriOk q.1 q.2 := by
  obtain ⟨as, x, ended, hcall, hh, rfl⟩ := h
  obtain ⟨_, hc, hsz⟩ := (C60_each_request_once as).2 _ hcall
  have hcon : r.method ≠ ascii "CONNECT" := fun h => by have := hc h; cases this
  obtain ⟨x', hx', hs⟩ := hsz hcon
  injection hx' with hx'
  subst hx'
  have hhint : ∀ k, x.sizeHint = .exact k → k < 2 ^ 64 := by
    intro k hk
    by_cases hex : ∃ j, AgreedLength (r.headers.getAll (ascii "content-length")) j ∧ j ≤ 2 ^ 64 - 3
    · obtain ⟨j, h1, h2⟩ := hex
      rw [hs.announced j h1 h2] at hk
      injection hk with hk; omega
    · rw [hs.otherwise hex] at hk
      split at hk
      · injection hk with hk; omega
      · cases hk
  have hnone : forwardDownBody ended x = none → ended = true := by
    intro hb
    cases ended with
    | true => rfl
    | false =>
      unfold forwardDownBody at hb
      simp only [Bool.false_eq_true, if_false] at hb
      split at hb <;> cases hb
  obtain ⟨n, h1, h2⟩ := hh.length
  refine ⟨⟨hh.headers, (by intro m hm; cases hm), ?_⟩, ⟨hh.method_ne, hh.method, hh.target_ne, hh.target, hh.short, hh.utf8⟩, hh.names, ⟨⟨n, h1, fun hb => h2 (hnone hb)⟩, hh.coding⟩, .inr rfl,
    hh.takenMethod, hh.takenTarget⟩
  intro k hk
  have hk : forwardDownBody ended x = some (.known k) := hk
  unfold forwardDownBody at hk
  split at hk
  · cases hk
  · split at hk
    · rename_i j hj
      injection hk with hk
      injection hk with hk
      subst hk
      exact hhint j hj
    · cases hk

end DownCross

/-- C107.  A proxy hands requests that arrived over any HTTP/2 connections on over one HTTP/1 connection, marked as HTTP/1.1, with bodies that yield anything at all.  A server of hyper
at the other end, which gets any part of what was written so far, in any pieces, takes from it these requests, one for one and in order: the k-th it gives to its service has the method, the target
and the fields (but for those of the framing) of the k-th that was handed on, and of its body only bytes that this body yielded.  Nothing in a request, neither its fields nor its body, is ever
read as another request. -/
theorem C107_no_smuggling (env env' : EncodeEnv) (P P' : TrailerParser) (hP : ReadsBlocks P) (Q : Bytes → Except ParseErr (Option (RawRequest × Nat)))
    (hS : RequestStable Q) (max : Nat) (hQ : ReadsRequests max (tokens Q)) (methodOk uriOk : Bytes → Bool) (preserve : Bool)
    (d : Disp) (hd : Fresh d) (hc : d.conn.client = true) (as : List Act)
    (hin : ∀ q ∈ requests env P' d as, ∃ r target, FromH2 methodOk uriOk r target q)
    (f : Fed RequestMsg) (hf : f.disp.Start) (hg : f.got = []) (fair : ∀ m ∈ messages (story env P' d [] as), m.Fair max f.disp.conn.maxHeaders)
    (hnet : f.inlet.rd.stream <+: wire (d.run env P' as).conn) (bs : List FAct) (k : Nat) (g : Received RequestMsg)
    (hr : (f.run env' P (serverHeads Q methodOk uriOk preserve) bs).got[k]? = some g) :
    ∃ r target q m, (requests env P' d as)[k]? = some q ∧ FromH2 methodOk uriOk r target q ∧ (messages (story env P' d [] as))[k]? = some m ∧ m.Of q.1 q.2 ∧
      g.head.method = r.method ∧ g.head.target = target ∧
      (∀ n, n ∉ [hCL, hTE, hCONN] → g.head.headers.getAll n = (r.headers.getAll n).map trimBlanks) ∧
      g.data <+: m.data ∧ (g.whole = true → g.data = m.data ∧ g.trailers = m.trailerFields) := by
  obtain ⟨h, body, m, h1, h2, h3, h4, h5, h6, h7, h8⟩ := C67_requests env env' P P' hP Q hS max hQ methodOk uriOk preserve d hd hc as
    (fun q hq => by
      obtain ⟨r, target, hq⟩ := hin q hq
      exact DownCross.handed_ok hq) f hf hg fair hnet bs k g hr
  obtain ⟨r, target, hq⟩ := hin _ (List.mem_of_getElem? h1)
  have hq' := hq
  obtain ⟨_, _, _, _, _, e⟩ := hq'
  injection e with e1 e2
  subst e1
  exact ⟨r, target, _, m, h1, hq, h2, h3, h4, h5, h6, h7, h8⟩

/-- The requests of the example of C67 are of this kind. -/
example : ∀ q ∈ requests exEnv exP (exDisp true) exAsk, ∃ r target, FromH2 (fun _ => true) (fun _ => true) r target q := by
  have hq : requests exEnv exP (exDisp true) exAsk = [(⟨ascii "POST", ascii "/a", .h11, [(ascii "x", [ascii "v "]), (hTRAILER, [ascii "sum"])], none⟩, some .unknown),
      (⟨mGET, ascii "/", .h11, [], none⟩, none)] := by decide +kernel
  rw [hq]
  intro q hm
  rcases List.mem_cons.1 hm with rfl | hm
  · refine ⟨⟨ascii "POST", [(ascii "x", [ascii "v "]), (hTRAILER, [ascii "sum"])], false⟩, ascii "/a",
      [.poll .ok [{ accept := .request ⟨ascii "POST", [(ascii "x", [ascii "v "]), (hTRAILER, [ascii "sum"])], false⟩ }]], H2Body.new DecodedLength.CHUNKED false, false,
      by decide +kernel, ⟨⟨⟨by decide, by decide⟩, ?_⟩, by unfold ShortNames; decide +kernel, by decide, by decide +kernel, by decide, by decide +kernel, by decide, ⟨"/a", by decide +kernel⟩, ⟨0, ?_, by simp⟩, ?_, rfl, rfl⟩, by decide +kernel⟩
    · intro f hf
      have hf : f = (ascii "x", ascii "v ") ∨ f = (hTRAILER, ascii "sum") := by simpa [HeaderMap.fields] using hf
      rcases hf with rfl | rfl
      · exact ⟨⟨by decide, by decide +kernel, by decide +kernel⟩, by decide +kernel⟩
      · exact ⟨⟨by decide, by decide +kernel, by decide +kernel⟩, by decide +kernel⟩
    · intro v hv; revert hv; simp [show HeaderMap.getAll [(ascii "x", [ascii "v "]), (hTRAILER, [ascii "sum"])] (ascii "content-length") = [] by decide +kernel]
    · intro v hv; revert hv; simp [show HeaderMap.getAll [(ascii "x", [ascii "v "]), (hTRAILER, [ascii "sum"])] (ascii "transfer-encoding") = [] by decide +kernel]
  · rw [List.mem_singleton] at hm
    subst hm
    refine ⟨⟨mGET, [], true⟩, ascii "/", [.poll .ok [{ accept := .request ⟨mGET, [], true⟩ }]], H2Body.new DecodedLength.CHUNKED true, true,
      by decide +kernel, ⟨⟨⟨by simp, by simp⟩, by simp [HeaderMap.fields]⟩, by simp [ShortNames, HeaderMap.fields], by decide, by decide +kernel, by decide, by decide +kernel, by decide, ⟨"/", by decide +kernel⟩,
        ⟨0, by simp [HeaderMap.getAll], by simp⟩, by simp [HeaderMap.getAll], rfl, rfl⟩, by decide +kernel⟩

/-! ### Responses -/

/-- What is assumed of a response that arrived over HTTP/2: what the types of the `http` crate guarantee, a final status, and of its framing fields that all lengths are the same number and
that codings, if there are any, are plain ASCII. -/
structure Spec.HandedBack (r : Rq.Resp) : Prop where
  status : 200 ≤ r.status ∧ r.status ≤ 999
  headers : MapOk r.headers
  names : ShortNames r.headers
  length : ∃ n, n ≤ 2 ^ 64 - 3 ∧ ∀ v ∈ r.headers.getAll (ascii "content-length"), IsLength v n
  coding : ∀ v ∈ r.headers.getAll (ascii "transfer-encoding"), ∀ b ∈ v, Visible b

/-- The response was given to the caller of some request over HTTP/2, with a body, and is handed on. -/
def Spec.BackFromH2 (r : Rq.Resp) (a : RespOut) : Prop :=
  ∃ q as x ended, ((Rq.init q).run as).result = some (.response r x) ∧ HandedBack r ∧ a = forwardDownResponse r ended x

namespace DownCross

theorem back_ok {r : Rq.Resp} {a : RespOut} (h : BackFromH2 r a) (env : EncodeEnv) (method : Bytes) : ResponseOk env method a := by
  obtain ⟨q, as, x, ended, hres, hh, rfl⟩ := h
  obtain ⟨_, hs⟩ := C62_response q as _ hres
  obtain ⟨n, hn, hcl⟩ := hh.length
  have hbody : ∀ k, (forwardDownResponse r ended x).body = some (.known k) → x.sizeHint = .exact k := by
    intro k hk
    have hk : forwardDownBody ended x = some (.known k) := hk
    unfold forwardDownBody at hk
    split at hk
    · cases hk
    · split at hk
      · rename_i j hj
        injection hk with hk
        injection hk with hk
        subst hk
        exact hj
      · cases hk
  have hknown : r.headers.getAll (ascii "content-length") ≠ [] → x.sizeHint = .exact n := fun hne => hs.announced n (agreed_of_all hne hcl) hn
  refine ⟨hh.headers, (by intro m hm; cases hm), ?_, (by intro m hm; cases hm), hh.names, ?_, fun v hv _ => hh.coding v hv, .inl hh.status⟩
  · intro k hk
    have hk := hbody k hk
    by_cases h0 : r.headers.getAll (ascii "content-length") = []
    · rw [hs.otherwise (by rintro ⟨j, h, _⟩; exact h.1 h0)] at hk
      split at hk
      · injection hk with hk; omega
      · cases hk
    · rw [hknown h0] at hk
      injection hk with hk; omega
  · intro v hv k hk _
    have hv : v ∈ r.headers.getAll (ascii "content-length") := hv
    have hk := hbody k hk
    rw [hknown (fun h0 => by rw [h0] at hv; cases hv)] at hk
    injection hk with hk
    subst hk
    exact agreed_single (hcl v hv)

end DownCross

/-- C108, but for the condition of C65 on the server's buffers (`hgate`) and a body that ends with the connection (C68).  A proxy answers the requests of an HTTP/1 connection with responses
that arrived over any HTTP/2 connections, whatever their bodies yield.  A client of hyper at the other end, which gets any part of what was written so far, in any pieces, takes from it these
responses, each for the request it answers: the k-th has the status and the fields (but for those of the framing and the date) of the k-th answer, which is to the k-th request, and of its body
only bytes that this body yielded; or it is the 4xx with which the server refuses what it cannot read, after all of them. -/
theorem C108_no_splitting_partial (envC envS : EncodeEnv) (henv : EnvOk envS) (PC PS : TrailerParser) (hPC : ReadsBlocks PC) (hPS : ReadsBlocks PS)
    (cfg : ClientCfg) (h09 : cfg.h09 = false) (QC : Bytes → RespParse) (hSC : PrefixStable QC) (maxC : Nat) (hQC : ReadsResponses maxC QC)
    (QS : Bytes → Except ParseErr (Option (RawRequest × Nat))) (hSS : RequestStable QS) (maxS : Nat) (hQS : ReadsRequests maxS (tokens QS))
    (methodOk uriOk : Bytes → Bool) (preserve : Bool)
    (client : Fed ResponseMsg) (hc : Fresh client.disp) (hcc : client.disp.conn.client = true) (hcg : client.got = [])
    (server : Fed RequestMsg) (hs : Fresh server.disp) (hsc : server.disp.conn.client = false) (hsm : server.disp.conn.method = none) (hsg : server.got = [])
    (as bs : List FAct) (xs ys : List Act) (hxs : xs = acts envC PC (clientHeads cfg QC) client as)
    (hys : ys = acts envS PS (serverHeads QS methodOk uriOk preserve) server bs)
    (hgate : Wire.Gated envS PS server.disp ys)
    (hreq : ∀ q ∈ requests envC PC client.disp xs, RequestOk methodOk uriOk q.1 q.2)
    (hback : ∀ a ∈ answers envS PS server.disp ys, ∃ r, BackFromH2 r a)
    (fairC : ∀ m ∈ messages (story envC PC client.disp [] xs), m.Fair maxS server.disp.conn.maxHeaders)
    (fairS : ∀ m ∈ messages (story envS PS server.disp [] ys), m.Fair maxC client.disp.conn.maxHeaders)
    (netS : server.inlet.rd.stream <+: wire (client.disp.run envC PC xs).conn)
    (netC : client.inlet.rd.stream <+: wire (server.disp.run envS PS ys).conn)
    (k : Nat) (g : Received ResponseMsg) (hr : (client.run envC PC (clientHeads cfg QC) as).got[k]? = some g) :
    (∃ q r a m s, (requests envC PC client.disp xs)[k]? = some q ∧
      (server.run envS PS (serverHeads QS methodOk uriOk preserve) bs).got[k]? = some s ∧ s.head.method = q.1.method ∧ s.head.target = q.1.target ∧
      (answers envS PS server.disp ys)[k]? = some a ∧ BackFromH2 r a ∧ (messages (story envS PS server.disp [] ys))[k]? = some m ∧ m.OfResponse envS a q.1.method ∧
      g.head.head.status = r.status ∧
      (∀ n, n ∉ [hCL, hTE, hCONN, hTRAILER, hDATE] → g.head.head.headers.getAll n = (r.headers.getAll n).map trimBlanks) ∧
      g.data <+: m.data ∧ (g.whole = true → g.head.decode ≠ DecodedLength.CLOSE_DELIMITED → g.data = m.data ∧ g.trailers = m.trailerFields)) ∨
    (k = (answers envS PS server.disp ys).length ∧ g.head.head.status ∈ [400, 414, 431] ∧ g.data = []) := by
  rcases C68_exchange_partial envC envS henv PC PS hPC hPS cfg h09 QC hSC maxC hQC QS hSS maxS hQS methodOk uriOk preserve client hc hcc hcg server hs hsc hsm hsg as bs xs ys hxs hys
    hgate hreq (by
      intro j a q ha _
      obtain ⟨r, hb⟩ := hback a (List.mem_of_getElem? ha)
      exact DownCross.back_ok hb envS q.1.method) fairC fairS netS netC k g hr with ⟨h, body, a, m, s, g1, g2, g3, g4, g5, g6, g7, g8, g9, g10, g11⟩ | h
  · obtain ⟨r, hb⟩ := hback a (List.mem_of_getElem? g5)
    have hb' := hb
    obtain ⟨_, _, _, _, _, _, rfl⟩ := hb'
    exact .inl ⟨(h, body), r, _, m, s, g1, g2, g3, g4, g5, hb, g6, g7, g8, g9, g10, g11⟩
  · exact .inr h

/-- C108 with the flattening strategy: the condition on the buffers is not needed. -/
theorem C108_no_splitting_flat (envC envS : EncodeEnv) (henv : EnvOk envS) (PC PS : TrailerParser) (hPC : ReadsBlocks PC) (hPS : ReadsBlocks PS)
    (cfg : ClientCfg) (h09 : cfg.h09 = false) (QC : Bytes → RespParse) (hSC : PrefixStable QC) (maxC : Nat) (hQC : ReadsResponses maxC QC)
    (QS : Bytes → Except ParseErr (Option (RawRequest × Nat))) (hSS : RequestStable QS) (maxS : Nat) (hQS : ReadsRequests maxS (tokens QS))
    (methodOk uriOk : Bytes → Bool) (preserve : Bool)
    (client : Fed ResponseMsg) (hc : Fresh client.disp) (hcc : client.disp.conn.client = true) (hcg : client.got = [])
    (server : Fed RequestMsg) (hs : Fresh server.disp) (hsc : server.disp.conn.client = false) (hsm : server.disp.conn.method = none) (hsg : server.got = [])
    (hflat : server.disp.conn.out.wbuf.strategy = .flatten)
    (as bs : List FAct) (xs ys : List Act) (hxs : xs = acts envC PC (clientHeads cfg QC) client as)
    (hys : ys = acts envS PS (serverHeads QS methodOk uriOk preserve) server bs)
    (hreq : ∀ q ∈ requests envC PC client.disp xs, RequestOk methodOk uriOk q.1 q.2)
    (hback : ∀ a ∈ answers envS PS server.disp ys, ∃ r, BackFromH2 r a)
    (fairC : ∀ m ∈ messages (story envC PC client.disp [] xs), m.Fair maxS server.disp.conn.maxHeaders)
    (fairS : ∀ m ∈ messages (story envS PS server.disp [] ys), m.Fair maxC client.disp.conn.maxHeaders)
    (netS : server.inlet.rd.stream <+: wire (client.disp.run envC PC xs).conn)
    (netC : client.inlet.rd.stream <+: wire (server.disp.run envS PS ys).conn)
    (k : Nat) (g : Received ResponseMsg) (hr : (client.run envC PC (clientHeads cfg QC) as).got[k]? = some g) :
    (∃ q r a m s, (requests envC PC client.disp xs)[k]? = some q ∧
      (server.run envS PS (serverHeads QS methodOk uriOk preserve) bs).got[k]? = some s ∧ s.head.method = q.1.method ∧ s.head.target = q.1.target ∧
      (answers envS PS server.disp ys)[k]? = some a ∧ BackFromH2 r a ∧ (messages (story envS PS server.disp [] ys))[k]? = some m ∧ m.OfResponse envS a q.1.method ∧
      g.head.head.status = r.status ∧
      (∀ n, n ∉ [hCL, hTE, hCONN, hTRAILER, hDATE] → g.head.head.headers.getAll n = (r.headers.getAll n).map trimBlanks) ∧
      g.data <+: m.data ∧ (g.whole = true → g.head.decode ≠ DecodedLength.CLOSE_DELIMITED → g.data = m.data ∧ g.trailers = m.trailerFields)) ∨
    (k = (answers envS PS server.disp ys).length ∧ g.head.head.status ∈ [400, 414, 431] ∧ g.data = []) := by
  rcases C68_exchange_flat envC envS henv PC PS hPC hPS cfg h09 QC hSC maxC hQC QS hSS maxS hQS methodOk uriOk preserve client hc hcc hcg server hs hsc hsm hsg hflat as bs xs ys hxs hys
    hreq (by
      intro j a q ha _
      obtain ⟨r, hb⟩ := hback a (List.mem_of_getElem? ha)
      exact DownCross.back_ok hb envS q.1.method) fairC fairS netS netC k g hr with ⟨h, body, a, m, s, g1, g2, g3, g4, g5, g6, g7, g8, g9, g10, g11⟩ | h
  · obtain ⟨r, hb⟩ := hback a (List.mem_of_getElem? g5)
    have hb' := hb
    obtain ⟨_, _, _, _, _, _, rfl⟩ := hb'
    exact .inl ⟨(h, body), r, _, m, s, g1, g2, g3, g4, g5, hb, g6, g7, g8, g9, g10, g11⟩
  · exact .inr h

/-- A response of this kind: it arrived over HTTP/2 with a length, and is handed on with its body still to come. -/
example : BackFromH2 ⟨200, [(ascii "content-length", [ascii "5"])], false⟩
    (forwardDownResponse ⟨200, [(ascii "content-length", [ascii "5"])], false⟩ false (H2Body.new ⟨5⟩ false)) := by
  refine ⟨⟨ascii "GET", [], true, some 0⟩, [.take false true .ok [], .pollSend (.ok ⟨200, [(ascii "content-length", [ascii "5"])], false⟩) false false], _, false, ?_,
    ⟨by decide, ⟨⟨by decide, by decide⟩, ?_⟩, ?_, ⟨5, by omega, ?_⟩, ?_⟩, rfl⟩
  · decide +kernel
  · intro f hf
    have hf : f = (ascii "content-length", ascii "5") := by simpa [HeaderMap.fields] using hf
    subst hf
    exact ⟨⟨by decide, by decide +kernel, by decide +kernel⟩, by decide +kernel⟩
  · unfold ShortNames; decide +kernel
  · intro v hv
    have hv : v = ascii "5" := by
      rw [show HeaderMap.getAll [(ascii "content-length", [ascii "5"])] (ascii "content-length") = [ascii "5"] by decide +kernel] at hv
      exact List.mem_singleton.1 hv
    subst hv
    exact ⟨by decide, by unfold IsDigit; decide +kernel, by decide +kernel, by omega⟩
  · intro v hv
    rw [show HeaderMap.getAll [(ascii "content-length", [ascii "5"])] (ascii "transfer-encoding") = [] by decide +kernel] at hv
    cases hv

end Hyper
