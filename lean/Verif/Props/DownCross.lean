import Verif.Model.ForwardUp
import Verif.Props.Forward
import Verif.Props.H2Client

/-!
# C105, C106: a message that arrives over HTTP/2 and is handed on over HTTP/1
-/

namespace Hyper

open Spec Wire

namespace DownCross

theorem down_open (x : H2Body) {n : Nat} (h : x.sizeHint = .exact n) : forwardDownBody false x = some (.known n) := by
  unfold forwardDownBody; rw [h]; rfl

theorem down_unknown (x : H2Body) (h : x.sizeHint = .unknown) : forwardDownBody false x = some .unknown := by
  unfold forwardDownBody; rw [h]; rfl

theorem parse_none {m : HeaderMap} (h : m.getAll hCL = []) : contentLengthParseAll m = none := by
  show contentLengthParseAllValues (m.getAll hCL) = none
  rw [h]; rfl

theorem parse_some {m : HeaderMap} {n : Nat} (hne : m.getAll hCL ≠ []) (h : ∀ v ∈ m.getAll hCL, IsLength v n) : contentLengthParseAll m = some n :=
  (contentLengthParseAllValues_iff _ _).2 (agreed_of_all hne h)

theorem contains_none {m : HeaderMap} (hm : m.Wf) (h : m.getAll hTE = []) : m.contains hTE = false := by
  cases hc : m.contains hTE with
  | false => rfl
  | true => exact absurd h ((contains_iff hm.nonempty _).1 hc)

theorem framing_withTrailers (hs : HeaderMap) : framingOf (withTrailers hs Encoder.chunked).kind = .chunked := by
  unfold withTrailers
  simp only
  split <;> rfl

end DownCross

open DownCross

open Srv in
/-- C105.  A request that hyper's HTTP/2 server gave to its service (so its body knows its size, C60), and whose Content-Length, if there is one, is one number, and right, as the `h2` crate
sees to, is handed on to an HTTP/1 connection, marked as HTTP/2 or as HTTP/1.1.  It is written, with framing fields that fit the way its body is written: with the length that was announced;
as empty if it has ended; and, if the length is not known, as chunked if it is marked as HTTP/1.1 and is neither GET nor HEAD.  In what remains the body is not sent
(`C105_body_dropped`). -/
theorem C105_request_partial (as : List Srv.Act) (r : Srv.Req) (x : H2Body) (hcall : .call r (some x) ∈ (Srv.init.run as).log) (hmap : MapOk r.headers)
    (hte : r.headers.getAll hTE = []) (n : Nat) (ended : Bool) (hcl : ∀ v ∈ r.headers.getAll hCL, IsLength v n) (hend : ended = true → n = 0)
    (title : Bool) (target : Bytes) (version : Version) (hv : version = .h2 ∨ version = .h11) (dst : Bytes) :
    ∃ out e line bs fs, clientEncode title (forwardDownRequest version target r) (forwardDownBody ended x) dst = some (out, e) ∧ out = dst ++ line ++ bs ++ CRLF ∧
      RequestLine r.method target 1 line ∧ WrittenLines bs fs ∧ (∀ f ∈ fs, WireField f) ∧ RequestFraming True (teOf fs) (clOf fs) (framingOf e.kind) ∧
      (r.headers.getAll hCL ≠ [] → clOf fs = r.headers.getAll hCL ∧ framingOf e.kind = .length n) ∧
      (ended = true → framingOf e.kind = .length 0) ∧
      (r.headers.getAll hCL = [] → r.eos = false → ended = false → version = .h11 → r.method ≠ ascii "GET" → r.method ≠ ascii "HEAD" → framingOf e.kind = .chunked) := by
  have hright := (C60_each_request_once as).2 _ hcall
  obtain ⟨_, hc, hsz⟩ := hright
  have hcon : r.method ≠ ascii "CONNECT" := fun h => by have := hc h; cases this
  obtain ⟨x', hx', hs⟩ := hsz hcon
  injection hx' with hx'
  subst hx'
  have hhint : ∀ k, x.sizeHint = .exact k → k < 2 ^ 64 := by
    intro k hk
    by_cases hex : ∃ j, AgreedLength (r.headers.getAll (ascii "content-length")) j ∧ j ≤ 2 ^ 64 - 3
    · obtain ⟨j, h1, h2⟩ := hex
      rw [hs.announced j h1 h2] at hk
      injection hk with hk; omega
    · rw [hs.otherwise hex] at hk
      split at hk
      · injection hk with hk; omega
      · cases hk
  have hwf : RequestWf (forwardDownRequest version target r) (forwardDownBody ended x) := by
    refine ⟨hmap, (by intro m hm; cases hm), ?_⟩
    intro k hk
    unfold forwardDownBody at hk
    split at hk
    · cases hk
    · split at hk
      · rename_i j hj
        injection hk with hk
        injection hk with hk
        subst hk
        exact hhint j hj
      · cases hk
  have huser : UserRequestOk (forwardDownRequest version target r).headers (forwardDownBody ended x) := by
    refine ⟨⟨n, hcl, ?_⟩, ?_⟩
    · intro hb
      apply hend
      cases ended with
      | true => rfl
      | false =>
        unfold forwardDownBody at hb
        simp only [Bool.false_eq_true, if_false] at hb
        split at hb <;> cases hb
    · intro v hvv
      have : (forwardDownRequest version target r).headers.getAll hTE = [] := hte
      rw [this] at hvv; cases hvv
  have hsome : ∃ out, clientEncode title (forwardDownRequest version target r) (forwardDownBody ended x) dst =
      some (out, (setLength r.method version r.headers (forwardDownBody ended x)).2) := by
    rcases hv with rfl | rfl <;> exact ⟨_, rfl⟩
  obtain ⟨out, henc⟩ := hsome
  obtain ⟨line, bs, fs, h1, h2, h3, h4, h5, h6⟩ := clientEncode_full (U := True) hwf (fun _ => huser) henc
  have hline : lineVersion version = 1 := by rcases hv with rfl | rfl <;> rfl
  have h1' : RequestLine r.method target 1 line := by rw [← hline]; exact h1
  have hte' : teOf fs = (setLength r.method version r.headers (forwardDownBody ended x)).1.getAll hTE := h5 hTE
  have hcl' : clOf fs = (setLength r.method version r.headers (forwardDownBody ended x)).1.getAll hCL := h5 hCL
  have hfr := h6.framing trivial
  have hfr' : RequestFraming True (teOf fs) (clOf fs) (framingOf (setLength r.method version r.headers (forwardDownBody ended x)).2.kind) := by
    rw [hte', hcl']
    generalize framingOf _ = fr at hfr ⊢
    cases hfr with
    | chunked a b c => exact .chunked a trivial c
    | length k a b c => exact .length k a b c
    | none a b => exact .none a b
  refine ⟨out, _, line, bs, fs, henc, h2, h1', h3, h4, hfr', ?_, ?_, ?_⟩
  · intro hne
    rw [hcl']
    cases he : ended with
    | true =>
      have hb : forwardDownBody true x = none := rfl
      rw [hb]
      refine ⟨?_, ?_⟩
      · show (r.headers.remove hTE).getAll hCL = _
        rw [getAll_remove, if_neg (by decide)]
      · rw [hend he]; rfl
    | false =>
      have hp := parse_some hne hcl
      have hb : ∃ k, forwardDownBody false x = some k := by
        unfold forwardDownBody
        simp only [Bool.false_eq_true, if_false]
        split <;> exact ⟨_, rfl⟩
      obtain ⟨k, hb⟩ := hb
      rw [hb]
      rcases hv with rfl | rfl
      · simp only [setLength, hp, ne_eq, reduceCtorEq, not_false_eq_true, if_true]
        refine ⟨?_, rfl⟩
        rw [getAll_remove, if_neg (by decide)]
      · simp only [setLength, hp, ne_eq, not_true_eq_false, if_false, Bool.false_eq_true, contains_none hmap.wf hte]
        exact ⟨trivial, rfl⟩
  · intro he
    rw [he]; rfl
  · intro hnil heos hopen hver hget hhead
    subst hver hopen
    have hno : ¬ ∃ j, AgreedLength (r.headers.getAll (ascii "content-length")) j ∧ j ≤ 2 ^ 64 - 3 := by
      rintro ⟨j, h, _⟩
      exact h.1 hnil
    have hu := hs.otherwise hno
    rw [heos] at hu
    rw [down_unknown x hu]
    have hm : ¬ (r.method = mGET ∨ r.method = mHEAD ∨ r.method = mCONNECT) := by
      rintro (h | h | h)
      · exact hget h
      · exact hhead h
      · exact hcon h
    simp only [setLength, parse_none hnil, ne_eq, not_true_eq_false, if_false, Bool.false_eq_true, contains_none hmap.wf hte, hm]
    exact framing_withTrailers _

open Srv in
/-- C105 fails for every other request with a body of unknown length: marked as HTTP/2, as it arrived, or GET or HEAD however it is marked.  It is written as a request without a body, by
its framing fields, of which it has none, and by the way the body is written; whatever the body is, none of it is sent. -/
theorem C105_body_dropped (as : List Srv.Act) (r : Srv.Req) (x : H2Body) (hcall : .call r (some x) ∈ (Srv.init.run as).log) (hmap : MapOk r.headers)
    (hte : r.headers.getAll hTE = []) (hcl : r.headers.getAll hCL = []) (heos : r.eos = false) (title : Bool) (target : Bytes) (version : Version)
    (hv : version = .h2 ∨ version = .h11 ∧ (r.method = ascii "GET" ∨ r.method = ascii "HEAD")) (dst : Bytes) :
    ∃ out line bs fs, clientEncode title (forwardDownRequest version target r) (forwardDownBody false x) dst = some (out, Encoder.length 0) ∧ out = dst ++ line ++ bs ++ CRLF ∧
      RequestLine r.method target 1 line ∧ WrittenLines bs fs ∧ teOf fs = [] ∧ clOf fs = [] := by
  obtain ⟨_, hc, hsz⟩ := (C60_each_request_once as).2 _ hcall
  have hcon : r.method ≠ ascii "CONNECT" := fun h => by have := hc h; cases this
  obtain ⟨x', hx', hs⟩ := hsz hcon
  injection hx' with hx'
  subst hx'
  have hno : ¬ ∃ j, AgreedLength (r.headers.getAll (ascii "content-length")) j ∧ j ≤ 2 ^ 64 - 3 := by
    rintro ⟨j, h, _⟩
    exact h.1 hcl
  have hu := hs.otherwise hno
  rw [heos] at hu
  have hb := down_unknown x hu
  have hset : (setLength r.method version r.headers (some .unknown)).2 = Encoder.length 0 ∧ (setLength r.method version r.headers (some .unknown)).1.getAll hTE = [] ∧
      (setLength r.method version r.headers (some .unknown)).1.getAll hCL = [] := by
    rcases hv with rfl | ⟨rfl, hm⟩
    · simp only [setLength, parse_none hcl, ne_eq, reduceCtorEq, not_false_eq_true, if_true]
      refine ⟨trivial, ?_, ?_⟩
      · rw [getAll_remove, if_pos rfl]
      · rw [getAll_remove, if_neg (by decide)]; exact hcl
    · have hm' : r.method = mGET ∨ r.method = mHEAD ∨ r.method = mCONNECT := by
        rcases hm with h | h
        · exact .inl h
        · exact .inr (.inl h)
      simp only [setLength, parse_none hcl, ne_eq, not_true_eq_false, if_false, Bool.false_eq_true, contains_none hmap.wf hte, hm', if_true]
      exact ⟨trivial, hte, hcl⟩
  rw [hb]
  have hsome : ∃ out, clientEncode title (forwardDownRequest version target r) (some .unknown) dst = some (out, (setLength r.method version r.headers (some .unknown)).2) := by
    rcases hv with rfl | ⟨rfl, _⟩ <;> exact ⟨_, rfl⟩
  obtain ⟨out, henc⟩ := hsome
  have hwf : RequestWf (forwardDownRequest version target r) (some .unknown) := ⟨hmap, (by intro m hm; cases hm), (by intro k hk; cases hk)⟩
  obtain ⟨line, bs, fs, h1, h2, h3, _, h5, _⟩ := clientEncode_full (U := False) hwf (fun h => h.elim) henc
  have hline : lineVersion version = 1 := by rcases hv with rfl | ⟨rfl, _⟩ <;> rfl
  refine ⟨out, line, bs, fs, by rw [henc, hset.1], h2, by rw [← hline]; exact h1, h3, (h5 hTE).trans hset.2.1, (h5 hCL).trans hset.2.2⟩

/-- And the hypothesis that there is one length is needed: of several that differ, none counts, but all are written, beside the coding. -/
theorem C105_two_lengths :
    let r : Srv.Req := ⟨ascii "POST", [(ascii "content-length", [ascii "5", ascii "7"])], false⟩
    (Srv.init.run [.poll .ok [{ accept := .request r }]]).log.contains (.call r (some (H2Body.new DecodedLength.CHUNKED false))) = true ∧
    (clientEncode false (forwardDownRequest .h11 (ascii "/") r) (forwardDownBody false (H2Body.new DecodedLength.CHUNKED false)) []).map (·.1) =
      some (ascii "POST / HTTP/1.1\r\ncontent-length: 5\r\ncontent-length: 7\r\ntransfer-encoding: chunked\r\n\r\n") := by decide +kernel

/-- The hypotheses can be met. -/
example :
    let r : Srv.Req := ⟨ascii "POST", [(ascii "x-a", [ascii "1"])], false⟩
    (Srv.init.run [.poll .ok [{ accept := .request r }]]).log.contains (.call r (some (H2Body.new DecodedLength.CHUNKED false))) = true ∧
    (clientEncode false (forwardDownRequest .h11 (ascii "/") r) (forwardDownBody false (H2Body.new DecodedLength.CHUNKED false)) []).map (·.1) =
      some (ascii "POST / HTTP/1.1\r\nx-a: 1\r\ntransfer-encoding: chunked\r\n\r\n") ∧
    (clientEncode false (forwardDownRequest .h2 (ascii "/") r) (forwardDownBody false (H2Body.new DecodedLength.CHUNKED false)) []).map (·.1) =
      some (ascii "POST / HTTP/1.1\r\nx-a: 1\r\n\r\n") := by decide +kernel

/-! ### Responses -/

/-- C106.  A response that hyper's HTTP/2 client gave its caller (so its body knows its size, C62), whose Content-Length, if there is one, is one number, and right, and whose body has ended
if it cannot have one, is given to the HTTP/1 connection that the request came from, in any state.  It is written, the framing fields fit the way its body is written, and so does the
length: it is written as empty if it has ended, by its length if that was announced, and otherwise not by a length, that is, as chunked or up to the end of the connection. -/
theorem C106_response_partial (q : Rq.Req) (as : List Rq.Act) (r : Rq.Resp) (x : H2Body) (hres : ((Rq.init q).run as).result = some (.response r x))
    (hst : 200 ≤ r.status ∧ r.status ≤ 999) (hmap : MapOk r.headers) (hshort : ShortNames r.headers) (hte : r.headers.getAll hTE = [])
    (n : Nat) (hcl : ∀ v ∈ r.headers.getAll hCL, IsLength v n) (hn : n ≤ 2 ^ 64 - 3) (ended : Bool)
    (c : Conn) (method : Bytes) (hc : c.method = some method) (hno : NoBody (some method) r.status → ended = true)
    (hhead : method = ascii "HEAD" → (r.headers.getAll hCL).length ≤ 1)
    (hcon : method = ascii "CONNECT" → r.status ≤ 299 → r.headers.getAll hCL = []) (env : EncodeEnv) (hdate : DateOk env) (dst : Bytes) :
    ∃ out e line fs, serverEncode env (c.respMsg (forwardDownResponse r ended x)).2 dst = (out, .ok e) ∧ out = dst ++ line ++ lines fs ++ CRLF ∧
      StatusLine (if c.version = .h10 then 0 else 1) r.status line ∧ (∀ f ∈ fs, WireField f) ∧
      ResponseFraming (some method) r.status (c.version = .h10) (teOf fs) (clOf fs) (framingOf e.kind) ∧
      (ended = true → framingOf e.kind = .length 0) ∧
      (ended = false → r.headers.getAll hCL ≠ [] → framingOf e.kind = .length n) ∧
      (ended = false → r.headers.getAll hCL = [] → r.eos = false → ∀ k, framingOf e.kind ≠ .length k) := by
  obtain ⟨_, hs⟩ := C62_response q as _ hres
  have hknown : r.headers.getAll hCL ≠ [] → x.sizeHint = .exact n := fun hne => hs.announced n (agreed_of_all hne hcl) hn
  have hunk : r.headers.getAll hCL = [] → x.sizeHint = if r.eos then .exact 0 else .unknown := by
    intro h0
    apply hs.otherwise
    rintro ⟨j, h, _⟩
    exact h.1 h0
  have hhint : ∀ k, x.sizeHint = .exact k → k < 2 ^ 64 ∧ (r.headers.getAll hCL ≠ [] → k = n) := by
    intro k hk
    by_cases h0 : r.headers.getAll hCL = []
    · rw [hunk h0] at hk
      split at hk
      · injection hk with hk; exact ⟨by omega, fun h => absurd h0 h⟩
      · cases hk
    · rw [hknown h0] at hk
      injection hk with hk; exact ⟨by omega, fun _ => hk.symm⟩
  obtain ⟨f1, _, f3⟩ := respMsg_facts c (forwardDownResponse r ended x) hmap hshort
  have hver : ((c.respMsg (forwardDownResponse r ended x)).2.head.version = .h10 ∧ c.version = .h10) ∨
      ((c.respMsg (forwardDownResponse r ended x)).2.head.version = .h2 ∧ c.version ≠ .h10) := by
    show ((enforceVersion c.version c.ka .h2 r.headers).2.1 = .h10 ∧ _) ∨ ((enforceVersion c.version c.ka .h2 r.headers).2.1 = .h2 ∧ _)
    unfold enforceVersion
    split
    · rename_i h; exact .inl ⟨rfl, h⟩
    · rename_i h; rw [h]; split <;> exact .inr ⟨rfl, by decide⟩
    · rename_i h _; exact .inr ⟨rfl, h⟩
  have e1 : (c.respMsg (forwardDownResponse r ended x)).2.head.headers.getAll hTE = [] := (f3 hTE (by decide)).trans hte
  have e2 : (c.respMsg (forwardDownResponse r ended x)).2.head.headers.getAll hCL = r.headers.getAll hCL := f3 hCL (by decide)
  have hmeth : (c.respMsg (forwardDownResponse r ended x)).2.reqMethod = some method := hc
  have hstat : (c.respMsg (forwardDownResponse r ended x)).2.head.status = r.status := rfl
  have hbody : (c.respMsg (forwardDownResponse r ended x)).2.body = forwardDownBody ended x := rfl
  obtain ⟨out, e, henc, hfits⟩ := encode_forward (env := env) (dst := dst) f1.wf (hver.elim (fun h => .inl h.1) (fun h => .inr (.inr h.1))) (.inl hst) (.inl e1)
    (by
      intro h
      rw [hmeth] at h
      rw [e2]
      exact hhead (Option.some.inj h))
    (by
      intro h
      rw [hmeth, hstat] at h
      have hr := h.2
      unfold isSuccess at hr
      simp only [decide_eq_true_eq, Bool.and_eq_true] at hr
      exact ⟨e1, by rw [e2]; exact hcon (Option.some.inj h.1) (by omega)⟩)
    (by
      rw [hmeth, hstat, hbody, e1, e2]
      cases he : ended with
      | true =>
        by_cases hnb : NoBody (some method) r.status
        · exact .inl ⟨hnb, rfl⟩
        · exact .inr (.inr ⟨hnb, .inl rfl, rfl⟩)
      | false =>
        have hnb : ¬ NoBody (some method) r.status := fun h => by rw [hno h] at he; cases he
        cases hh : x.sizeHint with
        | exact k => exact .inr (.inr ⟨hnb, .inr ⟨k, down_open x hh⟩, rfl⟩)
        | unknown =>
          refine .inr (.inl ⟨hnb, down_unknown x hh, ?_⟩)
          apply Classical.byContradiction
          intro hne
          rw [hknown hne] at hh; cases hh)
  have hwf : ResponseWf (c.respMsg (forwardDownResponse r ended x)).2 := by
    refine ⟨f1.fields, (by intro m hm; cases hm), ?_⟩
    intro k hk
    rw [hbody] at hk
    unfold forwardDownBody at hk
    split at hk
    · cases hk
    · split at hk
      · rename_i j hj
        injection hk with hk
        injection hk with hk
        subst hk
        exact (hhint j hj).1
      · cases hk
  have huser : UserFramingOk (c.respMsg (forwardDownResponse r ended x)).2 := by
    refine ⟨?_, ?_⟩
    · intro v hv k hk _
      rw [f1.values, e2] at hv
      have hne : r.headers.getAll hCL ≠ [] := fun h0 => by rw [h0] at hv; cases hv
      rw [hbody] at hk
      unfold forwardDownBody at hk
      split at hk
      · cases hk
      · split at hk
        · rename_i j hj
          injection hk with hk
          injection hk with hk
          subst hk
          rw [(hhint j hj).2 hne]
          exact agreed_single (hcl v hv)
        · cases hk
    · intro v hv
      rw [f1.values, e1] at hv; cases hv
  obtain ⟨line, fs, g1, g2, g3, g4⟩ := C21_response_framing_partial env _ dst out e hwf hdate huser henc
  rw [hmeth, hstat] at g4
  rw [hstat] at g2
  have hv10 : ((c.respMsg (forwardDownResponse r ended x)).2.head.version = .h10) = (c.version = .h10) := by
    apply propext
    rcases hver with ⟨a, b⟩ | ⟨a, b⟩
    · exact ⟨fun _ => b, fun _ => a⟩
    · exact ⟨(fun h => by rw [a] at h; cases h), fun h => absurd h b⟩
  rw [hbody] at hfits
  refine ⟨out, e, line, fs, henc, g1, ?_, g3, hv10 ▸ g4, ?_, ?_, ?_⟩
  · rcases hver with ⟨a, b⟩ | ⟨a, b⟩
    · rw [a] at g2; rw [b]; exact g2
    · rw [a] at g2; rw [if_neg b]; exact g2
  · intro he; exact hfits.1 (by rw [he]; rfl)
  · intro he hne; exact hfits.2.1 n (by rw [he]; exact down_open x (hknown hne))
  · intro he h0 heos
    have hh := hunk h0
    rw [heos] at hh
    exact hfits.2.2 (by rw [he]; exact down_unknown x hh)

/-- The head and the way the body is written, of a response that arrived over HTTP/2 with these fields; `ended` if there is nothing more to come. -/
def exDown (version : Version) (method : Bytes) (m : HeaderMap) (ended : Bool := false) : Bytes × EncodeRes :=
  serverEncode exEnv ((exPeer version method).respMsg
    (forwardDownResponse ⟨200, m, ended⟩ ended (H2Body.new (DecodedLength.ofOption (contentLengthParseAll m)) ended))).2 []

/-- C106 fails for a response with two lengths that differ, or for an answer to HEAD that repeats its length: the caller is given it over HTTP/2, but over HTTP/1 it is refused. -/
theorem C106_two_lengths :
    (∃ x, ((Rq.init ⟨ascii "GET", [], true, some 0⟩).run [.take false true .ok [], .pollSend (.ok ⟨200, [(ascii "content-length", [ascii "5", ascii "7"])], false⟩) false false]).result =
      some (.response ⟨200, [(ascii "content-length", [ascii "5", ascii "7"])], false⟩ x)) ∧
    (∀ v, v = .h10 ∨ v = .h11 → exDown v (ascii "GET") [(ascii "content-length", [ascii "5", ascii "7"])] = ([], .userHeader)) ∧
    exDown .h11 (ascii "HEAD") [(ascii "content-length", [ascii "5", ascii "5"])] true = ([], .userHeader) := by
  refine ⟨⟨H2Body.new DecodedLength.CHUNKED false, by decide +kernel⟩, ?_, by decide +kernel⟩
  rintro v (rfl | rfl) <;> decide +kernel

/-- The hypotheses can be met: a response whose length is not known, to a client of each version, and one whose length is. -/
example :
    exDown .h11 (ascii "GET") [] = (ascii "HTTP/1.1 200 <none>\r\ntransfer-encoding: chunked\r\ndate: today\r\n\r\n", .ok Encoder.chunked) ∧
    (exDown .h10 (ascii "GET") []).1 = ascii "HTTP/1.0 200 <none>\r\ndate: today\r\n\r\n" ∧
    exDown .h11 (ascii "GET") [(ascii "content-length", [ascii "5"])] = (ascii "HTTP/1.1 200 <none>\r\ncontent-length: 5\r\ndate: today\r\n\r\n", .ok (Encoder.length 5)) := by
  decide +kernel

end Hyper
