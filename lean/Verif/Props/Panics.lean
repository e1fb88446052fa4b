import Verif.Proof.Panics
import Verif.Props.Conn

/-!
# C95: nothing a peer sends makes an HTTP/1 connection panic

`Disp.runX` is the connection with the places where the code panics, `Disp.run` the one all other theorems are about.  A run is any sequence of turns with any
input: every head, body, segmentation, error and end of the transport, and every body and message of the user.
-/

namespace Hyper

open Wire

namespace Spec

/-- A message whose version HTTP/1 can write; the versions of `http` which are not are 0.9 and 3. -/
def Ordinary : MsgOut → Prop
  | .resp m => m.head.version ≠ .h09 ∧ m.head.version ≠ .h3
  | .req h _ => h.version ≠ .h09 ∧ h.version ≠ .h3
  | _ => True

end Spec

namespace Panics

theorem vok {v : Version} (h : v ≠ .h09 ∧ v ≠ .h3) : VOk v := by
  unfold VOk
  cases v <;> simp_all

end Panics

/-- C95: a connection of either role does not panic, whatever it is sent and whatever is written over it, as long as the user's messages have a version of HTTP/1 or 2;
the model without panics is what it does. -/
theorem C95_no_panic (env : EncodeEnv) (P : TrailerParser) (d : Disp) (h : Fresh d) (as : List Act) (hm : ∀ i, Act.write i ∈ as → Spec.Ordinary i.msg) :
    d.runX env P as = .ok (d.run env P as) := by
  refine Panics.runX_eq env P as ?_ h.wi.ok (Poll.vi_start h.start) (fun a ha => ?_)
  · intro dec hd
    rcases hd with hd | hd <;> (rw [h.start.reading] at hd; cases hd)
  · cases a with
    | write i =>
      have := hm i ha
      cases hi : i.msg <;> rw [hi] at this <;> simp only [Panics.AOk, hi, Panics.MOk] <;> exact Panics.vok this
    | _ => trivial

/-- C95: the parts of a run that a peer cannot change are the user's messages: after any run that did not panic, no input to reading does. -/
theorem C95_peer (env : EncodeEnv) (P : TrailerParser) (d : Disp) (h : Fresh d) (as : List Act) (hm : ∀ i, Act.write i ∈ as → Spec.Ordinary i.msg) (i : ReadIn) :
    ((d.run env P as).stepX env P (.read i)) = .ok ((d.run env P as).step env P (.read i)) := by
  have h1 := C95_no_panic env P d h as hm
  have h2 := C95_no_panic env P d h (as ++ [.read i]) (fun w hw => hm w (by simpa using hw))
  have app : ∀ (as : List Act) (d d' : Disp) (b : Act), d.runX env P as = .ok d' → d.runX env P (as ++ [b]) = d'.stepX env P b := by
    intro as
    induction as with
    | nil =>
      intro d d' b e
      simp only [Disp.runX, Except.ok.injEq] at e
      subst e
      simp only [List.nil_append, Disp.runX]
      cases d.stepX env P b <;> rfl
    | cons a as ih =>
      intro d d' b e
      simp only [List.cons_append, Disp.runX] at e ⊢
      cases hs : d.stepX env P a with
      | error s => rw [hs] at e; cases e
      | ok d1 => rw [hs] at e; exact ih d1 d' b e
  rw [app as d _ _ h1, ← Poll.run_append' env P d as [.read i]] at h2
  exact h2

/-- C95: nor does parsing a request of at most 24576 fields, as many as any limit up to that lets through. -/
theorem C95_parse_partial (methodOk uriOk : Bytes → Bool) (preserveCase : Bool) (r : RawRequest) (h : r.fields.length ≤ 24576) :
    serverParseX methodOk uriOk preserveCase r = .ok (serverParse methodOk uriOk preserveCase r) := by
  have : reserveX r.fields.length = .ok () := by
    unfold reserveX
    rw [if_neg]
    simp only [mapMaxSize]
    omega
  unfold serverParseX serverParse
  rw [this]
  (repeat' split) <;> first | rfl | simp_all [Except.map]

/-- C95 does not hold for every limit a server can be given: a request of more than 24576 fields, otherwise as it should be, makes the connection panic. -/
theorem C95_max_headers_panics (methodOk uriOk : Bytes → Bool) (preserveCase : Bool) (r : RawRequest) (h : r.fields.length > 24576) (ht : r.target.length ≤ MAX_URI_LEN)
    (hm : methodOk r.method = true) (hu : uriOk r.target = true) (hn : namesTooLong r.fields = false) :
    serverParseX methodOk uriOk preserveCase r = .error .reserve := by
  have : reserveX r.fields.length = .error .reserve := by
    unfold reserveX
    rw [if_pos]
    simp only [mapMaxSize]
    omega
  unfold serverParseX
  rw [this, if_neg (by omega)]
  simp [hm, hu, hn, Except.map]

/-- C95: what the condition on versions is for: a final response of HTTP/0.9 or 3 makes the connection panic when it is written, unless the request was HTTP/1.0. -/
theorem C95_version_panics (env : EncodeEnv) (c : Conn) (m : RespOut) (ev : Bool → Ev) (hv : m.head.version = .h09 ∨ m.head.version = .h3) (hp : c.version ≠ .h10)
    (hs : isInformational m.head.status = false) : c.writeRespX env m ev = .error .head := by
  have hver : (c.respMsg m).2.head.version = m.head.version := by
    unfold Conn.respMsg connMsg enforceVersion
    (repeat' split) <;> first | rfl | simp_all
  have hst : (c.respMsg m).2.head.status = m.head.status := rfl
  have hprep : (encodePrep (c.respMsg m).2).1 = (c.respMsg m).2 := by
    unfold encodePrep
    rw [hst, hs]
    (repeat' split) <;> first | rfl | simp_all
  have hl : statusLine env (encodePrep (c.respMsg m).2).1.head = none := by
    rw [hprep]
    unfold statusLine
    rw [hver]
    rcases hv with e | e <;> simp [e]
  have : (c.respEnc env m).2 = .panic := by
    unfold Conn.respEnc serverEncode
    simp only [hl]
  unfold Conn.writeRespX
  rw [this]

/-- C95: likewise a request, unless the last response was HTTP/1.0. -/
theorem C95_request_version_panics (c : Conn) (q : ReqHead) (body : Option BodyLength) (n : Nat) (hv : q.version = .h09 ∨ q.version = .h3) (hp : c.version ≠ .h10) :
    c.writeReqX q body n = .error .head := by
  have hver : (connReq c.version c.ka q).2.version = q.version := by
    unfold connReq enforceVersion
    (repeat' split) <;> first | rfl | simp_all
  have : (c.reqEnc q body).2 = .panic := by
    unfold Conn.reqEnc clientEncode
    rcases hv with e | e <;> simp [hver, e, versionText]
  unfold Conn.writeReqX
  rw [this]

/-! ### The conditions are met -/

/-- A chunked request with a trailer, in two pieces, read by a service that answers with a body; then garbage. -/
def Panics.exRun : List Act :=
  [exRead (.msg { exIn 0 false true with decode := DecodedLength.CHUNKED }) exNo, .want 0,
   exRead .pending ⟨ascii "1\r\na", [], .silent⟩, .want 0, exRead .pending ⟨ascii "\r\n0\r\nx: y\r", [], .silent⟩,
   exWrite (exResp [] (some (.known 2))) .pending, .want 0,
   exRead .pending ⟨ascii "\n\r\n", [], .silent⟩, exWrite .pending (.frame (.data (ascii "hi") true)), .flush exFlushIn .pending,
   exRead (.error (some .method) true false) exNo, .flush exFlushIn .pending, .finish true exFlushIn]

theorem Panics.exFresh (client : Bool) : Fresh (exDisp client) := ⟨exDisp_start client none, rfl, rfl, rfl⟩

theorem Panics.exRun_ordinary : ∀ i, Act.write i ∈ Panics.exRun → Spec.Ordinary i.msg := by
  intro i hi
  simp only [Panics.exRun, exRead, exWrite, List.mem_cons, Act.write.injEq, reduceCtorEq, false_or, or_false, List.not_mem_nil] at hi
  rcases hi with rfl | rfl
  · simp [exResp, Spec.Ordinary]
  · trivial

example : (exDisp false).runX exEnv (fun _ _ => some []) Panics.exRun = .ok ((exDisp false).run exEnv (fun _ _ => some []) Panics.exRun) :=
  C95_no_panic _ _ _ (Panics.exFresh false) _ Panics.exRun_ordinary

/-- In that run the head, the body, the answer and the answer to garbage are there. -/
example : (((exDisp false).run exEnv (fun _ _ => some []) Panics.exRun).conn.log.any (fun e => e == .readEnd)) = true ∧
    (((exDisp false).run exEnv (fun _ _ => some []) Panics.exRun).conn.log.any (fun e => e == .errorHead)) = true := by decide +kernel

/-- A response of HTTP/3 does panic. -/
example : (exDisp false).runX exEnv exP [exRead (.msg (exIn 0 false true)) exNo, exWrite (.resp ⟨⟨.h3, 200, [], none, none⟩, none⟩) .pending] = .error .head := by
  decide +kernel

/-- So does a body that is read from where there is none; the dispatcher does not. -/
example : (exDisp false).conn.pollReadBodyX exP exNo .pending = .error .readBody := rfl

/-- So do trailers that are read without a buffer for them; the decoder makes one. -/
example : (exDisp false).conn.decodeBodyX exP (.chunked { Chunked.new none none with state := .trailer }) ⟨ascii "x", [], .silent⟩ .pending = .error .trailersBuf := by
  decide +kernel

/-- Requests with so many fields there are. -/
def Panics.exMany (n : Nat) : RawRequest := ⟨mGET, ascii "/", true, List.replicate n (ascii "a", [])⟩

example : serverParseX (fun _ => true) (fun _ => true) false (Panics.exMany 24577) = .error .reserve := by
  refine C95_max_headers_panics _ _ _ _ ?_ (by decide) rfl rfl ?_
  · show (List.replicate 24577 (ascii "a", ([] : Bytes))).length > 24576
    rw [List.length_replicate]
    omega
  · refine List.any_eq_false.2 fun f hf => ?_
    rw [List.eq_of_mem_replicate (show f ∈ List.replicate 24577 (ascii "a", ([] : Bytes)) from hf)]
    decide

end Hyper
