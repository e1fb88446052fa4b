import Verif.Model.FfiRequest
import Verif.Props.FfiHeaders

/-!
# C109: requests and responses of the C API
-/

namespace Hyper

open Spec Ffi CReq

/-- The last of the values that the calls ask for, or the default if there is none. -/
def Spec.latest {X Y : Type} (f : X → Option Y) (d : Y) : List X → Y
  | [] => d
  | c :: cs => latest f ((f c).getD d) cs

/-- What a call asks the method to be, if it is one. -/
def Spec.asksMethod {U B C : Type} (H : HttpFns U) : Call B C → Option Bytes
  | .setMethod m => if H.methodOk m = true then some m else none
  | _ => none

/-- What a call asks the target to be, if it is one. -/
def Spec.asksTarget {U B C : Type} (H : HttpFns U) : Call B C → Option Bytes
  | .setUri u => (H.uri u).map H.text
  | .setUriParts s a p => (H.parts s a p).map H.text
  | _ => none

/-- What a call asks the version to be, if it is one that is known. -/
def Spec.asksVersion {B C : Type} : Call B C → Option Version
  | .setVersion 0 => some .h11
  | .setVersion 10 => some .h10
  | .setVersion 11 => some .h11
  | .setVersion 20 => some .h2
  | _ => none

/-- The body a call gives. -/
def Spec.givesBody {B C : Type} : Call B C → Option B
  | .setBody b => some b
  | _ => none

/-- The callback a call gives. -/
def Spec.givesCallback {B C : Type} : Call B C → Option (Option C)
  | .onInformational c => some (some c)
  | _ => none

/-- A call asks for nothing that may not be in a request. -/
def Spec.Proper {U B C : Type} (H : HttpFns U) : Call B C → Prop
  | .setMethod m => H.methodOk m = true
  | .setUri u => H.uri u ≠ none
  | .setUriParts s a p => H.parts s a p ≠ none
  | .setVersion v => v = 0 ∨ v = 10 ∨ v = 11 ∨ v = 20
  | .headers (.set raw v) => argsOk raw v
  | .headers (.add raw v) => argsOk raw v
  | .setBody _ => True
  | .onInformational _ => True

namespace CReq

theorem versionOf_asks {B C : Type} (v : Int) : asksVersion (B := B) (C := C) (.setVersion v) = versionOf v := by
  unfold asksVersion versionOf
  split <;> rename_i h <;> simp_all <;> grind

/-- What is sent of a request, but for how names are spelled. -/
theorem call_sent {U B C : Type} (H : HttpFns U) (r : Request U B C) (c : Call B C) :
    ((r.call H c).1.finalize H).method = (asksMethod H c).getD (r.finalize H).method ∧
    ((r.call H c).1.finalize H).target = (asksTarget H c).getD (r.finalize H).target ∧
    ((r.call H c).1.finalize H).version = (asksVersion c).getD (r.finalize H).version ∧
    (r.call H c).1.body = (givesBody c).getD r.body ∧ (r.call H c).1.callback = (givesCallback c).getD r.callback := by
  obtain ⟨m, u, v, hs, b, cb⟩ := r
  cases c with
  | setMethod x => cases hs <;> simp only [Request.call, asksMethod] <;> split <;> simp_all [Request.finalize, asksTarget, asksVersion, givesBody, givesCallback]
  | setUri x => cases hs <;> cases hx : H.uri x <;> simp [Request.call, hx, Request.finalize, asksMethod, asksTarget, asksVersion, givesBody, givesCallback]
  | setUriParts s a p => cases hs <;> cases hx : H.parts s a p <;> simp [Request.call, hx, Request.finalize, asksMethod, asksTarget, asksVersion, givesBody, givesCallback]
  | setVersion x => cases hs <;> cases hx : versionOf x <;> simp [Request.call, hx, versionOf_asks, Request.finalize, asksMethod, asksTarget, givesBody, givesCallback]
  | headers op => cases hs <;> simp [Request.call, Request.finalize, asksMethod, asksTarget, asksVersion, givesBody, givesCallback]
  | setBody x => cases hs <;> simp [Request.call, Request.finalize, asksMethod, asksTarget, asksVersion, givesBody, givesCallback]
  | onInformational x => cases hs <;> simp [Request.call, Request.finalize, asksMethod, asksTarget, asksVersion, givesBody, givesCallback]

theorem run_sent {U B C : Type} (H : HttpFns U) (cs : List (Call B C)) : ∀ r : Request U B C,
    ((r.run H cs).finalize H).method = latest (asksMethod H) (r.finalize H).method cs ∧
    ((r.run H cs).finalize H).target = latest (asksTarget H) (r.finalize H).target cs ∧
    ((r.run H cs).finalize H).version = latest asksVersion (r.finalize H).version cs ∧
    (r.run H cs).body = latest givesBody r.body cs ∧ (r.run H cs).callback = latest givesCallback r.callback cs := by
  induction cs with
  | nil => intro r; exact ⟨rfl, rfl, rfl, rfl, rfl⟩
  | cons c cs ih =>
    intro r
    obtain ⟨h1, h2, h3, h4, h5⟩ := call_sent H r c
    have := ih (r.call H c).1
    rw [h1, h2, h3, h4, h5] at this
    exact this

theorem fields_call {U B C : Type} (H : HttpFns U) (r : Request U B C) (c : Call B C) :
    ((r.call H c).1.finalize H).headers = match c with
      | .headers op => (((r.headers.getD Headers.empty).step op).headers)
      | _ => (r.finalize H).headers := by
  obtain ⟨m, u, v, hs, b, cb⟩ := r
  cases c with
  | setMethod x => cases hs <;> simp only [Request.call] <;> split <;> rfl
  | setUri x => cases hs <;> cases hx : H.uri x <;> simp [Request.call, hx, Request.finalize]
  | setUriParts s a p => cases hs <;> cases hx : H.parts s a p <;> simp [Request.call, hx, Request.finalize]
  | setVersion x => cases hs <;> cases hx : versionOf x <;> simp [Request.call, hx, Request.finalize]
  | headers op => cases hs <;> rfl
  | setBody x => cases hs <;> rfl
  | onInformational x => cases hs <;> rfl

theorem casing_call {U B C : Type} (H : HttpFns U) (r : Request U B C) (c : Call B C) :
    ((r.call H c).1.finalize H).caseMap.getD [] = match c with
      | .headers op => (((r.headers.getD Headers.empty).step op).casing)
      | _ => (r.finalize H).caseMap.getD [] := by
  obtain ⟨m, u, v, hs, b, cb⟩ := r
  cases c with
  | setMethod x => cases hs <;> simp only [Request.call] <;> split <;> rfl
  | setUri x => cases hs <;> cases hx : H.uri x <;> simp [Request.call, hx, Request.finalize]
  | setUriParts s a p => cases hs <;> cases hx : H.parts s a p <;> simp [Request.call, hx, Request.finalize]
  | setVersion x => cases hs <;> cases hx : versionOf x <;> simp [Request.call, hx, Request.finalize]
  | headers op => cases hs <;> rfl
  | setBody x => cases hs <;> rfl
  | onInformational x => cases hs <;> rfl

theorem finalize_casing {U B C : Type} (H : HttpFns U) (r : Request U B C) : (r.finalize H).caseMap.getD [] = (r.headers.getD Headers.empty).casing := by
  obtain ⟨m, u, v, hs, b, cb⟩ := r
  cases hs <;> rfl

theorem casing_taken (h : Headers) (raw v : Bytes) (hok : argsOk raw v) (n : Bytes) :
    (h.set raw v).casing.getAll n = (if n = raw.map foldCase then [raw] else h.casing.getAll n) ∧
    (h.add raw v).casing.getAll n = (if n = raw.map foldCase then h.casing.getAll n ++ [raw] else h.casing.getAll n) := by
  have hne := (rawNameValue_iff raw v).2 hok
  cases hr : rawNameValue raw v with
  | none => exact absurd hr hne
  | some name =>
    have := rawNameValue_fold hr
    simp only [Headers.set, Headers.add, hr, getAll_insert, getAll_append, this, and_self]

theorem finalize_headers {U B C : Type} (H : HttpFns U) (r : Request U B C) : (r.finalize H).headers = (r.headers.getD Headers.empty).headers := by
  obtain ⟨m, u, v, hs, b, cb⟩ := r
  cases hs <;> rfl

theorem run_snoc {U B C : Type} (H : HttpFns U) (r : Request U B C) (cs : List (Call B C)) (c : Call B C) :
    r.run H (cs ++ [c]) = ((r.run H cs).call H c).1 := by
  simp [Request.run]

theorem latest_version {B C : Type} (cs : List (Call B C)) : ∀ v : Version, (v = .h10 ∨ v = .h11 ∨ v = .h2) →
    (latest asksVersion v cs = .h10 ∨ latest asksVersion v cs = .h11 ∨ latest asksVersion v cs = .h2) := by
  induction cs with
  | nil => exact fun v h => h
  | cons c cs ih =>
    intro v h
    refine ih _ ?_
    unfold asksVersion
    split <;> simp [h]

end CReq

/-- C109, the request.  Whatever calls a C program makes on a new request, in any order and with any arguments, what is sent has the method, the target and the version that were last
asked for by a call with an argument of the right form (GET, `/` and HTTP/1.1 if there was none), and the body and the callback that were given last. -/
theorem C109_request {U B C : Type} (H : HttpFns U) (empty : B) (cs : List (Call B C)) (r : Request U B C) (hr : r = (Request.new H empty).run H cs) :
    (r.finalize H).method = latest (asksMethod H) (ascii "GET") cs ∧ (r.finalize H).target = latest (asksTarget H) (H.text H.root) cs ∧
    (r.finalize H).version = latest asksVersion .h11 cs ∧ r.body = latest givesBody empty cs ∧ r.callback = latest givesCallback none cs := by
  subst hr
  exact run_sent H cs (Request.new H empty)

/-- C109, the fields of the request.  There are none at first.  A call that sets a field leaves this one value for its name, one that adds a field adds the value after the others, and any
other call, those with a name or a value that may not be in a message included, leaves the values of a name as they are. -/
theorem C109_fields {U B C : Type} (H : HttpFns U) (empty : B) (sent : List (Call B C) → HeaderMap)
    (hsent : ∀ cs, sent cs = (((Request.new H empty : Request U B C).run H cs).finalize H).headers) (n : Bytes) :
    (sent []).getAll n = [] ∧ ∀ cs c,
      (∀ raw v, c = .headers (.set raw v) → argsOk raw v → n = raw.map foldCase → (sent (cs ++ [c])).getAll n = [v]) ∧
      (∀ raw v, c = .headers (.add raw v) → argsOk raw v → n = raw.map foldCase → (sent (cs ++ [c])).getAll n = (sent cs).getAll n ++ [v]) ∧
      ((∀ raw v, argsOk raw v → n = raw.map foldCase → c ≠ .headers (.set raw v) ∧ c ≠ .headers (.add raw v)) → (sent (cs ++ [c])).getAll n = (sent cs).getAll n) := by
  refine ⟨by rw [hsent]; rfl, fun cs c => ?_⟩
  rw [hsent, hsent, run_snoc, fields_call]
  generalize (Request.new H empty : Request U B C).run H cs = r
  refine ⟨?_, ?_, ?_⟩
  · rintro raw v rfl hok hn
    simp only [Headers.step]
    rw [(C75_taken _ raw v hok n).1, if_pos hn]
  · rintro raw v rfl hok hn
    simp only [Headers.step]
    rw [(C75_taken _ raw v hok n).2, if_pos hn, finalize_headers]
  · intro hne
    cases c with
    | headers op =>
      rw [finalize_headers]
      cases op with
      | set raw v =>
        simp only [Headers.step]
        by_cases hok : argsOk raw v
        · rw [(C75_taken _ raw v hok n).1, if_neg (fun h => (hne raw v hok h).1 rfl)]
        · rw [(C75_refused _ raw v hok).1]
      | add raw v =>
        simp only [Headers.step]
        by_cases hok : argsOk raw v
        · rw [(C75_taken _ raw v hok n).2, if_neg (fun h => (hne raw v hok h).2 rfl)]
        · rw [(C75_refused _ raw v hok).2]
    | _ => rfl

/-- C109, the spelling of the fields.  How the names are spelled is kept with the request in the same way: one spelling for a field that was set, and one more for each that was added. -/
theorem C109_spelling {U B C : Type} (H : HttpFns U) (empty : B) (spelled : List (Call B C) → HeaderMap)
    (hsp : ∀ cs, spelled cs = (((Request.new H empty : Request U B C).run H cs).finalize H).caseMap.getD []) (n : Bytes) :
    (spelled []).getAll n = [] ∧ ∀ cs c,
      (∀ raw v, c = .headers (.set raw v) → argsOk raw v → n = raw.map foldCase → (spelled (cs ++ [c])).getAll n = [raw]) ∧
      (∀ raw v, c = .headers (.add raw v) → argsOk raw v → n = raw.map foldCase → (spelled (cs ++ [c])).getAll n = (spelled cs).getAll n ++ [raw]) ∧
      ((∀ raw v, argsOk raw v → n = raw.map foldCase → c ≠ .headers (.set raw v) ∧ c ≠ .headers (.add raw v)) → (spelled (cs ++ [c])).getAll n = (spelled cs).getAll n) := by
  refine ⟨by rw [hsp]; rfl, fun cs c => ?_⟩
  rw [hsp, hsp, run_snoc, casing_call]
  generalize (Request.new H empty : Request U B C).run H cs = r
  refine ⟨?_, ?_, ?_⟩
  · rintro raw v rfl hok hn
    simp only [Headers.step]
    rw [(casing_taken _ raw v hok n).1, if_pos hn]
  · rintro raw v rfl hok hn
    simp only [Headers.step]
    rw [(casing_taken _ raw v hok n).2, if_pos hn, finalize_casing]
  · intro hne
    cases c with
    | headers op =>
      rw [finalize_casing]
      cases op with
      | set raw v =>
        simp only [Headers.step]
        by_cases hok : argsOk raw v
        · rw [(casing_taken _ raw v hok n).1, if_neg (fun h => (hne raw v hok h).1 rfl)]
        · rw [(C75_refused _ raw v hok).1]
      | add raw v =>
        simp only [Headers.step]
        by_cases hok : argsOk raw v
        · rw [(casing_taken _ raw v hok n).2, if_neg (fun h => (hne raw v hok h).2 rfl)]
        · rw [(C75_refused _ raw v hok).2]
    | _ => rfl

/-- C109, the codes.  A call succeeds exactly if its arguments are of the right form, and one that fails changes nothing of what is sent. -/
theorem C109_codes {U B C : Type} (H : HttpFns U) (r : Request U B C) (c : Call B C) :
    ((r.call H c).2 = true ↔ Proper H c) ∧
    ((r.call H c).2 = false → ((r.call H c).1.finalize H).method = (r.finalize H).method ∧ ((r.call H c).1.finalize H).target = (r.finalize H).target ∧
      ((r.call H c).1.finalize H).version = (r.finalize H).version ∧ ((r.call H c).1.finalize H).headers = (r.finalize H).headers ∧
      ((r.call H c).1.finalize H).caseMap.getD [] = (r.finalize H).caseMap.getD [] ∧ (r.call H c).1.body = r.body ∧ (r.call H c).1.callback = r.callback) := by
  have hraw : ∀ raw v, (rawNameValue raw v).isSome = true ↔ argsOk raw v := fun raw v => by
    rw [← rawNameValue_iff, Option.isSome_iff_ne_none]
  have href : ∀ raw v, (rawNameValue raw v).isSome = false → ¬ argsOk raw v := fun raw v h hok => by
    rw [(hraw raw v).2 hok] at h; cases h
  obtain ⟨m, u, v, hs, b, cb⟩ := r
  cases c with
  | setMethod x => simp only [Request.call, Proper]; split <;> simp_all
  | setUri x => cases hx : H.uri x <;> simp [Request.call, Proper, hx]
  | setUriParts s a p => cases hx : H.parts s a p <;> simp [Request.call, Proper, hx]
  | setVersion x =>
    have hv : versionOf x ≠ none ↔ (x = 0 ∨ x = 10 ∨ x = 11 ∨ x = 20) := by unfold versionOf; grind
    cases hx : versionOf x <;> simp only [hx] at hv <;> simp [Request.call, Proper, hx] <;> grind
  | headers op =>
    cases op with
    | set raw v =>
      refine ⟨hraw raw v, fun h => ?_⟩
      have := (C75_refused (hs.getD Headers.empty) raw v (href raw v h)).1
      cases hs <;> simp only [Option.getD_none, Option.getD_some] at this <;>
        simp only [Request.call, Request.finalize, Headers.step, Option.getD_none, Option.getD_some, this] <;> simp [Headers.empty]
    | add raw v =>
      refine ⟨hraw raw v, fun h => ?_⟩
      have := (C75_refused (hs.getD Headers.empty) raw v (href raw v h)).2
      cases hs <;> simp only [Option.getD_none, Option.getD_some] at this <;>
        simp only [Request.call, Request.finalize, Headers.step, Option.getD_none, Option.getD_some, this] <;> simp [Headers.empty]
  | setBody x => simp [Request.call, Proper]
  | onInformational x => simp [Request.call, Proper]

/-- C109, the request on an HTTP/1 connection.  No calls make the encoder panic, and the line written is made of the method and the target last asked for; it says HTTP/1.0 if that was asked
for or the peer is known to speak no more, and HTTP/1.1 otherwise, for HTTP/2 too. -/
theorem C109_line {U B C : Type} (H : HttpFns U) (empty : B) (cs : List (Call B C)) (title : Bool) (peer : Version) (ka : KA) (body : Option BodyLength) (dst : Bytes) :
    ∃ rest e, clientEncode title (connReq peer ka (((Request.new H empty : Request U B C).run H cs).finalize H)).2 body dst =
      some (dst ++ (latest (asksMethod H) (ascii "GET") cs ++ ascii " " ++ latest (asksTarget H) (H.text H.root) cs ++
        (if latest asksVersion .h11 cs = .h10 ∨ peer = .h10 then ascii " HTTP/1.0\r\n" else ascii " HTTP/1.1\r\n") ++ rest), e) := by
  obtain ⟨h1, h2, h3, _, _⟩ := C109_request H empty cs _ (rfl : (Request.new H empty : Request U B C).run H cs = _)
  have hv := latest_version cs .h11 (.inr (.inl rfl))
  generalize ((Request.new H empty : Request U B C).run H cs).finalize H = h at *
  rw [← h3] at hv
  rw [← h1, ← h2, ← h3]
  clear h1 h2 h3
  have e0 : ascii " HTTP/1.0\r\n" = ascii " " ++ ascii "HTTP/1.0" ++ CRLF := by decide +kernel
  have e1 : ascii " HTTP/1.1\r\n" = ascii " " ++ ascii "HTTP/1.1" ++ CRLF := by decide +kernel
  have hm : (connReq peer ka h).2.method = h.method := rfl
  have ht : (connReq peer ka h).2.target = h.target := rfl
  have hver : (connReq peer ka h).2.version = if peer = .h10 then .h10 else h.version := by
    simp only [connReq]
    cases peer <;> simp only [enforceVersion] <;> simp
    split <;> split <;> rfl
  generalize (connReq peer ka h).2 = g at *
  refine ⟨clientHeaders title g.caseMap (setLength g.method g.version g.headers body).1 ++ CRLF, (setLength g.method g.version g.headers body).2, ?_⟩
  have key : versionText g.version = some (if h.version = .h10 ∨ peer = .h10 then ascii "HTTP/1.0" else ascii "HTTP/1.1") := by
    rw [hver]
    by_cases hp : peer = .h10
    · simp [hp, versionText]
    · rcases hv with hv | hv | hv <;> simp [hp, hv, versionText]
  simp only [clientEncode, key, Option.map_some, hm, ht]
  by_cases hc : h.version = .h10 ∨ peer = .h10
  · simp only [if_pos hc, e0, List.append_assoc]
  · simp only [if_neg hc, e1, List.append_assoc]

/-- C109, the response.  A C program reads the status, the version and the reason phrase that were received, the phrase byte for byte though it is not kept if it is the usual one; the body is
given to the first who asks for it, and an empty one to all others. -/
theorem C109_response {B : Type} (cfg : ClientCfg) (raw : RawResponse) (h : RespHead) (ka : Bool) (hp : clientHead cfg raw = .ok (h, ka)) (body empty : B) :
    (Response.wrap h body).status = raw.status ∧ 100 ≤ raw.status ∧ raw.status ≤ 999 ∧
    (Response.wrap h body).versionCode = (if raw.http11 then 11 else 10) ∧
    (Response.wrap h body).reasonPhrase cfg.canonicalReason = raw.reason ∧
    ∀ n, (Response.wrap h body).takeBodies empty (n + 1) = body :: List.replicate n empty := by
  unfold clientHead at hp
  split at hp
  · cases hp
  · rename_i hst
    split at hp
    · cases hp
    · simp only at hp
      split at hp
      · cases hp
      · injection hp with hp
        injection hp with hp _
        subst hp
        refine ⟨rfl, by omega, by omega, ?_, ?_, ?_⟩
        · cases raw.http11 <;> rfl
        · simp only [Response.wrap, Response.reasonPhrase]
          by_cases hc : some raw.reason ≠ cfg.canonicalReason raw.status
          · simp [if_pos hc]
          · rw [if_neg hc]
            have hc : some raw.reason = cfg.canonicalReason raw.status := Classical.byContradiction hc
            simp [← hc]
        · intro n
          have he : ∀ n (r : Response B), r.body = empty → r.takeBodies empty n = List.replicate n empty := by
            intro n
            induction n with
            | zero => intro r _; rfl
            | succ n ih =>
              intro r hr
              simp only [Response.takeBodies, Response.takeBody, List.replicate_succ, hr]
              rw [ih _ rfl]
          simp only [Response.takeBodies, Response.takeBody]
          rw [he n _ rfl]
          rfl

/-- A run of calls: the second method is refused, the second version is unknown, and the field has two values. -/
example :
    let H : HttpFns Bytes := ⟨fun m => m.all isTchar, some, fun _ _ p => p, ascii "/", id⟩
    let r := (Request.new H () : Request Bytes Unit Unit).run H [.setMethod (ascii "PUT"), .headers (.set (ascii "X-A") (ascii "1")), .setMethod (ascii "A B"), .setVersion 10,
      .setVersion 30, .headers (.add (ascii "x-a") (ascii "2")), .setUriParts none none (some (ascii "/p"))]
    r.finalize H = ⟨ascii "PUT", ascii "/p", .h10, [(ascii "x-a", [ascii "1", ascii "2"])], some [(ascii "x-a", [ascii "X-A", ascii "x-a"])]⟩ := by decide +kernel

/-- The usual phrase is not kept, and told all the same. -/
example : ∃ h ka, clientHead ⟨false, false, false, fun s => if s = 200 then some (ascii "OK") else none⟩ ⟨200, true, ascii "OK", []⟩ = .ok (h, ka) ∧ h.reason = none ∧
    (Response.wrap h ()).reasonPhrase (fun s => if s = 200 then some (ascii "OK") else none) = ascii "OK" := ⟨⟨.h11, 200, [], none, none⟩, true, by decide +kernel, rfl, rfl⟩

end Hyper
