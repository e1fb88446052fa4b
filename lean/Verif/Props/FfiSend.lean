import Verif.Props.FfiRequest
import Verif.Props.EndToEnd
import Verif.Proof.Forward

/-!
# C110: requests of a C program on an HTTP/1 connection
-/

namespace Hyper

open Spec Ffi CReq Wire

/-- What is assumed of the crate `http`: what it takes for a method is one, and what it prints of a URI is not empty and has no blank and no control. -/
structure Spec.HttpSound {U : Type} (H : HttpFns U) : Prop where
  method : ∀ m, H.methodOk m = true → m ≠ [] ∧ ∀ b ∈ m, isTchar b = true
  target : ∀ u, H.text u ≠ [] ∧ ∀ b ∈ H.text u, isValueByte b = true ∧ isBlankByte b = false
  utf8 : ∀ u, Utf8 (H.text u)

/-- The request is one that a C program made, by any calls with any arguments.  Assumed is that it did not ask for HTTP/2, that of the framing fields it set all lengths are the same number,
which is 0 if there is no body, and the last coding is plain ASCII, that the target is short, and that the peer's server takes method and target. -/
structure Spec.FromC {U B C : Type} (H : HttpFns U) (empty : B) (methodOk uriOk : Bytes → Bool) (cs : List (Call B C)) (q : ReqHead × Option BodyLength) : Prop where
  made : q.1 = ((Request.new H empty : Request U B C).run H cs).finalize H
  version : latest asksVersion .h11 cs ≠ .h2
  known : ∀ n, q.2 = some (.known n) → n < 2 ^ 64
  length : ∃ n, (∀ v ∈ q.1.headers.getAll (ascii "content-length"), IsLength v n) ∧ (q.2 = none → n = 0)
  coding : ∀ v, (q.1.headers.getAll (ascii "transfer-encoding")).getLast? = some v → ∀ b ∈ v, Visible b
  short : (latest (asksTarget H) (H.text H.root) cs).length ≤ 65534
  takenMethod : methodOk (latest (asksMethod H) (ascii "GET") cs) = true
  takenTarget : uriOk (latest (asksTarget H) (H.text H.root) cs) = true

namespace CReq

theorem spellings_insert {m : HeaderMap} (h : SpellingsOf m) {n raw : Bytes} (hr : raw.map foldCase = n) : SpellingsOf (m.insert n raw) := by
  induction m with
  | nil =>
    intro g hg v hv
    simp only [HeaderMap.insert, List.mem_singleton] at hg
    subst hg
    rw [List.mem_singleton.1 hv]; exact hr
  | cons g m ih =>
    have hm : SpellingsOf m := fun g' hg' => h g' (List.mem_cons_of_mem _ hg')
    obtain ⟨n', vs⟩ := g
    intro g' hg' v hv
    simp only [HeaderMap.insert] at hg'
    split at hg'
    · rename_i e
      rcases List.mem_cons.1 hg' with rfl | hg'
      · rw [List.mem_singleton.1 hv, hr]; exact e.symm
      · exact hm g' hg' v hv
    · rcases List.mem_cons.1 hg' with rfl | hg'
      · exact h _ (List.mem_cons_self ..) v hv
      · exact ih hm g' hg' v hv

theorem spellings_append {m : HeaderMap} (h : SpellingsOf m) {n raw : Bytes} (hr : raw.map foldCase = n) : SpellingsOf (m.append n raw) := by
  induction m with
  | nil =>
    intro g hg v hv
    simp only [HeaderMap.append, List.mem_singleton] at hg
    subst hg
    rw [List.mem_singleton.1 hv]; exact hr
  | cons g m ih =>
    have hm : SpellingsOf m := fun g' hg' => h g' (List.mem_cons_of_mem _ hg')
    obtain ⟨n', vs⟩ := g
    intro g' hg' v hv
    simp only [HeaderMap.append] at hg'
    split at hg'
    · rename_i e
      rcases List.mem_cons.1 hg' with rfl | hg'
      · rcases List.mem_append.1 hv with hv | hv
        · exact h _ (List.mem_cons_self ..) v hv
        · rw [List.mem_singleton.1 hv, hr]; exact e.symm
      · exact hm g' hg' v hv
    · rcases List.mem_cons.1 hg' with rfl | hg'
      · exact h _ (List.mem_cons_self ..) v hv
      · exact ih hm g' hg' v hv

/-- What holds of the headers of the C API at all times. -/
structure Tidy (h : Headers) : Prop where
  map : MapOk h.headers
  short : ShortNames h.headers
  spelling : SpellingsOf h.casing

theorem tidy_empty : Tidy Headers.empty :=
  ⟨⟨⟨by simp [Headers.empty], by simp [Headers.empty]⟩, by simp [Headers.empty, HeaderMap.fields]⟩, by simp [ShortNames, Headers.empty, HeaderMap.fields],
    by intro g hg; simp [Headers.empty] at hg⟩

theorem raw_ok {raw v name : Bytes} (h : rawNameValue raw v = some name) :
    LowerName name ∧ name.length < 2 ^ 16 ∧ raw.map foldCase = name ∧ ∀ b ∈ v, isValueByte b = true := by
  unfold rawNameValue at h
  split at h
  · cases h
  · rename_i k hk
    split at h
    · rename_i hv
      injection h with h
      subst h
      obtain ⟨h1, h2, h3⟩ := headerName_lower hk
      refine ⟨h1, h2, h3, ?_⟩
      simpa [valueOk, isValueByte, List.all_eq_true] using hv
    · cases h

theorem tidy_step {h : Headers} (ht : Tidy h) (op : Op) : Tidy (h.step op) := by
  cases op with
  | set raw v =>
    simp only [Headers.step, Headers.set]
    split
    · exact ht
    · rename_i name hr
      obtain ⟨h1, h2, h3, h4⟩ := raw_ok hr
      refine ⟨ht.map.insert h1 h4, ?_, spellings_insert ht.spelling h3⟩
      intro f hf
      rcases mem_fields_insert _ _ _ f hf with rfl | hf
      · exact h2
      · exact ht.short f (by first | exact hf | exact hf.1)
  | add raw v =>
    simp only [Headers.step, Headers.add]
    split
    · exact ht
    · rename_i name hr
      obtain ⟨h1, h2, h3, h4⟩ := raw_ok hr
      refine ⟨⟨wf_append ht.map.wf _ _, ?_⟩, ?_, spellings_append ht.spelling h3⟩
      · intro f hf
        rcases mem_fields_append _ _ _ f hf with rfl | hf
        · exact ⟨h1, h4⟩
        · exact ht.map.fields f hf
      · intro f hf
        rcases mem_fields_append _ _ _ f hf with rfl | hf
        · exact h2
        · exact ht.short f hf

theorem tidy_call {U B C : Type} (H : HttpFns U) (r : Request U B C) (ht : ∀ h, r.headers = some h → Tidy h) (c : Call B C) :
    ∀ h, (r.call H c).1.headers = some h → Tidy h := by
  cases c with
  | setMethod x => simp only [Request.call]; split <;> exact ht
  | setUri x => simp only [Request.call]; split <;> exact ht
  | setUriParts s a p => simp only [Request.call]; split <;> exact ht
  | setVersion x => simp only [Request.call]; split <;> exact ht
  | headers op =>
    intro h hh
    simp only [Request.call, Option.some.injEq] at hh
    subst hh
    cases hr : r.headers with
    | none => exact tidy_step tidy_empty op
    | some h => exact tidy_step (ht h hr) op
  | setBody x => exact ht
  | onInformational x => exact ht

theorem tidy_run {U B C : Type} (H : HttpFns U) (cs : List (Call B C)) : ∀ r : Request U B C, (∀ h, r.headers = some h → Tidy h) → ∀ h, (r.run H cs).headers = some h → Tidy h := by
  induction cs with
  | nil => exact fun _ h => h
  | cons c cs ih => exact fun r h => ih _ (tidy_call H r h c)

theorem latest_of {X Y : Type} {Z : Y → Prop} {f : X → Option Y} (hf : ∀ c y, f c = some y → Z y) (cs : List X) : ∀ d, Z d → Z (latest f d cs) := by
  induction cs with
  | nil => exact fun _ h => h
  | cons c cs ih =>
    intro d hd
    refine ih _ ?_
    cases h : f c with
    | none => exact hd
    | some y => exact hf c y h

theorem fromC_ok {U B C : Type} {H : HttpFns U} (hH : HttpSound H) {empty : B} {methodOk uriOk : Bytes → Bool} {cs : List (Call B C)} {q : ReqHead × Option BodyLength}
    (h : FromC H empty methodOk uriOk cs q) : RequestOk methodOk uriOk q.1 q.2 := by
  obtain ⟨made, version, known, length, coding, short, takenMethod, takenTarget⟩ := h
  obtain ⟨e1, e2, e3, _, _⟩ := C109_request H empty cs _ (rfl : (Request.new H empty : Request U B C).run H cs = _)
  have ht := tidy_run H cs (Request.new H empty : Request U B C) (by intro h hh; cases hh)
  have hv := latest_version cs .h11 (.inr (.inl rfl))
  rw [← made] at e1 e2 e3
  have hm : latest (asksMethod H) (ascii "GET") cs ≠ [] ∧ ∀ b ∈ latest (asksMethod H) (ascii "GET") cs, isTchar b = true := by
    refine latest_of (Z := fun m => m ≠ [] ∧ ∀ b ∈ m, isTchar b = true) ?_ cs _ ⟨by decide, by decide +kernel⟩
    intro c y hy
    cases c with
    | setMethod m =>
      simp only [asksMethod] at hy
      split at hy
      · rename_i hm
        injection hy with hy
        subst hy
        exact hH.method m hm
      · cases hy
    | _ => cases hy
  have htg : (latest (asksTarget H) (H.text H.root) cs ≠ [] ∧ ∀ b ∈ latest (asksTarget H) (H.text H.root) cs, isValueByte b = true ∧ isBlankByte b = false) ∧ Utf8 (latest (asksTarget H) (H.text H.root) cs) := by
    refine latest_of (Z := fun t => (t ≠ [] ∧ ∀ b ∈ t, isValueByte b = true ∧ isBlankByte b = false) ∧ Utf8 t) ?_ cs _ ⟨hH.target _, hH.utf8 _⟩
    intro c y hy
    cases c with
    | setUri u =>
      simp only [asksTarget, Option.map_eq_some_iff] at hy
      obtain ⟨u, _, rfl⟩ := hy
      exact ⟨hH.target u, hH.utf8 u⟩
    | setUriParts s a p =>
      simp only [asksTarget, Option.map_eq_some_iff] at hy
      obtain ⟨u, _, rfl⟩ := hy
      exact ⟨hH.target u, hH.utf8 u⟩
    | _ => cases hy
  have hmap : MapOk q.1.headers ∧ ShortNames q.1.headers ∧ ∀ m, q.1.caseMap = some m → SpellingsOf m := by
    rw [made]
    generalize (Request.new H empty : Request U B C).run H cs = r at *
    cases hr : r.headers with
    | none =>
      simp only [Request.finalize, hr]
      exact ⟨tidy_empty.map, tidy_empty.short, by intro m hm; cases hm⟩
    | some h =>
      simp only [Request.finalize, hr]
      refine ⟨(ht h hr).map, (ht h hr).short, ?_⟩
      intro m hm
      injection hm with hm
      subst hm
      exact (ht h hr).spelling
  refine ⟨⟨hmap.1, hmap.2.2, known⟩, ⟨?_, ?_, ?_, ?_, ?_, ?_⟩, hmap.2.1, ⟨length, coding⟩, ?_, ?_, ?_⟩
  · rw [e1]; exact hm.1
  · rw [e1]; exact hm.2
  · rw [e2]; exact htg.1.1
  · rw [e2]; exact htg.1.2
  · rw [e2]; exact short
  · rw [e2]; exact htg.2
  · rw [e3]
    rcases hv with h | h | h
    · exact .inl h
    · exact .inr h
    · exact absurd h version
  · rw [e1]; exact takenMethod
  · rw [e2]; exact takenTarget

end CReq

/-- C110.  A C program makes requests by any calls with any bytes as arguments, and sends them over one HTTP/1 connection, with bodies that yield anything at all.  A server of hyper at the
other end, which gets any part of what was written so far, in any pieces, takes from it these requests, one for one and in order: the k-th has the method and target last asked for in the
calls that made the k-th, the values its calls left for each name (but for the framing fields), and of its body only bytes that this body yielded.  No argument of a call and nothing in a body
is ever read as another request or another field. -/
theorem C110_no_injection {U B C : Type} (H : HttpFns U) (hH : HttpSound H) (empty : B) (env env' : EncodeEnv) (P P' : TrailerParser) (hP : ReadsBlocks P)
    (Q : Bytes → Except ParseErr (Option (RawRequest × Nat))) (hS : RequestStable Q) (max : Nat) (hQ : ReadsRequests max (tokens Q)) (methodOk uriOk : Bytes → Bool) (preserve : Bool)
    (d : Disp) (hd : Fresh d) (hc : d.conn.client = true) (as : List Act)
    (hin : ∀ q ∈ requests env P' d as, ∃ cs : List (Call B C), FromC H empty methodOk uriOk cs q)
    (f : Fed RequestMsg) (hf : f.disp.Start) (hg : f.got = []) (fair : ∀ m ∈ messages (story env P' d [] as), m.Fair max f.disp.conn.maxHeaders)
    (hnet : f.inlet.rd.stream <+: wire (d.run env P' as).conn) (bs : List FAct) (k : Nat) (g : Received RequestMsg)
    (hr : (f.run env' P (serverHeads Q methodOk uriOk preserve) bs).got[k]? = some g) :
    ∃ (cs : List (Call B C)) (q : ReqHead × Option BodyLength) (m : Message), (requests env P' d as)[k]? = some q ∧ FromC H empty methodOk uriOk cs q ∧
      (messages (story env P' d [] as))[k]? = some m ∧ m.Of q.1 q.2 ∧
      g.head.method = latest (asksMethod H) (ascii "GET") cs ∧ g.head.target = latest (asksTarget H) (H.text H.root) cs ∧
      (∀ n, n ∉ [hCL, hTE, hCONN] → g.head.headers.getAll n = (q.1.headers.getAll n).map trimBlanks) ∧
      g.data <+: m.data ∧ (g.whole = true → g.data = m.data ∧ g.trailers = m.trailerFields) := by
  obtain ⟨h, body, m, h1, h2, h3, h4, h5, h6, h7, h8⟩ := C67_requests env env' P P' hP Q hS max hQ methodOk uriOk preserve d hd hc as
    (fun q hq => by
      obtain ⟨cs, hq⟩ := hin q hq
      exact CReq.fromC_ok hH hq) f hf hg fair hnet bs k g hr
  obtain ⟨cs, hq⟩ := hin _ (List.mem_of_getElem? h1)
  obtain ⟨e1, e2, _, _, _⟩ := C109_request H empty cs _ (rfl : (Request.new H empty : Request U B C).run H cs = _)
  have made : h = _ := hq.made
  rw [← made] at e1 e2
  exact ⟨cs, (h, body), m, h1, hq, h2, h3, h4.trans e1, h5.trans e2, h6, h7, h8⟩

/-- A request of this kind, made by calls some of which try to put a line break where it must not be. -/
example : ∃ (H : HttpFns Bytes) (cs : List (Call Unit Unit)) (q : ReqHead × Option BodyLength), HttpSound H ∧ FromC H () (fun _ => true) (fun _ => true) cs q ∧
    q = (⟨ascii "POST", ascii "/", .h11, [(ascii "x-a", [ascii "1"])], some [(ascii "x-a", [ascii "X-A"])]⟩, some .unknown) := by
  refine ⟨⟨fun m => m ≠ [] ∧ m.all isTchar, fun _ => none, fun _ _ _ => none, [], fun _ => ascii "/"⟩, [.setMethod (ascii "POST"), .setMethod (ascii "A\r\nB"),
    .headers (.set (ascii "X-A") (ascii "1")), .headers (.add (ascii "X-A") (ascii "1\r\nX-B: 2"))], _, ⟨?_, ?_, fun _ => show Utf8 (ascii "/") from ⟨"/", by decide +kernel⟩⟩, ⟨?_, ?_, ?_, ?_, ?_, ?_, rfl, rfl⟩, rfl⟩
  · intro m hm
    simp only [decide_eq_true_eq, List.all_eq_true] at hm
    exact hm
  · intro _; show ascii "/" ≠ [] ∧ ∀ b ∈ ascii "/", isValueByte b = true ∧ isBlankByte b = false; exact ⟨by decide, by decide +kernel⟩
  · decide +kernel
  · decide +kernel
  · intro n hn; cases hn
  · refine ⟨0, ?_, fun h => by cases h⟩
    intro v hv
    rw [show HeaderMap.getAll [(ascii "x-a", [ascii "1"])] (ascii "content-length") = [] by decide +kernel] at hv
    cases hv
  · intro v hv
    rw [show HeaderMap.getAll [(ascii "x-a", [ascii "1"])] (ascii "transfer-encoding") = [] by decide +kernel] at hv
    cases hv
  · decide +kernel

end Hyper
