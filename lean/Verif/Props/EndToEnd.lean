import Verif.Proof.EndToEnd

/-! # C67: what one connection writes, another reads -/

namespace Hyper

open Spec Input

namespace Wire

/-! ## The reference parsers recognise a head whatever follows -/

theorem while_more {p : Byte → Bool} {bs r : Bytes} {y : Byte} (h : bs.dropWhile p = y :: r) (more : Bytes) :
    (bs ++ more).dropWhile p = y :: (r ++ more) ∧ (bs ++ more).takeWhile p = bs.takeWhile p ∧ r.length < bs.length := by
  induction bs with
  | nil => simp at h
  | cons b bs ih =>
    by_cases hp : p b = true
    · rw [List.dropWhile_cons_of_pos hp] at h
      obtain ⟨h1, h2, h3⟩ := ih h
      rw [List.cons_append, List.dropWhile_cons_of_pos hp, List.takeWhile_cons_of_pos hp, List.takeWhile_cons_of_pos hp, h2]
      exact ⟨h1, rfl, by simp only [List.length_cons]; omega⟩
    · rw [List.dropWhile_cons_of_neg hp] at h
      rw [List.cons_append, List.dropWhile_cons_of_neg hp, List.takeWhile_cons_of_neg hp, List.takeWhile_cons_of_neg hp]
      cases h
      exact ⟨rfl, rfl, by simp⟩

theorem refField_more {bs rest : Bytes} {f : Bytes × Bytes} (h : refField bs = some (f, rest)) (more : Bytes) :
    refField (bs ++ more) = some (f, rest ++ more) ∧ rest.length < bs.length := by
  unfold refField at h ⊢
  simp only at h ⊢
  split at h
  · cases h
  · rename_i hn
    split at h
    · rename_i r hr
      obtain ⟨h1, h2, h3⟩ := while_more hr more
      split at h
      · rename_i rest' hr'
        obtain ⟨g1, g2, g3⟩ := while_more hr' more
        simp only [Option.some.injEq, Prod.mk.injEq] at h
        obtain ⟨rfl, rfl⟩ := h
        rw [h2, if_neg hn, h1]
        simp only [List.cons_append] at g1
        simp only [g1, g2]
        refine ⟨trivial, ?_⟩
        simp only [List.length_cons] at g3
        omega
      · cases h
    · cases h

theorem refBlock_more (more : Bytes) : ∀ (n : Nat) (bs rest : Bytes) (fs : List (Bytes × Bytes)), refBlock n bs = some (fs, rest) →
    refBlock n (bs ++ more) = some (fs, rest ++ more) ∧ rest.length < bs.length := by
  intro n
  induction n with
  | zero =>
    intro bs rest fs h
    unfold refBlock at h
    split at h
    · cases h; exact ⟨by simp [refBlock], by simp only [List.length_cons]; omega⟩
    · cases h
    · omega
  | succ n ih =>
    intro bs rest fs h
    unfold refBlock at h
    split at h
    · cases h; exact ⟨by simp [refBlock], by simp only [List.length_cons]; omega⟩
    · omega
    · rename_i bs _ _ m heq _
      obtain rfl := Nat.succ.inj heq
      cases hf : refField bs with
      | none => rw [hf] at h; cases h
      | some p =>
        obtain ⟨f, r⟩ := p
        rw [hf] at h
        simp only at h
        cases hb : refBlock n r with
        | none => rw [hb] at h; cases h
        | some q =>
          obtain ⟨fs', r'⟩ := q
          rw [hb] at h
          simp only [Option.map_some, Option.some.injEq, Prod.mk.injEq] at h
          obtain ⟨rfl, rfl⟩ := h
          obtain ⟨f1, f2⟩ := refField_more hf more
          obtain ⟨b1, b2⟩ := ih _ _ _ hb
          refine ⟨refBlock_cons f1 ?_ b1, by omega⟩
          intro x hx'
          cases bs with
          | nil => simp [refField] at hf
          | cons b bs =>
            simp only [List.cons_append, List.cons.injEq] at hx'
            obtain ⟨rfl, _⟩ := hx'
            have : isTchar 13 = false := by decide
            simp [refField, this] at hf

theorem refVersion_more {bs rest : Bytes} {v : Bool} (h : refVersion bs = some (v, rest)) (more : Bytes) :
    refVersion (bs ++ more) = some (v, rest ++ more) ∧ rest.length < bs.length := by
  unfold refVersion at h ⊢
  split at h
  · rename_i ht
    have hlen : 8 ≤ bs.length := by
      have := congrArg List.length ht
      rw [List.length_take, show (ascii " HTTP/1.").length = 8 from by decide] at this
      omega
    rw [List.take_append_of_le_length hlen, if_pos ht, List.drop_append_of_le_length hlen]
    have hd : (bs.drop 8).length ≤ bs.length := by rw [List.length_drop]; omega
    split at h
    · rename_i rest' hr
      cases h
      rw [hr] at hd ⊢
      exact ⟨rfl, by simp only [List.length_cons] at hd; omega⟩
    · rename_i rest' hr
      cases h
      rw [hr] at hd ⊢
      exact ⟨rfl, by simp only [List.length_cons] at hd; omega⟩
    · cases h
  · cases h

/-- The reference parser as a tokeniser. -/
def refTokens (max : Nat) (bs : Bytes) : Except ParseErr (Option (RawRequest × Nat)) := .ok (refRequest max bs)

theorem refTokens_stable (max : Nat) : RequestStable (refTokens max) := by
  intro buf r n h
  simp only [refTokens, Except.ok.injEq] at h ⊢
  unfold refRequest at h
  simp only at h
  split at h
  · rename_i r1 hr
    split at h
    · cases h
    · rename_i hne
      cases hv : refVersion (r1.dropWhile (fun b => isValueByte b && !isBlankByte b)) with
      | none => rw [hv] at h; cases h
      | some p =>
        obtain ⟨v, rest⟩ := p
        rw [hv] at h
        simp only at h
        cases hb : refBlock max rest with
        | none => rw [hb] at h; cases h
        | some q =>
          obtain ⟨fs, r'⟩ := q
          rw [hb] at h
          simp only [Option.map_some, Option.some.injEq, Prod.mk.injEq] at h
          obtain ⟨rfl, rfl⟩ := h
          refine ⟨by omega, fun more => ?_⟩
          obtain ⟨a1, a2, a3⟩ := while_more hr more
          obtain ⟨y, rr, hy⟩ : ∃ y rr, r1.dropWhile (fun b => isValueByte b && !isBlankByte b) = y :: rr := by
            cases hd : r1.dropWhile (fun b => isValueByte b && !isBlankByte b) with
            | nil =>
              rw [hd] at hv
              have : refVersion [] = none := by decide
              rw [this] at hv; cases hv
            | cons y rr => exact ⟨y, rr, rfl⟩
          obtain ⟨b1, b2, b3⟩ := while_more hy more
          obtain ⟨c1, c2⟩ := refVersion_more hv more
          obtain ⟨d1, d2⟩ := refBlock_more more _ _ _ _ hb
          rw [hy] at c1 c2
          have hlen : r'.length ≤ buf.length := by
            simp only [List.length_cons] at c2
            omega
          unfold refRequest
          simp only [a1, a2, b1, b2, if_neg hne]
          rw [List.cons_append] at c1
          rw [c1]
          simp only [d1, Option.map_some, List.length_append]
          congr 2
          omega
  · cases h

theorem refTokens_reads (max : Nat) : ReadsRequests max (tokens (refTokens max)) := refRequest_reads max

end Wire

open Wire

/-- C67.  A client's connection and a server's, in any runs of theirs; the bytes that come to the server are what the client has put on the wire, or a
beginning of it, cut into reads in any way.  Then the requests the server's connection reads are those the client's connection took from its user, in
order: the same method, target and headers (but for those of framing and connection options, and blanks around values), data that the user's body
yielded, and if the body was read to its end, all of it and the trailers.  `Q`, `P`, `methodOk` and `uriOk` are the external parsers; requests are as the
types of the `http` crate allow them, with right framing headers (`RequestOk`) and within the server's limits (`Fair`). -/
theorem C67_requests (env env' : EncodeEnv) (P P' : TrailerParser) (hP : ReadsBlocks P) (Q : Bytes → Except ParseErr (Option (RawRequest × Nat)))
    (hS : RequestStable Q) (max : Nat) (hQ : ReadsRequests max (tokens Q)) (methodOk uriOk : Bytes → Bool) (preserve : Bool)
    (d : Disp) (hd : Fresh d) (hc : d.conn.client = true) (as : List Act)
    (hok : ∀ q ∈ requests env P' d as, RequestOk methodOk uriOk q.1 q.2)
    (f : Fed RequestMsg) (hf : f.disp.Start) (hg : f.got = []) (fair : ∀ m ∈ messages (story env P' d [] as), m.Fair max f.disp.conn.maxHeaders)
    (hnet : f.inlet.rd.stream <+: wire (d.run env P' as).conn) (bs : List FAct) (k : Nat) (r : Received RequestMsg)
    (hr : (f.run env' P (serverHeads Q methodOk uriOk preserve) bs).got[k]? = some r) :
    ∃ h body m, (requests env P' d as)[k]? = some (h, body) ∧ (messages (story env P' d [] as))[k]? = some m ∧ m.Of h body ∧
      r.head.method = h.method ∧ r.head.target = h.target ∧
      (∀ n, n ∉ [hCL, hTE, hCONN] → r.head.headers.getAll n = (h.headers.getAll n).map trimBlanks) ∧
      r.data <+: m.data ∧ (r.whole = true → r.data = m.data ∧ r.trailers = m.trailerFields) := by
  have hst := C66_server_stable Q hS methodOk uriOk preserve
  have hasks := asks_run env P' as hc (Poll.vi_start hd.start) (st := []) (qs := []) .nil
  rw [List.nil_append] at hasks
  obtain ⟨_, a2, a3⟩ := hasks.messages
  have hread : ∀ (j : Nat) (m : Message) (μ : Option Bytes), (messages (story env P' d [] as))[j]? = some m → ∃ h body, (requests env P' d as)[j]? = some (h, body) ∧ m.Of h body ∧
      ∃ x : RequestMsg, Readable (serverHeads Q methodOk uriOk preserve) P f.disp.conn.maxHeaders μ m x ∧ x.method = h.method ∧ x.target = h.target ∧
      (∀ k, k ∉ [hCL, hTE, hCONN] → x.headers.getAll k = (h.headers.getAll k).map trimBlanks) ∧ x.decode ≠ DecodedLength.CLOSE_DELIMITED := by
    intro j m μ hm
    obtain ⟨h, body, h1, h2⟩ := a3 j m hm
    exact ⟨h, body, h1, h2, request_read hS hQ methodOk uriOk preserve P hP _ h2 (hok _ (List.mem_of_getElem? h1)) (fair m (List.mem_of_getElem? hm)) μ⟩
  obtain ⟨m, hm, hmat⟩ := told_wire hst (server_nothing hS hQ methodOk uriOk preserve) (C65_client_wire env P' d hd hc as).2 (fun h => absurd h a2) hnet
    (C66_messages env' P _ hst f hf hg bs).1 (fun j m r' h1 _ => by obtain ⟨_, _, _, _, x, hx, _⟩ := hread j m r'.method h1; exact .inr ⟨x, hx⟩) k r hr
  obtain ⟨h, body, h1, h2, x, hx, x1, x2, x3, x4⟩ := hread k m r.method hm
  have hxe : x = r.head := by
    have := (hx.head []).symm.trans (hmat.head.head [])
    simp only [Prod.mk.injEq, Except.ok.injEq, Option.some.injEq] at this
    exact this.1
  subst hxe
  exact ⟨h, body, m, h1, hm, h2, x1, x2, x3, hmat.data, fun hw => hmat.whole hw x4⟩

/-! ## Examples -/

namespace Wire

/-- A client's run: a POST with a chunked body and a trailer, its answer, and a GET. -/
def exAsk : List Act :=
  [exWrite (.req ⟨ascii "POST", ascii "/a", .h11, [(ascii "x", [ascii "v "]), (hTRAILER, [ascii "sum"])], none⟩ (some .unknown)) .pending,
   exWrite .pending (.frame (.data (ascii "ab") false)), exWrite .pending (.frame (.data (ascii "cde") false)),
   exWrite .pending (.frame (.trailers [(ascii "sum", [ascii "5"])])), .flush exFlushIn .pending,
   exRead (.msg (exIn 0 false true)) exNo, .flush exFlushIn .pending, exWrite (exSend [] none) .pending]

/-- The bytes it puts on the wire. -/
def exBytes : Bytes :=
  ascii ("POST /a HTTP/1.1\r\nx: v \r\ntrailer: sum\r\ntransfer-encoding: chunked\r\n\r\n2\r\nab\r\n3\r\ncde\r\n0\r\nsum: 5\r\n\r\n" ++ "GET / HTTP/1.1\r\n\r\n")

/-- A server that gets them in two pieces. -/
def exTwice : Fed RequestMsg := exFed [.data 80 ((exBytes.take 50).drop 1), .pending, .data (exBytes.getD 50 0) (exBytes.drop 51)]

/-- It reads what comes, wants the bodies, and answers. -/
def exHear : List FAct :=
  [0, 1].flatMap (fun k => List.replicate 3 (.act (exRead .pending exNo)) ++ [.act (.want k)] ++ List.replicate 6 (.act (exRead .pending exNo)) ++
    [.act (exWrite (exResp [] none) .pending), .act (.flush exFlushIn .pending)])

def exServer : HeadFn RequestMsg := serverHeads (refTokens 100) (fun _ => true) (fun _ => true) false

end Wire

example : wire ((exDisp true).run exEnv exP exAsk).conn = exBytes ∧ exTwice.inlet.rd.stream = exBytes ∧
    requests exEnv exP (exDisp true) exAsk = [(⟨ascii "POST", ascii "/a", .h11, [(ascii "x", [ascii "v "]), (hTRAILER, [ascii "sum"])], none⟩, some .unknown),
      (⟨mGET, ascii "/", .h11, [], none⟩, none)] ∧
    (messages (story exEnv exP (exDisp true) [] exAsk)).map (fun m => (m.data, m.trailerFields)) =
      [(ascii "abcde", some [(ascii "sum", ascii "5")]), ([], none)] ∧
    (exTwice.run exEnv parseBlock exServer exHear).got.map (fun r => (r.head.method, r.head.target, r.head.headers.getAll (ascii "x"))) =
      [(ascii "POST", ascii "/a", [ascii "v"]), (mGET, ascii "/", [])] ∧
    (exTwice.run exEnv parseBlock exServer exHear).got.map (fun r => (r.data, r.whole)) = [(ascii "abcde", true), ([], true)] ∧
    (exTwice.run exEnv parseBlock exServer exHear).got.map (fun r => r.trailers) = [some [(ascii "sum", ascii "5")], none] :=
  ⟨by decide +kernel, by decide +kernel, by decide +kernel, by decide +kernel, by decide +kernel, by decide +kernel, by decide +kernel⟩

/-- All that C67 assumes holds of this. -/
example : ∃ (h : ReqHead) (body : Option BodyLength) (m : Message), (requests exEnv exP (exDisp true) exAsk)[0]? = some (h, body) ∧ m.Of h body ∧ h.method = ascii "POST" ∧ m.data = ascii "abcde" := by
  have hq : requests exEnv exP (exDisp true) exAsk = [(⟨ascii "POST", ascii "/a", .h11, [(ascii "x", [ascii "v "]), (hTRAILER, [ascii "sum"])], none⟩, some .unknown),
      (⟨mGET, ascii "/", .h11, [], none⟩, none)] := by decide +kernel
  have hm : (messages (story exEnv exP (exDisp true) [] exAsk)).map (fun m => (m.head, m.framing, m.trailers, m.frames)) =
      [(ascii "POST /a HTTP/1.1\r\nx: v \r\ntrailer: sum\r\ntransfer-encoding: chunked\r\n\r\n", .body ⟨.chunked (some [ascii "sum"]), false⟩, true,
        [.data (ascii "ab") false, .data (ascii "cde") false, .trailers [(ascii "sum", [ascii "5"])]]),
       (ascii "GET / HTTP/1.1\r\n\r\n", .keepAlive, true, [])] := by decide +kernel
  obtain ⟨r, hr, h1, h2, h3⟩ : ∃ r, (exTwice.run exEnv parseBlock exServer exHear).got[0]? = some r ∧ r.head.method = ascii "POST" ∧ r.data = ascii "abcde" ∧ r.whole = true := by
    have : ((exTwice.run exEnv parseBlock exServer exHear).got.map (fun r => (r.head.method, r.data, r.whole)))[0]? = some (ascii "POST", ascii "abcde", true) := by
      decide +kernel
    rw [List.getElem?_map] at this
    cases hg : (exTwice.run exEnv parseBlock exServer exHear).got[0]? with
    | none => rw [hg] at this; cases this
    | some r => rw [hg] at this; simp only [Option.map_some, Option.some.injEq, Prod.mk.injEq] at this; exact ⟨r, rfl, this⟩
  have := C67_requests exEnv exEnv parseBlock exP parseBlock_reads (refTokens 100) (refTokens_stable 100) 100 (refTokens_reads 100) (fun _ => true) (fun _ => true) false
    (exDisp true) (exDisp_fresh true none) rfl exAsk
    (by
      rw [hq]
      intro q hq
      simp only [List.mem_cons, List.not_mem_nil, or_false] at hq
      rcases hq with rfl | rfl
      · refine ⟨⟨⟨⟨by decide +kernel, by decide +kernel⟩, by intro f hf; simp [HeaderMap.fields] at hf; rcases hf with rfl | rfl <;> exact ⟨⟨by decide, by decide +kernel, by decide +kernel⟩, by decide +kernel⟩⟩, by simp, by simp⟩, ⟨by decide, by decide +kernel, by decide, by decide +kernel, by decide, ⟨"/a", by decide +kernel⟩⟩,
          by unfold ShortNames; decide +kernel, ⟨⟨0, (by intro v hv; cases hv), by simp⟩, by intro v hv; cases hv⟩, .inr rfl, rfl, rfl⟩
      · refine ⟨⟨⟨⟨by decide +kernel, by decide +kernel⟩, by intro f hf; cases hf⟩, by simp, by simp⟩, ⟨by decide, by decide +kernel, by decide, by decide +kernel, by decide, ⟨"/", by decide +kernel⟩⟩,
          by unfold ShortNames; decide +kernel, ⟨⟨0, (by intro v hv; cases hv), by simp⟩, by intro v hv; cases hv⟩, .inr rfl, rfl, rfl⟩)
    exTwice (exDisp_start _ _) rfl
    (by
      intro m hmem
      have h := List.mem_map_of_mem (f := fun m : Message => (m.head, m.framing, m.trailers, m.frames)) hmem
      rw [hm] at h
      simp only [List.mem_cons, List.not_mem_nil, or_false, Prod.mk.injEq] at h
      rcases h with ⟨e1, e2, e3, e4⟩ | ⟨e1, e2, e3, e4⟩
      · refine ⟨by rw [e1]; decide +kernel, ?_, ?_, ?_⟩
        · intro e n h1 h2; rw [e2] at h1; cases h1; cases h2
        · rw [e4]; intro f hf bs e he; subst he; simp at hf; rcases hf with ⟨rfl, _⟩ | ⟨rfl, _⟩ <;> decide
        · rw [e4]
          intro t ht
          have : t = [(ascii "sum", [ascii "5"])] := by simpa [userTrailers] using ht.symm
          subst this
          exact ⟨⟨by decide +kernel, by decide +kernel⟩, by intro f hf; simp [HeaderMap.fields] at hf; rw [hf]; exact ⟨by decide, by decide +kernel, by decide +kernel⟩, by decide +kernel, by decide +kernel, by decide +kernel⟩
      · refine ⟨by rw [e1]; decide +kernel, ?_, ?_, ?_⟩
        · intro e n h1; rw [e2] at h1; cases h1
        · rw [e4]; intro f hf; cases hf
        · rw [e4]; intro t ht; cases ht)
    (by rw [show exTwice.inlet.rd.stream = exBytes from by decide +kernel, show wire ((exDisp true).run exEnv exP exAsk).conn = exBytes from by decide +kernel]
        exact List.prefix_refl _)
    exHear 0 r hr
  obtain ⟨h, body, m, g1, g2, g3, g4, _, _, _, g5⟩ := this
  exact ⟨h, body, m, g1, g3, g4.symm.trans h1, (g5 h3).1.symm.trans h2⟩

end Hyper
