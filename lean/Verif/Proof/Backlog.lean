import Verif.Spec.Backlog
import Verif.Proof.Wire

/-! # How much a step can add to what waits -/

namespace Hyper

namespace Backlog

open Wire

/-! ## The size of a frame -/

theorem titleCaseFrom_length : ∀ (l : Bytes) (p : Byte), (titleCaseFrom p l).length = l.length := by
  intro l
  induction l with
  | nil => intro p; rfl
  | cons c cs ih => intro p; simp only [titleCaseFrom, List.length_cons, ih]

theorem cost_fold (f : Bytes × Bytes → Bytes) (h : ∀ x, (f x).length = x.1.length + x.2.length + 4) (l : List (Bytes × Bytes)) :
    (l.flatMap f).length = (l.map fun x => x.1.length + x.2.length + 4).sum := by
  induction l with
  | nil => rfl
  | cons a l ih => simp only [List.flatMap_cons, List.length_append, h, ih, List.map_cons, List.sum_cons]

theorem writeHeaders_length (m : HeaderMap) : (writeHeaders m).length = fieldsCost m := by
  unfold writeHeaders fieldsCost
  apply cost_fold
  intro x
  have h1 : (ascii ": ").length = 2 := by decide +kernel
  have h2 : CRLF.length = 2 := by decide +kernel
  simp only [List.length_append, h1, h2]; omega

theorem writeHeadersTitleCase_length (m : HeaderMap) : (writeHeadersTitleCase m).length = fieldsCost m := by
  unfold writeHeadersTitleCase fieldsCost
  apply cost_fold
  intro x
  have h1 : (ascii ": ").length = 2 := by decide +kernel
  have h2 : CRLF.length = 2 := by decide +kernel
  simp only [List.length_append, h1, h2, titleCase, titleCaseFrom_length]; omega

theorem fieldsCost_cons (n : Bytes) (vs : List Bytes) (m : HeaderMap) :
    fieldsCost ((n, vs) :: m) = (vs.map fun v => n.length + v.length + 4).sum + fieldsCost m := by
  simp only [fieldsCost, HeaderMap.fields, List.flatMap_cons, List.map_append, List.sum_append, List.map_map, Function.comp_def]

theorem fieldsCost_append : ∀ (m : HeaderMap) (n v : Bytes), fieldsCost (m.append n v) = fieldsCost m + (n.length + v.length + 4) := by
  intro m
  induction m with
  | nil => intro n v; simp [HeaderMap.append, fieldsCost, HeaderMap.fields]
  | cons g m ih =>
    intro n v
    obtain ⟨n', vs⟩ := g
    rw [HeaderMap.append]
    split
    · rename_i e; subst e
      rw [fieldsCost_cons, fieldsCost_cons]; simp only [List.map_append, List.sum_append, List.map_cons, List.map_nil, List.sum_cons, List.sum_nil]; omega
    · rw [fieldsCost_cons, fieldsCost_cons, ih]; omega

/-- The cost of what is drained from a map. -/
def drainCost : Option Bytes → List (Option Bytes × Bytes) → Nat
  | _, [] => 0
  | cur, (o, v) :: r =>
    match o.or cur with
    | none => 0
    | some n => n.length + v.length + 4 + drainCost (some n) r

theorem filterTrailers_cost (allowed : List Bytes) : ∀ (l : List (Option Bytes × Bytes)) (cur : Option Bytes) (acc kept : HeaderMap),
    filterTrailers allowed cur acc l = some kept → fieldsCost kept ≤ fieldsCost acc + drainCost cur l := by
  intro l
  induction l with
  | nil => intro cur acc kept h; simp only [filterTrailers, Option.some.injEq] at h; subst h; exact Nat.le_add_right _ _
  | cons x l ih =>
    intro cur acc kept h
    obtain ⟨o, v⟩ := x
    rw [filterTrailers] at h
    rw [drainCost]
    cases ho : o.or cur with
    | none => rw [ho] at h; cases h
    | some n =>
      rw [ho] at h
      simp only at h ⊢
      have := ih _ _ _ h
      repeat' split at this
      all_goals (try rw [fieldsCost_append] at this)
      all_goals omega

theorem drainCost_group (n : Bytes) (rest : List (Option Bytes × Bytes)) : ∀ vs : List Bytes,
    drainCost (some n) (vs.map (fun v => (none, v)) ++ rest) = (vs.map fun v => n.length + v.length + 4).sum + drainCost (some n) rest := by
  intro vs
  induction vs with
  | nil => simp
  | cons v vs ih =>
    simp only [List.map_cons, List.cons_append, drainCost, Option.or, ih, List.sum_cons]; omega

theorem drainCost_drain : ∀ (m : HeaderMap) (cur : Option Bytes), drainCost cur m.drain = fieldsCost m := by
  intro m
  induction m with
  | nil => intro cur; rfl
  | cons g m ih =>
    intro cur
    obtain ⟨n, vs⟩ := g
    rw [fieldsCost_cons]
    cases vs with
    | nil =>
      simp only [HeaderMap.drain, List.flatMap_cons, List.nil_append, List.map_nil, List.sum_nil, Nat.zero_add]
      exact ih cur
    | cons v vs =>
      simp only [HeaderMap.drain, List.flatMap_cons, List.cons_append, drainCost, Option.or, List.map_cons, List.sum_cons]
      rw [drainCost_group]
      have := ih (some n)
      simp only [HeaderMap.drain] at this
      omega

theorem trailers_cost {e : Encoder} {m : HeaderMap} {t : Bool} {out : Bytes} (h : e.encodeTrailers m t = some out) : out.length ≤ 3 + fieldsCost m + 2 := by
  unfold Encoder.encodeTrailers at h
  split at h
  · rename_i allowed _
    split at h
    · cases h
    · rename_i kept hk
      have hc := filterTrailers_cost allowed _ _ _ _ hk
      rw [drainCost_drain] at hc
      have h0 : fieldsCost [] = 0 := rfl
      have h1 : (ascii "0\r\n").length = 3 := by decide +kernel
      have h2 : CRLF.length = 2 := by decide +kernel
      have hl : (if t = true then writeHeadersTitleCase kept else writeHeaders kept).length = fieldsCost kept := by
        split
        · exact writeHeadersTitleCase_length _
        · exact writeHeaders_length _
      generalize (if t = true then writeHeadersTitleCase kept else writeHeaders kept) = buf at h hl
      simp only at h
      by_cases hb : buf = []
      · rw [if_pos hb] at h; cases h
      · rw [if_neg hb] at h; cases h
        simp only [List.length_append, h1, h2, hl]; omega
  · cases h

theorem writeTrailers_cost (w : Writing) (a t : Bool) (m : HeaderMap) : (w.writeTrailers a t m).1.length ≤ frameCost (.trailers m) := by
  unfold Writing.writeTrailers
  repeat' split
  all_goals first
    | exact Nat.zero_le _
    | (rename_i h; exact trailers_cost h)

theorem writeBody_cost (w : Writing) (bs : Bytes) (f : Bool) : (w.writeBody bs).1.length ≤ frameCost (.data bs f) := by
  have h2 : CRLF.length = 2 := by decide +kernel
  unfold Writing.writeBody
  cases w with
  | body e =>
    obtain ⟨k, l⟩ := e
    simp only [Encoder.encode]
    cases k <;> simp only <;> (repeat' split) <;> simp only [frameCost, chunkSize, List.length_append, List.length_take, h2] <;> omega
  | _ => exact Nat.zero_le _

theorem writeBodyAndEnd_cost (w : Writing) (bs : Bytes) (f : Bool) : (w.writeBodyAndEnd bs).1.length ≤ frameCost (.data bs f) := by
  have h2 : CRLF.length = 2 := by decide +kernel
  have h3 : (ascii "\r\n0\r\n\r\n").length = 7 := by decide +kernel
  unfold Writing.writeBodyAndEnd
  cases w with
  | body e =>
    simp only [Encoder.encodeAndEnd]
    cases e.kind <;> simp only <;> (repeat' split) <;> simp only [frameCost, chunkSize, List.length_append, List.length_take, h2, h3] <;> omega
  | _ => exact Nat.zero_le _

theorem endBody_cost (w : Writing) : w.endBody.1.length ≤ 5 := by
  have h3 : (ascii "0\r\n\r\n").length = 5 := by decide +kernel
  unfold Writing.endBody
  cases w with
  | body e =>
    obtain ⟨k, l⟩ := e
    rcases k with t | n | _
    · simp only [Encoder.finish, Option.getD_some, h3]; omega
    · cases n <;> exact Nat.zero_le _
    · exact Nat.zero_le _
  | _ => exact Nat.zero_le _

/-! ## One act -/

/-- At most `n` bytes and `k` pieces more wait, and the limits are the same. -/
structure More (o o' : WriteSide Bytes) (n k : Nat) : Prop where
  ok : WBufOk (fun _ : Bytes => True) id o.wbuf → WBufOk (fun _ : Bytes => True) id o'.wbuf
  bytes : WBufOk (fun _ : Bytes => True) id o.wbuf → (Spec.waiting id o'.wbuf).length ≤ (Spec.waiting id o.wbuf).length + n
  count : o'.wbuf.queue.length ≤ o.wbuf.queue.length + k
  limit : o'.wbuf.maxBufSize = o.wbuf.maxBufSize
  pipeline : o'.flushPipeline = o.flushPipeline
  strategy : WBufOk (fun _ : Bytes => True) id o.wbuf → o'.wbuf.strategy = o.wbuf.strategy

abbrev Grow (c c' : Conn) (n k : Nat) : Prop := More c.out c'.out n k

theorem Grow.quiet {c c' : Conn} (q : Qc c c') : Grow c c' 0 0 :=
  ⟨fun h => (q.ok h).1, q.less, q.room.pieces, q.room.limit, q.pipeline, fun _ => q.strategy⟩

theorem Grow.then {c c' c'' : Conn} {n k : Nat} (h : Grow c c' n k) (q : Qc c' c'') : Grow c c'' n k :=
  ⟨fun x => (q.ok (h.ok x)).1, fun x => Nat.le_trans (q.less (h.ok x)) (h.bytes x), Nat.le_trans q.room.pieces h.count, q.room.limit.trans h.limit,
   q.pipeline.trans h.pipeline, fun x => q.strategy.trans (h.strategy x)⟩

theorem Grow.mono {c c' : Conn} {n k n' k' : Nat} (h : Grow c c' n k) (hn : n ≤ n') (hk : k ≤ k') : Grow c c' n' k' :=
  ⟨h.ok, fun x => Nat.le_trans (h.bytes x) (by omega), Nat.le_trans h.count (by omega), h.limit, h.pipeline, h.strategy⟩

theorem grow_put (c : Conn) (bs : Bytes) : Grow c (c.put bs) bs.length 1 := by
  refine ⟨fun h => (put_spec h bs).1, fun h => ?_, ?_, ?_, ?_, fun h => put_strategy h bs⟩
  · unfold Conn.put
    split
    · rename_i e; subst e; exact Nat.le_refl _
    · rename_i e
      obtain ⟨w', h1, h2, _, h3⟩ := buffer_spec bytesBuf_stands h true bs trivial e
      rw [h1]
      simp only [h3, id, List.length_append]; omega
  all_goals
    unfold Conn.put
    split
    · first | rfl | exact Nat.le_succ _
    · split
      · rename_i w hw
        unfold WriteBuf.buffer at hw
        split at hw
        · rename_i hs
          cases he : extendLoop bytesBuf (bytesBuf.remaining bs + 1) bs (c.out.wbuf.headers.maybeUnshift true).bytes with
          | none => simp only [he, Option.map_none, reduceCtorEq] at hw
          | some x =>
            simp only [he, Option.map_some, Option.some.injEq] at hw
            subst hw
            first | rfl | exact Nat.le_succ _
        · cases hw
          first
            | rfl
            | (simp only [BufList.push]; split <;> simp)
            | simp [BufList.push]
      · first | rfl | exact Nat.le_succ _

theorem grow_putHeaders (c : Conn) (bs : Bytes) : Grow c (c.putHeaders (c.out.wbuf.headers.bytes ++ bs)) bs.length 0 := by
  refine ⟨fun h => ⟨?_, h.queue, h.flat⟩, fun h => ?_, Nat.le_refl _, rfl, rfl, fun _ => rfl⟩
  · have := h.pos
    simp only [Conn.putHeaders, List.length_append]; omega
  · have := h.pos
    simp only [Spec.waiting, Conn.putHeaders, List.length_append, List.length_drop]; omega

/-- What an act does to what waits: it adds nothing, or one head, or, if there is room, a piece of body. -/
inductive Does (env : EncodeEnv) (d d' : Disp) (a : Act) : Prop where
  | quiet (g : Grow d.conn d'.conn 0 0)
  | head (ev : Ev) (evs : List Ev) (g : Grow d.conn d'.conn (headOf (pieceOf env d.conn a ev)).length 0) (hl : d'.conn.log = d.conn.log ++ evs)
      (ho : evs.filter isOut = [ev]) (hs : d.conn.writing = .init ∨ ∃ dd, d.conn.reading = .cont dd)
  | piece (g : Grow d.conn d'.conn (actCost a) 1) (hb : d.conn.canBufferBody = true)

theorem Does.refl (env : EncodeEnv) (d : Disp) (a : Act) : Does env d d a := .quiet (.quiet (.refl _))

theorem Does.then {env : EncodeEnv} {d d' d'' : Disp} {a : Act} (h : Does env d d' a) (q : Qd d' d'') : Does env d d'' a := by
  cases h with
  | quiet g => exact .quiet (g.then q.conn)
  | head ev evs g hl ho hs =>
    obtain ⟨x, x1, x2⟩ := q.conn.log
    exact .head ev (evs ++ x) (g.then q.conn) (by rw [x1, hl, List.append_assoc]) (by rw [List.filter_append, ho, x2]; rfl) hs
  | piece g hb => exact .piece (g.then q.conn) hb

theorem does_quiet {env : EncodeEnv} {d d' : Disp} {a : Act} (q : Qd d d') : Does env d d' a := .quiet (.quiet q.conn)

/-- A response head. -/
theorem grow_resp (env : EncodeEnv) (c : Conn) (m : RespOut) (ev : Bool → Ev) (e : Ev) (b : Bool) :
    Grow c { c.writeResp env m ev with error := b } (respMessage env c m e).head.length 0 := by
  have hr : c.respEnc env m = (c.out.wbuf.headers.bytes ++ (serverEncode env (c.respMsg m).2 []).1, (serverEncode env (c.respMsg m).2 []).2) :=
    serverEncode_pre env _ _
  have ho : ({ c.writeResp env m ev with error := b } : Conn).out = (c.putHeaders (c.out.wbuf.headers.bytes ++ (serverEncode env (c.respMsg m).2 []).1)).out := by
    show (c.putHeaders (c.respEnc env m).1).out = _
    rw [hr]
  show More c.out _ _ _
  rw [ho]
  exact grow_putHeaders c _

theorem writeResp_log (env : EncodeEnv) (c : Conn) (m : RespOut) (ev : Bool → Ev) (he : ∀ b, isOut (ev b) = true) :
    ∃ b evs, (c.writeResp env m ev).log = c.log ++ evs ∧ evs.filter isOut = [ev b] := by
  refine ⟨(c.respEnc env m).2.isLast || (c.respMsg m).1 == KA.disabled, ?_⟩
  exact head_log (c := c) (c' := { c.putHeaders (c.respEnc env m).1 with
      ka := (c.respMsg m).1, error := c.error || !(c.respEnc env m).2.isOk,
      log := c.log ++ [ev ((c.respEnc env m).2.isLast || (c.respMsg m).1 == KA.disabled)] }) (Writing.ofHead (c.respEnc env m).2) rfl (he _)

theorem grow_req (c : Conn) (q : ReqHead) (body : Option BodyLength) (n : Nat) (ev : Ev) :
    Grow c (c.writeReq q body n) (reqMessage c q body ev).head.length 0 := by
  have hr : (c.reqEnc q body).1 = c.out.wbuf.headers.bytes ++ (reqMessage c q body ev).head := by
    unfold Conn.reqEnc reqMessage
    rw [clientEncode_pre]
    cases clientEncode c.titleCase (connReq c.version c.ka q).2 body [] with
    | none => simp
    | some r => simp
  show More c.out (c.putHeaders (c.reqEnc q body).1).out _ _
  rw [hr]
  exact grow_putHeaders c _

theorem writeReq_log (c : Conn) (q : ReqHead) (body : Option BodyLength) (n : Nat) :
    ∃ b evs, (c.writeReq q body n).log = c.log ++ evs ∧ evs.filter isOut = [.writeHead n b] := by
  refine ⟨(c.reqEnc q body).2.isLast || (connReq c.version c.ka q).1 == KA.disabled, ?_⟩
  exact head_log (c := c) (c' := { c.putHeaders (c.reqEnc q body).1 with
        ka := (connReq c.version c.ka q).1, method := some q.method, error := c.error || !(c.reqEnc q body).2.isOk,
        log := c.log ++ [Ev.writeHead n ((c.reqEnc q body).2.isLast || (connReq c.version c.ka q).1 == KA.disabled)] })
        (Writing.ofHead (c.reqEnc q body).2) rfl rfl

theorem does_writeHead (env : EncodeEnv) (d : Disp) (i : WriteIn) (hi : d.conn.writing = .init) : Does env d (d.writeHead env i.msg) (.write i) := by
  rcases i with ⟨m, fr, fl, nt⟩
  cases m with
  | pending => exact .refl _ _ _
  | none =>
    simp only [Disp.writeHead]; split
    · exact does_quiet (qd_close _)
    · exact .refl _ _ _
  | err =>
    simp only [Disp.writeHead]; split
    · exact .refl _ _ _
    · exact does_quiet (qd_fail _)
  | resp m =>
    simp only [Disp.writeHead]
    split
    · exact .refl _ _ _
    · obtain ⟨b, evs, l1, l2⟩ := writeResp_log env d.conn m (Ev.writeHead (d.inFlight.getD d.next)) (fun _ => rfl)
      exact .head (.writeHead (d.inFlight.getD d.next) b) evs (grow_resp env d.conn m _ _ _) l1 l2 (.inl hi)
  | req q body =>
    simp only [Disp.writeHead]
    split
    · obtain ⟨b, evs, l1, l2⟩ := writeReq_log d.conn q body d.next
      exact .head (.writeHead d.next b) evs (grow_req d.conn q body d.next _) l1 l2 (.inl hi)
    · exact .refl _ _ _

theorem grow_setWriting {c c' : Conn} {n k : Nat} (h : Grow c c' n k) (w : Writing) : Grow c (c'.setWriting w) n k := h

theorem grow_endBody (d : Disp) : Grow d.conn d.endBody.conn 5 1 := by
  have h : Grow d.conn d.conn.endBody.2 5 1 := (grow_put d.conn d.conn.writing.endBody.1).mono (endBody_cost _) (Nat.le_refl _)
  unfold Disp.endBody
  simp only
  split
  · rw [Poll.out_fail]; exact h
  · exact h

theorem five_le (m : MsgOut) (fr : FrameIn) (fl : FlushIn) (nt : NotifyIn) : 5 ≤ actCost (.write ⟨m, fr, fl, nt⟩) := by
  cases fr <;> simp only [actCost] <;> omega

theorem grow_writeFrame (d : Disp) (m : MsgOut) (fr : FrameIn) (fl : FlushIn) (nt : NotifyIn) :
    Grow d.conn (d.writeFrame fr).conn (actCost (.write ⟨m, fr, fl, nt⟩)) 1 := by
  have h0 : ∀ c, Qc d.conn c → Grow d.conn c (actCost (.write ⟨m, fr, fl, nt⟩)) 1 := fun c q => (Grow.quiet q).mono (Nat.zero_le _) (Nat.zero_le _)
  have h5 := five_le m fr fl nt
  have he : Grow d.conn ({ d with bodyRx := false }.endBody).conn (actCost (.write ⟨m, fr, fl, nt⟩)) 1 :=
    (grow_endBody { d with bodyRx := false }).mono h5 (Nat.le_refl _)
  cases fr with
  | pending => exact h0 _ (.refl _)
  | eof => exact he
  | frame f =>
    have hf : frameCost f ≤ actCost (.write ⟨m, .frame f, fl, nt⟩) := by simp only [actCost]; omega
    cases f with
    | data bs e =>
      cases e with
      | true =>
        simp only [Disp.writeFrame]; split
        · exact he
        · exact (grow_put d.conn _).mono (Nat.le_trans (writeBodyAndEnd_cost _ _ true) hf) (Nat.le_refl _)
      | false =>
        simp only [Disp.writeFrame]; split
        · exact h0 _ (.refl _)
        · exact (grow_put d.conn _).mono (Nat.le_trans (writeBody_cost _ _ false) hf) (Nat.le_refl _)
    | trailers t => exact (grow_put d.conn _).mono (Nat.le_trans (writeTrailers_cost _ _ _ t) hf) (Nat.le_refl _)
    | unknown => exact h0 _ (.refl _)
    | error => exact h0 _ (qd_fail { d with bodyRx := false }).conn

theorem does_write (env : EncodeEnv) (d : Disp) (i : WriteIn) : Does env d (d.writeTurn env i) (.write i) := by
  rcases i with ⟨m, fr, fl, nt⟩
  unfold Disp.writeTurn
  split
  · exact .refl _ _ _
  split
  · rename_i hh
    simp only [Conn.canWriteHead, Bool.and_eq_true, beq_iff_eq] at hh
    exact does_writeHead env d ⟨m, fr, fl, nt⟩ (by simp_all)
  split
  · exact does_quiet (qd_flushTurn _ _ _)
  · rename_i hb
    have hb : d.conn.canBufferBody = true := by simpa using hb
    split
    · split
      · exact .piece (grow_writeFrame d m fr fl nt) hb
      · exact .quiet (.quiet (.refl _))
    · split
      · exact .piece ((grow_endBody d).mono (five_le m fr fl nt) (Nat.le_refl _)) hb
      · exact .refl _ _ _

theorem does_readHead (env : EncodeEnv) (d : Disp) (i : ReadIn) (hi : d.conn.client = false → d.conn.writing = .init) :
    Does env d (d.readHeadReady env i) (.read i) := by
  unfold Disp.readHeadReady
  rcases pollReadHead_cases env d.conn i.t0 i.t1 i.parse i.notify d.headId hi with q | ⟨e, rest, h2, status, hp, hs, hcl, hw, hc⟩
  · exact (does_quiet (Qd.conn_only d q)).then (qd_afterHead _ _)
  · rw [hc]
    obtain ⟨k1, k2, k3, k4, k5⟩ := startTimer_keep' d.conn i.t0
    obtain ⟨b, evs, l1, l2⟩ := writeResp_log env (d.conn.startTimer i.t0).closeRead (Conn.errorResp status) (fun _ => .errorHead) (fun _ => rfl)
    have he : pieceOf env d.conn (.read i) .errorHead = .message (respMessage env (d.conn.startTimer i.t0).closeRead (Conn.errorResp status) .errorHead) := by
      simp only [pieceOf, hp, errMessage, hs, Option.getD_some, respMessage, startTimer_respMsg]
      simp only [Conn.closeRead, k3, k4, k5]
    refine .head .errorHead evs ?_ (by rw [← k2]; exact l1) l2 (.inl hw)
    rw [he]
    show More d.conn.out _ _ _
    rw [← k1]
    exact grow_resp env (d.conn.startTimer i.t0).closeRead (Conn.errorResp status) _ .errorHead true

theorem does_pollReadBody (env : EncodeEnv) (P : TrailerParser) (d : Disp) (i : ReadIn) :
    Does env d { d with conn := (d.conn.pollReadBody P i.rd i.notify).2 } (.read i) := by
  unfold Conn.pollReadBody
  split
  · exact does_quiet (.conn_only d (qc_decodeBody ..))
  · rename_i dd hr
    refine Does.then (d' := { d with conn := d.conn.sendContinue }) ?_ (Qd.conn_only { d with conn := d.conn.sendContinue } (qc_decodeBody ..))
    unfold Conn.sendContinue
    split
    · exact .head .continue100 [.continue100] (grow_putHeaders d.conn Conn.continueLine) rfl rfl (.inr ⟨dd, hr⟩)
    · exact .refl _ _ _
  · exact .refl _ _ _

theorem does_readTurn (env : EncodeEnv) (P : TrailerParser) (d : Disp) (hv : Poll.CI d) (i : ReadIn) : Does env d (d.readTurn env P i) (.read i) := by
  unfold Disp.readTurn
  split
  · exact .refl _ _ _
  · split
    · rename_i hr
      have hrd : d.conn.reading = .init := by
        simp only [Conn.canReadHead, Bool.and_eq_true, beq_iff_eq] at hr; exact hr.1
      have hx := does_readHead env d i (fun hc => hv.init hc hrd)
      unfold Disp.readHead
      repeat' split
      all_goals first
        | exact hx
        | exact .refl _ _ _
        | exact does_quiet (qd_close _)
    · split
      · rename_i k _
        unfold Disp.readBody
        repeat' split
        · exact .refl _ _ _
        · exact ((does_pollReadBody env P d i).then (qd_maybeLose _ _ _)).then (qd_afterPiece _ _ _ _)
        · exact .refl _ _ _
        · exact does_quiet ⟨qc_drain .., fun _ => rfl, id⟩
        · exact does_quiet ⟨.refl _, fun _ => rfl, id⟩
      · have hq := Qd.conn_only d (qc_keepAlive d.conn i.bufEmpty i.io)
        unfold Disp.readIdle
        simp only
        split
        · exact does_quiet (hq.trans (qd_fail _))
        · exact does_quiet hq

theorem step_does (env : EncodeEnv) (P : TrailerParser) (d : Disp) (hv : Poll.VI d.view) (a : Act) : Does env d (d.step env P a) a := by
  cases a with
  | write i =>
    cases hd : d.done with
    | true => simp only [Disp.step, hd, if_true]; exact .refl _ _ _
    | false => simp only [Disp.step, hd, Bool.false_eq_true, if_false]; exact does_write env d i
  | read i =>
    cases hd : d.done with
    | true => simp only [Disp.step, hd, if_true]; exact .refl _ _ _
    | false => simp only [Disp.step, hd, Bool.false_eq_true, if_false]; exact does_readTurn env P d (Poll.ci_of_view hd hv) i
  | _ => exact does_quiet (qd_other env P d _ (by intro i h; cases h) (by intro i h; cases h))

/-! ## Runs -/

theorem canBuffer_room {c : Conn} (h : BufOk c) (hp : c.out.flushPipeline = false) (hb : c.canBufferBody = true) :
    held c < c.out.wbuf.maxBufSize ∧ pieces c < 16 := by
  have hr := wbuf_remaining bytesBuf_stands h
  unfold WriteBuf.remaining at hr
  simp only [Conn.canBufferBody, hp, Bool.false_or, WriteBuf.canBuffer] at hb
  split at hb
  · rename_i hs
    have hq := h.flat hs
    simp only [decide_eq_true_eq] at hb
    exact ⟨by unfold held; omega, by simp [pieces, hq]⟩
  · rw [Bool.and_eq_true, decide_eq_true_eq, decide_eq_true_eq] at hb
    exact ⟨by unfold held; omega, hb.1⟩

/-- What holds after any number of acts. -/
structure Bounded (limit p h : Nat) (d : Disp) : Prop where
  vi : Poll.VI d.view
  ok : BufOk d.conn
  same : d.conn.out.wbuf.maxBufSize = limit
  pipeline : d.conn.out.flushPipeline = false
  bytes : held d.conn ≤ h + limit + p
  count : pieces d.conn ≤ 16

theorem Bounded.step (env : EncodeEnv) (P : TrailerParser) {limit p h : Nat} {d : Disp} (b : Bounded limit p h d) (a : Act) (ha : actCost a ≤ p) :
    Bounded limit p (if held (d.step env P a).conn = 0 then 0 else h + headBytes env P d a) (d.step env P a) := by
  obtain ⟨vi, ok, lim, pip, by', cnt⟩ := b
  have hvi := Poll.vi_run env P [a] vi
  cases step_does env P d vi a with
  | quiet g =>
    have := g.bytes ok
    refine ⟨hvi, g.ok ok, g.limit.trans lim, g.pipeline.trans pip, ?_, Nat.le_trans g.count cnt⟩
    unfold held at *
    split <;> omega
  | head ev evs g hl ho _ =>
    have := g.bytes ok
    have hh : headBytes env P d a = (headOf (pieceOf env d.conn a ev)).length := by
      unfold headBytes
      rw [hl, List.drop_left, ho]; simp
    refine ⟨hvi, g.ok ok, g.limit.trans lim, g.pipeline.trans pip, ?_, Nat.le_trans g.count cnt⟩
    rw [hh]
    unfold held at *
    split <;> omega
  | piece g hb =>
    obtain ⟨r1, r2⟩ := canBuffer_room ok pip hb
    have := g.bytes ok
    have := g.count
    refine ⟨hvi, g.ok ok, g.limit.trans lim, g.pipeline.trans pip, ?_, ?_⟩
    · unfold held at *
      split <;> omega
    · unfold pieces at *
      omega

theorem Bounded.run (env : EncodeEnv) (P : TrailerParser) {limit p : Nat} : ∀ (as : List Act) {h : Nat} {d : Disp}, Bounded limit p h d → (∀ a ∈ as, actCost a ≤ p) →
    Bounded limit p (heads env P d h as) (d.run env P as) := by
  intro as
  induction as with
  | nil => intro h d b _; exact b
  | cons a as ih =>
    intro h d b ha
    exact ih (b.step env P a (ha a List.mem_cons_self)) (fun x hx => ha x (List.mem_cons_of_mem _ hx))

/-! ## Requests without bodies -/

/-- No body is being read. -/
def Unread (c : Conn) : Prop := ∀ dd, c.reading ≠ .body dd ∧ c.reading ≠ .cont dd

/-- A server that is ready to write a head holds nothing. -/
structure Neat (d : Disp) : Prop where
  client : d.conn.client = false
  reading : Unread d.conn
  empty : d.conn.writing = .init → held d.conn = 0

/-- What most of the code does. -/
structure Keeps (d d' : Disp) : Prop where
  q : Qd d d'
  writing : d'.conn.writing = .init → d.conn.writing = .init
  reading : Unread d.conn → Unread d'.conn

theorem Keeps.refl (d : Disp) : Keeps d d := ⟨.refl _, id, id⟩

theorem Keeps.trans {a b c : Disp} (h : Keeps a b) (k : Keeps b c) : Keeps a c :=
  ⟨h.q.trans k.q, fun x => h.writing (k.writing x), fun x => k.reading (h.reading x)⟩

theorem Neat.keeps {d d' : Disp} (h : Neat d) (ok : BufOk d.conn) (k : Keeps d d') : Neat d' := by
  refine ⟨k.q.conn.client.trans h.client, k.reading h.reading, fun x => ?_⟩
  have a := h.empty (k.writing x)
  have b := k.q.conn.less ok
  unfold held at *
  omega

theorem unread_closed {c : Conn} (h : c.reading = .closed) : Unread c := by intro dd; rw [h]; exact ⟨by simp, by simp⟩
theorem unread_ka {c : Conn} (h : c.reading = .keepAlive) : Unread c := by intro dd; rw [h]; exact ⟨by simp, by simp⟩

theorem keeps_conn (d : Disp) {c : Conn} (q : Qc d.conn c) (hw : c.writing = d.conn.writing ∨ c.writing = .closed)
    (hr : c.reading = d.conn.reading ∨ c.reading = .closed) : Keeps d { d with conn := c } := by
  refine ⟨.conn_only d q, fun x => ?_, fun x => ?_⟩
  · rcases hw with e | e
    · rw [← e]; exact x
    · have : c.writing = .init := x
      rw [e] at this; cases this
  · rcases hr with e | e
    · intro dd; rw [show ({ d with conn := c } : Disp).conn.reading = d.conn.reading from e]; exact x dd
    · exact unread_closed e

theorem keeps_fail (d : Disp) : Keeps d d.fail :=
  ⟨qd_fail d, by rw [Poll.out_fail]; exact id, by rw [Poll.out_fail]; exact id⟩

theorem keeps_close (d : Disp) : Keeps d d.close := ⟨qd_close d, fun x => (by cases x), fun _ => unread_closed rfl⟩

theorem out_tryKeepAlive (c : Conn) (i : NotifyIn) : (c.tryKeepAlive i).out = c.out := by
  have h1 : c.stateKeepAlive.out = c.out := by
    unfold Conn.stateKeepAlive
    repeat' split
    all_goals rfl
  have hx : (c.stateKeepAlive.notifyFrom i).out = c.out := by
    rw [← h1]
    unfold Conn.notifyFrom
    cases i with
    | eof => dsimp only; split <;> rfl
    | _ => rfl
  unfold Conn.tryKeepAlive Conn.maybeNotify
  repeat' split
  all_goals first | exact hx | exact h1

theorem unread_tryKeepAlive (c : Conn) (i : NotifyIn) (h : Unread c) : Unread (c.tryKeepAlive i) := by
  have h1 : Unread c.stateKeepAlive := by
    unfold Conn.stateKeepAlive
    repeat' split
    all_goals first
      | exact h
      | exact unread_closed rfl
      | (intro dd; constructor <;> (intro x; cases x))
  have hx : Unread (c.stateKeepAlive.notifyFrom i) := by
    unfold Conn.notifyFrom
    cases i with
    | blocked => exact h1
    | pending => exact h1
    | bytes => exact h1
    | eof => dsimp only; split <;> exact unread_closed rfl
    | error => exact unread_closed rfl
  unfold Conn.tryKeepAlive Conn.maybeNotify
  repeat' split
  all_goals first | exact hx | exact h1

/-- Flushing. -/
theorem Neat.flush {d : Disp} (h : Neat d) (ok : BufOk d.conn) (hp : d.conn.out.flushPipeline = false) (f : FlushIn) (i : NotifyIn) : Neat (d.flushTurn f i) := by
  have hq := qc_pollFlush d.conn f i
  have hn : ∀ d' : Disp, d'.conn = (d.conn.pollFlush f i).2 → Neat d' := by
    intro d' e
    obtain ⟨fo, hz, _⟩ := pollFlush_ok bytesBuf_stands (d.conn.scripted f) ok f.readBuf
    have hl := hq.less ok
    refine ⟨by rw [e, hq.client]; exact h.client, ?_, ?_⟩
    · rw [e]
      unfold Conn.pollFlush
      simp only
      split
      · exact unread_tryKeepAlive _ i h.reading
      · exact h.reading
    · rw [e]
      intro hw
      unfold held
      by_cases hr : ((d.conn.scripted f).pollFlush bytesBuf f.readBuf).1 = .ok
      · have ho : (d.conn.pollFlush f i).2.out = ((d.conn.scripted f).pollFlush bytesBuf f.readBuf).2 := by
          unfold Conn.pollFlush
          simp only [hr, if_true]
          exact out_tryKeepAlive _ _
        rw [ho, hz hr (by intro x; have : d.conn.out.flushPipeline = true := x.1; rw [hp] at this; cases this)]; rfl
      · have hc : (d.conn.pollFlush f i).2.writing = d.conn.writing := by
          unfold Conn.pollFlush
          simp only [hr, if_false]
        rw [hc] at hw
        have := h.empty hw
        unfold held at this
        omega
  unfold Disp.flushTurn
  simp only
  split
  · exact hn _ rfl
  · exact (hn { d with conn := (d.conn.pollFlush f i).2 } rfl).keeps (hq.ok ok).1 (keeps_fail _)

theorem put_states (c : Conn) (bs : Bytes) : (c.put bs).writing = c.writing ∧ (c.put bs).reading = c.reading ∧ (c.put bs).client = c.client := by
  unfold Conn.put; repeat' split
  all_goals exact ⟨rfl, rfl, rfl⟩

theorem setWriting_reading (c : Conn) (w : Writing) : (c.setWriting w).reading = c.reading ∧ (c.setWriting w).client = c.client ∧ (c.setWriting w).writing = w := by
  unfold Conn.setWriting; exact ⟨rfl, rfl, rfl⟩

theorem body_not_init {e : Encoder} (bs : Bytes) (a t : Bool) (m : HeaderMap) :
    (Writing.writeBody (.body e) bs).2 ≠ .init ∧ (Writing.writeBodyAndEnd (.body e) bs).2 ≠ .init ∧ (Writing.writeTrailers (.body e) a t m).2 ≠ .init ∧
    (Writing.endBody (.body e)).2.1 ≠ .init := by
  refine ⟨?_, ?_, ?_, ?_⟩
  · simp only [Writing.writeBody, Writing.afterBody]; repeat' split
    all_goals simp
  · simp only [Writing.writeBodyAndEnd]; repeat' split
    all_goals simp
  · simp only [Writing.writeTrailers, Writing.afterBody]; repeat' split
    all_goals simp
  · simp only [Writing.endBody, Writing.afterBody]; repeat' split
    all_goals simp

theorem Neat.put {d d' : Disp} (h : Neat d) (bs : Bytes) (w : Writing) (hw : w ≠ .init) (hd : d'.conn = (d.conn.put bs).setWriting w) : Neat d' := by
  obtain ⟨p1, p2, p3⟩ := put_states d.conn bs
  obtain ⟨s1, s2, s3⟩ := setWriting_reading (d.conn.put bs) w
  refine ⟨by rw [hd, s2, p3]; exact h.client, ?_, fun x => ?_⟩
  · intro dd; rw [hd, s1, p2]; exact h.reading dd
  · rw [hd, s3] at x; exact absurd x hw

theorem Neat.endBody {d : Disp} (h : Neat d) {e : Encoder} (hb : d.conn.writing = .body e) : Neat d.endBody := by
  have hn := (body_not_init (e := e) [] false false []).2.2.2
  have h1 : Neat { d with conn := d.conn.endBody.2 } := by
    refine h.put d.conn.writing.endBody.1 d.conn.writing.endBody.2.1 (by rw [hb]; exact hn) rfl
  unfold Disp.endBody
  simp only
  split
  · refine ⟨?_, ?_, ?_⟩ <;> rw [Poll.out_fail]
    · exact h1.client
    · exact h1.reading
    · exact h1.empty
  · exact h1

theorem Neat.fail {d : Disp} (h : Neat d) : Neat d.fail := by
  refine ⟨?_, ?_, ?_⟩ <;> rw [Poll.out_fail]
  · exact h.client
  · exact h.reading
  · exact h.empty

theorem Neat.rx {d : Disp} (h : Neat d) (b : Bool) : Neat { d with bodyRx := b } := ⟨h.client, h.reading, h.empty⟩

theorem Neat.frame {d : Disp} (h : Neat d) {e : Encoder} (hb : d.conn.writing = .body e) (f : FrameIn) : Neat (d.writeFrame f) := by
  have hn := fun bs a t m => body_not_init (e := e) bs a t m
  cases f with
  | pending => exact h
  | eof => exact (h.rx false).endBody hb
  | frame f =>
    cases f with
    | data bs l =>
      cases l with
      | true =>
        simp only [Disp.writeFrame]; split
        · exact (h.rx false).endBody hb
        · exact h.put _ _ (by rw [hb]; exact (hn bs false false []).2.1) rfl
      | false =>
        simp only [Disp.writeFrame]; split
        · exact h
        · exact h.put _ _ (by rw [hb]; exact (hn bs false false []).1) rfl
    | trailers t => exact h.put _ _ (by rw [hb]; exact (hn [] _ _ t).2.2.1) rfl
    | unknown => exact h
    | error => exact (h.rx false).fail

theorem Neat.write (env : EncodeEnv) {d : Disp} (h : Neat d) (ok : BufOk d.conn) (hp : d.conn.out.flushPipeline = false) (i : WriteIn) : Neat (d.writeTurn env i) := by
  unfold Disp.writeTurn
  split
  · exact h
  split
  · unfold Disp.writeHead
    split
    · exact h
    · split
      · exact h.keeps ok (keeps_close d)
      · exact h
    · split
      · exact h
      · exact h.fail
    · split
      · exact h
      · exact ⟨h.client, h.reading, fun x => absurd x (ofHead_init _)⟩
    · split
      · rename_i x; rw [h.client] at x; cases x
      · exact h
  split
  · exact h.flush ok hp _ _
  split
  · split
    · rename_i hb
      obtain ⟨e, he⟩ := canWriteBody_iff.1 hb
      exact h.frame he _
    · exact h.rx false
  · split
    · rename_i hb
      obtain ⟨e, he⟩ := canWriteBody_iff.1 hb
      exact h.endBody he
    · exact h

theorem recvHead_same (d : Disp) (m : MsgIn) :
    (d.recvHead m).conn.writing = d.conn.writing ∧ (d.recvHead m).conn.reading = d.conn.reading ∧ (d.recvHead m).conn.out = d.conn.out := by
  have en : (d.newBody m).conn = d.conn := by unfold Disp.newBody; split <;> rfl
  unfold Disp.recvHead
  simp only
  repeat' split
  · simp only [en]; exact ⟨trivial, trivial, trivial⟩
  · rw [Poll.out_fail]; simp only [en]; exact ⟨trivial, trivial, trivial⟩
  · simp only [en]; exact ⟨trivial, trivial, trivial⟩

theorem recvErr_out (d : Disp) : d.recvErr.conn.out = d.conn.out := by
  unfold Disp.recvErr
  repeat' split
  · rfl
  · rw [Poll.out_fail]
  · rw [Poll.out_fail]

theorem afterHead_out (d : Disp) (o : HeadOut) : (d.afterHead o).conn.out = d.conn.out := by
  unfold Disp.afterHead
  repeat' split
  all_goals first
    | exact (recvHead_same _ _).2.2
    | exact recvErr_out _
    | rfl

theorem keeps_recvHead (d : Disp) (m : MsgIn) : Keeps d (d.recvHead m) := by
  obtain ⟨a, b, _⟩ := recvHead_same d m
  exact ⟨qd_recvHead d m, by rw [a]; exact id, fun x dd => by rw [b]; exact x dd⟩

theorem keeps_recvErr (d : Disp) : Keeps d d.recvErr := by
  refine ⟨qd_recvErr d, ?_, ?_⟩
  · unfold Disp.recvErr
    repeat' split
    · intro x; cases x
    · rw [Poll.out_fail]; exact id
    · rw [Poll.out_fail]; exact id
  · unfold Disp.recvErr
    repeat' split
    · exact fun _ => unread_closed rfl
    · rw [Poll.out_fail]; exact id
    · rw [Poll.out_fail]; exact id

theorem keeps_afterHead (d : Disp) (o : HeadOut) : Keeps d (d.afterHead o) := by
  unfold Disp.afterHead
  repeat' split
  all_goals first
    | exact .refl _
    | exact keeps_recvHead _ _
    | exact keeps_recvErr _
    | exact keeps_close _

theorem Neat.readHead (env : EncodeEnv) {d : Disp} (h : Neat d) (i : ReadIn) (hb : bodyless (.read i) = true) :
    Neat (d.readHeadReady env i) := by
  unfold Disp.readHeadReady
  have hs : ∀ x : Conn, (x = d.conn.startTimer i.t0) → x.out = d.conn.out ∧ x.writing = d.conn.writing ∧ x.reading = d.conn.reading ∧ x.client = d.conn.client := by
    intro x e; rw [e]; unfold Conn.startTimer; repeat' split
    all_goals exact ⟨rfl, rfl, rfl, rfl⟩
  have hn : Neat { d with conn := (d.conn.pollReadHead env i.t0 i.t1 i.parse i.notify d.headId).2 } := by
    obtain ⟨s1, s2, s3, s4⟩ := hs _ rfl
    rcases i with ⟨_, t0, t1, pa, nt, _, _, _, _, _⟩
    cases pa with
    | pending =>
      simp only [Conn.pollReadHead]
      split
      all_goals
        refine ⟨s4.trans h.client, fun dd => ?_, fun x => ?_⟩
        · have := h.reading dd; rw [← s3] at this; exact this
        · have hx : (d.conn.startTimer t0).writing = .init := x
          rw [s2] at hx
          have := h.empty hx
          unfold held at *
          rw [← s1] at this; exact this
    | msg m =>
      have hz : m.decode = DecodedLength.ZERO := by simpa [bodyless] using hb
      simp only [Conn.pollReadHead, Conn.acceptHead, hz, if_true]
      rw [if_neg (by rw [s4, h.client]; simp)]
      refine ⟨s4.trans h.client, unread_ka rfl, fun x => ?_⟩
      have hx : (d.conn.startTimer t0).writing = .init := x
      rw [s2] at hx
      have := h.empty hx
      unfold held at *
      rw [← s1] at this; exact this
    | error e rest h2 =>
      have hcl : ∀ c : Conn, c.client = false → c.reading = .closed → (c.writing = .init → held c = 0) → Neat { d with conn := c } := fun c a b g => ⟨a, unread_closed b, g⟩
      have hh : (d.conn.startTimer t0).closeRead.writing = .init → held (d.conn.startTimer t0).closeRead = 0 := by
        intro hx
        have hx : (d.conn.startTimer t0).writing = .init := hx
        rw [s2] at hx
        have := h.empty hx
        unfold held at *
        rw [← s1] at this; exact this
      simp only [Conn.pollReadHead, Conn.onReadHeadError, Conn.onParseError]
      repeat' split
      · exact hcl _ (s4.trans h.client) rfl hh
      · exact hcl _ (s4.trans h.client) rfl (fun x => absurd x (ofHead_init _))
      · exact hcl _ (s4.trans h.client) rfl hh
      · exact hcl _ (s4.trans h.client) rfl hh
      · exact hcl _ (s4.trans h.client) rfl (fun x => by cases x)
  refine ⟨?_, ?_, ?_⟩
  · exact (keeps_afterHead _ _).q.conn.client.trans hn.client
  · exact (keeps_afterHead _ _).reading hn.reading
  · intro x
    have a := hn.empty ((keeps_afterHead _ _).writing x)
    -- what waits is what waited
    unfold held at *
    rw [afterHead_out]; exact a

theorem Neat.read (env : EncodeEnv) (P : TrailerParser) {d : Disp} (h : Neat d) (ok : BufOk d.conn) (i : ReadIn) (hb : bodyless (.read i) = true) :
    Neat (d.readTurn env P i) := by
  unfold Disp.readTurn
  split
  · exact h
  · split
    · have hx := h.readHead env i hb
      unfold Disp.readHead
      repeat' split
      all_goals first
        | exact hx
        | exact h
        | exact h.keeps ok (keeps_close _)
    · split
      · rename_i k _
        have hcan : d.conn.canReadBody = false := by
          unfold Conn.canReadBody
          split
          · rename_i dd e; exact absurd e (h.reading dd).1
          · rename_i dd e; exact absurd e (h.reading dd).2
          · rfl
        unfold Disp.readBody
        rw [if_neg (by rw [hcan]; simp)]
        exact ⟨h.client, h.reading, h.empty⟩
      · have hq : Keeps d { d with conn := (d.conn.pollReadKeepAlive i.bufEmpty i.io).2 } := by
          refine keeps_conn d (qc_keepAlive ..) ?_ ?_
          · unfold Conn.pollReadKeepAlive Conn.requireEmpty Conn.midMessageEof
            repeat' split
            all_goals first | exact .inl rfl | exact .inr rfl
          · unfold Conn.pollReadKeepAlive Conn.requireEmpty Conn.midMessageEof
            repeat' split
            all_goals first | exact .inl rfl | exact .inr rfl
        unfold Disp.readIdle
        simp only
        split
        · exact (h.keeps ok hq).fail
        · exact h.keeps ok hq

theorem Neat.step (env : EncodeEnv) (P : TrailerParser) {d : Disp} (h : Neat d) (ok : BufOk d.conn) (hp : d.conn.out.flushPipeline = false)
    (a : Act) (hb : bodyless a = true) : Neat (d.step env P a) := by
  cases a with
  | write i =>
    cases hd : d.done with
    | true => simp only [Disp.step, hd, if_true]; exact h
    | false => simp only [Disp.step, hd, Bool.false_eq_true, if_false]; exact h.write env ok hp i
  | read i =>
    cases hd : d.done with
    | true => simp only [Disp.step, hd, if_true]; exact h
    | false => simp only [Disp.step, hd, Bool.false_eq_true, if_false]; exact h.read env P ok i hb
  | flush f i =>
    simp only [Disp.step]; split
    · exact h
    · exact h.flush ok hp f i
  | readAgain =>
    simp only [Disp.step]; split
    · exact h
    · exact ⟨h.client, h.reading, h.empty⟩
  | finish s f =>
    have hc : ∀ x : Disp, Neat x → Neat x.complete := by
      intro x hx; unfold Disp.complete; split
      · exact Neat.fail (d := { x with conn := { x.conn with error := false } }) ⟨hx.client, hx.reading, hx.empty⟩
      · exact ⟨hx.client, hx.reading, hx.empty⟩
    have hs : Neat { d with conn := (d.conn.pollShutdown f).2 } := h.keeps ok (keeps_conn d (qc_pollShutdown d.conn f) (.inl rfl) (.inl rfl))
    simp only [Disp.step]; split
    · exact h
    · unfold Disp.finishTurn
      split
      · exact h
      · split
        · exact hc _ ⟨h.client, h.reading, h.empty⟩
        · split
          · simp only
            split
            · exact hs
            · split
              · exact hc _ hs
              · exact hs.fail
          · exact hc _ h
  | disable b =>
    have hn : Neat { d with conn := d.conn.disableKeepAlive } := by
      refine ⟨?_, ?_, ?_⟩
      · show d.conn.disableKeepAlive.client = false
        unfold Conn.disableKeepAlive; simp only; split <;> exact h.client
      · show Unread d.conn.disableKeepAlive
        unfold Conn.disableKeepAlive; simp only; split
        · exact unread_closed rfl
        · exact h.reading
      · show d.conn.disableKeepAlive.writing = .init → held d.conn.disableKeepAlive = 0
        unfold Conn.disableKeepAlive; simp only; split
        · intro x; cases x
        · exact h.empty
    simp only [Disp.step]; split
    · exact h
    · unfold Disp.disableKeepAlive
      simp only
      split
      · exact ⟨hn.client, unread_closed rfl, fun x => by cases x⟩
      · exact hn
  | want k =>
    simp only [Disp.step, Disp.want]
    repeat' split
    all_goals first | exact h | exact ⟨h.client, h.reading, h.empty⟩
  | dropReader k => exact ⟨h.client, h.reading, h.empty⟩
  | drop =>
    simp only [Disp.step]
    unfold Disp.failBody; split
    all_goals exact ⟨h.client, h.reading, h.empty⟩

/-- What holds after any number of acts if no request has a body. -/
structure Tight (limit p h : Nat) (d : Disp) : Prop where
  vi : Poll.VI d.view
  ok : BufOk d.conn
  same : d.conn.out.wbuf.maxBufSize = limit
  pipeline : d.conn.out.flushPipeline = false
  neat : Neat d
  bytes : held d.conn ≤ max h (limit + p)

theorem headBytes_one {env : EncodeEnv} {P : TrailerParser} {d : Disp} {a : Act} {ev : Ev} {evs : List Ev}
    (hl : (d.step env P a).conn.log = d.conn.log ++ evs) (ho : evs.filter isOut = [ev]) :
    headBytes env P d a = (headOf (pieceOf env d.conn a ev)).length := by
  unfold headBytes
  rw [hl, List.drop_left, ho]; simp

/-- A head is put only when nothing waits. -/
theorem Tight.head {limit p h : Nat} {d : Disp} (b : Tight limit p h d)
    (hs : d.conn.writing = .init ∨ ∃ dd, d.conn.reading = .cont dd) : held d.conn = 0 := by
  rcases hs with e | ⟨dd, e⟩
  · exact b.neat.empty e
  · exact absurd e (b.neat.reading dd).2

theorem Tight.step (env : EncodeEnv) (P : TrailerParser) {limit p h : Nat} {d : Disp} (b : Tight limit p h d) (a : Act) (ha : actCost a ≤ p)
    (hb : bodyless a = true) (hh : headBytes env P d a ≤ h) : Tight limit p h (d.step env P a) := by
  have hn := b.neat.step env P b.ok b.pipeline a hb
  have hz := b.head
  obtain ⟨vi, ok, lim, pip, _, by'⟩ := b
  have hvi := Poll.vi_run env P [a] vi
  cases step_does env P d vi a with
  | quiet g =>
    have := g.bytes ok
    refine ⟨hvi, g.ok ok, g.limit.trans lim, g.pipeline.trans pip, hn, ?_⟩
    unfold held at *
    omega
  | head ev evs g hl ho hs =>
    have := g.bytes ok
    have hz := hz hs
    rw [headBytes_one hl ho] at hh
    refine ⟨hvi, g.ok ok, g.limit.trans lim, g.pipeline.trans pip, hn, ?_⟩
    unfold held at *
    omega
  | piece g hb =>
    obtain ⟨r1, r2⟩ := canBuffer_room ok pip hb
    have := g.bytes ok
    refine ⟨hvi, g.ok ok, g.limit.trans lim, g.pipeline.trans pip, hn, ?_⟩
    unfold held at *
    omega

theorem Tight.run (env : EncodeEnv) (P : TrailerParser) {limit p h : Nat} : ∀ (as : List Act) {d : Disp}, Tight limit p h d → (∀ a ∈ as, actCost a ≤ p) →
    (∀ a ∈ as, bodyless a = true) → tallest env P d as ≤ h → Tight limit p h (d.run env P as) := by
  intro as
  induction as with
  | nil => intro d b _ _ _; exact b
  | cons a as ih =>
    intro d b ha hb hh
    have hh : max (headBytes env P d a) (tallest env P (d.step env P a) as) ≤ h := hh
    exact ih (b.step env P a (ha a List.mem_cons_self) (hb a List.mem_cons_self) (by omega)) (fun x hx => ha x (List.mem_cons_of_mem _ hx))
      (fun x hx => hb x (List.mem_cons_of_mem _ hx)) (Nat.le_trans (Nat.le_max_right _ _) hh)

end Backlog

end Hyper
