import Verif.Props.CutOff
import Verif.Props.CutReply
import Verif.Props.H2CutOff

/-!
# C99: a body handed on between HTTP/1 and HTTP/2 that was cut off is not taken for a complete one

A proxy reads requests with hyper on the one side and gives their bodies, unchanged, to hyper on the other; one side speaks HTTP/2, the other HTTP/1.  And so with responses, on the way
back.
-/

namespace Hyper

open Spec Input Pipe Wire

namespace Spec

/-- A body read over HTTP/2 is over to its reader: it was told the end, or `is_end_stream` says that there is nothing more (incoming.rs 289-298). -/
def Finished (r : H2Reader) : Prop := .none ∈ r.outs ∨ r.recv = []

/-- A body read over HTTP/2: what its sender did, what arrived of it, and its reader after some polls. -/
structure Upload where
  sent : List Pipe.In
  evs : List RecvEv
  gaveUp : Prop
  len : DecodedLength
  eos : Bool
  polls : Nat

namespace Upload

def reader (u : Upload) : H2Reader := (H2Reader.start u.len u.eos u.evs).polls u.polls

def data (u : Upload) : Bytes := (piecesRead u.reader.outs).flatten

/-- What arrived is what the sender's stream was told, or a beginning of it, and not more than was announced. -/
def Sane (u : Upload) : Prop := Arrives (Pipe.init.run u.sent).out u.gaveUp u.evs ∧ Enough (H2Body.new u.len u.eos).len u.evs

end Upload

/-- The `k`-th request that a client's connection takes has the body `u k`, unchanged: it yields what was read of it, and ends only when that is over. -/
def HandsDown (u : Nat → Upload) (env : EncodeEnv) (P : TrailerParser) (d : Disp) (as : List Act) : Prop :=
  ∀ (k : Nat) (m : Message), (messages (story env P d [] as))[k]? = some m → m.data <+: (u k).data ∧ (k ∈ endings env P d [] as → Finished (u k).reader ∧ m.data = (u k).data)

/-- The responses that a server's connection takes have the bodies `u k`, unchanged; one without a body is one that was over, with nothing read, from the start. -/
def HandsBack (u : Nat → Upload) (env : EncodeEnv) (P : TrailerParser) (d : Disp) (as : List Act) : Prop :=
  HandsDown u env P d as ∧ ∀ (k : Nat) (a : RespOut), (answers env P d as)[k]? = some a → a.body = none → Finished (u k).reader ∧ (u k).data = []

/-- The iteration polls the body, and the body ends. -/
def EndsIn (s : Pipe.St) (i : Pipe.In) : Prop :=
  s.res = none ∧ i.reset = .pending ∧ s.buffered = none ∧ (i.body = .none ∨ (∃ t, i.body = .frame (.trailers t)) ∨ ∃ bs, i.body = .frame (.data bs true))

/-- The body of an HTTP/2 message is one of which `data` was read over HTTP/1, to the end if `whole`, unchanged: it yields what was read, ends only after the whole, and its errors are
not HTTP/2's. -/
structure HandsUp (data : Bytes) (whole : Bool) (is : List Pipe.In) : Prop where
  yields : bodyData (Pipe.init.run is).given <+: data
  ends : ∀ pre i post, is = pre ++ i :: post → EndsIn (Pipe.init.run pre) i → whole = true ∧ bodyData (Pipe.init.run (pre ++ [i])).given = data
  causes : ∀ i ∈ is, ∀ causes, i.body = .error causes → Cause.h2 (some 0) ∉ causes

end Spec

namespace Cross

theorem finished {u : Upload} (h : u.Sane) (hf : Finished u.reader) :
    OFrame.reset 0 ∈ (Pipe.init.run u.sent).out ∨ u.gaveUp ∨ ((Pipe.init.run u.sent).res = some .ok ∧ u.data = bodyData (Pipe.init.run u.sent).given) := by
  rcases hf with hn | hl
  · rcases C96_complete_partial u.sent u.evs u.gaveUp h.1 u.len u.eos h.2 u.polls u.reader rfl hn with h | h | h
    · exact .inl h
    · exact .inr (.inl h)
    · exact .inr (.inr ⟨h.1, h.2.1⟩)
  · have hf := Stream2.follows_polls h.1.stream h.2 u.polls
    have hl' : ((H2Reader.start u.len u.eos u.evs).polls u.polls).recv = [] := hl
    have hno : ∀ b, RecvEv.reset b ∉ u.evs := fun b hb => by have := (hf.reset b).2 hb; rw [hl'] at this; cases this
    have := H2Cut.complete (Inv.init.run u.sent) hf (by rw [hl']; exact ⟨rfl, rfl⟩) (h.1.ended hno)
    exact .inr (.inr ⟨this.1, this.2.1⟩)

theorem send_given (s : St) (bs : Bytes) (eos ok : Bool) : (s.send bs eos ok).given = s.given := by
  unfold St.send; split <;> rfl

theorem given_step (s : St) (i : In) : s.given <+: (s.step i).given := by
  unfold St.step
  split
  · exact List.prefix_refl _
  · split
    · exact List.prefix_refl _
    · exact List.prefix_refl _
    · split
      · unfold St.sendBuffered
        (repeat' split) <;> first | exact List.prefix_refl _ | (rw [send_given]; exact List.prefix_refl _)
      · unfold St.pollBody
        (repeat' split) <;> first | exact List.prefix_refl _ | exact ⟨_, rfl⟩ | (rw [send_given]; first | exact List.prefix_refl _ | exact ⟨_, rfl⟩)

theorem given_run (s : St) (is : List In) : s.given <+: (s.run is).given := by
  induction is generalizing s with
  | nil => exact List.prefix_refl _
  | cons i is ih => exact (given_step s i).trans (ih (s.step i))

theorem payloadsIn_append (a b : List UFrame) : payloadsIn (a ++ b) = payloadsIn a ++ payloadsIn b := List.filterMap_append

theorem bodyData_prefix {a b : List UFrame} (h : a <+: b) : bodyData a <+: bodyData b := by
  obtain ⟨t, rfl⟩ := h
  exact ⟨(payloadsIn t).flatten, by simp [bodyData, payloadsIn_append]⟩

/-- The body has ended if the pipe has ended well, or holds the last piece. -/
def Ending (s : St) : Prop := s.res = some .ok ∨ ∃ bs, s.buffered = some (bs, true)

theorem ending_step {s : St} {i : In} (h : Ending (s.step i)) : Ending s ∨ EndsIn s i := by
  cases hr : s.res with
  | some x => left; simpa [Ending, St.step, hr] using h
  | none =>
    cases hi : i.reset with
    | reset k => left; simpa [Ending, St.step, hr, hi] using h
    | err => left; simpa [Ending, St.step, hr, hi] using h
    | pending =>
      cases hb : s.buffered with
      | some y =>
        obtain ⟨bs, eos⟩ := y
        left
        cases eos with
        | true => exact .inr ⟨bs, hb⟩
        | false =>
          exfalso
          simp only [Ending, St.step, hr, hi, hb, St.sendBuffered, St.send] at h
          revert h
          (repeat' split) <;> simp_all
      | none =>
        right
        refine ⟨hr, hi, hb, ?_⟩
        have he : s.step i = s.pollBody i := by simp [St.step, hr, hi, hb]
        rw [he] at h
        unfold Ending St.pollBody St.send at h
        cases hbd : i.body with
        | pending => simp [hbd, hr, hb] at h
        | error c => simp [hbd, hb] at h
        | none => exact .inl rfl
        | frame f =>
          cases f with
          | other => simp [hbd, hr, hb] at h
          | trailers t => exact .inr (.inl ⟨t, rfl⟩)
          | data bs eos =>
            cases eos with
            | true => exact .inr (.inr ⟨bs, rfl⟩)
            | false =>
              exfalso
              simp only [hbd] at h
              revert h
              (repeat' split) <;> simp_all

theorem ends_somewhere (is : List In) (h : Ending (Pipe.init.run is)) : ∃ pre i post, is = pre ++ i :: post ∧ EndsIn (Pipe.init.run pre) i := by
  have key : ∀ n, n ≤ is.length → Ending (Pipe.init.run (is.take n)) → ∃ pre i post, is = pre ++ i :: post ∧ EndsIn (Pipe.init.run pre) i := by
    intro n
    induction n with
    | zero => intro _ h; simp [Ending, Pipe.init, St.run] at h
    | succ n ih =>
      intro hn h
      have hlt : n < is.length := hn
      have e : is.take (n + 1) = is.take n ++ [is[n]] := by simp
      rw [e] at h
      have e2 : Pipe.init.run (is.take n ++ [is[n]]) = (Pipe.init.run (is.take n)).step is[n] := by unfold St.run; rw [List.foldl_append]; rfl
      rw [e2] at h
      rcases ending_step h with h | h
      · exact ih (Nat.le_of_lt hlt) h
      · exact ⟨is.take n, is[n], is.drop (n + 1), by simp, h⟩
  exact key is.length (Nat.le_refl _) (by simpa using h)

/-- A pipe that was handed a body read over HTTP/1 and has ended well has sent the whole. -/
theorem whole_up {data : Bytes} {whole : Bool} {is : List In} (h : HandsUp data whole is) (hr : (Pipe.init.run is).res = some .ok) :
    whole = true ∧ bodyData (Pipe.init.run is).given = data := by
  obtain ⟨pre, i, post, e, hi⟩ := ends_somewhere is (.inl hr)
  obtain ⟨h1, h2⟩ := h.ends pre i post e hi
  refine ⟨h1, ?_⟩
  have e2 : Pipe.init.run is = (Pipe.init.run (pre ++ [i])).run post := by rw [e]; simp [St.run]
  have h3 : bodyData (Pipe.init.run (pre ++ [i])).given <+: bodyData (Pipe.init.run is).given := by rw [e2]; exact bodyData_prefix (given_run _ _)
  rw [h2] at h3
  obtain ⟨t, ht⟩ := h.yields
  obtain ⟨t', ht'⟩ := h3
  rw [← ht, List.append_assoc] at ht'
  have := congrArg List.length ht'
  simp only [List.length_append] at this
  have ht0 : t = [] := List.length_eq_zero_iff.1 (by omega)
  rw [ht0, List.append_nil] at ht
  exact ht

end Cross

/-- C99, from HTTP/2 to HTTP/1.  A client's connection of a proxy is given requests whose bodies the proxy reads over HTTP/2 (`HandsDown`); the bytes that come to an HTTP/1 server are what
it has put on the wire, or a beginning of it.  If the server has read a request to its end, then it has exactly the bytes the sender's body gave, and that had ended without an error; or
as many bytes as the proxy announced; but for a sender that reset its stream with `NO_ERROR`, a proxy that gave its connection up (`C99_gave_up`), and bodies that are not sent
at all (`C93_unsent`). -/
theorem C99_down_partial (env env' : EncodeEnv) (P P' : TrailerParser) (hP : ReadsBlocks P) (Q : Bytes → Except ParseErr (Option (RawRequest × Nat)))
    (hS : RequestStable Q) (max : Nat) (hQ : ReadsRequests max (tokens Q)) (methodOk uriOk : Bytes → Bool) (preserve : Bool)
    (u : Nat → Upload) (hu : ∀ k, (u k).Sane)
    (d : Disp) (hd : Fresh d) (hc : d.conn.client = true) (as : List Act)
    (hok : ∀ q ∈ requests env P' d as, RequestOk methodOk uriOk q.1 q.2) (hgive : HandsDown u env P' d as)
    (f : Fed RequestMsg) (hf : f.disp.Start) (hg : f.got = []) (fair : ∀ m ∈ messages (story env P' d [] as), m.Fair max f.disp.conn.maxHeaders)
    (hnet : f.inlet.rd.stream <+: wire (d.run env P' as).conn) (bs : List FAct) (k : Nat) (r : Received RequestMsg)
    (hr : (f.run env' P (serverHeads Q methodOk uriOk preserve) bs).got[k]? = some r) (hw : r.whole = true) :
    r.data <+: bodyData (Pipe.init.run (u k).sent).given ∧ ∃ h body, (requests env P' d as)[k]? = some (h, body) ∧
      (((Pipe.init.run (u k).sent).res = some .ok ∧ r.data = bodyData (Pipe.init.run (u k).sent).given) ∨ Announces h body r.data.length ∨
        OFrame.reset 0 ∈ (Pipe.init.run (u k).sent).out ∨ (u k).gaveUp ∨ (Unsent h body r.head.version ∧ r.data = [])) := by
  obtain ⟨h, body, m, h1, h2, _, _, _, _, h7, h8⟩ := C67_requests env env' P P' hP Q hS max hQ methodOk uriOk preserve d hd hc as hok f hf hg fair hnet bs k r hr
  obtain ⟨h', body', h1', hend⟩ := C93_ended_partial env env' P P' hP Q hS max hQ methodOk uriOk preserve d hd hc as hok f hf hg fair hnet bs k r hr hw
  rw [h1] at h1'
  cases h1'
  obtain ⟨g1, g2⟩ := hgive k m h2
  refine ⟨(h7.trans g1).trans (C96_in_order (u k).sent (u k).evs (u k).gaveUp (hu k).1 (u k).len (u k).eos (hu k).2 (u k).polls), h, body, h1, ?_⟩
  rcases hend with b | b | b
  · obtain ⟨e1, e2⟩ := g2 b
    rcases Cross.finished (hu k) e1 with c | c | ⟨c1, c2⟩
    · exact .inr (.inr (.inl c))
    · exact .inr (.inr (.inr (.inl c)))
    · exact .inl ⟨c1, by rw [(h8 hw).1, e2, c2]⟩
  · exact .inr (.inl b)
  · exact .inr (.inr (.inr (.inr b)))

/-- C99, from HTTP/1 to HTTP/2.  A client sends requests over HTTP/1; a proxy reads them and gives the body of the `k`-th to an HTTP/2 stream (`HandsUp`).  If the reader at the other
end of that stream is told the end, it has exactly the bytes the proxy read, and the client's user has ended the body, or it has as many bytes as the user announced; but for a
reader whose own server gave the connection up, and bodies that are not sent at all (`C93_unsent`). -/
theorem C99_up_partial (env env' : EncodeEnv) (P P' : TrailerParser) (hP : ReadsBlocks P) (Q : Bytes → Except ParseErr (Option (RawRequest × Nat)))
    (hS : RequestStable Q) (max : Nat) (hQ : ReadsRequests max (tokens Q)) (methodOk uriOk : Bytes → Bool) (preserve : Bool)
    (d : Disp) (hd : Fresh d) (hc : d.conn.client = true) (as : List Act)
    (hok : ∀ q ∈ requests env P' d as, RequestOk methodOk uriOk q.1 q.2)
    (f : Fed RequestMsg) (hf : f.disp.Start) (hg : f.got = []) (fair : ∀ m ∈ messages (story env P' d [] as), m.Fair max f.disp.conn.maxHeaders)
    (hnet : f.inlet.rd.stream <+: wire (d.run env P' as).conn) (bs : List FAct) (k : Nat) (q : Received RequestMsg)
    (hq : (f.run env' P (serverHeads Q methodOk uriOk preserve) bs).got[k]? = some q)
    (is : List Pipe.In) (hgive : HandsUp q.data q.whole is) (evs : List RecvEv) (gaveUp : Prop) (ha : Arrives (Pipe.init.run is).out gaveUp evs) (len : DecodedLength) (eos : Bool)
    (he : Enough (H2Body.new len eos).len evs) (n : Nat) (r : H2Reader) (hr : r = (H2Reader.start len eos evs).polls n) (hn : .none ∈ r.outs) :
    gaveUp ∨ ((piecesRead r.outs).flatten = q.data ∧ ∃ h body, (requests env P' d as)[k]? = some (h, body) ∧
      (k ∈ endings env P' d [] as ∨ Announces h body q.data.length ∨ (Unsent h body q.head.version ∧ q.data = []))) := by
  rcases C96_complete_partial is evs gaveUp ha len eos he n r hr hn with h | h | ⟨h1, h2, _⟩
  · obtain ⟨_, i, hi, causes, e, hz⟩ := C96_reset_only_if is h
    exact absurd hz (hgive.causes i hi causes e)
  · exact .inl h
  · obtain ⟨hw, hd'⟩ := Cross.whole_up hgive h1
    exact .inr ⟨by rw [h2, hd'], C93_ended_partial env env' P P' hP Q hS max hQ methodOk uriOk preserve d hd hc as hok f hf hg fair hnet bs k q hq hw⟩

/-- C99, for responses, from HTTP/2 to HTTP/1.  A proxy reads the bodies of its responses over HTTP/2 and gives them to a server's connection (`HandsBack`), with an HTTP/1 client at the
other end.  If the client has read a response to an end that it recognised on the wire, it has exactly the bytes the sender's body gave, and that had ended without an error; or as many
bytes as the proxy announced; but for a sender that reset its stream with `NO_ERROR`, and the answer hyper's server makes on its own to bytes that are no request. -/
theorem C99_back_down_partial (envC envS : EncodeEnv) (henv : EnvOk envS) (PC PS : TrailerParser) (hPC : ReadsBlocks PC) (hPS : ReadsBlocks PS)
    (cfg : ClientCfg) (h09 : cfg.h09 = false) (QC : Bytes → RespParse) (hSC : PrefixStable QC) (maxC : Nat) (hQC : ReadsResponses maxC QC)
    (QS : Bytes → Except ParseErr (Option (RawRequest × Nat))) (hSS : RequestStable QS) (maxS : Nat) (hQS : ReadsRequests maxS (tokens QS))
    (methodOk uriOk : Bytes → Bool) (preserve : Bool)
    (client : Fed ResponseMsg) (hc : Fresh client.disp) (hcc : client.disp.conn.client = true) (hcg : client.got = [])
    (server : Fed RequestMsg) (hs : Fresh server.disp) (hsc : server.disp.conn.client = false) (hsm : server.disp.conn.method = none) (hsg : server.got = [])
    (as bs : List FAct) (xs ys : List Act) (hxs : xs = acts envC PC (clientHeads cfg QC) client as)
    (hys : ys = acts envS PS (serverHeads QS methodOk uriOk preserve) server bs)
    (hgate : Wire.Gated envS PS server.disp ys)
    (hreq : ∀ q ∈ requests envC PC client.disp xs, RequestOk methodOk uriOk q.1 q.2)
    (hresp : ∀ (k : Nat) (a : RespOut) (q : ReqHead × Option BodyLength), (answers envS PS server.disp ys)[k]? = some a → (requests envC PC client.disp xs)[k]? = some q →
      ResponseOk envS q.1.method a)
    (fairC : ∀ m ∈ messages (story envC PC client.disp [] xs), m.Fair maxS server.disp.conn.maxHeaders)
    (fairS : ∀ m ∈ messages (story envS PS server.disp [] ys), m.Fair maxC client.disp.conn.maxHeaders)
    (netS : server.inlet.rd.stream <+: wire (client.disp.run envC PC xs).conn)
    (netC : client.inlet.rd.stream <+: wire (server.disp.run envS PS ys).conn)
    (u : Nat → Upload) (hu : ∀ k, (u k).Sane) (hback : HandsBack u envS PS server.disp ys)
    (k : Nat) (r : Received ResponseMsg) (hr : (client.run envC PC (clientHeads cfg QC) as).got[k]? = some r) (hw : r.whole = true)
    (hcd : r.head.decode ≠ DecodedLength.CLOSE_DELIMITED) :
    (r.data <+: bodyData (Pipe.init.run (u k).sent).given ∧ ∃ h body a, (requests envC PC client.disp xs)[k]? = some (h, body) ∧ (answers envS PS server.disp ys)[k]? = some a ∧
      (((Pipe.init.run (u k).sent).res = some .ok ∧ r.data = bodyData (Pipe.init.run (u k).sent).given) ∨ ReplyAnnounces h.method a r.data.length ∨
        OFrame.reset 0 ∈ (Pipe.init.run (u k).sent).out ∨ (u k).gaveUp)) ∨
    (k = (answers envS PS server.disp ys).length ∧ r.head.head.status ∈ [400, 414, 431] ∧ r.data = []) := by
  rcases C68_exchange_partial envC envS henv PC PS hPC hPS cfg h09 QC hSC maxC hQC QS hSS maxS hQS methodOk uriOk preserve client hc hcc hcg server hs hsc hsm hsg as bs xs ys hxs hys
    hgate hreq hresp fairC fairS netS netC k r hr with ⟨h, body, a, m, s, g1, _, _, _, g5, g6, _, _, _, g10, g11⟩ | h
  rotate_left
  · exact .inr h
  left
  rcases C94_ended_partial envC envS henv PC PS hPC hPS cfg h09 QC hSC maxC hQC QS hSS maxS hQS methodOk uriOk preserve client hc hcc hcg server hs hsc hsm hsg as bs xs ys hxs hys
    hgate hreq hresp fairC fairS netS netC k r hr hw hcd with ⟨h', body', a', e1, e2, hend⟩ | ⟨h, _⟩
  rotate_left
  · have := (List.getElem?_eq_some_iff.1 g5).1
    omega
  rw [g1] at e1
  rw [g5] at e2
  cases e1
  cases e2
  obtain ⟨d1, d2⟩ := hback.1 k m g6
  refine ⟨(g10.trans d1).trans (C96_in_order (u k).sent (u k).evs (u k).gaveUp (hu k).1 (u k).len (u k).eos (hu k).2 (u k).polls), h, body, a, g1, g5, ?_⟩
  have over : Finished (u k).reader → r.data = (u k).data →
      ((Pipe.init.run (u k).sent).res = some .ok ∧ r.data = bodyData (Pipe.init.run (u k).sent).given) ∨ ReplyAnnounces h.method a r.data.length ∨
        OFrame.reset 0 ∈ (Pipe.init.run (u k).sent).out ∨ (u k).gaveUp := fun h1 h2 => by
    rcases Cross.finished (hu k) h1 with c | c | ⟨c1, c2⟩
    · exact .inr (.inr (.inl c))
    · exact .inr (.inr (.inr c))
    · exact .inl ⟨c1, by rw [h2, c2]⟩
  rcases hend with b | b | b
  · exact over (d2 b).1 (by rw [(g11 hw hcd).1, (d2 b).2])
  · obtain ⟨c1, c2⟩ := hback.2 k a g5 b
    have := g10.trans d1
    rw [c2] at this
    exact over c1 (by rw [c2]; exact List.prefix_nil.1 this)
  · exact .inr (.inl b)

/-- C99, for responses, from HTTP/1 to HTTP/2.  A proxy's client reads responses over HTTP/1 and gives the body of the `k`-th to an HTTP/2 stream (`HandsUp`).  If the reader at the other
end of that stream is told the end, it has exactly the bytes the proxy read; and the service behind the proxy has ended the body of its answer, or gave it none, or the reader has as
many bytes as the answer announced; but for bodies that end with the connection (`C94_torn`), a reader whose own side gave the connection up, and the answer hyper's server makes on its
own. -/
theorem C99_back_up_partial (envC envS : EncodeEnv) (henv : EnvOk envS) (PC PS : TrailerParser) (hPC : ReadsBlocks PC) (hPS : ReadsBlocks PS)
    (cfg : ClientCfg) (h09 : cfg.h09 = false) (QC : Bytes → RespParse) (hSC : PrefixStable QC) (maxC : Nat) (hQC : ReadsResponses maxC QC)
    (QS : Bytes → Except ParseErr (Option (RawRequest × Nat))) (hSS : RequestStable QS) (maxS : Nat) (hQS : ReadsRequests maxS (tokens QS))
    (methodOk uriOk : Bytes → Bool) (preserve : Bool)
    (client : Fed ResponseMsg) (hc : Fresh client.disp) (hcc : client.disp.conn.client = true) (hcg : client.got = [])
    (server : Fed RequestMsg) (hs : Fresh server.disp) (hsc : server.disp.conn.client = false) (hsm : server.disp.conn.method = none) (hsg : server.got = [])
    (as bs : List FAct) (xs ys : List Act) (hxs : xs = acts envC PC (clientHeads cfg QC) client as)
    (hys : ys = acts envS PS (serverHeads QS methodOk uriOk preserve) server bs)
    (hgate : Wire.Gated envS PS server.disp ys)
    (hreq : ∀ q ∈ requests envC PC client.disp xs, RequestOk methodOk uriOk q.1 q.2)
    (hresp : ∀ (k : Nat) (a : RespOut) (q : ReqHead × Option BodyLength), (answers envS PS server.disp ys)[k]? = some a → (requests envC PC client.disp xs)[k]? = some q →
      ResponseOk envS q.1.method a)
    (fairC : ∀ m ∈ messages (story envC PC client.disp [] xs), m.Fair maxS server.disp.conn.maxHeaders)
    (fairS : ∀ m ∈ messages (story envS PS server.disp [] ys), m.Fair maxC client.disp.conn.maxHeaders)
    (netS : server.inlet.rd.stream <+: wire (client.disp.run envC PC xs).conn)
    (netC : client.inlet.rd.stream <+: wire (server.disp.run envS PS ys).conn)
    (k : Nat) (q : Received ResponseMsg) (hq : (client.run envC PC (clientHeads cfg QC) as).got[k]? = some q)
    (is : List Pipe.In) (hgive : HandsUp q.data q.whole is) (evs : List RecvEv) (gaveUp : Prop) (ha : Arrives (Pipe.init.run is).out gaveUp evs) (len : DecodedLength) (eos : Bool)
    (he : Enough (H2Body.new len eos).len evs) (n : Nat) (r : H2Reader) (hr : r = (H2Reader.start len eos evs).polls n) (hn : .none ∈ r.outs) :
    gaveUp ∨ ((piecesRead r.outs).flatten = q.data ∧ (q.head.decode = DecodedLength.CLOSE_DELIMITED ∨
      (∃ h body a, (requests envC PC client.disp xs)[k]? = some (h, body) ∧ (answers envS PS server.disp ys)[k]? = some a ∧
        (k ∈ endings envS PS server.disp [] ys ∨ a.body = none ∨ ReplyAnnounces h.method a q.data.length)) ∨
      (k = (answers envS PS server.disp ys).length ∧ q.head.head.status ∈ [400, 414, 431] ∧ q.data = []))) := by
  rcases C96_complete_partial is evs gaveUp ha len eos he n r hr hn with h | h | ⟨h1, h2, _⟩
  · obtain ⟨_, i, hi, causes, e, hz⟩ := C96_reset_only_if is h
    exact absurd hz (hgive.causes i hi causes e)
  · exact .inl h
  · obtain ⟨hw, hd'⟩ := Cross.whole_up hgive h1
    refine .inr ⟨by rw [h2, hd'], ?_⟩
    by_cases hcd : q.head.decode = DecodedLength.CLOSE_DELIMITED
    · exact .inl hcd
    · exact .inr (C94_ended_partial envC envS henv PC PS hPC hPS cfg h09 QC hSC maxC hQC QS hSS maxS hQS methodOk uriOk preserve client hc hcc hcg server hs hsc hsm hsg as bs xs ys hxs hys
    hgate hreq hresp fairC fairS netS netC k q hq hw hcd)

namespace Cross

/-- Five bytes came of a body whose sender is still at it; then the keep-alive of the proxy's server timed out. -/
def exUpload : Upload :=
  { sent := [{ body := .frame (.data (ascii "hello") false) }, { capacity := 5 }], evs := [.data (ascii "hello"), .reset true],
    gaveUp := Srv.Ev.abrupt ∈ (Srv.init.run [.poll .ok [{ ping := .timedOut, accept := .none }]]).log, len := DecodedLength.CHUNKED, eos := false, polls := 2 }

/-- The proxy hands it on. -/
def exDown : List Act :=
  [exWrite (.req ⟨ascii "POST", ascii "/b", .h11, [], none⟩ (some .unknown)) .pending, exWrite .pending (.frame (.data (ascii "hello") false)), exWrite .pending .eof,
   .flush exFlushIn .pending]

def exDownBytes : Bytes := ascii "POST /b HTTP/1.1\r\ntransfer-encoding: chunked\r\n\r\n5\r\nhello\r\n0\r\n\r\n"

end Cross

/-- C99 fails if the proxy's server gives up: of five bytes of a body whose sender is still at it a complete HTTP/1 request is made. -/
theorem C99_gave_up :
    Cross.exUpload.Sane ∧ (Pipe.init.run Cross.exUpload.sent).res = none ∧ HandsDown (fun _ => Cross.exUpload) exEnv exP (exDisp true) Cross.exDown ∧
    wire ((exDisp true).run exEnv exP Cross.exDown).conn = Cross.exDownBytes ∧
    ((exInput Cross.exDownBytes).run exEnv parseBlock exServer (exListen 1)).got.map (fun r => (r.data, r.whole)) = [(ascii "hello", true)] := by
  refine ⟨⟨C96_gave_up.2.2.1, .inl (by decide +kernel)⟩, by decide +kernel, ?_, by decide +kernel, by decide +kernel⟩
  intro k m hm
  have hd : (messages (story exEnv exP (exDisp true) [] Cross.exDown)).map (fun m => m.data) = [ascii "hello"] := by decide +kernel
  have hu : Cross.exUpload.data = ascii "hello" := by decide +kernel
  have : ((messages (story exEnv exP (exDisp true) [] Cross.exDown)).map (fun m => m.data))[k]? = some m.data := by rw [List.getElem?_map, hm]; rfl
  rw [hd] at this
  cases k with
  | succ k => simp at this
  | zero =>
    simp only [List.getElem?_cons_zero, Option.some.injEq] at this
    rw [← this, hu]
    exact ⟨List.prefix_refl _, fun _ => ⟨.inl (by decide +kernel), rfl⟩⟩

namespace Cross

theorem hands_up (d : Bytes) (n : Nat) (b : BodyPoll) (w : Bool) (h1 : b = .none → w = true) (h2 : b = .none ∨ b = .error [.other])
    (hy : bodyData (Pipe.init.run [{ body := .frame (.data d false) }, { capacity := n }, { body := b }]).given = d) :
    HandsUp d w [{ body := .frame (.data d false) }, { capacity := n }, { body := b }] := by
  constructor
  · rw [hy]; exact List.prefix_refl _
  · intro pre i post e he
    match pre with
    | [] =>
      simp only [List.nil_append, List.cons.injEq] at e
      obtain ⟨rfl, _⟩ := e
      obtain ⟨_, _, _, h | ⟨t, h⟩ | ⟨bs, h⟩⟩ := he <;> simp at h
    | [x] =>
      simp only [List.cons_append, List.nil_append, List.cons.injEq] at e
      obtain ⟨_, rfl, _⟩ := e
      obtain ⟨_, _, _, h | ⟨t, h⟩ | ⟨bs, h⟩⟩ := he <;> simp at h
    | [x, y] =>
      simp only [List.cons_append, List.nil_append, List.cons.injEq] at e
      obtain ⟨rfl, rfl, rfl, _⟩ := e
      rcases h2 with rfl | rfl
      · exact ⟨h1 rfl, hy⟩
      · obtain ⟨_, _, _, h | ⟨t, h⟩ | ⟨bs, h⟩⟩ := he <;> simp at h
    | x :: y :: z :: pre => simp at e
  · intro i hi causes e
    simp only [List.mem_cons, List.not_mem_nil, or_false] at hi
    rcases hi with rfl | rfl | rfl
    · simp at e
    · simp at e
    · rcases h2 with rfl | rfl
      · simp at e
      · simp only [BodyPoll.error.injEq] at e
        subst e; simp

end Cross

/-- C99 fails for responses that end with their connection: the service's body has failed, the proxy's client has a complete response of two bytes, and hands on a complete body of two
bytes. -/
theorem C99_back_torn :
    endings exEnv parseBlock (exDisp false) [] (acts exEnv parseBlock exServer (exInput exOldBytes) exFails) = [] ∧
    ((exReader exFailsBytes).run exEnv parseBlock exUserHeads exOld).got.map (fun r => (r.data, r.whole, r.head.decode)) = [(ascii "ab", true, DecodedLength.CLOSE_DELIMITED)] ∧
    HandsUp (ascii "ab") true [{ body := .frame (.data (ascii "ab") false) }, { capacity := 2 }, { body := .none }] ∧
    Arrives (Pipe.init.run [{ body := .frame (.data (ascii "ab") false) }, { capacity := 2 }, { body := .none }]).out False [.data (ascii "ab")] ∧
    ((H2Reader.start DecodedLength.CHUNKED false [.data (ascii "ab")]).polls 2).outs = [.data (ascii "ab"), .none] := by
  have ho : (Pipe.init.run [{ body := .frame (.data (ascii "ab") false) }, { capacity := 2 }, { body := .none }]).out = [.data (ascii "ab") false, .data [] true] := by decide +kernel
  refine ⟨C94_torn.2.2.1, C94_torn.2.2.2, Cross.hands_up _ _ _ _ (fun _ => rfl) (.inl rfl) (by decide +kernel), ?_, by decide +kernel⟩
  rw [ho]
  exact ⟨.data _ .ended, ⟨[], by decide +kernel⟩, fun _ => ⟨⟨.data [] true, by simp, rfl⟩, by decide +kernel, by decide +kernel⟩, by simp⟩

/-- What `HandsUp` asks for is done by a body that is handed on and ended after its end was read, and not by one that is ended before. -/
example : HandsUp (ascii "hello") true [{ body := .frame (.data (ascii "hello") false) }, { capacity := 5 }, { body := .none }] ∧
    ¬ HandsUp (ascii "hello") false [{ body := .frame (.data (ascii "hello") false) }, { capacity := 5 }, { body := .none }] ∧
    HandsUp (ascii "hello") false [{ body := .frame (.data (ascii "hello") false) }, { capacity := 5 }, { body := .error [.other] }] := by
  have key := Cross.hands_up (ascii "hello") 5
  refine ⟨key _ _ (fun _ => rfl) (.inl rfl) (by decide +kernel), ?_, key _ _ (fun h => by cases h) (.inr rfl) (by decide +kernel)⟩
  intro h
  have := (h.ends [{ body := .frame (.data (ascii "hello") false) }, { capacity := 5 }] { body := .none } [] rfl (by
    refine ⟨by decide +kernel, rfl, by decide +kernel, .inl rfl⟩)).1
  cases this

end Hyper
