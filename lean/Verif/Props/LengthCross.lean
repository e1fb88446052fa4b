import Verif.Model.ForwardUp
import Verif.Props.Forward
import Verif.Props.H2Client
import Verif.Props.H2Server

/-!
# C104: the length announced over HTTP/2 for a message handed on from HTTP/1
-/

namespace Hyper

open Spec Wire

namespace LengthCross

theorem exact_of {n : Nat} (h : n ≤ 2 ^ 64 - 3) : forwardExact ⟨n⟩ = some n ∧ (forwardBody ⟨n⟩ = none ↔ n = 0) := by
  unfold forwardExact
  rw [forwardBody_length h]
  by_cases h0 : n = 0 <;> simp [h0]

theorem ofLength_of {n : Nat} (h : n ≤ 2 ^ 64 - 3) (mh ms : Option Nat) : Decoder.ofLength ⟨n⟩ mh ms = .length n := by
  unfold Decoder.ofLength DecodedLength.CHUNKED DecodedLength.CLOSE_DELIMITED
  rw [if_neg (by intro e; injection e with e; unfold u64Max at e; omega), if_neg (by intro e; injection e with e; unfold u64Max at e; omega)]

/-- A body read by a length to its end has that length. -/
theorem read_length {P : TrailerParser} {n : Nat} {rd : Rd} {data : Bytes} {t : Option Fields} {rest : Bytes}
    (h : ((Decoder.length n).readAll P rd).view = .complete data t rest) : data.length = n := by
  obtain ⟨h1, h2⟩ := C07_content_length_body P n rd
  by_cases hc : n ≤ rd.stream.length
  · rw [h1 hc] at h
    injection h with e _ _
    rw [← e, List.length_take]; omega
  · obtain ⟨_, h3, h4⟩ := h2 (by omega)
    by_cases hf : rd.fin = .silent
    · rw [h3 hf] at h; cases h
    · obtain ⟨er, he⟩ := h4 hf
      rw [he] at h; cases h

theorem te_specific (kind : MessageKind) (m : HeaderMap) : ConnectionSpecific kind m (ascii "transfer-encoding") := by
  unfold ConnectionSpecific; simp

theorem sizes {P : TrailerParser} {n : Nat} (h : n ≤ 2 ^ 64 - 3) {mh ms : Option Nat} {rd : Rd} {data : Bytes} {t : Option Fields} {rest : Bytes}
    (hr : ((Decoder.ofLength ⟨n⟩ mh ms).readAll P rd).view = .complete data t rest) : data.length = n := by
  rw [ofLength_of h] at hr; exact read_length hr

/-- What a request is announced with. -/
theorem request_fields {mo uo : Bytes → Bool} {pc : Bool} {r : RawRequest} {m : RequestMsg} (hm : serverParse mo uo pc r = .ok m) {h : HeaderMap} {eos : Bool}
    (hh : Rq.HeadOf (forwardUpRequest m) h eos) :
    h.getAll (ascii "transfer-encoding") = [] ∧
      ((m.decode = DecodedLength.CHUNKED ∧ h.getAll (ascii "content-length") = [] ∧ eos = false) ∨
       ∃ n, m.decode = ⟨n⟩ ∧ n ≤ 2 ^ 64 - 3 ∧ (∀ v ∈ h.getAll (ascii "content-length"), IsLength v n) ∧ (n ≠ 0 → h.getAll (ascii "content-length") ≠ []) ∧ (eos = true → n = 0)) := by
  refine ⟨?_, ?_⟩
  · rw [hh.others (ascii "transfer-encoding") lowerName_hTE (by decide) (by decide +kernel)]
    unfold Rq.kept
    rw [if_pos (te_specific _ _)]
  rcases accepted_cases hm with ⟨d, _, _, _, hcl⟩ | ⟨d, _, hcl⟩ | ⟨n, v, d, hn, _, hcl, hv⟩
  · have hk : Rq.kept (forwardUpRequest m).headers (ascii "content-length") = [] := by
      unfold Rq.kept; split
      · rfl
      · exact hcl
    refine .inl ⟨d, hh.lengthNone hk ?_, ?_⟩
    · rintro ⟨n, ha, _⟩
      simp only [forwardUpRequest, d, forwardExact, forwardBody_chunked] at ha
      cases ha
    · cases he : eos with
      | false => rfl
      | true =>
        have := (hh.eos.1 he).2
        simp only [forwardUpRequest, d, forwardBody_chunked] at this
        cases this
  · have hk : Rq.kept (forwardUpRequest m).headers (ascii "content-length") = [] := by
      unfold Rq.kept; split
      · rfl
      · exact hcl
    refine .inr ⟨0, d, by omega, ?_, fun h => absurd rfl h, fun _ => rfl⟩
    by_cases ha : ∃ n, Rq.Announces (forwardUpRequest m) n
    · obtain ⟨n, ha⟩ := ha
      rw [hh.lengthSet hk n ha]
      have e := ha.1
      simp only [forwardUpRequest, d, forwardExact, forwardBody_zero] at e
      injection e with e
      subst e
      intro v hv
      rw [List.mem_singleton] at hv
      subst hv
      exact decimal_isLength (by omega)
    · rw [hh.lengthNone hk ha]; intro v hv; cases hv
  · obtain ⟨x1, x2⟩ := exact_of hn
    refine .inr ⟨n, d, hn, ?_, ?_, ?_⟩
    · intro w hw
      by_cases hk : Rq.kept (forwardUpRequest m).headers (ascii "content-length") = []
      · by_cases ha : ∃ k, Rq.Announces (forwardUpRequest m) k
        · obtain ⟨k, ha⟩ := ha
          rw [hh.lengthSet hk k ha, List.mem_singleton] at hw
          have e := ha.1
          simp only [forwardUpRequest, d, x1] at e
          injection e with e
          subst e; subst hw
          exact decimal_isLength (by omega)
        · rw [hh.lengthNone hk ha] at hw; cases hw
      · rw [hh.lengthKept hk] at hw
        unfold Rq.kept at hw
        split at hw
        · cases hw
        · have hw' : w ∈ m.headers.getAll hCL := hw
          rw [hcl, List.mem_singleton] at hw'
          rw [hw']; exact hv
    · intro h0
      by_cases hk : Rq.kept (forwardUpRequest m).headers (ascii "content-length") = []
      · rw [hh.lengthSet hk n ⟨by simp only [forwardUpRequest, d, x1], .inl h0⟩]; simp
      · rw [hh.lengthKept hk]; exact hk
    · intro he
      have := (hh.eos.1 he).2
      simp only [forwardUpRequest, d, Option.isNone_iff_eq_none] at this
      exact x2.1 this

end LengthCross

open LengthCross

/-- C104, requests.  A proxy hands a request that hyper's HTTP/1 server accepted on over HTTP/2, whatever becomes of it there.  If its head is sent, it has no Transfer-Encoding; every
Content-Length in it is the number of bytes of the body, whenever this is read to its end, from any bytes and any transport; a length that the request had and that is not zero is announced;
and the stream is closed with the head only if the body is empty. -/
theorem C104_request (mo uo : Bytes → Bool) (pc : Bool) (r : RawRequest) (m : RequestMsg) (hm : serverParse mo uo pc r = .ok m) (ht : RequestTokens r) (as : List Rq.Act)
    (f : Rq.Out) (hf : ((Rq.init (forwardUpRequest m)).run as).log.head? = some f) :
    ∃ h eos, f = .head h eos ∧ h.getAll (ascii "transfer-encoding") = [] ∧
      (∀ P mh ms rd data t rest, ((Decoder.ofLength m.decode mh ms).readAll P rd).view = .complete data t rest →
        (∀ v ∈ h.getAll (ascii "content-length"), IsLength v data.length) ∧ (eos = true → data = [])) ∧
      (∀ v n, v ∈ m.headers.getAll (ascii "content-length") → IsLength v n → n ≠ 0 → h.getAll (ascii "content-length") ≠ []) := by
  have hwf : m.headers.Wf := by
    obtain ⟨s, hs, hte, rfl⟩ := serverParse_ok hm
    exact (ReqSt.run_sound (Sound.empty pc) ht.values hs).map.wf
  obtain ⟨h, eos, rfl, hh⟩ := C62_head (forwardUpRequest m) hwf as f hf
  obtain ⟨hte, hc⟩ := request_fields hm hh
  refine ⟨h, eos, rfl, hte, ?_, ?_⟩
  · intro P mh ms rd data t rest hr
    rcases hc with ⟨_, h2, h3⟩ | ⟨n, d, hn, h1, _, h3⟩
    · rw [h2, h3]; exact ⟨by simp, by simp⟩
    · rw [d] at hr
      have hl := sizes hn hr
      rw [hl]
      refine ⟨h1, fun he => ?_⟩
      rw [h3 he] at hl
      exact List.length_eq_zero_iff.1 hl
  · intro v n hv hl h0
    rcases hc with ⟨d, _, _⟩ | ⟨k, d, hk, _, h2, _⟩
    · rcases accepted_cases hm with ⟨_, _, _, _, hcl⟩ | ⟨_, _, hcl⟩ | ⟨k, w, d', hk, _⟩
      · have hv' : v ∈ m.headers.getAll hCL := hv
        rw [hcl] at hv'; cases hv'
      · have hv' : v ∈ m.headers.getAll hCL := hv
        rw [hcl] at hv'; cases hv'
      · rw [d] at d'
        unfold DecodedLength.CHUNKED at d'
        injection d' with e; unfold u64Max at e; omega
    · apply h2
      rcases accepted_cases hm with ⟨_, _, _, _, hcl⟩ | ⟨_, _, hcl⟩ | ⟨j, w, d', hj, _, hcl, hw⟩
      · have hv' : v ∈ m.headers.getAll hCL := hv
        rw [hcl] at hv'; cases hv'
      · have hv' : v ∈ m.headers.getAll hCL := hv
        rw [hcl] at hv'; cases hv'
      · have hv' : v ∈ m.headers.getAll hCL := hv
        rw [hcl, List.mem_singleton] at hv'
        rw [d] at d'
        injection d' with e
        rw [e, ← hw.2.2.1, ← hv', hl.2.2.1]; exact h0

/-- C104, responses.  A proxy answers an HTTP/2 request with a response that hyper's HTTP/1 client delivered for a request of the method `method`, and that had not both Transfer-Encoding
and Content-Length.  The head that is sent has no Transfer-Encoding; if a body may follow, then the Content-Length in it, if there is one, is the number of bytes of the body whenever
this is read to its end; and the stream is closed with the head only if the body is empty. -/
theorem C104_response_partial (cfg : ClientCfg) (h09 : cfg.h09 = false) (H : Bytes → RespParse) (hT : ∀ buf len r, H buf = .complete len r → ResponseTokens cfg r) (method : Bytes)
    (fuel : Nat) (buf : Bytes) (m : ResponseMsg) (hm : (clientParse cfg H (some method) fuel buf []).res = .ok (some m))
    (hone : m.head.headers.getAll hTE = [] ∨ m.head.headers.getAll hCL = [])
    (connect date : Bool) (is : List Strm.In) (hr : ((Strm.init connect date).run is).resp = some (forwardUpResponse m)) (status : Nat) (h : HeaderMap) (eos : Bool)
    (hf : ((Strm.init connect date).run is).log.head? = some (.head status h eos)) :
    status = m.head.status ∧ h.getAll (ascii "transfer-encoding") = [] ∧
      (∀ P mh ms rd data t rest, ((Decoder.ofLength m.decode mh ms).readAll P rd).view = .complete data t rest →
        (¬ NoBody (some method) status → h.getAll (ascii "content-length") = [] ∨ AgreedLength (h.getAll (ascii "content-length")) data.length) ∧ (eos = true → data = [])) := by
  obtain ⟨buf', len, r, ka, up, h1, h2, h3⟩ := clientParse_msg h09 fuel buf [] m hm
  obtain ⟨hs, _⟩ := clientHead_sound h2 (hT _ _ _ h1)
  obtain ⟨_, hcases⟩ := delivered_cases h2 h3
  obtain ⟨i, _, _, hd⟩ := C58_head connect date is _ hr hs.map.wf
  rcases hd with ⟨h', eos', rest', hl, hh⟩ | ⟨hl, _⟩
  · rw [hl] at hf
    simp only [List.head?_cons, Option.some.injEq, Strm.Out.head.injEq] at hf
    obtain ⟨rfl, rfl, rfl⟩ := hf
    refine ⟨rfl, ?_, ?_⟩
    · rw [hh.others (ascii "transfer-encoding") lowerName_hTE (by decide) (by decide +kernel) (by decide +kernel)]
      unfold Strm.kept
      rw [if_pos (te_specific _ _)]
    · intro P mh ms rd data t rest hrd
      have hempty : forwardBody m.decode = none → data = [] := by
        intro e
        rcases hcases with ⟨_, d⟩ | ⟨_, d | d, _⟩ | ⟨_, n, d, hn, _⟩
        · rw [d] at hrd
          exact List.length_eq_zero_iff.1 (sizes (n := 0) (by omega) hrd)
        · rw [d, forwardBody_chunked] at e; cases e
        · rw [d, forwardBody_close] at e; cases e
        · rw [d] at hrd e
          rw [(exact_of hn).2] at e
          subst e
          exact List.length_eq_zero_iff.1 (sizes hn hrd)
      refine ⟨?_, ?_⟩
      · intro hnb
        by_cases hnil : h'.getAll (ascii "content-length") = []
        · exact .inl hnil
        refine .inr ?_
        have hL := hh.length
        by_cases htun : Strm.Tunnel connect (forwardUpResponse m)
        · rw [if_pos htun] at hL; exact absurd hL hnil
        rw [if_neg htun] at hL
        rcases hcases with ⟨hb, _⟩ | ⟨_, d, hw⟩ | ⟨_, n, d, hn, _, hag⟩
        · exact absurd hb hnb
        · have hcl : m.head.headers.getAll hCL = [] := by
            rcases hw with hw | hw
            · rcases hone with ho | ho
              · exact absurd ho hw
              · exact ho
            · exact hw
          have hk : Strm.kept (forwardUpResponse m).headers (ascii "content-length") = [] := by
            unfold Strm.kept; split
            · rfl
            · exact hcl
          have hx : (forwardUpResponse m).exact = none := by
            rcases d with d | d <;> simp only [forwardUpResponse, forwardExact, d, forwardBody_chunked, forwardBody_close]
          rw [hk, hx] at hL
          simp at hL
          exact absurd hL hnil
        · rw [d] at hrd
          have hlen := sizes hn hrd
          rw [hlen]
          by_cases hk : Strm.kept (forwardUpResponse m).headers (ascii "content-length") = []
          · by_cases hb : (forwardUpResponse m).bodyEnd = false
            · rw [if_pos ⟨hk, hb⟩] at hL
              have hx : (forwardUpResponse m).exact = some n := by simp only [forwardUpResponse, d, (exact_of hn).1]
              rw [hL, hx]
              exact agreed_single (decimal_isLength (by omega))
            · rw [if_neg (fun hc => hb hc.2), hk] at hL
              exact absurd hL hnil
          · rw [if_neg (fun hc => hk hc.1)] at hL
            rw [hL]
            unfold Strm.kept at hk ⊢
            split at hk
            · exact absurd rfl hk
            · rename_i hns
              rw [if_neg hns]; exact hag
      · intro he
        have := (hh.eos.1 he).2
        simp only [forwardUpResponse, Option.isNone_iff_eq_none] at this
        exact hempty this
  · rw [hl] at hf; simp at hf

/-- C104 fails for a response with both fields.  It is read as chunked, by RFC 9112 6.3, but its Content-Length is kept, and sent over HTTP/2, where nothing else tells the length:
the body may be of any other length. -/
theorem C104_length_beside_coding :
    ∃ m, exAnswer (ascii "GET") [(ascii "transfer-encoding", ascii "chunked"), (ascii "content-length", ascii "5")] = some m ∧
      m.decode = DecodedLength.CHUNKED ∧
      ((Decoder.ofLength m.decode none none).readAll parseBlock ⟨ascii "2\r\nhi\r\n0\r\n\r\n", [], .silent⟩).view = .complete (ascii "hi") none [] ∧
      ((Strm.init false false).run [{ svc := .ok (forwardUpResponse m) }]).log = [.head 200 [(ascii "content-length", [ascii "5"])] false] := by
  refine ⟨(exAnswer (ascii "GET") [(ascii "transfer-encoding", ascii "chunked"), (ascii "content-length", ascii "5")]).get (by decide +kernel), ?_, ?_, ?_, ?_⟩ <;> decide +kernel

/-- The hypotheses can be met: a request of ten bytes, whose `Connection` field would have the length removed. -/
example :
    (match serverParse (fun _ => true) (fun _ => true) false ⟨ascii "POST", ascii "/", true, [(ascii "content-length", ascii "010"), (ascii "connection", ascii "content-length")]⟩ with
     | .ok m => ((Rq.init (forwardUpRequest m)).run [.take false true .ok []]).log.head?
     | .error _ => none) = some (.head [(ascii "content-length", [ascii "10"])] false) := by decide +kernel

end Hyper
