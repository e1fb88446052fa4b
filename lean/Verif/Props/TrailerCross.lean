import Verif.Props.TrailerRelay
import Verif.Props.H2CutOff

/-!
# C103: trailers that are handed on between HTTP/1 and HTTP/2
-/

namespace Hyper

open Spec Wire Pipe TrailerRelay

/-- C103, from HTTP/1 to HTTP/2.  A proxy reads a chunked body with trailers over HTTP/1, from any bytes and any transport, and gives its frames to an HTTP/2 stream; if the stream took the
body to its end, it was given that data and those trailers (`hgive`).  If the reader at the other end of the stream is told the end, then it has the same data and, in one section, of
every name the values that were read, in order; but for a reader whose own server gave its connection up (C96). -/
theorem C103_up_partial (P : TrailerParser) (hT : TrailerTokens P) (mh ms : Option Nat) (rd : Rd) (data : Bytes) (fs : Fields) (rest : Bytes)
    (hr : ((Decoder.chunked (Chunked.new mh ms)).readAll P rd).view = .complete data (some fs) rest)
    (is : List In) (hgive : (Pipe.init.run is).res = some .ok → bodyData (Pipe.init.run is).given = data ∧ trailersIn (Pipe.init.run is).given = [(forwardTrailers fs).fields])
    (hcause : ∀ i ∈ is, ∀ causes, i.body = .error causes → Cause.h2 (some 0) ∉ causes)
    (evs : List RecvEv) (gaveUp : Prop) (ha : Arrives (Pipe.init.run is).out gaveUp evs) (len : DecodedLength) (eos : Bool)
    (he : Enough (H2Body.new len eos).len evs) (n : Nat) (r : H2Reader) (hrd : r = (H2Reader.start len eos evs).polls n) (hn : .none ∈ r.outs) :
    gaveUp ∨ ((piecesRead r.outs).flatten = data ∧ ∃ gs, sectionsRead r.outs = [gs] ∧ gs.length = fs.length ∧ ∀ k, valuesOf k gs = valuesOf k fs) := by
  rcases C96_complete_partial is evs gaveUp ha len eos he n r hrd hn with h | h | ⟨h1, h2, h3⟩
  · obtain ⟨_, i, hi, causes, hb, hc⟩ := C96_reset_only_if is h
    exact absurd hc (hcause i hi causes hb)
  · exact Or.inl h
  · obtain ⟨g1, g2⟩ := hgive h1
    have htok := read_tokens hT hr
    have a := adds fs [] (fun f hf => ⟨(htok f hf).1, (htok f hf).2.1⟩)
    have hm : MapOk (forwardTrailers fs) := a.ok ⟨⟨by simp, by simp⟩, by simp [HeaderMap.fields]⟩
    refine Or.inr ⟨by rw [h2, g1], (forwardTrailers fs).fields, by rw [h3, g2], ?_, fun k => ?_⟩
    · have := a.count; simpa [HeaderMap.fields, forwardTrailers] using this
    · rw [hm.values]; have := a.values k; simpa [HeaderMap.getAll, forwardTrailers] using this

/-- C103, from HTTP/2 to HTTP/1.  A body with trailers is sent over HTTP/2; a proxy reads it to its end and gives its frames to a chunked HTTP/1 body.  The reader of that finds the data
the sender's body gave, a clean end, and of every name the sender's values (without surrounding blanks), in order, if trailers may be sent there, the name was declared in the head and
may be a trailer, and none otherwise; but for a sender that reset its stream with `NO_ERROR` and a proxy that gave its connection up (C96).  The trailers as they are written must be
within that reader's limits. -/
theorem C103_down_partial (is : List In) (evs : List RecvEv) (gaveUp : Prop) (ha : Arrives (Pipe.init.run is).out gaveUp evs) (len : DecodedLength) (eos : Bool)
    (he : Enough (H2Body.new len eos).len evs) (k : Nat) (r : H2Reader) (hrd : r = (H2Reader.start len eos evs).polls k) (hn : .none ∈ r.outs)
    (fs : Fields) (hfs : trailersIn (Pipe.init.run is).given = [fs]) (htok : ∀ f ∈ fs, LowerName f.1 ∧ ∀ b ∈ f.2, isValueByte b = true)
    (P : TrailerParser) (hP : ReadsBlocks P) (mh ms : Option Nat)
    (allow title last : Bool) (declared : Option (List Bytes)) (frames : List UserFrame) (hok : userFails frames = false) (hfit : FramesFit frames)
    (hdata : userData frames = (piecesRead r.outs).flatten) (htr : userTrailers frames = (sectionsRead r.outs).head?.map forwardTrailers)
    (hcount : fs.length ≤ mh.getD 100) (hsize : (lines fs).length + 2 < ms.getD 16384) (rd : Rd) (rest : Bytes)
    (hstream : rd.stream = (writeFrames allow title [] (.body ⟨.chunked declared, last⟩) frames).out ++ rest) :
    OFrame.reset 0 ∈ (Pipe.init.run is).out ∨ gaveUp ∨
      ((Pipe.init.run is).res = some .ok ∧
        ∃ t, ((Decoder.chunked (Chunked.new mh ms)).readAll P rd).view = .complete (bodyData (Pipe.init.run is).given) t rest ∧
          ∀ n, valuesOf n (t.getD []) = (handedOn allow (declared.getD []) fs n).map trimBlanks) := by
  rcases C96_complete_partial is evs gaveUp ha len eos he k r hrd hn with h | h | ⟨h1, h2, h3⟩
  · exact Or.inl h
  · exact Or.inr (Or.inl h)
  · rw [h3, hfs] at htr
    obtain ⟨t, t1, t2⟩ := relay P hP mh ms fs htok allow title last declared frames hok hfit htr hcount hsize rd rest hstream
    exact Or.inr (Or.inr ⟨h1, t, by rw [t1, hdata, h2], t2⟩)

/-- C103 fails for fields that HTTP/2 forbids: they are removed from heads (C45) but not from trailers.  Whatever is read as a trailer over HTTP/1, `Connection` or `Transfer-Encoding`
for instance, is given to the stream. -/
theorem C103_forbidden_sent :
    ((Decoder.chunked (Chunked.new none none)).readAll parseBlock
      ⟨ascii "0\r\nConnection: close\r\nTransfer-Encoding: x\r\n\r\n", [], .silent⟩).view =
      .complete [] (some [(ascii "connection", ascii "close"), (ascii "transfer-encoding", ascii "x")]) [] ∧
    (Pipe.init.run [{ body := .frame (.trailers (forwardTrailers [(ascii "connection", ascii "close"), (ascii "transfer-encoding", ascii "x")]).fields) }]).out =
      [.trailers [(ascii "connection", ascii "close"), (ascii "transfer-encoding", ascii "x")]] ∧
    (∀ kind, stripConnectionHeaders kind (forwardTrailers [(ascii "connection", ascii "close"), (ascii "transfer-encoding", ascii "x")]) = []) := by
  refine ⟨by decide +kernel, by decide +kernel, fun kind => ?_⟩
  cases kind <;> decide +kernel

/-- And for every list of trailers: what the body gives as trailers is what the stream is told. -/
theorem C103_trailers_as_they_are (fs : Fields) :
    (Pipe.init.run [{ body := .frame (.trailers (forwardTrailers fs).fields) }]).out = [.trailers (forwardTrailers fs).fields] ∧
    (Pipe.init.run [{ body := .frame (.trailers (forwardTrailers fs).fields) }]).res = some .ok := ⟨rfl, rfl⟩

/-- A body of two bytes with trailers, sent over HTTP/2, read by a proxy, and written as chunked. -/
example :
    let is : List In := [{ body := .frame (.data (ascii "hi") false) }, { capacity := 2 }, { body := .frame (.trailers [(ascii "x-a", ascii " 1")]) }]
    let r := (H2Reader.start DecodedLength.CHUNKED false [.data (ascii "hi"), .trailers [(ascii "x-a", ascii " 1")]]).polls 3
    (Pipe.init.run is).res = some .ok ∧ trailersIn (Pipe.init.run is).given = [[(ascii "x-a", ascii " 1")]] ∧
      r.outs = [.data (ascii "hi"), .trailers [(ascii "x-a", ascii " 1")], .none] ∧
      (writeFrames true false [] (.body ⟨.chunked (some [ascii "x-a"]), false⟩) [.data (ascii "hi") false, .trailers (forwardTrailers [(ascii "x-a", ascii " 1")])]).out =
        ascii "2\r\nhi\r\n0\r\nx-a:  1\r\n\r\n" := by decide +kernel

end Hyper
