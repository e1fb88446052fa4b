import Verif.Model.BodyWriter

/-! # What the user's body says, independently of how it is written -/

namespace Hyper.Spec

/-- The data a user's body supplies: everything up to its end, its trailers, or its error. -/
def userData : List UserFrame → Bytes
  | [] => []
  | .data bs true :: _ => bs
  | .data bs false :: rest => bs ++ userData rest
  | .trailers _ :: _ => []
  | .unknown :: rest => userData rest
  | .error :: _ => []

/-- The trailers a user's body ends with, if it does. -/
def userTrailers : List UserFrame → Option HeaderMap
  | [] => none
  | .data _ true :: _ => none
  | .data _ false :: rest => userTrailers rest
  | .trailers m :: _ => some m
  | .unknown :: rest => userTrailers rest
  | .error :: _ => none

/-- The user's body fails before it ends. -/
def userFails : List UserFrame → Bool
  | [] => false
  | .data _ true :: _ => false
  | .data _ false :: rest => userFails rest
  | .trailers _ :: _ => false
  | .unknown :: rest => userFails rest
  | .error :: _ => true

/-- The user's body announces its end together with a non-empty last data frame. -/
def endsWithData : List UserFrame → Bool
  | [] => false
  | .data bs true :: _ => !bs.isEmpty
  | .data _ false :: rest => endsWithData rest
  | .trailers _ :: _ => false
  | .unknown :: rest => endsWithData rest
  | .error :: _ => false

/-- Every data frame is smaller than 2^64 bytes (always so on a real machine). -/
def FramesFit (frames : List UserFrame) : Prop :=
  ∀ f ∈ frames, ∀ bs e, f = .data bs e → bs.length < 2 ^ 64

/-- A header line on the wire. -/
def line (f : Bytes × Bytes) : Bytes := f.1 ++ ascii ": " ++ f.2 ++ CRLF

/-- Header lines on the wire. -/
def lines (fs : List (Bytes × Bytes)) : Bytes := fs.flatMap line

/-- Fields that must never be sent as trailers (RFC 9110 6.5.1). -/
def neverTrailer : List Bytes :=
  [ascii "authorization", ascii "cache-control", ascii "content-encoding", ascii "content-length",
   ascii "content-range", ascii "content-type", ascii "host", ascii "max-forwards",
   ascii "set-cookie", ascii "te", ascii "trailer", ascii "transfer-encoding"]

/-- The supplied trailer fields that were declared and are permitted. -/
def sendable (declared : List Bytes) (fs : List (Bytes × Bytes)) : List (Bytes × Bytes) :=
  fs.filter (fun f => decide (f.1 ∈ declared ∧ f.1 ∉ neverTrailer))

end Hyper.Spec
