import Verif.Model.Headers
import Verif.Model.Encode
import Verif.Model.Decode

/-!
# Message heads, body lengths, parse errors

`src/body/length.rs`, `src/proto/mod.rs`, `src/proto/h1/mod.rs`, `src/error.rs`.
-/

namespace Hyper

deriving instance DecidableEq for Except

/-- `http::Version`. -/
inductive Version where
  | h09 | h10 | h11 | h2 | h3
  deriving DecidableEq, Repr

/-- `http::Method::HEAD`. -/
def mHEAD : Bytes := ascii "HEAD"
/-- `http::Method::CONNECT`. -/
def mCONNECT : Bytes := ascii "CONNECT"
/-- `http::Method::GET`. -/
def mGET : Bytes := ascii "GET"

/-- `http::header::CONTENT_LENGTH`. -/
def hCL : Bytes := ascii "content-length"
/-- `http::header::TRANSFER_ENCODING`. -/
def hTE : Bytes := ascii "transfer-encoding"
/-- `http::header::CONNECTION`. -/
def hCONN : Bytes := ascii "connection"
/-- `http::header::TRAILER`. -/
def hTRAILER : Bytes := ascii "trailer"
/-- `http::header::DATE`. -/
def hDATE : Bytes := ascii "date"
/-- `http::header::EXPECT`. -/
def hEXPECT : Bytes := ascii "expect"
/-- `http::header::UPGRADE`. -/
def hUPGRADE : Bytes := ascii "upgrade"

/-- `StatusCode::is_informational` (crate `http`). -/
def isInformational (status : Nat) : Bool := 100 ≤ status && status ≤ 199
/-- `StatusCode::is_success` (crate `http`). -/
def isSuccess (status : Nat) : Bool := 200 ≤ status && status ≤ 299

/-- `error::Header` (src/error.rs 110-118). -/
inductive HeaderErr where
  | token | contentLengthInvalid | transferEncodingInvalid | transferEncodingUnexpected
  deriving DecidableEq, Repr

/-- `error::Parse` (src/error.rs 89-106). -/
inductive ParseErr where
  | method | version | versionH2 | uri | uriTooLong | header (e : HeaderErr) | tooLarge | status
  | internal
  deriving DecidableEq, Repr

/-- `DecodedLength(u64)` (src/body/length.rs 4). -/
structure DecodedLength where
  val : Nat
  deriving DecidableEq, Repr

namespace DecodedLength

/-- length.rs 21: `MAX_LEN`. -/
def MAX_LEN : Nat := u64Max - 2
/-- length.rs 24. -/
def CLOSE_DELIMITED : DecodedLength := ⟨u64Max⟩
/-- length.rs 25. -/
def CHUNKED : DecodedLength := ⟨u64Max - 1⟩
/-- length.rs 26. -/
def ZERO : DecodedLength := ⟨0⟩

/-- `checked_new` (length.rs 56-63). -/
def checkedNew (len : Nat) : Except ParseErr DecodedLength :=
  if len ≤ MAX_LEN then .ok ⟨len⟩ else .error .tooLarge

/-- `into_opt` (length.rs 47-52). -/
def intoOpt (d : DecodedLength) : Option Nat :=
  if d = CHUNKED ∨ d = CLOSE_DELIMITED then none else some d.val

/-- `From<Option<u64>>` (length.rs 7-15). -/
def ofOption (len : Option Nat) : DecodedLength :=
  match len with
  | none => CHUNKED
  | some n =>
    match checkedNew n with
    | .ok d => d
    | .error _ => CHUNKED

/-- `sub_if` (length.rs 69-76); `none` is the overflow panic of `-=` in debug builds. -/
def subIf (d : DecodedLength) (amt : Nat) : Option DecodedLength :=
  if d = CHUNKED ∨ d = CLOSE_DELIMITED then some d
  else if amt ≤ d.val then some ⟨d.val - amt⟩ else none

/-- `is_exact` (length.rs 84-86). -/
def isExact (d : DecodedLength) : Bool := d.val ≤ MAX_LEN

end DecodedLength

/-- `Decoder::new` (src/proto/h1/decode.rs 118-128). -/
def Decoder.ofLength (len : DecodedLength) (maxHeaders maxSize : Option Nat) : Decoder :=
  if len = DecodedLength.CHUNKED then .chunked (Chunked.new maxHeaders maxSize)
  else if len = DecodedLength.CLOSE_DELIMITED then .eof false
  else .length len.val

/-- `BodyLength` (src/proto/mod.rs 47-52). -/
inductive BodyLength where
  | known (n : Nat)
  | unknown
  deriving DecidableEq, Repr

/-- `itoa` / `HeaderValue::from(u64)`: decimal digits without leading zeros. -/
def decimal (n : Nat) : Bytes :=
  if n < 10 then [UInt8.ofNat (48 + n)] else decimal (n / 10) ++ [UInt8.ofNat (48 + n % 10)]
termination_by n
decreasing_by omega

/-- `u16::MAX - 1` (src/proto/h1/role.rs 34): `MAX_URI_LEN`. -/
def MAX_URI_LEN : Nat := 65534

/-- `MessageHead` of a request as parsed (src/proto/mod.rs 22-31); `caseMap` is the `HeaderCaseMap`
extension (src/ext/mod.rs 161). -/
structure RequestMsg where
  method : Bytes
  target : Bytes
  version : Version
  headers : HeaderMap
  caseMap : Option HeaderMap
  decode : DecodedLength
  expectContinue : Bool
  keepAlive : Bool
  wantsUpgrade : Bool
  deriving DecidableEq, Repr

end Hyper
