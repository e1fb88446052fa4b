import Verif.Model.Incoming
import Verif.Model.ReadBuf

/-!
# The callbacks of the C API: bodies and transports (`src/ffi/body.rs`, `src/ffi/io.rs`), its requests (`src/ffi/http_types.rs`) and errors (`src/ffi/error.rs`)
-/

namespace Hyper.Ffi

/-! ## Bodies the application sends -/

/-- What a data callback did: its return code, and the buffer it put through the `hyper_buf **` (`none` = it is still null). -/
structure DataCall where
  code : Int
  out : Option Bytes
  deriving DecidableEq, Repr

/-- Errors of `UserBody::poll_data`: `new_body_write_aborted` and `new_body_write`. -/
inductive BodyErr where
  | aborted
  | badCode (code : Int)
  deriving DecidableEq, Repr

/-- What `UserBody::poll_data` returns. -/
inductive UserPoll where
  | pending
  | data (bs : Bytes)
  | done
  | error (e : BodyErr)
  deriving DecidableEq, Repr

/-- `HYPER_POLL_READY`, `HYPER_POLL_PENDING`, `HYPER_POLL_ERROR` (ffi/task.rs 22, 27, 29). -/
def POLL_READY : Int := 0
def POLL_PENDING : Int := 1
def POLL_ERROR : Int := 3

/-- `UserBody::poll_data` (ffi/body.rs 210-234).  A buffer set by a callback that does not return `HYPER_POLL_READY` is dropped as a raw pointer: it leaks. -/
def userPoll (c : DataCall) : UserPoll :=
  if c.code = POLL_READY then
    match c.out with
    | none => .done
    | some bs => .data bs
  else if c.code = POLL_PENDING then .pending
  else if c.code = POLL_ERROR then .error .aborted
  else .error (.badCode c.code)

/-- `data_noop` (ffi/body.rs 237-244): the callback of a body that was not configured. -/
def dataNoop : DataCall := ⟨POLL_READY, none⟩

/-- What the connection asks of a body: polls until it has ended or failed (a body is not polled after that: `BodyWriter`). -/
def userRun : List DataCall → List UserPoll
  | [] => []
  | c :: cs =>
    match userPoll c with
    | .pending => .pending :: userRun cs
    | .data bs => .data bs :: userRun cs
    | x => [x]

/-! ## Bodies the application receives -/

/-- How a task of `hyper_body_data` ends: `HYPER_TASK_BUF`, `HYPER_TASK_EMPTY`, `HYPER_TASK_ERROR`. -/
inductive DataTask where
  | buf (bs : Bytes)
  | empty
  | error
  | panic
  deriving DecidableEq, Repr

/-- One poll of the task of `hyper_body_data` (ffi/body.rs 109-128), on the answers the body will give, in order (when there are none left, it is pending).
Gives the outcome, if there is one, and the answers that are left. -/
def pollData : List FrameOut → Option DataTask × List FrameOut
  | [] => (none, [])
  | .pending :: t => (none, t)
  | .data bs :: t => (some (.buf bs), t)
  | .trailers _ :: t => pollData t
  | .none :: t => (some .empty, t)
  | .error :: t => (some .error, t)
  | .panic :: t => (some .panic, t)

/-- An application that makes such tasks one after the other, and polls `n` times in all.  The outcomes, in order, and the answers left. -/
def dataTasks : Nat → List FrameOut → List DataTask × List FrameOut
  | 0, ans => ([], ans)
  | n + 1, ans =>
    match pollData ans with
    | (none, rest) => dataTasks n rest
    | (some o, rest) => (o :: (dataTasks n rest).1, (dataTasks n rest).2)

/-- How a task of `hyper_body_foreach` ends. -/
inductive EachTask where
  | ok
  /-- `new_user_aborted_by_callback`. -/
  | aborted
  | error
  | panic
  deriving DecidableEq, Repr

/-- A task of `hyper_body_foreach`: the calls of the callback so far and the outcome. -/
structure Each where
  calls : List Bytes := []
  out : Option EachTask := none
  deriving DecidableEq, Repr

/-- `HYPER_ITER_CONTINUE` (ffi/mod.rs 65). -/
def ITER_CONTINUE : Int := 0

/-- One poll of that task (ffi/body.rs 142-157); `cb` is what the callback returns, by the number of calls before. -/
def pollEach (cb : Nat → Int) : Each → List FrameOut → Each × List FrameOut
  | e, [] => (e, [])
  | e, .pending :: t => (e, t)
  | e, .data bs :: t =>
    if cb e.calls.length ≠ ITER_CONTINUE then ({ calls := e.calls ++ [bs], out := some .aborted }, t)
    else pollEach cb { e with calls := e.calls ++ [bs] } t
  | e, .trailers _ :: t => pollEach cb e t
  | e, .none :: t => ({ e with out := some .ok }, t)
  | e, .error :: t => ({ e with out := some .error }, t)
  | e, .panic :: t => ({ e with out := some .panic }, t)

/-- Polled `n` times, but not after it has ended. -/
def eachPolls (cb : Nat → Int) : Nat → Each → List FrameOut → Each × List FrameOut
  | 0, e, ans => (e, ans)
  | n + 1, e, ans => if e.out.isSome then (e, ans) else eachPolls cb n (pollEach cb e ans).1 (pollEach cb e ans).2

/-! ## Transports -/

/-- `HYPER_IO_PENDING`, `HYPER_IO_ERROR` (ffi/io.rs 11, 14). -/
def IO_PENDING : Nat := 0xFFFFFFFF
def IO_ERROR : Nat := 0xFFFFFFFE

/-- `poll_read` of `hyper_io` (ffi/io.rs 141-165): the callback was given the cells after the filled ones, wrote `wrote` to their beginning and returned `ret`. -/
def ioRead (b : ReadBuf) (wrote : Bytes) (ret : Nat) : PollIo × ReadBuf :=
  let b := b.writeSlice wrote
  if ret = IO_PENDING then (.pending, b)
  else if ret = IO_ERROR then (.error, b)
  else (.ready, b.advance ret)

/-- What `poll_write` returns. -/
inductive IoWrite where
  | pending
  | error
  | wrote (n : Nat)
  deriving DecidableEq, Repr

/-- `poll_write` of `hyper_io` (ffi/io.rs 167-185). -/
def ioWrite (ret : Nat) : IoWrite :=
  if ret = IO_PENDING then .pending
  else if ret = IO_ERROR then .error
  else .wrote ret

/-! ## Requests -/

/-- `http::Version`, as far as the C API names it. -/
inductive CVersion where
  | h10
  | h11
  | h2
  | other
  deriving DecidableEq, Repr

/-- `HYPER_HTTP_VERSION_*` (ffi/mod.rs 71-77). -/
def VERSION_NONE : Int := 0
def VERSION_1_0 : Int := 10
def VERSION_1_1 : Int := 11
def VERSION_2 : Int := 20

/-- The match in `hyper_request_set_version` (ffi/http_types.rs 214-223). -/
def versionOf (v : Int) : Option CVersion :=
  if v = VERSION_NONE then some .h11
  else if v = VERSION_1_0 then some .h10
  else if v = VERSION_1_1 then some .h11
  else if v = VERSION_2 then some .h2
  else none

/-- `hyper_response_version` (ffi/http_types.rs 354-363). -/
def responseVersion : CVersion → Int
  | .h10 => VERSION_1_0
  | .h11 => VERSION_1_1
  | .h2 => VERSION_2
  | .other => VERSION_NONE

/-- `hyper_request` (ffi/http_types.rs 31): the parts that its setters change.  A URI is the bytes it was made of; a body the number of the `hyper_body`. -/
structure Req where
  method : Bytes
  uri : Bytes
  version : CVersion
  body : Option Nat
  deriving DecidableEq, Repr

/-- `hyper_request_new` (ffi/http_types.rs 90-92): `Request::new` of an empty body. -/
def Req.new : Req := ⟨ascii "GET", ascii "/", .h11, none⟩

/-- The setters.  The pointer to the request is not null. -/
inductive ReqOp where
  | method (bs : Bytes)
  | uri (bs : Bytes)
  /-- `hyper_request_set_uri_parts`: null pointers are `none`. -/
  | parts (scheme authority path : Option Bytes)
  | version (v : Int)
  | body (b : Nat)
  deriving DecidableEq, Repr

/-- The parsers of the crate `http`: `Method::from_bytes`, `Uri::from_maybe_shared`, `uri::Builder`. -/
structure Http where
  methodOk : Bytes → Bool
  uriOk : Bytes → Bool
  build : Option Bytes → Option Bytes → Option Bytes → Option Bytes

/-- One setter (ffi/http_types.rs 104-119, 136-151, 161-199, 208-226, 246-251) and whether it returns `HYPERE_OK` (otherwise `HYPERE_INVALID_ARG`). -/
def Req.set (H : Http) (r : Req) : ReqOp → Bool × Req
  | .method bs => if H.methodOk bs then (true, { r with method := bs }) else (false, r)
  | .uri bs => if H.uriOk bs then (true, { r with uri := bs }) else (false, r)
  | .parts s a p =>
    match H.build s a p with
    | some u => (true, { r with uri := u })
    | none => (false, r)
  | .version v =>
    match versionOf v with
    | some v => (true, { r with version := v })
    | none => (false, r)
  | .body b => (true, { r with body := some b })

def Req.run (H : Http) (r : Req) (ops : List ReqOp) : Req := ops.foldl (fun r op => (r.set H op).2) r

/-! ## Errors -/

/-- `print_to` (ffi/error.rs 54-64): `write!` into a cursor over `room` bytes, of a text that `Display` gives in pieces.  The first piece that does not fit is
written as far as it does, and ends it. -/
def printTo : Nat → List Bytes → Bytes
  | _, [] => []
  | room, p :: ps => if p.length ≤ room then p ++ printTo (room - p.length) ps else p.take room

end Hyper.Ffi
