import Verif.Model.Encode

/-!
# Writing a message body: `src/proto/h1/conn.rs` 714-812 driven by `src/proto/h1/dispatch.rs` 384-446

The write buffer is represented by the bytes appended to it; waiting for it to drain
(dispatch.rs 384-385) does not change what is written.
-/

namespace Hyper

/-- `Writing` (`src/proto/h1/conn.rs` 982-987). -/
inductive Writing where
  | init
  | body (e : Encoder)
  | keepAlive
  | closed
  deriving DecidableEq, Repr

/-- `if last { Writing::Closed } else { Writing::KeepAlive }` (conn.rs 600-604, 727-731, 799-803). -/
def Writing.afterBody (last : Bool) : Writing := if last then .closed else .keepAlive

/-- `Conn::write_body` (conn.rs 714-737): bytes buffered and new state.  Outside `Writing::Body`
the code is unreachable; the model leaves the state alone. -/
def Writing.writeBody (w : Writing) (chunk : Bytes) : Bytes × Writing :=
  match w with
  | .body enc =>
    let (out, enc) := enc.encode chunk
    if !enc.isEof then (out, .body enc) else (out, .afterBody enc.isLast)
  | w => ([], w)

/-- `Conn::write_body_and_end` (conn.rs 764-782). -/
def Writing.writeBodyAndEnd (w : Writing) (chunk : Bytes) : Bytes × Writing :=
  match w with
  | .body enc =>
    let (out, ka) := enc.encodeAndEnd chunk
    (out, if ka then .keepAlive else .closed)
  | w => ([], w)

/-- `Conn::write_trailers` (conn.rs 739-762).  `allow` is `!is_server || allow_trailer_fields`. -/
def Writing.writeTrailers (w : Writing) (allow title : Bool) (trailers : HeaderMap) :
    Bytes × Writing :=
  if !allow then ([], w)
  else
    match w with
    | .body enc =>
      match enc.encodeTrailers trailers title with
      | some out => (out, .afterBody (enc.isLast || enc.isCloseDelimited))
      | none => ([], w)
    | w => ([], w)

/-- `Conn::end_body` (conn.rs 784-812): bytes buffered, new state, and the `body write aborted`
error (with the number of missing bytes) if any. -/
def Writing.endBody (w : Writing) : Bytes × Writing × Option Nat :=
  match w with
  | .body enc =>
    match enc.finish with
    | .ok o => (o.getD [], .afterBody (enc.isLast || enc.isCloseDelimited), none)
    | .error n => ([], .closed, some n)
  | w => ([], w, none)

/-- What the user's `Body` yields when polled: a data frame together with its answer to
`is_end_stream` right afterwards, trailers, another kind of frame, or an error. -/
inductive UserFrame where
  | data (bs : Bytes) (endStream : Bool)
  | trailers (m : HeaderMap)
  | unknown
  | error
  deriving DecidableEq, Repr

/-- How writing the body ended. -/
inductive WriteEnd where
  /-- No error reported. -/
  | ok
  /-- `new_user_body` error: the user's body failed (dispatch.rs 403-406). -/
  | userError
  /-- `new_body_write_aborted` error: the body was shorter than announced (conn.rs 807-810). -/
  | aborted (missing : Nat)
  deriving DecidableEq, Repr

/-- Result of writing a body: bytes put on the write buffer, final state, outcome. -/
structure WriteRes where
  out : Bytes
  writing : Writing
  result : WriteEnd
  deriving DecidableEq, Repr

/-- Ending the body when `body_rx` is gone (dispatch.rs 435-445): `end_body` if still writing. -/
def finishBody (out : Bytes) (w : Writing) : WriteRes :=
  match w with
  | .body _ =>
    let (o, w, err) := w.endBody
    match err with
    | none => ⟨out ++ o, w, .ok⟩
    | some n => ⟨out ++ o, w, .aborted n⟩
  | w => ⟨out, w, .ok⟩

/-- The body arm of `Dispatcher::poll_write` (dispatch.rs 386-446) over the frames the user's body
yields (`[]` is `None`, the end of the body).  A body error is returned to the caller, who closes
the connection (`Dispatcher::poll_catch`); `writing` is then left as it is. -/
def writeFrames (allow title : Bool) : Bytes → Writing → List UserFrame → WriteRes
  | out, w, frames =>
    match w with
    | .body _ =>
      match frames with
      | [] => finishBody out w
      | .data bs true :: _ =>
        if bs = [] then finishBody out w
        else
          let (o, w) := w.writeBodyAndEnd bs
          ⟨out ++ o, w, .ok⟩
      | .data bs false :: rest =>
        if bs = [] then writeFrames allow title out w rest
        else
          let (o, w) := w.writeBody bs
          writeFrames allow title (out ++ o) w rest
      | .trailers m :: _ =>
        let (o, w) := w.writeTrailers allow title m
        finishBody (out ++ o) w
      | .unknown :: rest => writeFrames allow title out w rest
      | .error :: _ => ⟨out, w, .userError⟩
    | w => ⟨out, w, .ok⟩
termination_by _ _ frames => frames.length

end Hyper
