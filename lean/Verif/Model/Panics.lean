import Verif.Model.Dispatch

/-!
# Where an HTTP/1 connection panics

`Model/Conn.lean` and `Model/Dispatch.lean` leave the state alone, or close the connection, where the code has `unreachable!`, `expect`, `panic!` or an assertion.  Here the same
functions are written down once more with those places: a function either gives what it gives there or names the place where it panics.  That none is reached, so that the two
models are one, is the subject of `Props/Panics.lean`.
-/

namespace Hyper

/-- A place in the code where it panics. -/
inductive Site where
  /-- `poll_read_body` with no body to be read (conn.rs 417). -/
  | readBody
  /-- `expect("trailers_buf is None")` (decode.rs 540, 571). -/
  | trailersBuf
  /-- `write_body` and `write_body_and_end` with no body to be written (conn.rs 733, 778). -/
  | writeBody
  /-- `write_trailers` with no body to be written (conn.rs 760). -/
  | writeTrailers
  /-- `expect("current header name")` while trailers are filtered (encode.rs 180). -/
  | trailerName
  /-- A head whose version is neither 1.0, 1.1 nor 2, or `expect("current header name")` (role.rs 436, 704, 1224). -/
  | head
  /-- `poll_msg` of a server without a request in flight (dispatch.rs 613). -/
  | noInFlight
  /-- A buffer is advanced beyond its end (io.rs 291, 315, 570). -/
  | advance
  /-- `HeaderMap::reserve` beyond what a map can hold (role.rs 260, 1118). -/
  | reserve
  deriving DecidableEq, Repr

namespace Conn

/-- `Buffered::buffer` (io.rs 148-155, 547-583). -/
def putX (c : Conn) (bs : Bytes) : Except Site Conn :=
  if bs = [] then .ok c
  else
    match c.out.wbuf.buffer bytesBuf true bs with
    | some w => .ok { c with out := { c.out with wbuf := w } }
    | none => .error .advance

/-- `Conn::write_body` (conn.rs 714-737). -/
def writeBodyX (c : Conn) (bs : Bytes) : Except Site Conn :=
  match c.writing with
  | .body _ => (c.putX (c.writing.writeBody bs).1).map (fun c' => c'.setWriting (c.writing.writeBody bs).2)
  | _ => .error .writeBody

/-- `Conn::write_body_and_end` (conn.rs 764-782). -/
def writeBodyAndEndX (c : Conn) (bs : Bytes) : Except Site Conn :=
  match c.writing with
  | .body _ => (c.putX (c.writing.writeBodyAndEnd bs).1).map (fun c' => c'.setWriting (c.writing.writeBodyAndEnd bs).2)
  | _ => .error .writeBody

/-- Whether filtering trailers panics (encode.rs 173-191). -/
def _root_.Hyper.Encoder.trailersPanic (e : Encoder) (m : HeaderMap) : Bool :=
  match e.kind with
  | .chunked (some allowed) => (filterTrailers allowed none [] m.drain).isNone
  | _ => false

/-- `Conn::write_trailers` (conn.rs 739-762). -/
def writeTrailersX (c : Conn) (m : HeaderMap) : Except Site Conn :=
  if !(c.client || c.allowTrailers) then .ok (c.writeTrailers m)
  else
    match c.writing with
    | .body enc =>
      if enc.trailersPanic m then .error .trailerName
      else
        let r := c.writing.writeTrailers (c.client || c.allowTrailers) c.titleCase m
        (c.putX r.1).map (fun c' => c'.setWriting r.2)
    | _ => .error .writeTrailers

/-- `Conn::end_body` (conn.rs 784-812). -/
def endBodyX (c : Conn) : Except Site (Option Nat × Conn) :=
  (c.putX c.writing.endBody.1).map (fun c' => (c.writing.endBody.2.2, c'.setWriting c.writing.endBody.2.1))

/-- `Conn::write_head` for the server (conn.rs 596-663). -/
def writeRespX (env : EncodeEnv) (c : Conn) (m : RespOut) (ev : Bool → Ev) : Except Site Conn :=
  match (c.respEnc env m).2 with
  | .panic => .error .head
  | _ => .ok (c.writeResp env m ev)

/-- `Conn::write_head` for the client (conn.rs 596-663). -/
def writeReqX (c : Conn) (h : ReqHead) (body : Option BodyLength) (n : Nat) : Except Site Conn :=
  match (c.reqEnc h body).2 with
  | .panic => .error .head
  | _ => .ok (c.writeReq h body n)

/-- `Conn::on_parse_error` (conn.rs 819-836), then the match of `on_read_head_error` (conn.rs 348-351). -/
def onParseErrorX (env : EncodeEnv) (c : Conn) (e : Option ParseErr) (h2 : Bool) : Except Site (HeadOut × Conn) :=
  if c.writing = .init then
    if h2 then .ok (.err, c)
    else
      match c.onError e with
      | some status => (c.writeRespX env (errorResp status) (fun _ => .errorHead)).map (fun c' => (.pending, { c' with error := true }))
      | none => .ok (.err, c)
  else .ok (.err, c)

/-- `Conn::on_read_head_error` (conn.rs 333-357). -/
def onReadHeadErrorX (env : EncodeEnv) (c : Conn) (e : Option ParseErr) (rest h2 : Bool) : Except Site (HeadOut × Conn) :=
  if e.isSome || rest || (c.client && c.ka != .idle) then c.closeRead.onParseErrorX env e h2
  else .ok (.eof, c.closeRead.closeWrite)

/-- `Conn::poll_read_head` (conn.rs 211-331). -/
def pollReadHeadX (env : EncodeEnv) (c : Conn) (t0 t1 : Nat) (i : ParseIn) (nt : NotifyIn) (n : Nat) : Except Site (HeadOut × Conn) :=
  match i with
  | .error e rest h2 => (c.startTimer t0).onReadHeadErrorX env e rest h2
  | _ => .ok (c.pollReadHead env t0 t1 i nt n)

/-- The arm of a body being read (conn.rs 366-404, 420-422), with the panics of the decoder. -/
def decodeBodyX (P : TrailerParser) (c : Conn) (d : Decoder) (r : Rd) (i : NotifyIn) : Except Site (BodyRes × Conn) :=
  match (d.decode P r).1 with
  | .ready (.error .panic) => .error .trailersBuf
  | _ => .ok (c.decodeBody P d r i)

/-- `Conn::poll_read_body` (conn.rs 359-423). -/
def pollReadBodyX (P : TrailerParser) (c : Conn) (r : Rd) (i : NotifyIn) : Except Site (BodyRes × Conn) :=
  match c.reading with
  | .body d => c.decodeBodyX P d r i
  | .cont d => c.sendContinue.decodeBodyX P d r i
  | _ => .error .readBody

/-- `Conn::poll_drain_or_close_read` (conn.rs 859-875). -/
def drainOrCloseX (P : TrailerParser) (c : Conn) (r : Rd) (i : NotifyIn) : Except Site Conn :=
  (c.drainStart.pollReadBodyX P r i).map (fun x => x.2.drainEnd)

/-- `Conn::poll_flush` (conn.rs 838-843). -/
def pollFlushX (c : Conn) (f : FlushIn) (i : NotifyIn) : Except Site (FlushRes × Conn) :=
  if ((c.scripted f).pollFlush bytesBuf f.readBuf).1 = .panic then .error .advance else .ok (c.pollFlush f i)

/-- `Conn::poll_shutdown` (conn.rs 845-856). -/
def pollShutdownX (c : Conn) (f : FlushIn) : Except Site (FlushRes × Conn) :=
  if ((c.scripted f).pollShutdown bytesBuf f.readBuf).1 = .panic then .error .advance else .ok (c.pollShutdown f)

end Conn

namespace Disp

/-- `Dispatcher::poll_read_head` (dispatch.rs 301-354) once the dispatch is ready. -/
def readHeadReadyX (env : EncodeEnv) (d : Disp) (i : ReadIn) : Except Site Disp :=
  (d.conn.pollReadHeadX env i.t0 i.t1 i.parse i.notify d.headId).map (fun r => { d with conn := r.2 }.afterHead r.1)

/-- `Dispatcher::poll_read_head` (dispatch.rs 301-354). -/
def readHeadX (env : EncodeEnv) (d : Disp) (i : ReadIn) : Except Site Disp :=
  match d.inFlight with
  | some _ => if d.conn.client then (if i.ready then d.readHeadReadyX env i else .ok d.close) else .ok d
  | none => if d.conn.client then .ok d.close else d.readHeadReadyX env i

/-- Reading a piece of body for a reader that has room (dispatch.rs 247-291). -/
def readPieceX (P : TrailerParser) (d : Disp) (i : ReadIn) (k : Nat) : Except Site Disp :=
  (d.conn.pollReadBodyX P i.rd i.notify).map (fun r => ({ d with conn := r.2 }.maybeLose k i.gone).afterPiece k i.gone r.1)

/-- The arm of `poll_read` for the current body (dispatch.rs 231-294). -/
def readBodyX (P : TrailerParser) (d : Disp) (i : ReadIn) (k : Nat) : Except Site Disp :=
  if d.conn.canReadBody then
    match (d.chans[k]?).map Chan.want with
    | some .ready => if i.full then .ok d else d.readPieceX P i k
    | some .pending => .ok d
    | _ => (d.conn.drainOrCloseX P i.rd i.notify).map (fun c => { d.dropBody k with conn := c })
  else .ok (d.dropBody k)

/-- One turn of the loop of `Dispatcher::poll_read` (dispatch.rs 225-299). -/
def readTurnX (env : EncodeEnv) (P : TrailerParser) (d : Disp) (i : ReadIn) : Except Site Disp :=
  if d.closing then .ok d
  else if d.conn.canReadHead then d.readHeadX env i
  else
    match d.bodyTx with
    | some k => d.readBodyX P i k
    | none => .ok (d.readIdle i)

/-- Taking a message and writing its head (dispatch.rs 364-383); `poll_msg` of a server needs a request in flight (dispatch.rs 602-614). -/
def writeHeadX (env : EncodeEnv) (d : Disp) (m : MsgOut) : Except Site Disp :=
  if !d.conn.client && d.inFlight.isNone then .error .noInFlight
  else
    match m with
    | .resp m =>
      if d.conn.client then .ok d
      else (d.conn.writeRespX env m (.writeHead (d.inFlight.getD d.next))).map (fun c => { d with inFlight := none, bodyRx := m.body.isSome, conn := c })
    | .req h body =>
      if d.conn.client then
        (d.conn.writeReqX h body d.next).map (fun c => { d with inFlight := some d.next, next := d.next + 1, bodyRx := body.isSome, conn := c })
      else .ok d
    | m => .ok (d.writeHead env m)

/-- `Dispatcher::poll_flush` (dispatch.rs 450-455). -/
def flushTurnX (d : Disp) (f : FlushIn) (i : NotifyIn) : Except Site Disp :=
  (d.conn.pollFlushX f i).map (fun r => if r.1 = .ok ∨ r.1 = .pending then { d with conn := r.2 } else { d with conn := r.2 }.fail)

/-- `Conn::end_body` with its error (dispatch.rs 415, 436, 441). -/
def endBodyX (d : Disp) : Except Site Disp :=
  d.conn.endBodyX.map (fun r => if r.1.isSome then { d with conn := r.2 }.fail else { d with conn := r.2 })

/-- A frame of the user's body (dispatch.rs 401-437). -/
def writeFrameX (d : Disp) (f : FrameIn) : Except Site Disp :=
  match f with
  | .pending => .ok d
  | .eof => { d with bodyRx := false }.endBodyX
  | .frame (.data bs true) =>
    if bs = [] then { d with bodyRx := false }.endBodyX
    else (d.conn.writeBodyAndEndX bs).map (fun c => { d with bodyRx := false, conn := c })
  | .frame (.data bs false) => if bs = [] then .ok d else (d.conn.writeBodyX bs).map (fun c => { d with conn := c })
  | .frame (.trailers m) => (d.conn.writeTrailersX m).map (fun c => { d with bodyRx := false, conn := c })
  | .frame .unknown => .ok d
  | .frame .error => .ok { d with bodyRx := false }.fail

/-- One turn of the loop of `Dispatcher::poll_write` (dispatch.rs 356-448). -/
def writeTurnX (env : EncodeEnv) (d : Disp) (i : WriteIn) : Except Site Disp :=
  if d.closing then .ok d
  else if !d.bodyRx && d.conn.canWriteHead && d.shouldPoll then d.writeHeadX env i.msg
  else if !d.conn.canBufferBody then d.flushTurnX i.flush i.notify
  else if d.bodyRx then
    if d.conn.canWriteBody then d.writeFrameX i.frame else .ok { d with bodyRx := false }
  else if d.conn.canWriteBody then d.endBodyX
  else .ok d

/-- The end of a poll (dispatch.rs 152-163). -/
def finishTurnX (d : Disp) (shutdown : Bool) (f : FlushIn) : Except Site Disp :=
  if !d.isDone then .ok d
  else if d.conn.upgrade then .ok { d with conn := { d.conn with upgrade := false } }.complete
  else if shutdown then
    (d.conn.pollShutdownX f).map (fun r =>
      if r.1 = .pending then { d with conn := r.2 } else if r.1 = .ok then { d with conn := r.2 }.complete else { d with conn := r.2 }.fail)
  else .ok d.complete

/-- One act.  A future that has completed is not polled again. -/
def stepX (env : EncodeEnv) (P : TrailerParser) (d : Disp) (a : Act) : Except Site Disp :=
  match a with
  | .read i => if d.done then .ok d else d.readTurnX env P i
  | .write i => if d.done then .ok d else d.writeTurnX env i
  | .flush f i => if d.done then .ok d else d.flushTurnX f i
  | .finish s f => if d.done then .ok d else d.finishTurnX s f
  | a => .ok (d.step env P a)

/-- A run, up to the first panic. -/
def runX (env : EncodeEnv) (P : TrailerParser) : Disp → List Act → Except Site Disp
  | d, [] => .ok d
  | d, a :: as =>
    match d.stepX env P a with
    | .ok d' => runX env P d' as
    | .error s => .error s

end Disp

/-- What a `HeaderMap` can index (`MAX_SIZE` of the `http` crate). -/
def mapMaxSize : Nat := 2 ^ 15

/-- `HeaderMap::reserve` of an empty map (`http` crate): panics if the table for so many names, kept three quarters full, is larger than the largest. -/
def reserveX (n : Nat) : Except Site Unit := if n + n / 3 > mapMaxSize then .error .reserve else .ok ()

/-- `Server::parse` after `httparse` completed (role.rs 178-380) with the panic of `headers.reserve(headers_len)` (role.rs 260), which comes before the header loop. -/
def serverParseX (methodOk uriOk : Bytes → Bool) (preserveCase : Bool) (r : RawRequest) : Except Site (Except ParseErr RequestMsg) :=
  if r.target.length > MAX_URI_LEN then .ok (.error .uriTooLong)
  else if !methodOk r.method then .ok (.error .method)
  else if namesTooLong r.fields then .ok (.error .tooLarge)
  else if !uriOk r.target then .ok (.error .uri)
  else (reserveX r.fields.length).map (fun _ => serverParse methodOk uriOk preserveCase r)

end Hyper
