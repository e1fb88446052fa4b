import Verif.Model.Conn
import Verif.Model.Buffered
import Verif.Model.H2Ping

/-!
# The builders of connections: `src/server/conn/http1.rs`, `src/client/conn/http1.rs`, `src/server/conn/http2.rs`,
`src/client/conn/http2.rs`, with `src/common/time.rs` and the construction in `src/proto/h2/server.rs` and
`src/proto/h2/client.rs`

A builder is a record of options; a call may panic (`none`).  A `Timer` is only there or not; durations are
numbers.  The builders of the crate `h2` are records of what they were told; `none` is the crate's default, and
the assertions they make on the values are not modelled.
-/

namespace Hyper.Build

/-- `httparse::ParserConfig` (crate `httparse`): the options the builders set. -/
structure ParserCfg where
  multipleSpaces : Bool := false
  ignoreInRequests : Bool := false
  spacesAfterName : Bool := false
  multiline : Bool := false
  ignoreInResponses : Bool := false
  deriving DecidableEq, Repr

/-- `Dur` (time.rs 19-24). -/
inductive Dur where
  | default (d : Option Nat)
  | configured (d : Option Nat)
  deriving DecidableEq, Repr

/-- `Time::check` (time.rs 69-85); `timer` tells whether there is one, `none` is the panic. -/
def Dur.check (timer : Bool) : Dur → Option (Option Nat)
  | .default (some d) => if timer then some (some d) else some none
  | .configured (some d) => if timer then some (some d) else none
  | .default none => some none
  | .configured none => some none

/-- A new HTTP/1 connection with what the builders set: `proto::Conn` (conn.rs 50-89) and the `Buffered` in it
(io.rs 59-75).  The write strategy, the buffer limit for writing and `flush_pipeline` are in `conn.out`. -/
structure Built where
  conn : Conn
  parser : ParserCfg := {}
  timer : Bool := false
  preserveCase : Bool := false
  preserveOrder : Bool := false
  h09 : Bool := false
  read : ReadStrategy := ReadStrategy.withMax defaultMaxBuf
  deriving DecidableEq, Repr

/-- `Conn::new` (conn.rs 50-89) on a transport that can write vectored or not, and answers as `sink` says. -/
def Built.new (client vectored : Bool) (sink : Sink) : Built :=
  { conn := { client, out := WriteSide.start (if vectored then .queue else .flatten) false sink } }

/-- `if flag { conn.set(..) }`. -/
def Built.onIf (c : Built) (flag : Bool) (f : Built → Built) : Built := if flag then f c else c

/-- `if let Some(a) = opt { conn.set(a) }`. -/
def Built.onSome {α : Type} (c : Built) (opt : Option α) (f : Built → α → Built) : Built :=
  match opt with
  | some a => f c a
  | none => c

/-- `Conn::set_timer` (conn.rs 92-94). -/
def Built.setTimer (c : Built) (timer : Bool) : Built := { c with timer }

/-- `Conn::set_h1_parser_config` (conn.rs 118-120). -/
def Built.setParser (c : Built) (parser : ParserCfg) : Built := { c with parser }

/-- `Conn::set_title_case_headers` (conn.rs 122-124). -/
def Built.setTitleCase (c : Built) : Built := { c with conn := { c.conn with titleCase := true } }

/-- `Conn::set_preserve_header_case` (conn.rs 126-128). -/
def Built.setPreserveCase (c : Built) : Built := { c with preserveCase := true }

/-- `Conn::set_preserve_header_order` (conn.rs 131-133). -/
def Built.setPreserveOrder (c : Built) : Built := { c with preserveOrder := true }

/-- `Conn::set_h09_responses` (conn.rs 136-138). -/
def Built.setH09 (c : Built) : Built := { c with h09 := true }

/-- `Conn::set_http1_max_headers` (conn.rs 140-142). -/
def Built.setMaxHeaders (c : Built) (n : Nat) : Built := { c with conn := { c.conn with maxHeaders := some n } }

/-- `Conn::set_http1_header_read_timeout` (conn.rs 145-147). -/
def Built.setTimeout (c : Built) (d : Nat) : Built := { c with conn := { c.conn with timeout := some d } }

/-- `Conn::set_allow_half_close` (conn.rs 150-152). -/
def Built.setHalfClose (c : Built) : Built := { c with conn := { c.conn with halfClose := true } }

/-- `Conn::disable_date_header` (conn.rs 155-157). -/
def Built.disableDate (c : Built) : Built := { c with conn := { c.conn with dateHeader := false } }

/-- `Conn::disable_keep_alive` (conn.rs 886-894). -/
def Built.disableKeepAlive (c : Built) : Built := { c with conn := c.conn.disableKeepAlive }

/-- `set_write_strategy_queue`, `set_write_strategy_flatten` (conn.rs 101-103, 114-116; io.rs 100-112). -/
def Built.setStrategy (c : Built) (s : WriteStrategy) : Built :=
  { c with conn := { c.conn with out := { c.conn.out with wbuf := { c.conn.out.wbuf with strategy := s } } } }

/-- `if writev { conn.set_write_strategy_queue() } else { conn.set_write_strategy_flatten() }`. -/
def Built.setWritev (c : Built) (writev : Bool) : Built := if writev then c.setStrategy .queue else c.setStrategy .flatten

/-- `set_flush_pipeline` (conn.rs 97-99; io.rs 78-84). -/
def Built.setFlushPipeline (c : Built) (enabled : Bool) : Built :=
  let c := { c with conn := { c.conn with out := { c.conn.out with flushPipeline := enabled } } }
  if enabled then c.setStrategy .flatten else c

/-- `set_read_buf_exact_size` (conn.rs 110-112; io.rs 96-98). -/
def Built.setExact (c : Built) (n : Nat) : Built := { c with read := .exact n }

/-- `set_max_buf_size` (conn.rs 105-107; io.rs 86-93); `none` is the panic. -/
def Built.setMaxBuf (c : Built) (max : Nat) : Option Built :=
  if initBufferSize ≤ max then
    some { c with
      read := ReadStrategy.withMax max
      conn := { c.conn with out := { c.conn.out with wbuf := { c.conn.out.wbuf with maxBufSize := max } } } }
  else none

/-- The server's `Builder` (server/conn/http1.rs 71-85) as `Builder::new` makes it (241-256). -/
structure H1Server where
  parser : ParserCfg := {}
  timer : Bool := false
  halfClose : Bool := false
  keepAlive : Bool := true
  titleCase : Bool := false
  preserveCase : Bool := false
  maxHeaders : Option Nat := none
  timeout : Dur := .default (some 30)
  writev : Option Bool := none
  maxBuf : Option Nat := none
  pipelineFlush : Bool := false
  date : Bool := true
  deriving DecidableEq, Repr

/-- The setters of the server's builder. -/
inductive H1ServerOp where
  | halfClose (v : Bool)
  | keepAlive (v : Bool)
  | titleCase (v : Bool)
  | multipleSpaces (v : Bool)
  | ignoreInvalid (v : Bool)
  | preserveCase (v : Bool)
  | maxHeaders (n : Nat)
  | timeout (d : Option Nat)
  | writev (v : Bool)
  | maxBuf (n : Nat)
  | date (v : Bool)
  | pipelineFlush (v : Bool)
  | timer
  deriving DecidableEq, Repr

/-- One call (server/conn/http1.rs 257-417); `none` is the panic of `max_buf_size`. -/
def H1Server.step (b : H1Server) : H1ServerOp → Option H1Server
  | .halfClose v => some { b with halfClose := v }
  | .keepAlive v => some { b with keepAlive := v }
  | .titleCase v => some { b with titleCase := v }
  | .multipleSpaces v => some { b with parser := { b.parser with multipleSpaces := v } }
  | .ignoreInvalid v => some { b with parser := { b.parser with ignoreInRequests := v } }
  | .preserveCase v => some { b with preserveCase := v }
  | .maxHeaders n => some { b with maxHeaders := some n }
  | .timeout d => some { b with timeout := .configured d }
  | .writev v => some { b with writev := some v }
  | .maxBuf n => if initBufferSize ≤ n then some { b with maxBuf := some n } else none
  | .date v => some { b with date := v }
  | .pipelineFlush v => some { b with pipelineFlush := v }
  | .timer => some { b with timer := true }

/-- `Builder::serve_connection` (server/conn/http1.rs 452-504). -/
def H1Server.serve (b : H1Server) (vectored : Bool) (sink : Sink) : Option Built :=
  let c := Built.new false vectored sink
  let c := c.setParser b.parser
  let c := c.setTimer b.timer
  let c := c.onIf (!b.keepAlive) Built.disableKeepAlive
  let c := c.onIf b.halfClose Built.setHalfClose
  let c := c.onIf b.titleCase Built.setTitleCase
  let c := c.onIf b.preserveCase Built.setPreserveCase
  let c := c.onSome b.maxHeaders Built.setMaxHeaders
  match b.timeout.check b.timer with
  | none => none
  | some dur =>
    let c := c.onSome dur Built.setTimeout
    let c := c.onSome b.writev Built.setWritev
    let c := c.setFlushPipeline b.pipelineFlush
    match b.maxBuf with
    | some n => (c.setMaxBuf n).map (fun c => c.onIf (!b.date) Built.disableDate)
    | none => some (c.onIf (!b.date) Built.disableDate)

/-- A sequence of calls and then `serve_connection`. -/
def H1Server.build (ops : List H1ServerOp) (vectored : Bool) (sink : Sink) : Option Built :=
  (ops.foldlM H1Server.step {}).bind (fun b => b.serve vectored sink)

/-- The client's `Builder` (client/conn/http1.rs 127-138) as `Builder::new` makes it (345-360). -/
structure H1Client where
  h09 : Bool := false
  parser : ParserCfg := {}
  writev : Option Bool := none
  titleCase : Bool := false
  preserveCase : Bool := false
  maxHeaders : Option Nat := none
  preserveOrder : Bool := false
  exact : Option Nat := none
  maxBuf : Option Nat := none
  deriving DecidableEq, Repr

/-- The setters of the client's builder. -/
inductive H1ClientOp where
  | h09 (v : Bool)
  | spacesAfterName (v : Bool)
  | multiline (v : Bool)
  | ignoreInvalid (v : Bool)
  | writev (v : Bool)
  | titleCase (v : Bool)
  | preserveCase (v : Bool)
  | maxHeaders (n : Nat)
  | preserveOrder (v : Bool)
  | exact (n : Option Nat)
  | maxBuf (n : Nat)
  deriving DecidableEq, Repr

/-- One call (client/conn/http1.rs 363-545). -/
def H1Client.step (b : H1Client) : H1ClientOp → Option H1Client
  | .h09 v => some { b with h09 := v }
  | .spacesAfterName v => some { b with parser := { b.parser with spacesAfterName := v } }
  | .multiline v => some { b with parser := { b.parser with multiline := v } }
  | .ignoreInvalid v => some { b with parser := { b.parser with ignoreInResponses := v } }
  | .writev v => some { b with writev := some v }
  | .titleCase v => some { b with titleCase := v }
  | .preserveCase v => some { b with preserveCase := v }
  | .maxHeaders n => some { b with maxHeaders := some n }
  | .preserveOrder v => some { b with preserveOrder := v }
  | .exact n => some { b with exact := n, maxBuf := none }
  | .maxBuf n => if initBufferSize ≤ n then some { b with maxBuf := some n, exact := none } else none

/-- `Builder::handshake` (client/conn/http1.rs 555-612). -/
def H1Client.handshake (b : H1Client) (vectored : Bool) (sink : Sink) : Option Built :=
  let c := Built.new true vectored sink
  let c := c.setParser b.parser
  let c := c.onSome b.writev Built.setWritev
  let c := c.onIf b.titleCase Built.setTitleCase
  let c := c.onIf b.preserveCase Built.setPreserveCase
  let c := c.onSome b.maxHeaders Built.setMaxHeaders
  let c := c.onIf b.preserveOrder Built.setPreserveOrder
  let c := c.onIf b.h09 Built.setH09
  let c := c.onSome b.exact Built.setExact
  match b.maxBuf with
  | some n => c.setMaxBuf n
  | none => some c

/-- A sequence of calls and then `handshake`. -/
def H1Client.build (ops : List H1ClientOp) (vectored : Bool) (sink : Sink) : Option Built :=
  (ops.foldlM H1Client.step {}).bind (fun b => b.handshake vectored sink)

/-- `SPEC_WINDOW_SIZE` (proto/h2/mod.rs 30). -/
def specWindow : Nat := 65535

/-- `u32::MAX` (Rust core). -/
def u32Max : Nat := 4294967295

/-- What the builders of the crate `h2` are told. -/
structure H2Told where
  streamWindow : Option Nat := none
  connWindow : Option Nat := none
  maxSendStreams : Option Nat := none
  maxFrameSize : Option Nat := none
  maxHeaderList : Option Nat := none
  maxSendBuf : Option Nat := none
  /-- `max_local_error_reset_streams`: the argument may be `None`. -/
  maxLocalResets : Option (Option Nat) := none
  maxResetStreams : Option Nat := none
  maxPendingResets : Option Nat := none
  headerTable : Option Nat := none
  maxStreams : Option Nat := none
  resetDuration : Option Nat := none
  push : Option Bool := none
  connectProtocol : Bool := false
  deriving DecidableEq, Repr

/-- `if let Some(a) = opt { builder.set(a); }`. -/
def H2Told.onSome {α : Type} (t : H2Told) (opt : Option α) (f : H2Told → α → H2Told) : H2Told :=
  match opt with
  | some a => f t a
  | none => t

/-- The server's `Config` (proto/h2/server.rs 43-80) and the timer of the builder (server/conn/http2.rs 42-46, 115-121). -/
structure H2Server where
  adaptive : Bool := false
  connWindow : Nat := 1048576
  streamWindow : Nat := 1048576
  maxFrameSize : Nat := 16384
  connectProtocol : Bool := false
  maxStreams : Option Nat := some 200
  maxPendingResets : Option Nat := none
  maxLocalResets : Option Nat := some 1024
  interval : Option Nat := none
  timeout : Nat := 20
  maxSendBuf : Nat := 409600
  headerTable : Option Nat := none
  maxHeaderList : Nat := 16384
  date : Bool := true
  timer : Bool := false
  deriving DecidableEq, Repr

/-- The setters of the server's HTTP/2 builder. -/
inductive H2ServerOp where
  | maxPendingResets (n : Option Nat)
  | maxLocalResets (n : Option Nat)
  | streamWindow (n : Option Nat)
  | connWindow (n : Option Nat)
  | adaptive (v : Bool)
  | maxFrameSize (n : Option Nat)
  | maxStreams (n : Option Nat)
  | interval (d : Option Nat)
  | timeout (d : Nat)
  | maxSendBuf (n : Nat)
  | connectProtocol
  | headerTable (n : Option Nat)
  | maxHeaderList (n : Nat)
  | timer
  | date (v : Bool)
  deriving DecidableEq, Repr

/-- One call (server/conn/http2.rs 129-300); `none` is the panic of `max_send_buf_size`. -/
def H2Server.step (b : H2Server) : H2ServerOp → Option H2Server
  | .maxPendingResets n => some { b with maxPendingResets := n }
  | .maxLocalResets n => some { b with maxLocalResets := n }
  | .streamWindow (some n) => some { b with adaptive := false, streamWindow := n }
  | .streamWindow none => some b
  | .connWindow (some n) => some { b with adaptive := false, connWindow := n }
  | .connWindow none => some b
  | .adaptive true => some { b with adaptive := true, connWindow := specWindow, streamWindow := specWindow }
  | .adaptive false => some { b with adaptive := false }
  | .maxFrameSize (some n) => some { b with maxFrameSize := n }
  | .maxFrameSize none => some b
  | .maxStreams n => some { b with maxStreams := n }
  | .interval d => some { b with interval := d }
  | .timeout d => some { b with timeout := d }
  | .maxSendBuf n => if n ≤ u32Max then some { b with maxSendBuf := n } else none
  | .connectProtocol => some { b with connectProtocol := true }
  | .headerTable n => some { b with headerTable := n }
  | .maxHeaderList n => some { b with maxHeaderList := n }
  | .timer => some { b with timer := true }
  | .date v => some { b with date := v }

/-- What a new HTTP/2 connection is made of: what `h2` was told, the pings, and whether a date is added (servers). -/
structure H2Built where
  told : H2Told
  /-- Without it there are no pings (`ping::disabled`). -/
  ping : Option Ping.Config
  date : Bool := false
  deriving DecidableEq, Repr

/-- `Config::is_enabled` (ping.rs 184-187). -/
def pingEnabled (c : Ping.Config) : Bool := c.bdpInitialWindow.isSome || c.interval.isSome

/-- `ping::channel` needs a timer to keep the connection alive (ping.rs 62-69, time.rs 34-42); `none` is the panic. -/
def pings (timer : Bool) (c : Ping.Config) : Option (Option Ping.Config) :=
  if pingEnabled c then
    if c.interval.isSome && !timer then none else some (some c)
  else some none

/-- `Server::new` (proto/h2/server.rs 128-183) and the pings made after the handshake (232-243). -/
def H2Server.serve (b : H2Server) : Option H2Built :=
  let t : H2Told :=
    { streamWindow := some b.streamWindow, connWindow := some b.connWindow, maxFrameSize := some b.maxFrameSize
      maxHeaderList := some b.maxHeaderList, maxLocalResets := some b.maxLocalResets, maxSendBuf := some b.maxSendBuf }
  let t := t.onSome b.maxStreams (fun t n => { t with maxStreams := some n })
  let t := t.onSome b.maxPendingResets (fun t n => { t with maxPendingResets := some n })
  let t := t.onSome b.headerTable (fun t n => { t with headerTable := some n })
  let t := if b.connectProtocol then { t with connectProtocol := true } else t
  let bdp := if b.adaptive then some b.streamWindow else none
  (pings b.timer ⟨bdp, b.interval, b.timeout, true⟩).map (fun p => ⟨t, p, b.date⟩)

/-- A sequence of calls, `serve_connection`, and the handshake. -/
def H2Server.build (ops : List H2ServerOp) : Option H2Built := (ops.foldlM H2Server.step {}).bind H2Server.serve

/-- The client's `Config` (proto/h2/client.rs 63-104) and the timer of the builder (client/conn/http2.rs 66-71, 308-314). -/
structure H2Client where
  adaptive : Bool := false
  connWindow : Nat := 5242880
  streamWindow : Nat := 2097152
  maxSendStreams : Nat := 100
  maxFrameSize : Option Nat := some 16384
  maxHeaderList : Nat := 16384
  interval : Option Nat := none
  timeout : Nat := 20
  whileIdle : Bool := false
  maxResetStreams : Option Nat := none
  maxSendBuf : Nat := 1048576
  maxPendingResets : Option Nat := none
  maxLocalResets : Option Nat := some 1024
  headerTable : Option Nat := none
  maxStreams : Option Nat := none
  resetDuration : Option Nat := none
  timer : Bool := false
  deriving DecidableEq, Repr

/-- The setters of the client's HTTP/2 builder. -/
inductive H2ClientOp where
  | timer
  | streamWindow (n : Option Nat)
  | connWindow (n : Option Nat)
  | maxSendStreams (n : Option Nat)
  | adaptive (v : Bool)
  | maxFrameSize (n : Option Nat)
  | maxHeaderList (n : Nat)
  | headerTable (n : Option Nat)
  | maxStreams (n : Option Nat)
  | interval (d : Option Nat)
  | timeout (d : Nat)
  | whileIdle (v : Bool)
  | maxResetStreams (n : Nat)
  | maxSendBuf (n : Nat)
  | maxPendingResets (n : Option Nat)
  | maxLocalResets (n : Option Nat)
  | resetDuration (d : Nat)
  deriving DecidableEq, Repr

/-- One call (client/conn/http2.rs 317-554). -/
def H2Client.step (b : H2Client) : H2ClientOp → Option H2Client
  | .timer => some { b with timer := true }
  | .streamWindow (some n) => some { b with adaptive := false, streamWindow := n }
  | .streamWindow none => some b
  | .connWindow (some n) => some { b with adaptive := false, connWindow := n }
  | .connWindow none => some b
  | .maxSendStreams (some n) => some { b with maxSendStreams := n }
  | .maxSendStreams none => some b
  | .adaptive true => some { b with adaptive := true, connWindow := specWindow, streamWindow := specWindow }
  | .adaptive false => some { b with adaptive := false }
  | .maxFrameSize n => some { b with maxFrameSize := n }
  | .maxHeaderList n => some { b with maxHeaderList := n }
  | .headerTable n => some { b with headerTable := n }
  | .maxStreams n => some { b with maxStreams := n }
  | .interval d => some { b with interval := d }
  | .timeout d => some { b with timeout := d }
  | .whileIdle v => some { b with whileIdle := v }
  | .maxResetStreams n => some { b with maxResetStreams := some n }
  | .maxSendBuf n => if n ≤ u32Max then some { b with maxSendBuf := n } else none
  | .maxPendingResets n => some { b with maxPendingResets := n }
  | .maxLocalResets n => some { b with maxLocalResets := n }
  | .resetDuration d => some { b with resetDuration := some d }

/-- `new_builder` (proto/h2/client.rs 106-135), `new_ping_config` (137-148), and the pings (176-186). -/
def H2Client.handshake (b : H2Client) : Option H2Built :=
  let t : H2Told :=
    { maxSendStreams := some b.maxSendStreams, streamWindow := some b.streamWindow, connWindow := some b.connWindow
      maxHeaderList := some b.maxHeaderList, maxSendBuf := some b.maxSendBuf, maxLocalResets := some b.maxLocalResets
      push := some false }
  let t := t.onSome b.maxFrameSize (fun t n => { t with maxFrameSize := some n })
  let t := t.onSome b.maxResetStreams (fun t n => { t with maxResetStreams := some n })
  let t := t.onSome b.maxPendingResets (fun t n => { t with maxPendingResets := some n })
  let t := t.onSome b.headerTable (fun t n => { t with headerTable := some n })
  let t := t.onSome b.maxStreams (fun t n => { t with maxStreams := some n })
  let t := t.onSome b.resetDuration (fun t n => { t with resetDuration := some n })
  let bdp := if b.adaptive then some b.streamWindow else none
  (pings b.timer ⟨bdp, b.interval, b.timeout, b.whileIdle⟩).map (fun p => ⟨t, p, false⟩)

/-- A sequence of calls and then `handshake`. -/
def H2Client.build (ops : List H2ClientOp) : Option H2Built := (ops.foldlM H2Client.step {}).bind H2Client.handshake

/-- `hyper_clientconn_options` (ffi/client.rs 24-30) as `hyper_clientconn_options_new` makes it (185-193); the executor
is left out. -/
structure FfiOptions where
  multiline : Bool := false
  preserveCase : Bool := false
  preserveOrder : Bool := false
  http2 : Bool := false
  deriving DecidableEq, Repr

/-- The setters of the C API; the argument is a C `int`. -/
inductive FfiOp where
  | preserveCase (enabled : Int)
  | preserveOrder (enabled : Int)
  | http2 (enabled : Int)
  | multiline (enabled : Int)
  deriving DecidableEq, Repr

/-- One call (ffi/client.rs 200-274). -/
def FfiOptions.step (o : FfiOptions) : FfiOp → FfiOptions
  | .preserveCase v => { o with preserveCase := v ≠ 0 }
  | .preserveOrder v => { o with preserveOrder := v ≠ 0 }
  | .http2 v => { o with http2 := v ≠ 0 }
  | .multiline v => { o with multiline := v ≠ 0 }

/-- `hyper_clientconn_handshake` (ffi/client.rs 96-129): an HTTP/2 or an HTTP/1 connection. -/
def FfiOptions.handshake (o : FfiOptions) (vectored : Bool) (sink : Sink) : Option (H2Built ⊕ Built) :=
  if o.http2 then (H2Client.build []).map Sum.inl
  else (H1Client.build [.multiline o.multiline, .preserveCase o.preserveCase, .preserveOrder o.preserveOrder] vectored sink).map Sum.inr

/-- A sequence of calls and then `hyper_clientconn_handshake`. -/
def FfiOptions.build (ops : List FfiOp) (vectored : Bool) (sink : Sink) : Option (H2Built ⊕ Built) :=
  (ops.foldl FfiOptions.step {}).handshake vectored sink

end Hyper.Build
