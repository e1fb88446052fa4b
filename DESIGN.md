# Formal model of hyper 1.11.0 (HTTP/1 core, client dispatch, body channel, HTTP/2 glue)

Everything below lives in `/verif/lean` (Lean 4.33.0, Lake library `Verif`).

## Layout

* `Verif/Model/*`  – the model: one Lean definition per Rust function, each with the file and lines it models.
* `Verif/Spec/*`   – small specifications, written without looking at the model's helpers.
* `Verif/Proof/*`  – helper lemmas.
* `Verif/Props/*`  – the property theorems (one file per area), each with `example`s showing that the
  hypotheses are met by a concrete non-trivial case.
* `Verif/Conform/*` – hyper's own tests, run on the model by evaluation: the unit tests of `role.rs`, `decode.rs`, `encode.rs`, `headers.rs`,
  `io.rs`, `buf.rs` (`Heads`, `Bodies`), of `incoming.rs` and `client/dispatch.rs` (`Channels`) and the integration tests `tests/server.rs`, `tests/client.rs`, for which a small driver plays the
  event loop, the peer and the service on the whole-connection model (`Server`, `Client`).  They are tests of the model's fidelity, not
  proofs, and no claim rests on them.

Method: every `&mut` method becomes a function returning the new value, `Result`/`Option`/`Poll` stay data,
a panic is an explicit value, loops are structural recursion or take fuel that is proved sufficient,
external crates and the operating system are parameters or adversarial inputs.

## Trusted base

* Lean's kernel; the axioms `propext`, `Classical.choice`, `Quot.sound` (checked with `#print axioms`
  in `Verif/Audit.lean`).  No other axiom, no `sorry`, no `native_decide`, no `bv_decide`.
* The reading of the Rust source by hand: nothing mechanical ties the model to `/repo`.  What the expectations of hyper's own tests
  can tell about it is checked in `Verif/Conform`.
* External code is not modelled and is represented as stated here:
  * `httparse`: the tokenised head (method, target, version, list of fields) is an input; where bytes matter (C12, C25,
    C51) the parser is a parameter assumed to read back well-formed heads (`Spec/Fields.lean`, `Spec/Heads.lean`).
    Of a request's target this is assumed only if it is UTF-8 (`http::Uri` holds nothing else), and a reason phrase that
    is not ASCII is assumed to be read as an empty one, as `httparse` does.
    `Model/Httparse.lean` and `Model/HeadParse.lean` give reference parsers that are proved to satisfy the assumptions.
  * `http::HeaderMap`: an insertion-ordered multimap (names lower case); `HeaderValue::to_str` succeeds iff
    every byte is a tab or in 0x20..0x7e.
  * `Chain`, `Take`, `Cursor` and the default methods of `Buf` (crate `bytes`): written down in `Model/EncodedBuf.lean` after that
    crate's documentation; how `Take` fills vectored slots, which differs between versions, is a parameter (C86).
  * `bytes::Buf` supplied by users: assumed to obey the laws of `Spec/Buf.lean` (`Stands`), i.e. to behave as the byte
    string they hold, as the documentation of the trait demands.  `BytesMut::reserve` is a parameter (C31).
  * the transport: any sequence of results allowed by `hyper::rt::{Read, Write}`; once it has ended it stays ended.
  * wakers (C64): whoever answers "not ready" wakes the task when it becomes ready; the timer of the header read timeout is not counted among
    them.  `is_read_blocked` (io.rs 225, 256, 267-269) says that the last read was answered so, and counts as the transport holding the waker.
  * `tokio::sync::mpsc` (unbounded): a FIFO queue with a closed flag, sending checks the flag and then pushes (two steps); its
    cooperative budget may make a poll pending at any time.  `tokio::sync::oneshot` delivers one value.  `want`: one word, one
    atomic step per operation (C38-C40).
  * `futures_channel::mpsc`: one atomic step per operation (C88: its individual steps, and those of `futures_channel::oneshot`); `atomic-waker` 1.1: its individual atomic steps (C43, C44, C55).  A bounded
    channel of 1 with one sender makes the sender wait from the moment more than one message is queued until one is taken (C57).
    Memory is sequentially consistent.
  * `h2`: adversarial answers.  Assumed: it hands over no more body bytes than an announced length (C41); one ping in flight
    (C48); pending capacity leaves a waker that gaining it wakes (C44).  What a reader may see of a stream that the other end's
    `h2` was told: `Spec.Arrives` for bodies (C96, C99), `Spec.Crosses` for tunnels (C100).
  * clocks and timers: arbitrary non-decreasing readings; a timer that is ready has reached its deadline.
  * The sources of these crates are not in the sandbox: what is said here about `h2`, `tokio`, `futures_channel`, `want`, `atomic-waker`,
    `bytes`, `http` and `httparse` comes from knowledge of their documented behaviour and was not checked against their code.
* Arithmetic is that of a 64-bit target in release mode; `debug_assert!`s are not executed.
* Not modelled: memory safety of the `unsafe` blocks, wakers except where a property is about them (C43, C44, C64),
  floating point (C47: the one comparison is arbitrary), performance, tracing, the parts of the C API beyond C75, C78, C82, C109 and C110, URI syntax, HTTP/2 framing inside the `h2` crate.

## How the larger parts are modelled

* `Model/Decode.lean`, `Model/Transport.lean`: the decoder is a total function of its state and of an adversarial transport
  (segments, pending answers, end, failure).  Chunked framing is specified by an inductive grammar (`Spec/Chunked.lean`), other
  framings by relations on the fields that are proved to have at most one outcome (`Spec/Framing.lean`).
* `Model/Conn.lean`: `Conn` is a deterministic function of its state and of what it finds in the read buffer and transport, which are
  inputs of every operation.  The write side (bytes queued and bytes given away) is state.  A ghost log records events; the properties
  speak about the log.
* `Model/Dispatch.lean`: one `step` is one turn of `poll_read` or `poll_write`, a flush, the end of a poll, or an act from outside (reading
  or dropping a body, shutdown, dropping the connection).  Theorems are about all sequences of steps; `poll_loop` produces some of them.
  `Proof/Disp*.lean` refine a step to a few primitive moves over a small view (`View`), and the properties are invariants of these.
* `Model/ClientChan.lean`, `Model/Watch.lean`, `Model/H2Upgrade.lean`: concurrent parts; one act is one atomic step of one party, and
  theorems are about all interleavings.
* `Model/ClientTask.lean`: an HTTP/1 client's connection, its input (`Model/Inlet.lean`) and its queue (`Model/ClientChan.lean`) put together:
  what `poll_msg` yields comes from the queue, what `recv_msg` gets comes from the connection.
* `Model/H2Pipe.lean`, `Model/H2Ping.lean`: one act is one loop iteration or one call under the lock; answers of `h2`, the body and the
  clock are adversarial.

## Plan per property

| id | what is modelled | how it is proved |
|----|------------------|------------------|
| C01 | `Encoder` chunked arm, `ChunkSize`, `Decoder` chunked arm, `read_mem` over an adversarial transport | encoder output is in the chunked grammar; C02 + C03 give the rest |
| C02 | `Decoder::decode`, `ChunkedState::step`, `Buffered::read_mem` | refinement: driving the decoder over any segmentation equals a byte-at-a-time automaton over the concatenation |
| C03 | same; grammar in `Spec/Chunked.lean` | induction on the grammar (completeness) and on the run (soundness) |
| C04 | `read_start`, `read_size` with `u64` checked arithmetic | induction on digits against the mathematical value |
| C05 | `read_extension` counter | invariant of the automaton run and grammar counting |
| C06 | trailer buffer and counters | invariant of the automaton run |
| C07, C08 | `Kind::Length`, `Kind::Eof` arms | refinement to take/drop on the concatenated stream |
| C09 | EOF handling in every state | determinism of the automaton on prefixes |
| C10 | `Encoder::{encode,end,encode_and_end}` | invariant over arbitrary op sequences |
| C11, C12 | `encode_trailers`, forbidden list | list lemmas; C12 through the grammar |
| C13, C14 | `from_digits`, `content_length_parse_all_values` | induction |
| C15, C16 | token list functions of `headers.rs` | direct, against a split/trim/fold-case spec |
| C17, C18 | header loop of `Server::parse` | loop invariant by induction on the field list |
| C19, C20 | `Client::decoder`, the 1xx loop of `Client::parse` | case analysis; induction on the list of heads |
| C21–C23 | `Server::encode`, `Server::encode_headers`, `enforce_version` | invariant of the header loop |
| C24 | `Client::set_length` | case analysis |
| C25 | composition of C17/C19 with C21/C24 | composition |
| C26–C29 | `Conn` as a state machine with every public operation | invariants over arbitrary operation histories |
| C30 | `is_complete_fast` | list induction |
| C31, C32 | `Buffered` read side, `ReadStrategy` | invariants |
| C33, C34 | `WriteBuf`, `poll_flush` | refinement to a FIFO byte queue |
| C35, C36 | `Rewind`, `BufList` | refinement to byte strings |
| C37 | `ReadBuf`, `ReadBufCursor` | invariant |
| C38–C40 | `client::dispatch` and the HTTP/1 client dispatcher | invariants over interleavings |
| C41, C42 | `DecodedLength`, body channel, drop guard | invariants over interleavings |
| C43, C44 | `watch`, `UpgradedCloseNotify` at the granularity of atomic steps | invariant over all schedules (sequentially consistent memory) |
| C45 | `strip_connection_headers` | list lemmas |
| C46 | `PipeToSendStream::poll` | invariant over histories |
| C47 | `Bdp::calculate`; floating-point comparisons are adversarial inputs | invariant |
| C48 | `Ponger::poll`, `KeepAlive` | invariant over timed histories |
| C49 | header timer fields of `poll_read_head` | invariant over timed histories |
| C50 | `ReasonPhrase`, status line | direct |
| C51 | `write_headers*`, `title_case` | round trip by induction |
| C52 | `CachedDate` | invariant over clock readings |
| C53 | `Encoder`, `BodyWriter` | a body shorter than announced never leaves the connection usable |
| C54 | `Dispatcher`, body channel | invariant over histories of the dispatcher |
| C55 | `UpgradedSendStreamTask`, `H2Upgraded` | invariant over interleavings |
| C56 | `H2Upgraded::poll_read` | refinement to the bytes of the data frames |
| C57 | `H2Upgraded::{poll_write, poll_flush, poll_shutdown}` over the model of C44/C55 | invariant over interleavings |
| C58, C59 | `H2Stream::poll2` with `PipeToSendStream` | invariant, using C45 and C46 |
| C60, C61 | `Server::{poll, graceful_shutdown}`, `Serving::poll_server` | invariant |
| C62 | HTTP/2 client: `ClientTask::poll` for one request, `poll_pipe`, `PipeMap`, `ResponseFutMap`, `SendWhen` | invariant over interleavings of the two futures |
| C63 | HTTP/1 hand-over: the end of `poll_inner`, `UpgradeableConnection::poll`, `into_inner` | invariant over the turns of C21: reading is over only after the answer was sent |
| C64 | one poll of an HTTP/1 connection: `poll_loop` with the loops of `poll_read` and `poll_write`, and who is left with the waker (`Model/PollLoop.lean`) | every turn that ends a loop leaves a waker for what that loop waits for; later turns keep it |
| C65 | the write side of a connection as a refinement of the writing of one message at a time (`Spec/Wire.lean`: `story`, `Message.written`) | invariant: complete messages, then the head and the body so far of the one being written, whose encoder is where `writeFrames` is |
| C66 | the read side: `Buffered::parse`, the parsers of heads, the decoders and the dispatcher on one read buffer and one transport (`Model/Inlet.lean`), as a reading of the input one message after the other (`Spec/Input.lean`: `Reads`) | invariant: messages read to their ends, then the rest of the input, or a decoder that makes of the rest what a new one makes of everything after the head |
| C67 | the models of C65 and C66 put together: the wire of a client's connection as the input of a server's (`Spec/EndToEnd.lean`) | the reading of a sequence of written messages, piece by piece: C65 says what is on the wire, C66 that the reader walks along its input, C25 and the round trips of bodies (C01, C07, C12) that one message is read as itself, whole or begun |
| C68 | two connections fed with each other's wires (`Spec/ClosedLoop.lean`): `acts` is what the fed connections did, `answers` the responses the service gave | what a client's connection knows (`Knows`: the methods its parser is told are those of its requests in order) and what a server's says (`Serves`: its messages are its answers, each encoded for the method of the request in its place, then at most one of its own making), put together with C67 for the requests and C65, C66, C25 for the way back |
| C69 | the fed connection of C66 (`Inlet.parse`, `attempt`, `isCompleteFast`, `Decoder.decode`) | invariant: the bytes the last fruitless parse saw hold no head; induction over the decoder's steps for bodies |
| C70 | the fed connection of C66 with `Disp.result` of C63 and `Rewind` of C35 (`Model/Upgraded.lean`) | invariants: after a message the connection ends with, reading never starts again; a server that has written its last head stands after the message it answered; decoding leaves a suffix |
| C71 | the dispatcher of C26-C29 with `Disp.disableKeepAlive` | the invariants of C26 and C27, with: what was read and not answered is in flight; an idle connection has nothing begun; with reuse off a head is logged as the last one |
| C72 | `Compat` (`Model/Compat.lean`) over the `ReadBuf` of C37, with Tokio's `assume_init` and `set_filled` | the transport's contract as a relation on cursors, met by all cursor operations; the exact condition for a panic |
| C73 | `H2Body` of C41 on a stream of events (`Model/H2Reader.lean`) | invariant: what was read and what is left are the stream; window given back is that of the pieces read |
| C74 | Model/ServerParse, ClientParse, ServerEncode, ClientEncode | Proof/NameCase: what the fields of a name written so far are, along the encoder's loop over the map; Props/HeaderCase: the record along the parsers' loops, and the composition |
| C75 | Model/FfiHeaders | Props/FfiHeaders: the three maps as functions of the list of fields, by induction over the calls |
| C76 | Conn, Dispatch, Inlet | Proof/Owed, Props/Received: invariant of runs; the marks in the history are tied to the fields of the raw head |
| C77 | Conn, Dispatch, Inlet | Props/Ended: analysis of Buffered::parse at the end, invariant that a waiting client is not idle, case analysis of poll_read_keep_alive |
| C78 | Model/Executor | Props/Executor: an invariant over queue, set, queue of woken tasks and log; the loop of `poll_next` by its outcome; termination on (polls left with effects, tasks to be polled, the flag) |
| C79 | Model/H2ClientConn | Props/H2ClientConn: an invariant over the places a request can be in and a log of events; a second one for the connection's task; a third for runs without errors |
| C80 | `Model/OnUpgrade` | `Spec/OnUpgrade`, `Props/OnUpgrade` |
| C81 | `Model/Conn`, `Model/Inlet` | `Spec/Standoff`, `Proof/Standoff`, `Props/Standoff` |
| C82 | `Model/FfiBody` | `Props/FfiBody` |
| C83 | `Model/Builders` | `Props/Builders` |
| C84 | `Model/Builders` | `Props/Builders` |
| C85 | `Model/Errors`, `Model/Dispatch` | `Props/Errors`, `Props/Report` |
| C86 | `Model/EncodedBuf`, `Model/Buf` | `Props/EncodedBuf` |
| C87 | `Model/Informational`, `Model/Inlet` | `Spec/Informational`, `Proof/Informational`, `Props/Informational` |
| C88 | `Model/BodyChan` | `Spec/BodyChan`, `Proof/BodyChan`, `Props/BodyChan` |
| C89 | `Model/Dispatch`, `Model/Conn`, `Model/WriteBuf` | `Spec/Backlog`, `Proof/Backlog`, `Proof/Room`, `Props/Backlog` |
| C90 | `Model/Inlet`, `Model/Dispatch`, `Model/Decode` | `Spec/Intake`, `Props/Intake` |
| C91 | `Model/ClientTask`, `Model/ClientChan`, `Model/Inlet` | `Spec/ClientTask`, `Props/ClientTask` |
| C92 | `Model/Forward` over the models of C17, C19, C21, C24, C65-C68: the length the body of a received message tells the connection that writes it | what the parsers accept meets what C67 and C68 ask of the messages given to a connection (`forward_requestOk`, `forward_responseOk`); then C67 and C68 |
| C93 | `Spec/CutOff` over the models of C66, C67 and C92 | an invariant of the run: the chunked body of the last message, if its user has not ended it, is open on the wire (`Cut`); what an open body's bytes are read as; then C67 |
| C94 | `Spec/CutReply` over the models of C66, C68 and C92 | the invariant of C93 (`Cut`) for a server, with its interim and error responses; the length of a response's body writer, by an invariant of the loop over its headers (`Meant`); then C68, of the run's story and of one with another frame |
| C95 | `Model/Panics` (the connection and dispatcher once more, with the panics as results) over C27's model | the buffer for trailers as an invariant of the decoder (`TOk`) and of the run (`TI`), the write buffer's from C87 (`bufOk_step`), then equality of both models, function by function |
| C96 | `Model/H2Relay` (the reader of C73 as the body of the pipe of C46) | C73's and C46's invariants composed over what may arrive of a stream (`Spec.Arrives`), and an invariant of the relay (`RInv`) |
| C97 | `Model/H2Ping` and the wakers its polls leave (`pollWake`) | invariant of keep-alive's schedule (`K`), what a silent poll does (`Went`), two polls to the ping and one to the timeout |
| C98 | `Model/H2PingPanics`, which is `Model/H2Ping` with the places where ping.rs panics | invariant `J`; each function gives what `Model/H2Ping` gives, or an instant too late (`Res`) |
| C99 | `Model/H2Reader`, `Model/H2Pipe`, `Model/Dispatch` and `Model/Inlet` together | C93 and C67 for the HTTP/1 side (C94 and C68 for responses), C96 for the HTTP/2 side; a pipe that ended well polled a body that ended (`ends_somewhere`) |
| C100 | `Model/H2Upgraded` (with `Model/H2Upgrade`) at both ends | an invariant over the interleavings for the writer (`Full`, `Open`), C56 for the reader; `Spec.Crosses` between them |
| C101 | `Model/ClientTask` (the connection with its queue) | a connection that closes takes up nothing more (`Gone.run_shut`), and who waits is given the request back; the rest from C91 |
| C102 | `Model/Forward` (`forwardTrailers`), `Model/Decode`, `Model/Encode` | the fields appended to a map keep values per name, number and written length (`TrailerRelay.adds`), then C03, C11, C12 and C92 |
| C103 | `Model/Forward`, `Model/H2Pipe`, `Model/H2Reader` | C96 for the stream, `TrailerRelay.relay` for HTTP/1 |
| C104 | `Model/ForwardUp`, `Model/H2Client`, `Model/H2Server` | C62 and C58 for the head, `accepted_cases`, `delivered_cases`, C07 |
| C105 | `Model/ForwardUp`, `Model/ClientEncode`, `Model/H2Server` | C60 for what the body knows, `clientEncode_full` for what is written |
| C106 | `Model/ForwardUp`, `Model/H2Client`, `Model/ServerEncode` | C62 for what the body knows, `encode_forward` (C92) and C21 for what is written |
| C107 | `Model/ForwardUp`, `Model/H2Server`, all of HTTP/1 | `DownCross.handed_ok` gives `RequestOk`, then C67 |
| C108 | `Model/ForwardUp`, `Model/H2Client`, all of HTTP/1 | `DownCross.back_ok` gives `ResponseOk`, then C68 |
| C109 | `Model/FfiRequest`, `Model/FfiHeaders`, `Model/ClientEncode`, `Model/ClientParse` | induction over the calls, C75 |
| C110 | `Model/FfiRequest`, `Model/FfiHeaders`, all of HTTP/1 | invariant `CReq.Tidy` over the calls gives `RequestOk`, then C67 |
| C111 | `statusLine`, `clientHead` | exact status line, then C25 and the head that is delivered |

## Findings

Where the code does not do what a property says, the negation is proved for a concrete case and the rest is kept as a theorem
with the suffix `_partial`.  "theorem" names the witness.

1. **C55: lost write.**  `UpgradedSendStreamTask::tick` (h2/upgrade.rs 177) first looks at the queue and then at the close flag.  A write
   and a shutdown (or drop) on another thread between the two looks are both successful, and the task ends the stream without
   sending the accepted bytes.  Theorem `C55_lost`.  Swapping the two looks would repair it.  (The check also depends on
   `futures_channel`'s `size_hint`; the manifest admits any 0.3 version, also ones where it is the default of 0.)
2. **C33/C34/C28: bytes overtake queued bytes.**  `Conn` puts the automatic `100 Continue` (conn.rs) and the answer to an unparsable request
   into the head buffer without asking whether the body of the previous response is still queued; in release builds the new head
   then leaves before the rest of that body (debug builds assert).  Reachable because the connection goes idle once a response has been
   encoded, not once it has been written.  Theorems `C33_ungated_head_overtakes`, `C34_ungated_differs` and, for a whole connection, `C65_continue_overtakes`: a request is
   answered before its body was read, the transport accepts nothing for a while, the body is read, and the `100 Continue` for the next request
   leaves between the head and the body of the first answer.
3. **C18/C26: keep-alive overrides close.**  The `Connection` fields are folded left to right, so `close` in one field and `keep-alive` in a
   later one means persistent (`C18_close_overridden`); a service's `Connection: close` toward an HTTP/1.0 keep-alive peer is replaced by
   `keep-alive` (`C26_close_overridden`).
4. **C18: lost upgrade.**  An HTTP/1.0 `CONNECT` with an `Upgrade` field loses the upgrade (`C18_connect_upgrade_lost`).  A client does not treat
   a 204 answer to `CONNECT` as an upgrade.
5. **C21/C24/C25: framing headers of the user are trusted.**  In release builds a `Content-Length` that differs from the known length of the body is
   sent as given while the body is framed by its own length (`C21_wrong_length_announced`); the same for a request without body
   (`C24_length_without_body_announced`), for values with obs-text (`C21_unreadable_coding_announced`, `C24_unreadable_length_announced`,
   `C24_unreadable_coding_announced`) and for lists (`C24_length_list_announced`, which hyper's own server refuses; `C25_disagreement`).  An
   invalid `Content-Length` stays beside `Transfer-Encoding`.  Once set, `must_write_chunked` also appends `, chunked` to later `Connection`
   or `Trailer` lines (hyper's own test `te_response_adds_chunked` sends `connection: close, chunked`, see `Conform/Server.lean`).  A request marked `HTTP_2` with a body of unknown length sent over HTTP/1 loses its body (`C24_http2_body_dropped`).
6. **C10/C29: short body unreported.**  A last frame that says it is the end is not compared with the announced length: the message is cut
   and the connection closed, without an error (`C10_short_end_unreported`, `C29_short_frame_unreported`; C53 is what does hold).
7. **C31: buffer limit.**  `BytesMut` may double, so the read buffer may come to nearly twice `max_buf_size` (`C31_maximum_exceeded`).
8. **C45: HTTP/2 header stripping.**  Only the first `TE` and the first `Connection` field are looked at (`C45_second_te_kept`,
   `C45_second_connection_ignored`).
9. **C47.**  The adaptive window shrinks for initial windows of 1 byte or above 16 MiB (`C47_small_window_shrinks`, `C47_large_window_shrinks`).
10. **C48.**  With the adaptive window, the ping whose answer is awaited may be an earlier window probe (`C48_other_ping`).
11. **C54.**  On a server whose response is over before the request body, the body's sender lingers, and an error may follow the complete
    body (`C54_lingering`).
12. **C40.**  Three requests can wait in a client's queue, because looking at the queue and asking for more are two steps; and when tokio's
    cooperative budget is spent the connection asks although requests are queued (`exThree`).
13. **C33.**  With `pipeline_flush`, `poll_flush` succeeds early while the read buffer is not empty.
14. **C41.**  An HTTP/2 response to `HEAD` keeps the hint of its `Content-Length` although no data follow.
15. **C15/C16.**  A `Connection` or `Transfer-Encoding` value with a byte outside tab and visible ASCII is treated as absent in all its elements.
16. **C52.**  The cached date may be one second old.
17. **C57.**  `poll_flush` on an upgraded HTTP/2 stream succeeds while an accepted write is still queued, and also after the failure of the stream
    has been reported once (`C57_flush_early`); a shutdown then succeeds, too.
18. **C59: content where none may be.**  The HTTP/2 server sends the body the service gives also in answer to `HEAD` and with 204 and 304
    (`C59_content_sent`); over HTTP/1 it is left out.  (Whether the crate `h2` objects was not checked.)
19. **C60: one request ends the connection.**  A `CONNECT` request with a non-zero `Content-Length` makes `poll_server` reset its stream and return
    `Ok(())` (server.rs 283-287), so the connection's future ends as if complete and all other requests on it are lost
    (`C60_connect_ends_all`).
20. An HTTP/2 client takes only a 200 answer to `CONNECT` as an upgrade (client.rs), the server every 2xx.
21. The body of a `CONNECT` request whose length is not known is never sent by an HTTP/2 client, without an error (client.rs 526-579 opens no
    pipe for it); only one that announces a length is refused (C62).
22. `poll_inner` returns `Dispatched::Upgrade` when both directions are over, without asking whether the write buffer is empty
    (dispatch.rs 152-155), and `into_inner` drops that buffer.  So a 101 answer which the transport has not accepted yet is lost when a graceful
    shutdown comes (`C63_lost_by_shutdown`) or when the body of the request ends (`C63_lost_with_body`), and the rest of a request is lost when the
    client reads a 101 early (`C63_lost_by_client`).
23. A server whose service refuses an upgrade and closes the connection still hands it over, without shutting the transport down
    (`C63_refused_handed_over`): only the request decides.
24. With vectored output (`WriteStrategy::Queue`, used for every transport with `is_write_vectored`, such as TCP) a head can be written only when the
    queue is empty (io.rs `can_headers_buf`).  `poll_loop` flushes after `poll_write` and does not write again unless a body is being sent
    (dispatch.rs 186-197, 463-467).  So when a connection became idle with its last message still queued, and the flush at the end of a poll
    succeeds, nobody polls the service's future for the next request (`C64_service_forgotten`), and a client does not look for its next request
    (`C64_request_forgotten`): both hang until the peer sends something.  With `half_close` nobody can wake the connection (`C64_silent`).
25. With `pipeline_flush` a complete response is not flushed while the read buffer holds a part of the next request (io.rs `poll_flush`); the peer
    has to finish that request before it gets the response (`C64_response_kept_back`).
26. `Server::parse` does not turn keep-alive off for a request that asks for an upgrade (`Client::parse` does, role.rs 1179), and the pending upgrade
    stays with the connection until it ends (conn.rs `on_upgrade`).  So after a refused upgrade further requests are served, and when one of them
    ends the connection it is not shut down but handed over to the first one's `OnUpgrade` (`C70_refused_later`).
27. When a service drops the body of a request that asks for an upgrade and answers `101`, what was not yet read of the body is handed over
    as the first bytes of the upgraded connection (`C70_body_leaks`).
28. Toward an HTTP/1.0 client that asked for keep-alive, a response whose service said `Connection: keep-alive` keeps that field although the connection
    ends with it, after graceful shutdown for instance (`fix_keep_alive`, conn.rs 666-688; `C71_http10_says_keep_alive`).
29. `Compat::poll_read` (common/io/compat.rs 50-61) gives Tokio's `assume_init`, which counts from the end of the filled part, the number of bytes newly
    initialised after the initialised part.  With a buffer initialised farther than filled, and not to its end, `set_filled` then panics
    (`C72_panics`).  h2's codec uses fresh buffers, for which the account is right (`C72_h2`).
30. A reset with `NO_ERROR` ends a received HTTP/2 body without an error at any point (incoming.rs 247-252, 270-275), on clients too: a response cut off
    by it looks complete, although fewer bytes came than its `content-length` said (`C73_cut_off_silently`).
31. `hyper_headers_foreach` (ffi/http_types.rs 452-508) hides fields. `OriginalHeaderOrder::insert` (ext/mod.rs 225-234) keeps the entries of a name whose values `hyper_headers_set` replaced by one, so the iteration meets an entry without a value and returns ("something has gone wrong"); the fields after it are never shown (`C75_set_hides`). And adding a field to a response received without `preserve_header_order` gives the order its first entry, after which only added entries are shown, the first of them with the first value received (`C75_added_only`).
32. **A task can keep `hyper_executor_poll` from returning, and a panic in one disables the executor** (C78_spins, C78_panic, C78_abort). `hyper_executor::poll_next` polls again at once when `is_woken` is set, also when it was set by `FuturesUnordered` yielding after tasks that woke themselves; a task that wakes itself at every poll (the usual way of yielding) so spins the C program's thread forever in one call. A panic inside a task poisons the lock of the set of tasks; the C API turns each later panic into a null pointer, which a program reads as "nothing to do"; a push followed by a poll then poisons the lock of the spawn queue as well, and the next `hyper_executor_push`, which has no value to return in case of a panic, aborts the process.
33. **C80: a refused upgrade is not forgotten.**  Nothing takes `state.upgrade` back when the service answers a request that asked for an upgrade without upgrading.  The future of that request stays pending, and when the connection ends after later, unrelated requests it is given the transport, which is then neither shut down nor dropped by hyper (`C80_refused_handed_later`).  A second request that asks cancels the future of the first (`C80_replaced`).  `OnUpgrade` is `Clone`, but clones share one receiver: whichever is polled after another has got the answer panics (`C80_polls`).
34. **C82: the C API's sentinels are counts, and its status range is wrong.**  `HYPER_IO_PENDING` and `HYPER_IO_ERROR` (ffi/io.rs 11, 14) are 0xFFFFFFFF and 0xFFFFFFFE, values a 64-bit `size_t` count can have: a write callback that writes a buffer of 4 GiB - 1 bytes at once, as hyper offers it when the application hands over such a buffer, is taken to be pending, and the bytes are written again (`C82_write_twice`; reads: `C82_read_lost`).  `hyper_response_status` says that it is "always within the range of 100-599" (ffi/http_types.rs 311-316); a peer may send any status up to 999 (`C82_status_beyond`).  Also seen: a buffer that the data callback sets while returning a code other than `HYPER_POLL_READY` leaks (ffi/body.rs 214-233), and `hyper_body_set_userdata` or `hyper_body_set_data_func` on a received body silently replaces it (body/incoming.rs 174-183).
35. **C84: HTTP/2 keep-alive without a timer panics late.**  `keep_alive_interval` without `timer` is accepted by the builders; the panic comes in the client's handshake future, and in the server's connection future after the peer's preface (`C84_server_panics`, `C84_client_panics`; ping.rs 64-71).  HTTP/1 documents its panic and raises it in `serve_connection`; here neither is so.  Also, `adaptive_window(true)` followed by `adaptive_window(false)` leaves the windows at 65535 bytes rather than those asked for or the defaults (`C84_forgets`).
36. **C85: a body cut off is not an incomplete message.**  The documentation of `is_incomplete_message` (error.rs 254-270) lists "a message body is only partially received before the connection reports EOF".  The decoder's error for this becomes `Kind::Body` (dispatch.rs 289), of which `is_incomplete_message` is false, and the connection itself does not fail (`C85_cut_body_not_incomplete`); the reader of a body is told `IncompleteMessage` only when the connection is dropped (`C85_incomplete_body_partial`).  Also, a parse error that is answered is told only if the answer can be sent: else the failing write is told in its place.
37. **C86: buffers of several pieces with the default `chunks_vectored`.**  `BufList::chunks_vectored` (buf.rs 59-71), and `Chain` of the crate `bytes` in `EncodedBuf`, put the slices of the next buffer right after those of the one before whenever slots are left over.  The default method of the trait `Buf` fills one slot only, so a user's buffer of several pieces that keeps the default is written with a gap when the transport takes vectored writes: bytes of it are left out and later ones sent twice (`C86_default_vectored_gap`).  C33, C34, C36 and C86 assume a buffer that shows all of itself if it leaves a slot over.
38. **C89: a peer that reads nothing makes response heads pile up.**  `can_write_head` (conn.rs 569-578) asks only whether the queue is empty (`can_headers_buf`), not how much waits, and the end of a request's body calls `try_keep_alive` and makes the connection ready for the next request although the answer to this one has not been flushed (a pending flush does not stop the loop of dispatch.rs).  So a peer that pipelines requests with small bodies and never reads, against a service that drops these bodies, makes the server hold any number of response heads (`C89_heads_unbounded`, both strategies, without `pipeline_flush`).  Requests without bodies cannot do this (`C89_bodyless`).
39. **C89: `pipeline_flush` switches back-pressure off.**  With it `can_buffer` is always true (io.rs 157-159), for bodies too: a body that is always ready is buffered without bound while the peer reads nothing (`C89_pipeline_unbounded`).
40. **C92: a response with both framing fields, handed on, is cut short or refused.**  `Client::decoder` (role.rs 1262-1324) reads a response with `transfer-encoding: chunked` and a `content-length` as chunked and, unlike the server for requests, keeps the length among the headers.  A proxy that hands the response on writes it to an HTTP/1.0 client with that length, whatever the body's own is, so the body is cut short; to an HTTP/1.1 client, or with the fields in the other order, the response is refused as the user's error and the connection ends (`C92_length_beside_coding`).
41. **C92: codings that are not ASCII.**  `transfer-encoding` in two fields, the first with bytes above 127, the last `chunked`, is read as chunked, since only the last field is looked at.  When the response is handed on the server writes the fields as one, and hyper's client does not see `chunked` at the end of a value that is not ASCII: it reads the chunks as the body (`C92_opaque_coding`).
42. **C92: responses that are read but cannot be handed on.**  Two equal lengths in answer to HEAD and a length in answer to CONNECT are read without complaint; handed on they are the user's error (`C92_refused`).  A response of HTTP/0.9, which `http09_responses` accepts, panics in the status line of the server that writes it unless the client is of HTTP/1.0 (`C92_http09_panics`).
43. **C93: request bodies that are dropped in silence.**  Once a server has answered as HTTP/1.0 and kept the connection, `enforce_version` (conn.rs 692-707) makes the next request one of HTTP/1.0, and `Client::set_length` (role.rs 1345-1362) gives a body of unknown length `Encoder::length(0)`: the head is written without framing, the body is never polled, the server has a complete request with an empty body, and neither user is told (`C93_unsent`, `C93_lost`).  A proxy that hands a chunked request on to such a server loses the body.  The same holds for GET, HEAD and CONNECT with a body of unknown length and no Transfer-Encoding (role.rs 1404-1412).
44. **C94: responses that are cut off without a sign.**  To a client of HTTP/1.0 a body of unknown length goes until the close (role.rs 921-925).  If the service's body fails, the dispatcher returns an error and the connection is dropped (dispatch.rs 401-406), which looks to the client as the end of the body: it has a complete response with a part of the data (`C94_torn`).  The transport's half is closed in the same way in both cases; a reset would be the only sign, and hyper has no means to ask for one.
45. **C95: a large `max_headers` lets a request panic the connection.**  `Server::parse` reserves room for all fields before it looks at them (role.rs 260; the client at 1118), and `HeaderMap::reserve` panics if the table would exceed 32768 slots, kept three quarters full: from 24577 fields on.  `max_headers(n)` with a larger `n` is accepted (http1.rs 338), and its documentation says that too many fields are answered with 431.  A request of 24577 fields `a:` has 98326 bytes, well within the default buffer of 417792.  `try_reserve` would give the error (`C95_max_headers_panics`).
46. **C96: a body that fails because of an HTTP/2 error with `NO_ERROR` is read as complete.**  `on_user_err` resets the stream with the first `h2::Error`'s reason among the causes of the body's error (mod.rs 276, error.rs 353-359), and the reader takes a reset with `NO_ERROR` for the end of the body (incoming.rs 247-252).  A body made of the responses of another HTTP/2 server, which answers `GOAWAY` with `NO_ERROR` when it shuts down, fails with just such an error: its own reader gets a part and the end.  Taking `INTERNAL_ERROR` in place of `NO_ERROR` in `h2_reason` would avoid it (`C96_torn`).
47. **C96: on a server whose keep-alive timed out, a request body that had not arrived is read as complete.**  `poll_ping` calls `abrupt_shutdown(NO_ERROR)` (server.rs 352-355).  The `h2` crate tells the reason to every open stream, and `Incoming` takes an error with `NO_ERROR` for the end of the body (incoming.rs 247-252), which it should be only if the *peer* sent it.  So the service sees an upload end where the connection was lost (`C96_gave_up`), and a proxy ends its own request in good order (`C96_torn_on`), exactly in the case keep-alive is for.  Another reason in `poll_ping`, or asking `e.is_remote()`, would avoid it.  What the crate tells its streams is knowledge of `h2`, not of the source at hand.
48. **C97: with a keep-alive interval of zero a lost peer is not found out.**  `Ponger::poll`, at a pong, schedules the next ping and polls the sleep (ping.rs 290-294).  If the sleep is due by then, the ping is sent and the sleep set to the timeout, but neither the sleep nor the pong is polled again in this call, so that nothing wakes the task if no answer comes (`C97_sleeps`).  With an interval above zero the poll would have to take as long.
49. **C98: a keep-alive interval or timeout too long to be represented panics.**  `keep_alive_timeout(Duration::MAX)`, a way to ask for no timeout, is accepted; when the peer is silent for the interval, `self.timer.now() + self.timeout` (ping.rs 476) panics in the connection's task (`C98_timeout_too_long`).  An interval like that panics with the first poll (ping.rs 452, `C98_interval_too_long`).  HTTP/1's `header_read_timeout` is added in the same way (src/proto/h1/conn.rs 221).
50. **C99: a proxy makes a complete HTTP/1 request of an HTTP/2 upload that was cut off by its own keep-alive.**  With C96's second finding (server.rs 352-355) the body of a request that is still being uploaded ends, and `Incoming` tells its reader the end; a proxy that hands it on over HTTP/1 without a length writes the last chunk, and the server behind it takes the part that came for the whole (`C99_gave_up`).  And a proxy that reads a response until the close of its HTTP/1 connection makes a complete HTTP/2 response of one that was cut off (`C99_back_torn`, from C94's).
51. **C100: a tunnel that was cut off looks like one that ended.**  `poll_read` of `H2Upgraded` (upgrade.rs 244-252) reports the reasons `NO_ERROR` and `CANCEL` as the end.  The first is what a server whose keep-alive timed out tells its own streams (server.rs 352-355), the second is what the crate `h2` tells the peer of a stream that is dropped unfinished, for instance because the writer's runtime is shut down with writes still queued.  A proxy that copies the tunnel to a TCP connection then closes it as if all had been said (`C100_gave_up`, `C100_given_up`).
52. **C101: a caller that goes away closes the connection for the others.**  `Client::poll_msg` (dispatch.rs 680-685) returns `None` for a request whose caller has gone, which its caller takes for the end of all requests: the connection is closed although it is idle and sound.  A request queued behind it, which the bounded queue allows once, is given back instead of being sent (`C101_neighbour`).  The HTTP/2 client passes over such a request and goes on (src/proto/h2/client.rs 700-706).
53. **C102: trailers near the limit are refused when handed on.**  A trailer section may come without blanks after the colons, and hyper counts the bytes as they come (decode.rs 182-222 with `TRAILER_LIMIT`).  It writes them with a blank each (encode.rs `encode_trailers`), up to one byte more per field, so a body that a proxy accepted can be refused by the next hyper with the same limit (`C102_refused_at_limit`): a sender can make the connection between proxy and server fail.
54. **C103: fields that HTTP/2 forbids are sent as trailers.**  `strip_connection_headers` is applied to heads only; `PipeToSendStream` gives trailers to `send_trailers` as they are (src/proto/h2/mod.rs 238-244).  A peer's HTTP/1 trailers `Connection` or `Transfer-Encoding`, which `decode_trailers` accepts, thus reach an HTTP/2 stream through a proxy (`C103_forbidden_sent`), and RFC 9113, 8.2.2 has the receiver treat that message as malformed.
55. **C104: a wrong length is announced over HTTP/2 for a response with both framing fields.**  The HTTP/1 client reads such a response by Transfer-Encoding but leaves Content-Length among the fields (src/proto/h1/role.rs 1262-1330; RFC 9112, 6.3 has an intermediary remove it).  Over HTTP/2 Transfer-Encoding is removed, and the Content-Length, which need not be that of the body, is sent (`C104_length_beside_coding`); the receiver has to treat the message as malformed, or cuts it.
56. **C105: a request that arrives over HTTP/2 loses its body on the way to HTTP/1.**  `Client::set_length` takes chunked to be possible only if the request's version is `HTTP_11` (src/proto/h1/role.rs 1334), but the line is written as `HTTP/1.1` for `HTTP_2` as well (1220-1223).  Every request that is handed on as it arrived, with a body whose length was not announced, is therefore sent as complete without a body, and the body is given up without an error (`C105_body_dropped`; C24 has the single case).  With two lengths that differ, which hyper does not refuse, both are written, beside `transfer-encoding: chunked` (`C105_two_lengths`).
57. **C111: `<none>` is sent as a reason phrase and arrives as one that was set.**  For a status without a usual phrase and without `ext::ReasonPhrase` the server writes `<none>` (src/proto/h1/role.rs 445-455); the client compares with the usual phrase of the status, of which there is none, and puts `<none>` into the response's extensions as a `ReasonPhrase` (1057-1067, 1159-1164), so a proxy or a C program shows it as the server's own words (`C111_none_arrives`).  An empty phrase would be allowed.  A phrase with bytes beyond ASCII, which `ReasonPhrase` takes, arrives empty (`C111_lost`, by what `httparse` does).
