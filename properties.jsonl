{"id": "C01", "title": "Chunked body round trip", "statement": "Any sequence of non-empty data frames written through an HTTP/1 chunked body and then ended is read back by an HTTP/1 chunked body reader as exactly the same bytes, with a clean end and no trailers, and every byte that follows the body on the connection is left unread.", "quantifier": "every list of non-empty byte buffers with length below 2^64, every way the encoded bytes can be cut into transport reads and interleaved with not-ready results, every trailing byte string", "why_tests_cant": "Buffer lengths, chunk counts, and the cut points of transport reads are unbounded; a test fixes a handful.", "anchors": ["src/proto/h1/encode.rs: Encoder::encode, Encoder::end, Encoder::encode_and_end, ChunkSize", "src/proto/h1/decode.rs: Decoder::decode, ChunkedState::step"]}
{"id": "C02", "title": "Body decoding does not depend on transport segmentation", "statement": "For each body framing (content-length, chunked, close-delimited), the concatenated data, the trailers, whether the body ended cleanly or with an error, and the bytes left for the next message depend only on the sequence of bytes received before end-of-stream, not on how they were split into reads or how often the transport was not ready.", "quantifier": "every decoder state, every byte stream, every two segmentations (with any number of pending results) of the same stream", "why_tests_cant": "The number of segmentations of an n-byte stream is exponential in n and n is unbounded.", "anchors": ["src/proto/h1/decode.rs: Decoder::decode, ChunkedState::step", "src/proto/h1/io.rs: Buffered::read_mem"]}
{"id": "C03", "title": "Chunked reader accepts exactly the chunked grammar", "statement": "A chunked body is reported complete if and only if the bytes consumed form a chunked message (hex size line with optional blanks and extension, exactly that many data bytes, CRLF, ..., zero-size line, trailer lines, blank line) within the documented limits; the delivered data is exactly the concatenation of the chunk data.", "quantifier": "every byte string, every limit configuration", "why_tests_cant": "Soundness and completeness against a grammar range over all byte strings; a test can only sample malformed inputs, and request smuggling lives in the ones not sampled.", "anchors": ["src/proto/h1/decode.rs: ChunkedState::step and read_* functions"]}
{"id": "C04", "title": "Chunk sizes are exact and overflow is refused", "statement": "The number of data bytes taken for a chunk equals the mathematical value of its hexadecimal size; a size whose value is 2^64 or more is rejected, never wrapped.", "quantifier": "every string of hexadecimal digits of any length (leading zeros included)", "why_tests_cant": "The digit string is unbounded and the failure is at a single boundary value.", "anchors": ["src/proto/h1/decode.rs: ChunkedState::read_start, ChunkedState::read_size, or_overflow!"]}
{"id": "C05", "title": "Chunk extensions are bounded per body", "statement": "A chunked body whose chunk extensions total 16384 bytes or more over the whole body is never accepted, however the extension bytes are spread over chunks, and a body below that is never rejected for its extensions.", "quantifier": "every chunked byte stream", "why_tests_cant": "The bound is cumulative over an unbounded number of chunks.", "anchors": ["src/proto/h1/decode.rs: ChunkedState::read_extension, CHUNKED_EXTENSIONS_LIMIT"]}
{"id": "C06", "title": "Trailer sections are bounded", "statement": "While reading trailers the reader never holds more than the trailer byte limit (16 KiB by default), and a body whose trailer section has more than max_headers lines is rejected.", "quantifier": "every chunked byte stream and every configured limit of at least 1", "why_tests_cant": "Bounds must hold at every intermediate point of an unbounded stream.", "anchors": ["src/proto/h1/decode.rs: put_u8!, ChunkedState::read_trailer, read_trailer_lf, read_end_cr, read_end_lf, TRAILER_LIMIT"]}
{"id": "C07", "title": "Content-Length bodies deliver exactly the announced number of bytes", "statement": "With Content-Length n the reader delivers exactly the first n bytes following the head, then a clean end, and leaves the rest of the stream for the next message; if the transport ends earlier the reader reports an error after delivering what arrived and never reports a clean end.", "quantifier": "every n below 2^64, every byte stream, every segmentation", "why_tests_cant": "Unbounded sizes and segmentations.", "anchors": ["src/proto/h1/decode.rs: Kind::Length arm of Decoder::decode", "src/proto/h1/io.rs: read_mem"]}
{"id": "C08", "title": "Close-delimited bodies deliver everything up to end of stream", "statement": "With close-delimited framing every received byte is delivered in order and the body ends cleanly exactly when the transport reports end-of-stream.", "quantifier": "every byte stream and segmentation", "why_tests_cant": "Unbounded sizes and segmentations.", "anchors": ["src/proto/h1/decode.rs: Kind::Eof arm of Decoder::decode"]}
{"id": "C09", "title": "A truncated chunked body is never reported as complete", "statement": "If the transport ends at any point before the final CRLF of a chunked body, the reader reports an error and never a clean end of body.", "quantifier": "every valid chunked stream and every proper prefix of it, every segmentation", "why_tests_cant": "There is one truncation point per byte of an unbounded message.", "anchors": ["src/proto/h1/decode.rs: byte!, ChunkedState::read_body"]}
{"id": "C10", "title": "A length-framed writer never writes more than it announced", "statement": "With a Content-Length of n the total number of body bytes put on the wire never exceeds n and is always a prefix of the user's data; ending the body before n bytes were supplied is an error and never silently succeeds.", "quantifier": "every n, every sequence of data frames supplied by the user's body, including empty and oversized ones", "why_tests_cant": "Arbitrary sequences of frame sizes.", "anchors": ["src/proto/h1/encode.rs: Encoder::encode, Encoder::end, Encoder::encode_and_end"]}
{"id": "C11", "title": "Only declared and permitted trailers are sent", "statement": "Trailers are written only on a chunked body whose head carried a Trailer header; every written field is named in that header and is not one of the fields forbidden in trailers, and every such supplied field is written, in order.", "quantifier": "every trailer map, every set of declared names, every framing", "why_tests_cant": "Quantifies over all header maps and declared lists.", "anchors": ["src/proto/h1/encode.rs: Encoder::encode_trailers, allowed_trailer_field_map, is_valid_trailer_field", "src/proto/h1/role.rs: Server::encode_headers TRAILER arm"]}
{"id": "C12", "title": "Encoded trailers are read back unchanged", "statement": "A chunked body ended with trailers is read back as the same data followed by a trailer section holding exactly the written fields.", "quantifier": "every list of data frames, every trailer map accepted for writing (values without CR/LF), every segmentation", "why_tests_cant": "Unbounded messages and segmentations.", "anchors": ["src/proto/h1/encode.rs: encode_trailers", "src/proto/h1/decode.rs: decode_trailers"]}
{"id": "C13", "title": "Content-Length values are parsed exactly", "statement": "A Content-Length value is accepted iff it is one or more ASCII digits denoting a number below 2^64, and the accepted value is that number; signs, blanks, and overflow are refused.", "quantifier": "every byte string", "why_tests_cant": "Infinite domain; the failures are at the overflow boundary and at unusual bytes.", "anchors": ["src/headers.rs: from_digits, content_length_parse"]}
{"id": "C14", "title": "Repeated Content-Length values must agree", "statement": "A message with several Content-Length values (repeated fields or comma lists) is given a length only if every element is a valid number and all are equal; otherwise it has no length and, on a response, is rejected.", "quantifier": "every list of header values", "why_tests_cant": "Unbounded lists of values.", "anchors": ["src/headers.rs: content_length_parse_all_values", "src/proto/h1/role.rs: Client::decoder"]}
{"id": "C15", "title": "Connection options are recognised case-insensitively in any position", "statement": "A `close` (or `keep-alive`, or TE `trailers`) option is honoured iff some comma-separated element of some field value, stripped of surrounding whitespace, equals it ignoring ASCII case.", "quantifier": "every list of header values", "why_tests_cant": "Infinite domain of values.", "anchors": ["src/headers.rs: connection_has, connection_any_close, header_value_list_has"]}
{"id": "C16", "title": "Chunked is recognised only as the final transfer coding", "statement": "A message is treated as chunked iff the last element of its last Transfer-Encoding field is `chunked` ignoring case and surrounding whitespace.", "quantifier": "every list of Transfer-Encoding values", "why_tests_cant": "Infinite domain of values; a wrong answer on any of them is a smuggling vector.", "anchors": ["src/headers.rs: is_chunked, is_chunked_", "src/proto/h1/role.rs: Server::parse"]}
{"id": "C17", "title": "Request framing follows the HTTP/1.1 message-body rules", "statement": "For every accepted request head: Transfer-Encoding present means HTTP/1.1, final coding chunked, body chunked, no Content-Length shown to the service, and the connection not reused if Content-Length was also sent; otherwise Content-Length present means all values are valid, equal, and give the body length; otherwise the body is empty. Every head violating these conditions is rejected.", "quantifier": "every sequence of header fields in every order, every method and version", "why_tests_cant": "Order-dependent logic over unbounded lists of fields.", "anchors": ["src/proto/h1/role.rs: Server::parse"]}
{"id": "C18", "title": "Request persistence and upgrade flags follow the head", "statement": "A request head leaves the connection persistent iff the version default as modified by the successive Connection fields says so; 100-continue is expected iff the last Expect field is 100-continue; an upgrade is wanted iff the method is CONNECT or an Upgrade field is present on HTTP/1.1.", "quantifier": "every sequence of header fields, every version", "why_tests_cant": "Order-dependent logic over unbounded lists.", "anchors": ["src/proto/h1/role.rs: Server::parse"]}
{"id": "C19", "title": "Response framing follows the HTTP/1.1 message-body rules", "statement": "The body framing the client applies to a response is exactly that of RFC 9112 section 6.3: none for HEAD, 204, 304, successful CONNECT and 101; chunked when the final transfer coding is chunked; close-delimited for other transfer codings; the agreed Content-Length; an error for invalid lengths or Transfer-Encoding on HTTP/1.0; close-delimited otherwise.", "quantifier": "every status, request method, version, and header list", "why_tests_cant": "Infinite product domain.", "anchors": ["src/proto/h1/role.rs: Client::decoder"]}
{"id": "C20", "title": "Informational responses are never delivered as the final response", "statement": "However many 1xx responses (other than 101) precede it, the response given to the caller is the first non-1xx one; each skipped one is reported once, in order, to the informational callback.", "quantifier": "every sequence of response heads", "why_tests_cant": "Unbounded number of interim responses.", "anchors": ["src/proto/h1/role.rs: Client::parse, Client::decoder"]}
{"id": "C21", "title": "Response head framing matches the bytes that follow", "statement": "For every response the server encodes successfully, the head announces the framing used: if it announces Content-Length n the body writer is a writer of exactly n bytes, if it announces chunked the body writer is chunked, never both; if it announces neither then no body bytes are written or the connection is closed after the message.", "quantifier": "every response head, body length knowledge, request method, and version", "why_tests_cant": "Large product of header maps and flags with order-dependent logic.", "anchors": ["src/proto/h1/role.rs: Server::encode, Server::encode_headers"]}
{"id": "C22", "title": "Responses that cannot have a body carry none", "statement": "Responses to HEAD, to successful CONNECT, and with status 204 or 304 (or replaced 1xx) never put body bytes on the wire, whatever body the service returned.", "quantifier": "every response, every body, every header map", "why_tests_cant": "Infinite product domain.", "anchors": ["src/proto/h1/role.rs: Server::can_have_body, Server::encode_headers", "src/proto/h1/conn.rs: Conn::write_head"]}
{"id": "C23", "title": "Chunked coding is never sent to an HTTP/1.0 peer", "statement": "A response to an HTTP/1.0 request (and a request sent as HTTP/1.0) is never chunk-coded and never announces Transfer-Encoding: chunked chosen by hyper.", "quantifier": "every message and body", "why_tests_cant": "Infinite product domain.", "anchors": ["src/proto/h1/role.rs: Server::can_chunked, encode_headers, Client::set_length", "src/proto/h1/conn.rs: enforce_version"]}
{"id": "C24", "title": "Request head framing matches the bytes that follow", "statement": "For every request the client encodes, the head announces exactly one framing and the body writer implements it: chunked final coding with a chunked writer, Content-Length n with an n-byte writer, or neither with a writer of zero bytes.", "quantifier": "every request head, body length knowledge, method, version", "why_tests_cant": "Infinite product domain.", "anchors": ["src/proto/h1/role.rs: Client::encode, Client::set_length, set_content_length"]}
{"id": "C25", "title": "Client and server agree on where a message ends", "statement": "A request head produced by hyper's client is given by hyper's server exactly the framing the client's body writer uses, and a response head produced by the server is given by the client exactly the framing the server's body writer uses, so the two never disagree about message boundaries.", "quantifier": "every request and response that can be encoded, every method and status", "why_tests_cant": "A relation between two independent decision procedures over an infinite domain.", "anchors": ["src/proto/h1/role.rs: Client::set_length, Server::parse, Server::encode_headers, Client::decoder"]}
{"id": "C26", "title": "A connection once marked non-persistent is never reused", "statement": "After either side signalled close, keep-alive was disabled, or shutdown was requested, no further request head is read or written on the connection once the current exchange is over.", "quantifier": "every history of connection operations", "why_tests_cant": "Histories are unbounded and the flag is updated from many places.", "anchors": ["src/proto/h1/conn.rs: State, KA, State::try_keep_alive, State::idle, disable_keep_alive"]}
{"id": "C27", "title": "Exchanges on one connection do not interleave", "statement": "The next message head is read only after the previous message body was read to its end and the previous response completely handed to the write buffer; responses are written in request order.", "quantifier": "every history of connection operations and transport behaviours", "why_tests_cant": "All interleavings of reads, writes, and not-ready results.", "anchors": ["src/proto/h1/conn.rs: can_read_head, can_write_head, State::try_keep_alive, State::idle", "src/proto/h1/dispatch.rs: Dispatcher::poll_read_head, Server::recv_msg"]}
{"id": "C28", "title": "100 Continue is sent at most once and only before the response", "statement": "For each request expecting 100-continue the server writes the interim response at most once, only when the service asks for the body, and never after the final response head has been written.", "quantifier": "every history of connection operations", "why_tests_cant": "All interleavings of body polls and response writes.", "anchors": ["src/proto/h1/conn.rs: poll_read_body, Reading::Continue"]}
{"id": "C29", "title": "Short user bodies terminate the connection", "statement": "If the user's body ends (or errors) before supplying the announced Content-Length, the connection is not reused and the write side is closed with an error.", "quantifier": "every history", "why_tests_cant": "All body behaviours.", "anchors": ["src/proto/h1/conn.rs: end_body, write_body_and_end"]}
{"id": "C30", "title": "Head completeness check never misses a terminator", "statement": "When bytes are appended to a partially received head, the quick check that skips re-parsing answers `incomplete` only if no head terminator (empty line) ends within the newly received bytes.", "quantifier": "every buffer content and every split into already-seen and new bytes", "why_tests_cant": "Off-by-one at the split point for each of the terminator forms over all buffers.", "anchors": ["src/proto/h1/role.rs: is_complete_fast", "src/proto/h1/io.rs: Buffered::parse"]}
{"id": "C31", "title": "The read buffer never exceeds its configured maximum while reading heads", "statement": "While a message head is incomplete, buffered bytes never exceed max_buf_size, and reaching it without a complete head is reported as too-large instead of growing further.", "quantifier": "every sequence of reads of every size", "why_tests_cant": "Unbounded histories.", "anchors": ["src/proto/h1/io.rs: Buffered::parse, poll_read_from_io, ReadStrategy"]}
{"id": "C32", "title": "Adaptive read size stays within bounds", "statement": "The adaptive read size is always at least 8 KiB and at most the configured maximum; it doubles only after a read filled it and halves only after two consecutive smaller reads.", "quantifier": "every sequence of read sizes, every maximum of at least 8 KiB", "why_tests_cant": "Unbounded histories.", "anchors": ["src/proto/h1/io.rs: ReadStrategy::record, incr_power_of_two, prev_power_of_two"]}
{"id": "C33", "title": "Buffered writes reach the transport in order, without loss or duplication", "statement": "At every moment the bytes accepted by the transport are a prefix of the concatenation of everything buffered (heads and body frames) in the order it was buffered, and a flush that reports success has handed over all of it; this holds for both write strategies, any partial writes, and any vectored-write limits.", "quantifier": "every sequence of buffer operations and transport results", "why_tests_cant": "All partial-write patterns of unbounded sequences.", "anchors": ["src/proto/h1/io.rs: Buffered::poll_flush, poll_flush_flattened, WriteBuf, Cursor"]}
{"id": "C34", "title": "Write strategies are equivalent on the wire", "statement": "The flattening and the queueing write strategies put the same bytes on the wire for the same sequence of writes.", "quantifier": "every sequence of writes and flushes", "why_tests_cant": "Unbounded sequences.", "anchors": ["src/proto/h1/io.rs: WriteBuf::buffer, WriteStrategy"]}
{"id": "C35", "title": "Replayed bytes precede the transport exactly once", "statement": "Reading from an upgraded connection (or a rewound stream) yields the already-buffered bytes first and then the transport's bytes, each exactly once and in order, for every size of read buffer.", "quantifier": "every buffered prefix, every sequence of read sizes, every transport behaviour", "why_tests_cant": "Unbounded sequences of read sizes.", "anchors": ["src/common/io/rewind.rs: Rewind::poll_read", "src/upgrade.rs: Upgraded"]}
{"id": "C36", "title": "Buffer list behaves as the concatenation of its parts", "statement": "A list of buffers presented as one buffer returns, through any sequence of advance, chunk, vectored and copy operations, exactly the bytes of the concatenation in order.", "quantifier": "every list of buffers and every sequence of operations", "why_tests_cant": "Unbounded sequences of operations.", "anchors": ["src/common/buf.rs: BufList"]}
{"id": "C37", "title": "Read buffer cursor accounting", "statement": "Through every sequence of safe cursor operations filled <= initialised <= capacity holds, filled bytes are exactly the bytes put, and an operation that would exceed the capacity panics without writing.", "quantifier": "every capacity and every operation sequence", "why_tests_cant": "Unbounded sequences of operations guarding unsafe code.", "anchors": ["src/rt/io.rs: ReadBuf, ReadBufCursor"]}
{"id": "C38", "title": "Every request handed to a client connection gets exactly one outcome", "statement": "Each request accepted by a client connection's sender receives exactly one result (response or error), whatever the interleaving of sending, receiving, closing, cancelling, and dropping of either half.", "quantifier": "every interleaving of sender and receiver operations", "why_tests_cant": "All schedules and drop points.", "anchors": ["src/client/dispatch.rs: Sender::try_send, Receiver, Envelope::drop, Callback::drop, Callback::send", "src/proto/h1/dispatch.rs: Client"]}
{"id": "C39", "title": "A request returned for retry was never put on the wire", "statement": "If a failed send gives the request back to the caller, no part of that request was encoded on the connection.", "quantifier": "every history of the client dispatcher", "why_tests_cant": "All schedules and failure points.", "anchors": ["src/client/dispatch.rs: Envelope::drop, TrySendError", "src/proto/h1/dispatch.rs: Client::recv_msg"]}
{"id": "C40", "title": "Client sender readiness bounds queued requests", "statement": "At most one request more than the receiver asked for is ever queued: after the first, a request is accepted only when the connection task has signalled that it wants one.", "quantifier": "every interleaving of sends and polls", "why_tests_cant": "All schedules.", "anchors": ["src/client/dispatch.rs: Sender::can_send, Receiver::poll_recv"]}
{"id": "C41", "title": "Received body size hints are exact", "statement": "For a body of known length the size hint always equals the announced length minus the bytes delivered, never underflows, and the body reports end-of-stream exactly when everything was delivered; for other bodies the hint stays unknown.", "quantifier": "every announced length and every delivery sequence produced by the reader", "why_tests_cant": "Unbounded sequences of frame sizes.", "anchors": ["src/body/length.rs: DecodedLength", "src/body/incoming.rs: Incoming::poll_frame, size_hint, is_end_stream"]}
{"id": "C42", "title": "A body cut off by connection loss ends in an error", "statement": "If the connection fails or is dropped before the message body is complete, the body reader observes an error after the delivered data, never a clean end.", "quantifier": "every history of the connection task and the body reader, every drop point", "why_tests_cant": "All crash points and interleavings.", "anchors": ["src/proto/h1/dispatch.rs: SenderDropGuard, poll_read", "src/body/incoming.rs: Sender::send_error"]}
{"id": "C43", "title": "Body backpressure signals are not lost", "statement": "If the body reader starts waiting, drops, or asks for data, the connection task that is waiting for it is woken or will see the change on its next check: no interleaving loses the notification.", "quantifier": "every interleaving of atomic steps of the two sides", "why_tests_cant": "All schedules of a two-party protocol.", "anchors": ["src/common/watch.rs: Sender::send, Receiver::load", "src/body/incoming.rs: Sender::poll_want"]}
{"id": "C44", "title": "Upgraded HTTP/2 write side close is not lost", "statement": "When the user drops or shuts down an upgraded HTTP/2 stream, the task that owns the stream is woken or observes it, in every interleaving.", "quantifier": "every interleaving of atomic steps", "why_tests_cant": "All schedules.", "anchors": ["src/proto/h2/upgrade.rs: UpgradedCloseNotify"]}
{"id": "C45", "title": "HTTP/2 messages carry no connection-specific fields", "statement": "Before an HTTP/2 message is sent, keep-alive, proxy-connection, transfer-encoding, upgrade, connection, every field named by the (first) Connection field, and disallowed TE are removed, and all other fields are unchanged.", "quantifier": "every header map", "why_tests_cant": "Infinite domain.", "anchors": ["src/proto/h2/mod.rs: strip_connection_headers"]}
{"id": "C46", "title": "HTTP/2 bodies are sent completely, in order, and ended exactly once", "statement": "The frames handed to the HTTP/2 stream are exactly the user's data frames in order, followed by the trailers if any, with end-of-stream set on exactly one final frame; nothing is lost when capacity is temporarily unavailable, and a user error resets the stream.", "quantifier": "every sequence of body frames, every pattern of capacity and not-ready results", "why_tests_cant": "All schedules of capacity and body readiness.", "anchors": ["src/proto/h2/mod.rs: PipeToSendStream::poll"]}
{"id": "C47", "title": "Adaptive HTTP/2 window is bounded and non-decreasing", "statement": "The adaptive flow-control window suggested to the connection is never above 16 MiB and never below the previous one.", "quantifier": "every sequence of samples and bandwidth outcomes, every initial window between 2 and 16 MiB", "why_tests_cant": "Unbounded histories.", "anchors": ["src/proto/h2/ping.rs: Bdp::calculate, BDP_LIMIT"]}
{"id": "C48", "title": "HTTP/2 keep-alive closes only unresponsive connections", "statement": "A keep-alive timeout is reported only when a ping has been outstanding with no acknowledgement for at least the configured timeout, and that ping was sent only after no frame was received for at least the configured interval.", "quantifier": "every history of polls, frames, acknowledgements, and clock readings", "why_tests_cant": "All timings and interleavings.", "anchors": ["src/proto/h2/ping.rs: Ponger::poll, KeepAlive"]}
{"id": "C49", "title": "Header read timeout cannot be extended by trickling bytes", "statement": "Once the server starts waiting for a request head the deadline is fixed: receiving partial bytes never moves it, and when it passes without a complete head the connection fails with a timeout.", "quantifier": "every sequence of partial reads and clock readings", "why_tests_cant": "All timings.", "anchors": ["src/proto/h1/conn.rs: poll_read_head"]}
{"id": "C50", "title": "Reason phrases cannot split the response head", "statement": "A custom reason phrase is accepted iff all its bytes are tab, space, visible ASCII, or obs-text; hence a status line built from it contains no CR, LF, or NUL besides its terminator.", "quantifier": "every byte string", "why_tests_cant": "Infinite domain.", "anchors": ["src/ext/h1_reason_phrase.rs: ReasonPhrase::try_from, find_invalid_byte, is_valid_byte", "src/proto/h1/role.rs: Server::encode"]}
{"id": "C51", "title": "Serialized heads parse back to the same fields", "statement": "Splitting a written header block at CRLF and at the first colon gives back exactly the header names (up to case) and values supplied, in order; no header value can introduce an extra field.", "quantifier": "every header map whose values contain no CR or LF, in each casing mode", "why_tests_cant": "Infinite domain.", "anchors": ["src/proto/h1/role.rs: write_headers, write_headers_title_case, write_headers_original_case, title_case"]}
{"id": "C52", "title": "Cached Date header is at most one second old", "statement": "The Date value written after refreshing the cache renders the current second, or at worst the one immediately before it when the clock reads an exact second boundary.", "quantifier": "every sequence of non-decreasing clock readings", "why_tests_cant": "Boundary instants cannot be scheduled in a test.", "anchors": ["src/common/date.rs: CachedDate::check, update"]}
{"id": "C53", "title": "A short length-framed body never leaves the connection reusable", "statement": "When a user's body ends before supplying the announced Content-Length bytes, however the end is signalled (end of stream, trailers, or a last data frame that reports end of stream), the connection's write side is closed afterwards, so no further message can follow the truncated body on the connection.", "quantifier": "every announced length, every sequence of body frames shorter than it", "why_tests_cant": "the three ways of ending combine with any split of the data; one path reports no error at all, so only the state afterwards shows the truncation", "anchors": ["src/proto/h1/encode.rs:219-261", "src/proto/h1/conn.rs:764-812", "src/proto/h1/dispatch.rs:384-446"]}
{"id": "C54", "title": "A body received completely never ends in an error", "statement": "Once the whole message body has been received, its reader sees a clean end after the data and trailers delivered, whatever happens to the connection afterwards.", "quantifier": "every history of the connection task, every moment at which the body's last byte arrives relative to the writing of the response", "why_tests_cant": "the outcome depends on whether the response was completely written before the last byte of the request body arrived and on what the connection does next", "anchors": ["src/proto/h1/dispatch.rs:225-299", "src/proto/h1/dispatch.rs:540-562", "src/proto/h1/conn.rs:359-423", "src/proto/h1/conn.rs:1082-1101"]}
{"id": "C55", "title": "Accepted writes on an upgraded HTTP/2 stream are sent before its end", "statement": "Bytes accepted by a write on an upgraded HTTP/2 connection are handed to the stream in order, and when the write side is shut down or dropped the end of stream is sent exactly once and only after all of them.", "quantifier": "every interleaving of the user's thread and the task that owns the stream, every pattern of capacity", "why_tests_cant": "The loss needs a particular interleaving between two adjacent instructions of the task.", "anchors": ["src/proto/h2/upgrade.rs: UpgradedSendStreamTask::tick, H2Upgraded::poll_write, poll_shutdown"]}
{"id": "C56", "title": "Reads from an upgraded HTTP/2 stream deliver its data exactly once and give back exactly that window", "statement": "However reads are sized, an upgraded HTTP/2 connection delivers the bytes of the received data frames in order, each once; the receive window is given back exactly the bytes delivered; an end is reported only if the stream ended or was reset with NO_ERROR or CANCEL, never because of an empty data frame; every other failure is an error.", "quantifier": "every sequence of answers of the stream, every sequence of read sizes", "why_tests_cant": "frame sizes, empty frames and read sizes combine without bound", "anchors": ["src/proto/h2/upgrade.rs: impl Read for H2Upgraded, h2_to_io_error"]}
{"id": "C57", "title": "Calls on the write half of an upgraded HTTP/2 stream report the truth", "statement": "A write is accepted whole or not at all and at most two accepted writes wait unsent; a failure of the stream is reported to the user exactly once, by the first call that can learn of it; shutdown succeeds only if the end of stream was sent, a failure has already been reported, or the executor dropped the task; flush succeeds only if everything accepted has been given to the stream.", "quantifier": "every interleaving of the user's calls, the task that owns the stream, its failure and its destruction", "why_tests_cant": "what a call reports depends on where the other thread is", "anchors": ["src/proto/h2/upgrade.rs: impl Write for H2Upgraded, UpgradedSendStreamTask::poll"]}
{"id": "C58", "title": "Every HTTP/2 request is answered by one well-formed response or a reset", "statement": "For every request accepted on an HTTP/2 connection the server tells the stream at most one response head, before anything else, and nothing after the end or a reset; unless the stream itself is lost, the stream is ended, reset, or handed to the user after a 2xx answer to CONNECT. The head carries the status of the service, its fields without the connection-specific ones, a Date if it had none, and the length of the body if it is known and was not given; a 2xx answer to CONNECT carries no Content-Length and is refused if it announces content; an error of the service resets the stream with the reason of the first HTTP/2 error among its causes.", "quantifier": "every sequence of answers of the service, its body and the stream; every response", "why_tests_cant": "order of events between the service, its body and the stream, and arbitrary header maps", "anchors": ["src/proto/h2/server.rs: H2Stream::poll2, reply!", "src/error.rs: h2_reason", "src/headers.rs: set_content_length_if_missing"]}
{"id": "C59", "title": "HTTP/2 responses that must not have content have none", "statement": "A response to HEAD, or with status 204 or 304, is sent over HTTP/2 without content.", "quantifier": "every request and response, every body", "why_tests_cant": "needs a service that gives a body with such a response", "anchors": ["src/proto/h2/server.rs: H2Stream::poll2"]}
{"id": "C60", "title": "HTTP/2 requests are served independently of each other", "statement": "Every request accepted on an HTTP/2 connection goes to the service exactly once, in order, with a body that reports the announced length; a fault of one request does not end the connection; a connection given up because pings are not answered is reported as an error.", "quantifier": "every sequence of requests, pings and ends of the connection", "why_tests_cant": "one bad request among others still being served", "anchors": ["src/proto/h2/server.rs: Serving::poll_server, poll_ping, Server::poll"]}
{"id": "C61", "title": "A graceful shutdown of an HTTP/2 server is never lost", "statement": "A graceful shutdown requested at any moment, including before the handshake has finished, reaches the connection before it is asked for another request; without a request there is none.", "quantifier": "every interleaving of polls and requests for shutdown", "why_tests_cant": "the request may come between any two polls of the handshake", "anchors": ["src/proto/h2/server.rs: Server::graceful_shutdown, Server::poll"]}
{"id": "C62", "title": "A request of an HTTP/2 client: head, body, cancellation and response", "statement": "A request is sent over HTTP/2 with one head, first, with the user's fields except those of the connection, with the length the user gave or else that of the body if it is known and not meaningless, and flagged as the end exactly if there is no body and no tunnel is asked for. A CONNECT that announces content is refused before anything is sent. When the caller goes away while waiting for the response, nothing more of the body is sent and an incomplete request is reset with CANCEL; without that it is never canceled. The caller gets a tunnel only for a 200 answer to CONNECT without content, and otherwise a body that reports the announced length. A request whose caller is gone before it is taken is not sent at all. A caller that waits is told the outcome in every case: once the task has refused the request or is done with it, the response future has completed unless the caller went away.", "quantifier": "every request, every body, every interleaving of the polls of the task, the pipe and the response future, every answer of the stream", "why_tests_cant": "the caller may go away between any two polls of two concurrently running futures", "anchors": ["src/proto/h2/client.rs: ClientTask::poll, poll_pipe, PipeMap::poll, ResponseFutMap::poll", "src/client/dispatch.rs: SendWhen::poll"]}
{"id": "C63", "title": "An HTTP/1 connection is handed over only when asked for and after everything was sent", "statement": "A connection is handed over to the user of an upgrade only if a head that was read asked for it, and only when the transport has accepted every byte that was written before; what the end of a poll reports agrees with what it does to the connection.", "quantifier": "every connection, client or server, every sequence of turns, every partial write and every moment of a shutdown", "why_tests_cant": "the loss needs the transport to stop accepting bytes at the moment the other direction ends", "anchors": ["src/proto/h1/dispatch.rs: Dispatcher::poll_inner, is_done", "src/server/conn/http1.rs: UpgradeableConnection::poll", "src/client/conn/http1.rs: UpgradeableConnection::poll", "src/proto/h1/io.rs: Buffered::into_inner"]}
{"id": "C64", "title": "A connection does not go to sleep while there is something to do", "statement": "When a poll of an HTTP/1 connection is over, the task has been woken already, or everybody the connection waits for was asked in this poll and holds the task's waker: the transport if bytes are to be sent or read, the body being sent, the reader of the body being received, and the service or the queue of requests as soon as a head can be written. Unless the connection is to end, a poll never leaves it with nobody who could wake it.", "quantifier": "every connection, client or server, every state that can be reached, every answer of transport, service, bodies and readers during a poll of up to 16 turns", "why_tests_cant": "a lost wake-up needs one particular order of partial writes and arrivals within a single poll", "anchors": ["src/proto/h1/dispatch.rs: Dispatcher::poll_loop, poll_read, poll_write, poll_flush, can_write_again", "src/proto/h1/conn.rs: Conn::try_keep_alive, maybe_notify, wants_read_again, can_write_head, can_buffer_body, poll_read_keep_alive", "src/proto/h1/io.rs: Buffered::can_headers_buf, poll_flush"]}
{"id": "C65", "title": "The bytes of an HTTP/1 connection are its messages", "statement": "At every moment, the bytes a connection has given to the transport or holds to be sent are those of the messages it has begun, in the order in which it began them: each is its head followed by its body framed as the head announces, and is complete before the next one begins. Only the last one may be unfinished, while it is being written or if the connection ended with it.", "quantifier": "every run of a connection, client or server: any interleaving of reading, writing, flushing with partial writes, user bodies, interim responses and errors", "why_tests_cant": "the writing of a message is spread over any number of turns between which anything else can happen", "anchors": ["src/proto/h1/conn.rs: Conn::write_head, write_full_msg, write_body, write_body_and_end, write_trailers, end_body, on_parse_error, poll_read_body", "src/proto/h1/dispatch.rs: Dispatcher::poll_write", "src/proto/h1/io.rs: Buffered::headers_buf, buffer, poll_flush"]}
{"id": "C66", "title": "The bytes a connection receives are its messages", "statement": "The messages an HTTP/1 connection reads are those its input is: each head begins directly after the end of the body before it, each body is what its framing makes of the bytes after its head, and no byte is read twice, skipped, or taken as part of a body and of a head. Only the last message may be incomplete, and then what was delivered begins what it is. How the input is cut into reads, and whatever else happens on the connection, makes no difference.", "quantifier": "every input, every cutting of it into reads, every run of a connection, client or server, with any behaviour of the writers and readers of bodies, every limit and error", "why_tests_cant": "smuggling one message inside another needs one particular combination of framing, cut and order of events; no test covers all of them", "anchors": ["src/proto/h1/io.rs: Buffered::parse, poll_read_from_io", "src/proto/h1/conn.rs: Conn::poll_read_head, poll_read_body, on_read_head_error, poll_drain_or_close_read", "src/proto/h1/dispatch.rs: Dispatcher::poll_read, poll_read_head", "src/proto/h1/role.rs: Server::parse, Client::parse, parse_headers"]}
{"id": "C67", "title": "What a client's connection writes, a server's connection reads", "statement": "If the bytes that come to a server's HTTP/1 connection are what a client's HTTP/1 connection has put on its wire, or a beginning of it, then the requests the server reads are the requests the client took from its user, in the same order: the k-th has the same method, target and header values (framing and connection options apart), its data begins the data the user's body yielded, and if it was read to its end it has all of it and the trailers that may be sent.", "quantifier": "every run of the client's connection (any interleaving of requests, body frames, errors, partial writes, responses), every run of the server's connection, every cutting of the bytes into reads, every prefix of them; requests as the http crate's types admit them with right framing headers, within the server's limits", "why_tests_cant": "it relates all executions of two independent state machines over all messages and all ways the network cuts their bytes", "anchors": ["src/proto/h1/dispatch.rs: Dispatcher::poll_write, poll_read", "src/proto/h1/conn.rs: Conn::write_head, write_body, write_trailers, end_body, poll_read_head, poll_read_body", "src/proto/h1/role.rs: Client::encode, Server::parse", "src/proto/h1/encode.rs: Encoder", "src/proto/h1/decode.rs: Decoder"]}
{"id": "C68", "title": "The k-th response a client reads is the service's answer to its k-th request", "statement": "If a client's and a server's HTTP/1 connection are each fed with what the other has put on its wire, or a beginning of it, then the k-th response the client's connection reads is the service's answer to the k-th request the client's user sent: the server's connection read that request with that method and target, its k-th answer was encoded for that method, and the response has its status, its header values (framing and connection options, Trailer and Date apart), data that begins the data the service's body yielded, and, if its end was recognised on the wire, all of it and the trailers that may be sent. The only other response there can be is one after all answers that the connection makes on its own to bytes that are no request; it has no data.", "quantifier": "every run of both connections (any interleaving of requests, answers, interim responses, body frames, errors, partial writes, timeouts, drops), either strategy of buffering, every cutting of the bytes into reads, every prefix of them in both directions; messages as the http crate's types admit them with right framing headers, within the other side's limits", "why_tests_cant": "it relates all executions of two state machines that feed each other, over all messages and all ways the network cuts their bytes; a response taken for another request's needs one particular interleaving", "anchors": ["src/proto/h1/dispatch.rs: Dispatcher::poll_write, poll_read, Server, Client", "src/proto/h1/conn.rs: Conn::write_head, write_body, write_trailers, end_body, poll_read_head, poll_read_body, on_parse_error", "src/proto/h1/role.rs: Client::encode, Server::parse, Server::encode, Client::parse, Server::on_error", "src/proto/h1/encode.rs: Encoder", "src/proto/h1/decode.rs: Decoder"]}
{"id": "C69", "title": "What has arrived is delivered: no complete head and no byte of a body is left lying", "statement": "When an HTTP/1 connection that looks for its next message decides to wait for more bytes, its buffer does not begin with a complete head (the quick check for the end of a head, which skips bytes already seen, never hides one), and it has taken everything the transport had to give, up to its answer that there is nothing yet. When one that reads a body decides to wait, its buffer is empty, and the same holds of the transport.", "quantifier": "every run of a connection before (any interleaving of messages, bodies, reads at other times, writes, errors, drops), every cutting of the bytes into reads, requests and responses, every body framing", "why_tests_cant": "a message left lying needs one particular cutting of its last bytes into reads and one particular value of the remembered length of the previous, failed parse; to the test it is a hang", "anchors": ["src/proto/h1/io.rs: Buffered::parse, is_complete_fast, poll_read_from_io", "src/proto/h1/decode.rs: Decoder::decode, ChunkedState", "src/proto/h1/conn.rs: Conn::poll_read_head, poll_read_body"]}
{"id": "C70", "title": "An upgraded connection's new owner reads exactly the bytes after the message that asked for the upgrade", "statement": "When an HTTP/1 connection is handed over after an upgrade, the bytes its new owner reads are, each once and in order, those the peer sent directly after the message that asked for the upgrade (its body included): first those already lying in the read buffer, then those still to come. No byte of a message becomes a byte of the new protocol, none of the new protocol is taken for a message, none is lost.", "quantifier": "every run of the connection before the hand-over (any interleaving of messages, bodies, reads at other times, writes, errors, drops), every cutting of the bytes into reads, requests and responses, every body framing, all sizes of the new owner's reads", "why_tests_cant": "which bytes lie in the buffer at the hand-over depends on how the transport cut them and on when the connection read ahead; a test that sends the new protocol's bytes after it saw the 101 never has any there", "anchors": ["src/upgrade.rs: Upgraded::new, Upgraded::poll_read", "src/proto/h1/conn.rs: Conn::into_inner, on_upgrade, poll_read_head, poll_drain_or_close_read", "src/proto/h1/io.rs: Buffered::into_inner", "src/common/io/rewind.rs: Rewind::new_buffered, poll_read", "src/server/conn/http1.rs: UpgradeableConnection::poll", "src/client/conn/http1.rs: UpgradeableConnection::poll", "src/proto/h1/role.rs: Server::parse, Client::parse"]}
{"id": "C71", "title": "Graceful shutdown finishes the exchange in progress, announces the end, begins no other, and ends the connection", "statement": "After graceful_shutdown on an HTTP/1 server's connection: an exchange in progress goes on exactly as before, except that the connection is not reused; every response head written from then on is marked as the last one, and on an HTTP/1.1 connection lists close among its connection options; no further request is read, except that the first request of a new connection is when bytes of it had already arrived; a connection between exchanges, or a new one on which nothing has arrived, is done at once; any other completes as soon as the requests read are answered, no body is being read or written, and what was written is flushed.", "quantifier": "every run of the connection before and after the call (any interleaving of messages, bodies, writes, flushes, errors, drops), the call at any moment, any number of calls, all responses of the service", "why_tests_cant": "the call can fall between any two of the connection's turns; tests make it at a few moments, such as while a handler waits or before the first byte", "anchors": ["src/server/conn/http1.rs:138", "src/server/conn/http1.rs:526", "src/proto/h1/dispatch.rs:91", "src/proto/h1/conn.rs:886", "src/proto/h1/conn.rs:195"]}
{"id": "C72", "title": "The adapter through which h2 reads keeps the buffer's account and loses no byte", "statement": "Reading from a hyper transport into a Tokio buffer: what was filled stays filled, exactly the bytes the transport put are added, no byte is taken for initialised that is not, and the read does not panic. Over a series of reads h2 gets the transport's bytes, each once and in order.", "quantifier": "all buffers (capacity, filled and initialised parts), all that a transport may do with a cursor in one read, all sizes and numbers of reads", "why_tests_cant": "tests use the few buffers one implementation makes (fresh, uninitialised); a wrong account of uninitialised memory is undefined behaviour that does not show, or panics only for buffers initialised in part", "anchors": ["src/common/io/compat.rs:22", "src/rt/io.rs:280", "src/rt/io.rs:286"]}
{"id": "C73", "title": "An HTTP/2 body is read in order, gives back exactly its window, and is not cut off unnoticed", "statement": "The reader of an HTTP/2 body gets the data of the stream piece by piece in order, then the trailers, then the end. For each piece exactly its length is given back to the flow-control window and counted for the adaptive window. Each piece, the trailers and the end are reported to keep-alive as signs of life. The end is reported only when all data and trailers were delivered; a body cut off by a reset ends in an error.", "quantifier": "every stream (data in any pieces, pauses anywhere, with trailers, ended, or reset at any point), every announced length, any number of polls", "why_tests_cant": "a stream can be reset between any two pieces and for any reason; a window leak shows only after many bodies", "anchors": ["src/body/incoming.rs:233", "src/body/incoming.rs:246", "src/body/incoming.rs:264"]}
{"id": "C74", "title": "The spelling of header names survives a proxy", "statement": "With preserve_header_case, the names of the fields of a received request or response are recorded as they were spelled, in the order of the values of each name. If the application sends the message on with the recorded spellings, every name it did not touch is written on the wire exactly as it came: the same spellings with the same values in the same order. With title_case_headers and nothing recorded, the first letter and every letter after a dash is upper case.", "quantifier": "every message with any number of fields in any spelling and repetition, every configuration, whatever the application does to other fields", "why_tests_cant": "the recorded names are matched to values by position, so a mismatch needs a particular mixture of repetitions, removed fields and names hyper writes itself", "anchors": ["src/proto/h1/role.rs:245", "src/proto/h1/role.rs:589", "src/proto/h1/role.rs:1122", "src/proto/h1/role.rs:1585", "src/ext/mod.rs:140"]}
{"id": "C75", "title": "The C API shows all headers", "statement": "hyper_headers_foreach shows the callback every field: those put in with hyper_headers_add and hyper_headers_set in the order of the calls with the names as given, those of a received response as received (in order if the order is kept, by name if not; with their spelling if it is kept). Nothing is shown that is not in the map. A callback that asks to stop is not called again, and has been shown what came before. Names that are not tokens and values with a control other than the tab or a DEL are refused and change nothing, so no sequence of calls puts a line break into the map.", "quantifier": "every sequence of calls with valid arguments of any length (and with any arguments for what is refused), every received list of fields, each combination of preserve_header_case and preserve_header_order", "why_tests_cant": "the three maps are kept in step by position, so a mismatch needs a particular order of adding and setting", "anchors": ["src/ffi/http_types.rs:452", "src/ffi/http_types.rs:510", "src/ffi/http_types.rs:529", "src/ext/mod.rs:225", "src/ext/mod.rs:236", "src/proto/h1/role.rs:1122"]}
{"id": "C76", "title": "Nothing of a body is passed on before the 100 Continue its sender waits for", "statement": "After an HTTP/1.1 server connection has read a request that has a body and whose last Expect field is 100-continue, the service's reader of that body is sent no data and no trailers until 100 Continue or the head of a response has been written; and if the service asks for the body while no response has been begun, the next turn of reading writes 100 Continue before anything else.", "quantifier": "every run of a server connection (any interleaving of requests, body reads, responses, flushes, errors, drops, shutdown), every cutting of the bytes into reads", "why_tests_cant": "The body may lie in the buffer behind the head, so that a connection that forgets to send the interim response works in every test whose client does not wait; all interleavings of demand, response and reads.", "anchors": ["src/proto/h1/conn.rs: Conn::poll_read_head, Conn::poll_read_body, Reading::Continue", "src/proto/h1/dispatch.rs: Dispatcher::poll_read", "src/proto/h1/role.rs: Server::parse"]}
{"id": "C77", "title": "The end of the input is an error exactly if it cuts something off", "statement": "When an HTTP/1 server looking for its next request finds that its input has ended (or failed), what is left of the bytes does not begin with a complete head. If nothing but line ends is left, the connection closes without an error, writes nothing and touches no body; if anything else is left, it fails with an error and writes nothing. A client that finds the end while it waits for a response always gives its caller an error and closes, whatever it has received. When there is no head to look for and no body to hand on, the end of the input is an error during an exchange (unless half-closed input is tolerated, then nothing happens), stops an idle client without an error, and is an error for a client that is not idle; unread or arriving bytes are an error exactly between a client's exchanges, and nothing is written in any of these cases.", "quantifier": "every run of a connection before (any interleaving of messages, bodies, reads, writes, errors, drops), every cutting of the bytes into reads, every remainder", "why_tests_cant": "The remainder is arbitrary; whether the end is an error depends on the remainder after leading empty lines, on the role and on whether an exchange is under way, and on the memory of an earlier fruitless parse.", "anchors": ["src/proto/h1/conn.rs: Conn::on_read_head_error, Conn::on_parse_error, should_error_on_eof", "src/proto/h1/io.rs: Buffered::parse, Buffered::consume_leading_lines", "src/proto/h1/dispatch.rs: Dispatcher::poll_read_head", "src/proto/h1/conn.rs: Conn::poll_read_keep_alive, Conn::require_empty_read, Conn::mid_message_detect_eof"]}
{"id": "C78", "title": "The C API's executor gives back every task once, when it is done, and rests only when none is woken", "statement": "Whatever the tasks pushed to a `hyper_executor` do when polled (wake themselves or others, spawn tasks, complete, panic), and whatever sequence of pushes, polls and wakes the C program makes: every task is in exactly one of the spawn queue, the set of tasks and the tasks given back; `hyper_executor_poll` gives back exactly the tasks whose futures completed, in the order of completion, each once and with its own output, and no task is polled after it was given back. When it gives back null and no task has panicked, every task not given back has been polled since it was pushed and since it was last woken. It returns if from some poll on the tasks neither wake nor spawn; after a panic nothing is polled or given back any more.", "quantifier": "every behaviour of the tasks, every sequence of pushes, polls and wakes of any length, any number of tasks", "why_tests_cant": "The wakes, spawns and completions interleave without bound, including wakes from inside a poll, of finished tasks and of the polling task itself; a lost wake shows only as a task that never runs again.", "anchors": ["src/ffi/task.rs: hyper_executor::spawn, hyper_executor::poll_next, hyper_executor::drain_queue, ExecWaker::wake_by_ref, hyper_executor_push, hyper_executor_poll"]}
{"id": "C79", "title": "The requests of an HTTP/2 client's connection: one outcome each, opened in order, none lost at the end", "statement": "Whatever h2 reports, however the callers, the bodies and the runtime behave and whenever the connection's task is polled or dropped: every request made is in exactly one place (in the channel, held until its stream can be opened, waiting for its response, or finished), its caller is told at most once, and exactly once if it keeps waiting until the `ClientTask` has ended and its response task is over. Requests are given to h2 in the order they were made; none whose caller had already left, and none while an earlier one still waits for its stream to be opened. Unless h2 reports an error or the task is dropped, the `ClientTask` ends only in good order and after all requests made so far were dealt with. The task that drives the connection learns that nobody uses it exactly when the `ClientTask` has ended and no request body is being sent, and when that task has ended the `ClientTask` ends too.", "quantifier": "every sequence of calls, polls, drops and completions of any length; every answer of h2 at each point; any number of requests", "why_tests_cant": "The outcome of a request depends on the interleaving of its caller, the channel, the client task with its held request, the tasks started per request and the connection task; a request lost at shutdown needs a particular order of drops and polls.", "anchors": ["src/proto/h2/client.rs: ClientTask::poll, ClientTask::poll_pipe, ConnTask::poll, PipeMap::poll, ResponseFutMap::poll", "src/client/dispatch.rs: UnboundedSender::try_send, Receiver::poll_recv, Envelope::drop, Callback::drop, Callback::send, SendWhen::poll"]}
{"id": "C80", "title": "Whoever waits for an upgrade of an HTTP/1 connection learns what became of it, once", "statement": "Each head that may upgrade the connection carries a future. In every run it says nothing while the matter is open; it says 'canceled' if another such head comes, the connection ends with an error, or the connection is dropped; when the connection ends with an upgrade, the future of the head that asked last, and no other, gets the connection (from a connection with upgrades) or the error that upgrades are handled by hand (from one without). The answer is given by exactly one poll. When the connection is gone no future is left waiting.", "quantifier": "all runs of a server's or client's connection in any order with polls of any of the futures, all answers of peer, service, transport and timers", "why_tests_cant": "The answer depends on what happens between the head and the end of the connection: other requests, refusals, errors kept for later, drops at any moment; tests try a handful of orders.", "anchors": ["src/upgrade.rs:71-126", "src/upgrade.rs:206-271", "src/proto/h1/conn.rs:163-166", "src/proto/h1/conn.rs:1158-1162", "src/proto/h1/dispatch.rs:108-163", "src/proto/h1/dispatch.rs:322-330", "src/server/conn/http1.rs:215-235", "src/server/conn/http1.rs:550-572", "src/client/conn/http1.rs:325-339", "src/client/conn/http1.rs:642-664"]}
{"id": "C81", "title": "Two hyper connections that talk to each other do not both wait", "statement": "If a client's and a server's HTTP/1 connection are each fed with all that the other puts on its wire, then: a side that waits for a message's head has read every message of the other side, to its end, with all data and trailers the other side's body yielded; a side that waits within a body has read the last message of the other side, which the other side has not ended, and has all data its body has yielded so far. The two do not both wait for bytes, except when the server waits within a request body that the client's connection has not ended.", "quantifier": "every run of both connections, every cutting of the bytes into reads, every tokeniser that finds a head as soon as it is there; messages as the http crate's types admit them with right framing headers, within the other side's limits; all of a side's bytes delivered", "why_tests_cant": "A deadlock is an absence: a test sees it only if it happens to build the one pair of states in which each side expects the other to go on. That needs both framings, both keep-alive decisions and both read paths to agree for all messages and all cuttings.", "anchors": ["src/proto/h1/conn.rs:211-340", "src/proto/h1/conn.rs:359-450", "src/proto/h1/conn.rs:1082-1110", "src/proto/h1/dispatch.rs:165-300", "src/proto/h1/dispatch.rs:301-450", "src/proto/h1/io.rs:171-230", "src/proto/h1/decode.rs:140-260", "src/proto/h1/encode.rs:100-230"]}
{"id": "C82", "title": "The callbacks and setters of the C API mean what its documentation says", "statement": "An application that takes a response body with hyper_body_data gets its data in order, nothing twice or left out, and HYPER_TASK_EMPTY only at its end, an error only if the body failed; hyper_body_foreach calls back with the data in order, ends well only after all of it, and is aborted exactly if a call did not return HYPER_ITER_CONTINUE, which is then the last call. The body of a request is the buffers its data callback hands over, up to the call that ends or fails. A transport callback that keeps its contract is understood: the bytes it read or wrote are those counted. A request is made of the last accepted setting of each part; a refused setter changes nothing. hyper_error_print writes the beginning of the message that fits. The status of a response is within 100-599.", "quantifier": "all bodies (data, pauses, trailers, errors in any order), all return codes of callbacks, any number of polls, all sequences of setters, all buffer sizes", "why_tests_cant": "The callbacks are foreign code: all return values and orders of answers have to be understood; tests call them with the documented constants in the usual order.", "anchors": ["src/ffi/body.rs:106-160", "src/ffi/body.rs:210-244", "src/ffi/io.rs:9-14", "src/ffi/io.rs:141-190", "src/ffi/http_types.rs:88-251", "src/ffi/http_types.rs:311-357", "src/ffi/error.rs:55-65"]}
{"id": "C83", "title": "An HTTP/1 connection has the options its builder was told", "statement": "A connection made by the server's or client's HTTP/1 builder, or through the options of the C API, has for every option the value of the last call that set it, and the documented default if there was none: keep-alive, half-close, case of header names, limits of headers and buffers, the header timeout (30 seconds with a timer, none without), the write strategy (flattened if flushes are aggregated, whatever writev says), the parser's lenience, the date. max_buf_size and read_buf_exact_size replace each other. Building panics exactly if a buffer limit below 8192 was given, or if the header timeout last asked for has no timer.", "quantifier": "all sequences of calls of any length, in any order, all values; transports with and without vectored writes", "why_tests_cant": "The options number a dozen and may be set in any order and repeatedly; tests set one or two of them.", "anchors": ["src/server/conn/http1.rs:241-504", "src/client/conn/http1.rs:345-609", "src/common/time.rs:69-85", "src/proto/h1/conn.rs:91-157", "src/proto/h1/io.rs:78-112", "src/ffi/client.rs:96-274"]}
{"id": "C84", "title": "An HTTP/2 connection has the options its builder was told", "statement": "What the HTTP/2 implementation and the pings are told is, for every option, the value of the last call that set it, and the default if there was none; None does nothing where documented so. A window size that is given ends adaptive windows, and adaptive windows begin with 65535 bytes on the stream, on the connection and in the measurement. A client never accepts pushes, and a server's keep-alive pings are sent while idle too. Building panics exactly if a send buffer above u32::MAX was given, or if keep-alive is on without a timer.", "quantifier": "all sequences of calls of any length, in any order, all values, clients and servers", "why_tests_cant": "The options influence each other (windows and adaptive windows) and may be set in any order; tests set one or two of them.", "anchors": ["src/server/conn/http2.rs:115-324", "src/client/conn/http2.rs:308-590", "src/proto/h2/server.rs:43-190", "src/proto/h2/client.rs:63-190", "src/proto/h2/ping.rs:41-94"]}
{"id": "C85", "title": "The errors an HTTP/1 connection tells are what happened", "statement": "The future of a server's HTTP/1 connection returns an error exactly when something went wrong that is called so: what ended the connection at once, or, when it was over in order, the last thing it had remembered (a head that was refused with a response, a response that cannot be sent, a transport that failed when looked at in passing). It returns Ok exactly when it is over with nothing remembered. A client gives the error to the request that waits for its response, else back to the first request queued, and returns it only if there is neither; an error in the head of a response is the request's only. The reader of a body is told that the body is not whole exactly when the connection failed, the body broke, or the connection was dropped. is_user, is_parse, is_incomplete_message, is_timeout, is_body_write_aborted and is_shutdown are true of an error told only if it was the user, an unreadable head, the end of the transport, a timeout, a short body, the shutdown. A body cut off by the end of the transport is an incomplete message.", "quantifier": "all runs of any length of clients and servers, all answers of the transport, the service, bodies and readers, all causes", "why_tests_cant": "There are some twenty ways to fail, at any point of any exchange, and each may come while another error is still to be told.", "anchors": ["src/error.rs:31-357", "src/proto/h1/dispatch.rs:123-163", "src/proto/h1/dispatch.rs:225-448", "src/proto/h1/dispatch.rs:556-562", "src/proto/h1/dispatch.rs:719-745", "src/proto/h1/conn.rs:211-504", "src/proto/h1/conn.rs:800-902", "src/ffi/error.rs:17-79"]}
{"id": "C86", "title": "Encoded buffers present exactly the bytes to be written", "statement": "The buffers hyper makes of a body's data, its end and its trailers (size line, the user's buffer and line end chained; the user's buffer limited to the announced length; the user's buffer itself) present themselves, through any sequence of remaining, chunk, advance, vectored and copy operations, as exactly the bytes to be written for that data; every size line fits in its array; nothing panics within the length. Written with either strategy to a transport that takes any part of a write, head and body arrive as these bytes in order. The buffers handed to HTTP/2 streams present exactly their bytes. The user's buffer is assumed to present its bytes, and to show all of them in its vectored chunks if it leaves a slot over.", "quantifier": "all encoders, all user buffers that behave as stated of any size below 2^64, all sequences of operations and transport results", "why_tests_cant": "A write may stop inside any of the chained parts and go on from there, and any buffer type the user chooses may be in the middle.", "anchors": ["src/proto/h1/encode.rs:52-58", "src/proto/h1/encode.rs:116-261", "src/proto/h1/encode.rs:282-420", "src/proto/h2/mod.rs:288-329", "src/common/buf.rs:29-94"]}
{"id": "C87", "title": "The informational callback hears exactly the interim heads of its own exchange", "statement": "On a client connection, however the server's bytes arrive: when the head of response k has been read, what the server sent after the responses before it are interim (1xx other than 101) heads and then this head, and the callback given with request k was called with exactly these interim heads, once each and in order; if none was given, nobody was called. While a response is awaited, the callback has heard exactly the interim heads passed over so far. Every call is of a callback that was given, for a request that has been written, with an interim head, in the order of the requests; and a callback hears nothing more once its response's head has been read.", "quantifier": "all sequences of acts of the connection, all divisions of the server's bytes into reads, all choices of which requests come with a callback", "why_tests_cant": "The parser may be called many times before a head is complete, an interim head may arrive with or apart from what follows it, and the callback sits in the state of a connection that serves many requests.", "anchors": ["src/ext/informational.rs:20-60", "src/proto/h1/conn.rs:238-291", "src/proto/h1/conn.rs:644-655", "src/proto/h1/io.rs:174-222", "src/proto/h1/role.rs:1184-1196"]}
{"id": "C88", "title": "The channel of a body loses nothing, holds one piece, and neither side sleeps through the other", "statement": "In every interleaving of the atomic steps of the connection's task (poll_ready, try_send_data, try_send_trailers, send_error, drop of the Sender) and of the body's reader (poll_frame, drop of the Incoming): the reader is given what was sent, in order, each once; the channel holds at most one piece of data; data sent after poll_ready was ready, and an error in any case, are sent, unless the reader is gone, and the connection's task is told so only if it is. A connection's task that waits was woken, unless the reader never asked for data or has a piece to take; a reader that waits was woken, unless nothing is there for it. The end is reported only when the Sender was dropped and all data, errors and trailers were given. Every call but the drop of the reader finishes within a few steps of its own; the drop finishes once the Sender is between calls.", "quantifier": "every interleaving of atomic steps of the two sides, every sequence of their calls, with and without waiting for the reader to ask first", "why_tests_cant": "The connection takes a failed send for a reader that is gone: if it could fail for want of room, or a wake-up be lost in a window of one atomic step, data would vanish or a connection hang only under rare schedules.", "anchors": ["src/body/incoming.rs:113-137", "src/body/incoming.rs:209-230", "src/body/incoming.rs:358-444", "src/common/watch.rs:51-68", "src/proto/h1/dispatch.rs:225-290"]}
{"id": "C89", "title": "What a connection holds for a peer that does not read is bounded", "statement": "An HTTP/1 connection polls the user's body for more only while fewer bytes than the maximum buffer size wait for the transport, in fewer than sixteen pieces, so whatever the peer does the connection never holds more than a constant: the largest head, or the maximum buffer size and one frame.", "quantifier": "all runs of a connection from its start, all messages, bodies, transports and sizes, both write strategies", "why_tests_cant": "Tests let the peer read; whether a peer that never does can make the buffer grow depends on every order of reads, writes and flushes, over runs of any length.", "anchors": ["src/proto/h1/io.rs:157-159", "src/proto/h1/io.rs:584-591", "src/proto/h1/dispatch.rs:356-448", "src/proto/h1/conn.rs:569-590", "src/proto/h1/conn.rs:857-875"]}
{"id": "C90", "title": "A body that is not taken stops the connection from reading, and what is read is held within bounds", "statement": "While the user holds the body being received but has not asked for data, or has not taken what was sent, an HTTP/1 connection, however often it is polled and whatever else happens to it, parses no further message and takes nothing off the transport if its read buffer holds bytes, and at most one read's worth if it is empty. At all times the read buffer holds at most its maximum and one read's worth, and no piece handed to a body's reader is larger.", "quantifier": "all runs, all inputs and segmentations, all decoders, servers and clients, every size of a read", "why_tests_cant": "A reader that is slow at the wrong moment, over a connection that is polled for other reasons, would let memory grow only under load and over long runs.", "anchors": ["src/proto/h1/dispatch.rs:225-298", "src/proto/h1/io.rs:174-261", "src/proto/h1/io.rs:353-362", "src/proto/h1/conn.rs:454-560", "src/proto/h1/decode.rs:144-238"]}
{"id": "C91", "title": "Each response goes to the caller whose request it answers", "statement": "In an HTTP/1 client connection, with its queue of requests and its transport, the k-th response read is given to the caller of the k-th request taken from the queue, and to nobody else; the requests written are exactly those taken, in that order, each once; a request given back to its caller was not written; when the sender and the connection are gone every caller got exactly one answer. The queue is not polled after its end, a waiting callback is not replaced, and no response is read when nobody waits for one. Against a hyper server fed with what the client writes, a caller given a response gets the service's answer to its own request.", "quantifier": "all interleavings of the sender's steps, the connection's acts and the readers of bodies; all transports and segmentations; all heads, bodies, cancellations and spurious wakeups", "why_tests_cant": "A response handed to the wrong caller needs an error, a cancellation or a refused request in between at one particular step; tests try a few of these orders.", "anchors": ["src/proto/h1/dispatch.rs:663-767", "src/proto/h1/dispatch.rs:301-384", "src/proto/h1/dispatch.rs:128-140", "src/client/dispatch.rs:88-227"]}
{"id": "C92", "title": "A message handed on unchanged is read again as the same message", "statement": "A proxy that gives each request it received, unchanged and with its body, to an HTTP/1 client connection of hyper's, and each response it received to the HTTP/1 server connection that asked, cannot be used to smuggle: the next server reads exactly those requests, with the same method, version, header values, framing and body, and none that the proxy did not read; and the first client reads for each of its requests the response the proxy read for that request, with the same status, header values and body. Every request the server accepted can be handed on so; every response the client delivered can be handed on, and its body is written with a length exactly if it was read with that length.", "quantifier": "all requests and responses, all tokenisers of requests and responses that are sound for the grammar, all sequences on a connection, all bodies, segmentations, transports and configurations", "why_tests_cant": "Smuggling lives in the disagreement between two parsers over some combination of framing fields, versions and methods; tests try the combinations already known.", "anchors": ["src/proto/h1/dispatch.rs:301-400", "src/proto/h1/dispatch.rs:600-612", "src/proto/h1/dispatch.rs:683-697", "src/body/incoming.rs:280-325", "src/proto/h1/role.rs:380-1000", "src/proto/h1/role.rs:1080-1560"]}
{"id": "C93", "title": "A request whose body was cut off is never read as complete", "statement": "If an HTTP/1 server connection has read a request to its end, then the client's user had ended the body of that request, or the server has all the bytes the user announced; a body that failed, was dropped or was cut off by the end of the connection is never taken for a complete one. Through a proxy that hands requests on unchanged and ends a body only when it has read its end, the next server has a request complete only if the proxy read it whole, and with the same bytes.", "quantifier": "all requests, bodies, sequences on a connection, ends and errors of bodies and transports at any point, segmentations and configurations", "why_tests_cant": "A body can stop at any byte and any step of the connection's state; a truncation test tries a few places.", "anchors": ["src/proto/h1/dispatch.rs:301-400", "src/proto/h1/conn.rs:692-860", "src/proto/h1/encode.rs:60-270", "src/proto/h1/role.rs:1320-1470"]}
{"id": "C94", "title": "A response whose body was cut off is never read as complete", "statement": "If an HTTP/1 client connection has read a response to an end that it recognised on the wire, then the service had ended the body of its answer or gave it none, or the client has all the bytes the answer announced; a body that failed, was dropped or was cut off by the end of the connection is never taken for a complete one. Through a proxy that hands responses back unchanged and ends a body only when it has read its end, the client has a response complete only if the proxy read it whole, and with the same bytes.", "quantifier": "all requests and responses, sequences on a connection, ends and errors of bodies and transports at any point, segmentations and configurations", "why_tests_cant": "A body can stop at any byte and any step of the connection's state; a truncation test tries a few places.", "anchors": ["src/proto/h1/dispatch.rs:301-400", "src/proto/h1/conn.rs:590-690", "src/proto/h1/encode.rs:60-270", "src/proto/h1/role.rs:640-992"]}
{"id": "C95", "title": "Nothing a peer sends makes an HTTP/1 connection panic", "statement": "No run of an HTTP/1 connection, server or client, reaches one of the places where hyper's code panics (a body read or written where there is none, trailers without a buffer, a header name missing while a map is drained, a server polling for a response without a request, a buffer advanced beyond its end), whatever the peer sends and whatever the transport does, as long as the user's messages have a version HTTP/1 can write; and no request makes the parser panic, whatever limits the server was given.", "quantifier": "all runs of a connection with all inputs, bodies, segmentations, errors and messages; all requests", "why_tests_cant": "Each unreachable! is guarded by a state another function left behind; a test that does not panic says nothing about the other sequences of states, and a fuzzer samples them.", "anchors": ["src/proto/h1/conn.rs:359-423", "src/proto/h1/conn.rs:714-812", "src/proto/h1/decode.rs:530-600", "src/proto/h1/dispatch.rs:602-644", "src/proto/h1/io.rs:270-320", "src/proto/h1/role.rs:254-264"]}
{"id": "C96", "title": "An HTTP/2 body that was cut off is never read as complete, also through a proxy", "statement": "If a hyper reading an HTTP/2 body is told its end, then the body the sending hyper's user gave had ended, without an error, and the reader has exactly its bytes and trailers; whatever the sizes of frames and windows, however the stream or the connection fails, and also if a proxy in between reads the body with hyper and gives it, unchanged, as the body of the message it sends. At every moment what was read is the beginning of what was given.", "quantifier": "all bodies, all answers of the stream while it is sent (resets, capacity, errors), all cuts of what arrives, all failures of it, any number of polls, with and without a proxy", "why_tests_cant": "Where a stream can fail are as many points as there are polls, and with which reason is the peer's choice; whether the end that is read was the end that was given is a claim about two or three programs at once.", "anchors": ["src/body/incoming.rs:233-298", "src/proto/h2/mod.rs:135-285", "src/error.rs:353-359"]}
{"id": "C97", "title": "HTTP/2 keep-alive finds out a peer that is gone", "statement": "If keep-alive is on and, after any history, nothing is heard from the peer any more, the timeout is reported, at the latest when the interval after what was heard last and then the timeout have passed and the connection is polled; and every poll before that leaves a waker for it, so that the task does not sleep through it.", "quantifier": "every history of polls, frames, acknowledgements, window probes and clock readings, then any number of polls without anything heard, with time passing inside polls as well", "why_tests_cant": "The state machine of keep-alive is shared with the window probes, and each poll reads the clock several times; a test with a mock clock tries a few orders, and one that hangs does not say why.", "anchors": ["src/proto/h2/ping.rs:266-324", "src/proto/h2/ping.rs:430-495"]}
{"id": "C98", "title": "Nothing a peer sends makes HTTP/2's keep-alive and window probes panic", "statement": "No sequence of frames, acknowledgements, polls and clock readings makes `ping.rs` panic: a pong is taken only for a ping, the bytes are there whenever windows are probed, the time of the last frame is there whenever keep-alive is on, and the instants that are computed can be represented.", "quantifier": "every configuration, every history of polls, frames, acknowledgements and clock readings of any length; any last representable instant", "why_tests_cant": "Each expect depends on what the constructor and three other functions left behind, and the additions on durations no test chooses; a test that does not panic says nothing about other orders.", "anchors": ["src/proto/h2/ping.rs:266-324", "src/proto/h2/ping.rs:334-358", "src/proto/h2/ping.rs:451-481"]}
{"id": "C99", "title": "A body handed on between HTTP/1 and HTTP/2 that was cut off is never read as complete", "statement": "A proxy reads requests or responses with hyper over one version of HTTP and gives their bodies, unchanged, to hyper for the other. If the reader behind the proxy has a message complete, it has exactly the bytes of the body, and the body's sender had ended it without an error, or it has as many bytes as were announced; whatever resets, errors and ends of connections cut the body off on either side.", "quantifier": "all requests, responses, bodies, sequences on a connection, resets, errors, ends and segmentations on both sides; any number of polls", "why_tests_cant": "The two protocols signal the end of a body and its failure by different means, and each of the four endpoints maps one to the other; a test with a proxy cuts a body off at a few points on one side.", "anchors": ["src/body/incoming.rs:199-298", "src/proto/h2/mod.rs:142-285", "src/proto/h1/dispatch.rs:358-485", "src/proto/h1/conn.rs:714-812", "src/proto/h2/server.rs:345-360"]}
{"id": "C100", "title": "The end of a tunnel through HTTP/2 is found only after all that was written into it", "statement": "One user writes into an upgraded HTTP/2 stream, another reads from the one at the other end. At every moment what was read is a beginning of what was written. If a read finds the end, no read before having failed, then the writer has shut its side down or dropped it, and everything the writes accepted has been read; a tunnel that was cut off in any other way is an error to its reader.", "quantifier": "all interleavings of the writer, its task, the executor and the stream, all sizes of reads, all cuts of the data, all failures of the stream", "why_tests_cant": "The end passes through a channel, an atomic flag, a task, two connections and a mapping of reset reasons; a test tears a tunnel down in a few ways and at a few moments, and a truncated tunnel looks like one that ended.", "anchors": ["src/proto/h2/upgrade.rs:19-97", "src/proto/h2/upgrade.rs:118-223", "src/proto/h2/upgrade.rs:229-337", "src/proto/h2/server.rs:345-360"]}
{"id": "C101", "title": "A caller that goes away takes only its own request with it", "statement": "The future of a request on an HTTP/1 client connection may be dropped at any time before its response has come. If the request has not been taken from the queue, it is never written. No response goes to anybody else because of it, and no exchange of another caller is broken off: the requests that wait besides are written, or given back to their callers unwritten; and the connection goes on serving them.", "quantifier": "all interleavings of the sender's steps, the connection's acts and the readers of bodies before and after; all transports, heads and bodies; any moment at which the caller goes away", "why_tests_cant": "Whether the caller is seen to be gone depends on a race between its drop and the connection's poll, and what happens to the others on what else is queued at that moment.", "anchors": ["src/proto/h1/dispatch.rs:301-309", "src/proto/h1/dispatch.rs:356-389", "src/proto/h1/dispatch.rs:672-707", "src/proto/h1/dispatch.rs:751-762", "src/client/dispatch.rs:182-227"]}
{"id": "C102", "title": "Trailers survive a proxy that hands them on", "statement": "A chunked body that hyper read with trailers, handed on frame by frame to a chunked body of another HTTP/1 connection of hyper's, is read there as the same data, completely, with the same trailers: of every name all the values that were read, in order, provided the Trailer fields of the head list the name, it is not one of the fields that must not be trailers, and, for a response, the request said `TE: trailers`. No other trailer is found. A request's Trailer fields are those that were received. A body the proxy read without error is not refused by the next reader if that has the same limits.", "quantifier": "all bodies, trailers and segmentations on both sides, all ways the data is split into frames, all sets of declared names, all parsers of fields that are sound for the grammar, all limits of both readers", "why_tests_cant": "Which trailers arrive depends on the names, their order and repetition, on what two heads said, and on limits that two parsers count differently.", "anchors": ["src/proto/h1/decode.rs:182-222", "src/proto/h1/decode.rs:639-678", "src/proto/h1/encode.rs:163-226", "src/proto/h1/conn.rs:739-762", "src/proto/h1/role.rs:1408-1432", "src/proto/h1/dispatch.rs:426-430", "src/body/incoming.rs:217-232"]}
{"id": "C103", "title": "Trailers survive being handed on between HTTP/1 and HTTP/2", "statement": "A proxy reads a body with trailers with hyper over one version of HTTP and gives its frames, unchanged, to hyper for the other. If the reader behind the proxy is told the end, it has the same data and the same trailers: from HTTP/1 to HTTP/2 of every name all values that were read, in order; from HTTP/2 to HTTP/1 the same, but for surrounding blanks, of the names that were declared in the head and may be trailers, and no others. No field that HTTP/2 forbids is given to a stream.", "quantifier": "all bodies, trailers, frames, segmentations, resets, failures and answers of the stream; all sets of declared names; all parsers of fields that are sound for the grammar; any number of polls", "why_tests_cant": "The two versions have different rules for which trailers are sent and how they are written, and the end may be made of different events on both sides.", "anchors": ["src/proto/h2/mod.rs:238-244", "src/body/incoming.rs:263-280", "src/proto/h1/encode.rs:163-226", "src/proto/h1/decode.rs:639-678", "src/proto/h1/conn.rs:739-762"]}
{"id": "C104", "title": "The length announced over HTTP/2 for a message handed on from HTTP/1 is the length of its body", "statement": "A proxy hands a request that hyper's HTTP/1 server accepted, or a response that hyper's HTTP/1 client delivered, on over HTTP/2. The head that is sent has no Transfer-Encoding; every Content-Length in it is the number of bytes of the body as it is read over HTTP/1 to its end (but for responses that have no body by their method or status); a request's length that is not zero is announced; and the stream is closed with the head only if the body is empty.", "quantifier": "all requests and responses that the parsers accept, all fields among them, also a Connection field that names Content-Length; all bytes, segmentations and limits the body is read with; all that becomes of the stream", "why_tests_cant": "Which of several framing fields counts, which are removed and which are set again is decided in three places, by the fields, the method and what the body says of itself.", "anchors": ["src/proto/h2/mod.rs:39-89", "src/proto/h2/client.rs:702-716", "src/proto/h2/server.rs:466-528", "src/headers.rs:129-141", "src/body/incoming.rs:288-322", "src/proto/h1/role.rs:1262-1330"]}
{"id": "C105", "title": "A request that arrives over HTTP/2 and is handed on over HTTP/1 keeps its body", "statement": "A proxy hands a request that hyper's HTTP/2 server gave to its service on to an HTTP/1 connection. It is written with framing fields that fit the way its body is written, and its body is sent: with the length that was announced, or as chunked if none was; only a request whose stream has ended without content is written without a body.", "quantifier": "all requests and fields, any method, any sequence of events on the HTTP/2 connection before and after, whether or not the proxy marks the request as HTTP/1.1", "why_tests_cant": "The framing depends on the version a request is marked with, on its method and on what the HTTP/2 body says of itself; tests send requests that were made for the connection, not ones that arrived on another.", "anchors": ["src/proto/h1/role.rs:1325-1456", "src/proto/h1/role.rs:1212-1226", "src/body/incoming.rs:288-322", "src/proto/h2/server.rs:286-330", "src/proto/h1/dispatch.rs:367-377"]}
{"id": "C106", "title": "A response that arrives over HTTP/2 and is handed on over HTTP/1 keeps its body", "statement": "A proxy hands a response that hyper's HTTP/2 client delivered on to the HTTP/1 connection that the request came from. It is written, with framing fields that fit the way its body is written and the version the peer speaks: as empty if its body has ended, by the length that was announced, and otherwise not by a length but as chunked or up to the end of the connection.", "quantifier": "all requests and responses on the HTTP/2 connection, all fields, any state of the HTTP/1 connection, any method and version of the request that came over it", "why_tests_cant": "The framing depends on the state of one connection and on what arrived on another; tests answer with responses that were made for the connection.", "anchors": ["src/proto/h1/role.rs:380-470", "src/proto/h1/role.rs:640-990", "src/proto/h1/conn.rs:692-712", "src/body/incoming.rs:288-322", "src/proto/h2/client.rs:595-660"]}
{"id": "C107", "title": "No request is smuggled from HTTP/2 into an HTTP/1 connection", "statement": "A proxy hands requests that hyper's HTTP/2 server gave to its service on over one HTTP/1 connection of hyper, marked as HTTP/1.1. Whatever their fields and whatever their bodies yield, a hyper server at the other end, given any part of what was written in any pieces, takes these requests from it, one for one and in order: the k-th has the method, target and fields of the k-th that was handed on, and of its body only bytes that this body yielded. Nothing in a request is read as another request.", "quantifier": "any number of requests from any number of HTTP/2 connections, all fields (a Transfer-Encoding among them included, if its last value is plain ASCII; all lengths the same number, 0 if the stream ended without content), all bodies, all interleavings of reads, writes and failures on both sides, all segmentations and any point of time; parsers that read well-formed heads", "why_tests_cant": "Request smuggling through a change of version lives in combinations of framing fields, what the body says of itself and what it yields; a test can only try the known ones.", "anchors": ["src/proto/h1/role.rs:1198-1456", "src/proto/h1/role.rs:160-330", "src/proto/h2/server.rs:286-330", "src/body/incoming.rs:288-322", "src/proto/h1/dispatch.rs:340-440"]}
{"id": "C108", "title": "No response is split or swapped on its way from HTTP/2 into an HTTP/1 connection", "statement": "A proxy answers the requests of an HTTP/1 connection of hyper with responses that hyper's HTTP/2 client gave to its callers. Whatever their fields and whatever their bodies yield, a hyper client at the other end, given any part of what was written in any pieces, takes these responses from it, each for the request it answers: the k-th has the status and the fields of the k-th answer, and of its body only bytes that this body yielded. Nothing in a response is read as another response. The one other response it may see is the 4xx with which the server refuses what it cannot read, after all of them.", "quantifier": "any number of responses from any number of HTTP/2 connections, all fields (a Transfer-Encoding among them included, if plain ASCII; all lengths the same number), all bodies, all requests, all interleavings of reads, writes and failures on both sides, all segmentations and any point of time; parsers that read well-formed heads", "why_tests_cant": "Response splitting through a change of version lives in combinations of framing fields, the request's method, what the body says of itself and what it yields; a test can only try the known ones.", "anchors": ["src/proto/h1/role.rs:382-990", "src/proto/h1/role.rs:1028-1196", "src/proto/h2/client.rs:595-660", "src/body/incoming.rs:288-322", "src/proto/h1/dispatch.rs:340-440"]}
{"id": "C109", "title": "What a C program sets of a request is sent, and what is received of a response is told", "statement": "Whatever calls a C program makes on a new request, in any order and with any arguments, the request that is sent has the method, target and version last asked for by a call whose argument has the right form (GET, / and HTTP/1.1 if there was none), the body and callback given last, and for each field name the values that the calls setting and adding fields leave, spelled as these calls spell it. A call succeeds exactly if its arguments have the right form; one that fails changes nothing of what is sent. No such request makes the HTTP/1 encoder panic, and the request line is made of this method and target, with HTTP/1.0 if that was asked for or the peer speaks no more, else HTTP/1.1. Of a response the program reads the status, version and, byte for byte, the reason phrase that were received, and the first call for the body gets it, all others an empty one.", "quantifier": "all sequences of calls with all arguments, any method and URI parsers, all spellings and field values, all responses that are parsed, all tables of usual phrases", "why_tests_cant": "The calls may be made in any order and number, refused ones in between, and the arguments are arbitrary bytes and integers.", "anchors": ["src/ffi/http_types.rs:86-300", "src/ffi/http_types.rs:312-421", "src/ffi/http_types.rs:435-444", "src/ffi/client.rs:146-165", "src/proto/h1/role.rs:1056-1068", "src/proto/h1/role.rs:1198-1245"]}
{"id": "C110", "title": "No call of a C program injects a request or a field", "statement": "A C program makes requests by any calls of the C API with any bytes as arguments and sends them over one HTTP/1 connection. Whatever the bodies yield, a hyper server at the other end, given any part of what was written in any pieces, takes these requests from it, one for one and in order: the k-th has the method and target last asked for in the calls that made the k-th, the values these calls left for each field name, and of its body only bytes that this body yielded. No argument and nothing in a body is read as another request or another field.", "quantifier": "all sequences of calls with all arguments for any number of requests (framing fields set by the program: all lengths the same number, 0 without a body, last coding plain ASCII; not marked as HTTP/2), all bodies, all interleavings of reads, writes and failures on both sides, all segmentations and any point of time; method and URI types that hold no blanks or controls; parsers that read well-formed heads", "why_tests_cant": "Injection is about arguments nobody thought of, in calls in any order, on their way through the header map, the encoder, the buffers and a parser.", "anchors": ["src/ffi/http_types.rs:86-300", "src/ffi/http_types.rs:510-582", "src/ffi/client.rs:146-165", "src/proto/h1/role.rs:1198-1456", "src/proto/h1/role.rs:146-330"]}
{"id": "C111", "title": "A response shows the same reason phrase at both ends", "statement": "For a response written by hyper's server and read by hyper's client, the reason phrase at the client is the one at the server: the one that was set (even an empty one, or one equal to the usual phrase), and else the usual one of the status, in which case the client does not report one as set.", "quantifier": "all final responses with right framing headers: all statuses, header maps, bodies, versions, phrases, request methods and client options, whatever follows the response; parsers that read well-formed heads", "why_tests_cant": "The writer has a constant for one status, a table with gaps and a placeholder for them, the reader drops a phrase that equals the table's; tests look at a few statuses with the usual phrase.", "anchors": ["src/proto/h1/role.rs:421-456", "src/proto/h1/role.rs:1057-1067", "src/proto/h1/role.rs:1159-1164", "src/ext/h1_reason_phrase.rs:1-120"]}
