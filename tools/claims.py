#!/usr/bin/env python3
"""Writes MANIFEST.json, lean/Verif/Audit.lean and lean/Verif.lean from the list below."""
import json, os, re, glob
ROOT = os.path.dirname(os.path.dirname(os.path.abspath(__file__)))
P, Q = "proved", "partial"
CLAIMS = [
 ("C01", P, ["C01_chunked_round_trip"], "Any frames, any reader limits, any segmentation."),
 ("C02", P, ["C02_segmentation_independent"], "All decoder states reachable by single steps."),
 ("C03", P, ["C03_chunked_grammar_exact"], "Both directions against an independent inductive grammar."),
 ("C04", P, ["C04_overflow_rejected", "C04_size_exact"], ""),
 ("C05", P, ["C05_extension_bound"], ""),
 ("C06", P, ["C06_trailer_bytes_bounded", "C06_trailers_rejected"], "Bytes held in the trailer buffer; allocation capacity is not modelled."),
 ("C07", P, ["C07_content_length_body"], ""),
 ("C08", P, ["C08_close_delimited_body"], ""),
 ("C09", P, ["C09_truncated_never_complete"], ""),
 ("C10", Q, ["C10_never_over_length_partial", "C10_short_end_unreported"], "The last clause is false of the code for a last frame that announces end of stream; witness proved. C53 gives what does hold."),
 ("C11", P, ["C11_declared_trailers_only", "C11_no_trailers_otherwise", "C11_declared_in_head", "C11_declared_in_request_head"], "The last two theorems link the names held by the encoder with the Trailer field of the head."),
 ("C12", P, ["C12_trailers_round_trip"], "External header parser is a parameter assumed to read well-formed blocks; a reference parser is proved to satisfy the assumption."),
 ("C13", P, ["C13_content_length_exact", "C13_refused_otherwise"], ""),
 ("C14", P, ["C14_repeated_lengths_agree", "C14_disagreeing_response_rejected"], ""),
 ("C15", P, ["C15_close_recognised", "C15_field_options", "C15_te_trailers"], "Values with bytes outside tab, space and visible ASCII are never honoured."),
 ("C16", P, ["C16_chunked_iff_final"], "Values with bytes outside tab, space and visible ASCII are never chunked."),
 ("C17", P, ["C17_request_framing", "C17_violations_rejected", "C17_accepted_iff", "C17_fields_shown", "C17_rejection_answered"], ""),
 ("C18", Q, ["C18_persistence", "C18_single_field", "C18_expect", "C18_upgrade_partial", "C18_connect_upgrade_lost", "C18_close_overridden"], "The CONNECT clause is false of the code on HTTP/1.0 with an Upgrade field; witness proved."),
 ("C19", P, ["C19_response_framing"], ""),
 ("C20", P, ["C20_interim_never_final", "C20_final_delivered"], "HTTP/0.9 mode excluded from the first theorem: there any unparsable data is a 200 response."),
 ("C21", Q, ["C21_kinds_agree", "C21_response_framing_partial", "C21_body_follows_head", "C21_failed_head_writes_nothing", "C21_wrong_length_announced", "C21_unreadable_coding_announced"], "Kinds of framing agree unconditionally. The exact statement needs the user's own framing headers to be right (a Content-Length beside a body of known length equal to it, Transfer-Encoding in plain ASCII); both violations proved."),
 ("C22", P, ["C22_no_body_bytes"], ""),
 ("C23", P, ["C23_http10_never_chunked", "C23_http10_request_never_chunked"], ""),
 ("C24", Q, ["C24_kinds_agree", "C24_request_framing_partial", "C24_length_without_body_announced", "C24_unreadable_length_announced", "C24_unreadable_coding_announced", "C24_length_list_announced", "C24_http2_body_dropped"], "Kinds of framing agree unconditionally. The exact statement needs the user's own framing headers to be right; the violations are proved."),
 ("C25", Q, ["C25_client_to_server_partial", "C25_server_to_client_partial", "C25_request_end_to_end_partial", "C25_response_end_to_end_partial", "C25_disagreement"], "For right framing headers of the user's, lengths within 2^64-3, names shorter than 64 KiB and heads within the parser's field limit, both directions agree, head and body; without the first the claim is false, which is proved."),
 ("C26", Q, ["C26_server_persist", "C26_client_persist", "C26_response_close_partial", "C26_request_close", "C26_response_persistence", "C26_response_announces_close", "C26_request_announces_close", "C26_http10_response_closes", "C26_requests", "C26_responses", "C26_close_overridden"], "No head follows a message marked as the last one, a peer's message that ends the connection, or shutdown (but for the very first exchange). Left open: a service's Connection: close toward an HTTP/1.0 keep-alive peer, which hyper replaces by keep-alive (witness)."),
 ("C27", P, ["C27_server_order", "C27_client_order"], ""),
 ("C28", P, ["C28_continue", "C28_client", "C28_expecting", "C28_marks"], ""),
 ("C29", Q, ["C29_short_end", "C29_user_error", "C29_frames_error", "C29_short_frame_partial", "C29_short_frame_unreported", "C29_not_reused"], "Not reused in every case; an error is reported except when the last data frame itself is short (witness)."),
 ("C30", P, ["C30_no_terminator_missed", "C30_complete_has_terminator", "C30_complete_head_never_skipped"], ""),
 ("C31", Q, ["C31_never_exceeds_partial", "C31_at_most_twice", "C31_too_large_reported", "C31_waits_below_maximum", "C31_room_to_read", "C31_no_panic", "C31_maximum_exceeded"], "The bound holds if BytesMut::reserve grants exactly what is asked; with doubling only twice the maximum holds and the claimed bound is violated, which is proved. Too-large reporting is proved without assumption."),
 ("C32", P, ["C32_within_bounds", "C32_grows_only_when_filled", "C32_shrinks_after_two", "C32_exact_constant"], ""),
 ("C33", Q, ["C33_in_order_partial", "C33_accepted_grows", "C33_flush_hands_over_all", "C33_shutdown_after_all", "C33_ungated_head_overtakes"], "Proved for heads put only when the queue has drained. The automatic 100 Continue and the answer to an unparsable request are put without that check, and then the claim is false, which is proved. Flush success is excepted while pipelined answers are being gathered."),
 ("C34", Q, ["C34_strategies_agree_partial", "C34_flatten_always_gated", "C34_ungated_differs"], "Proved for heads put only when the queue has drained; for the two heads put without that check (C33) the strategies differ, which is proved."),
 ("C35", P, ["C35_read_takes_next", "C35_each_byte_once", "C35_buffered_first", "C35_then_transport", "C35_into_inner"], ""),
 ("C36", P, ["C36_list_is_concatenation", "C36_push_appends", "C36_sequences"], ""),
 ("C37", P, ["C37_cursor_accounting", "C37_panics_without_writing"], ""),
 ("C38", P, ["C38_at_most_one", "C38_never_lost", "C38_exactly_one", "submitted_iff"],
  "any interleaving of the atomic steps of sender, receiver and HTTP/2 response tasks, including drops of either"),
 ("C39", P, ["C39_back_not_sent", "C39_back_wanted"],
  "a request counts as sent from the moment it leaves the queue to be written"),
 ("C40", P, ["C40_accepted", "C40_waiting"],
  "acceptances never exceed the connection's demands by more than one; three waiting requests are reachable because the queue check and the signal are two steps"),
 ("C41", P, ["C41_http1", "C41_complete", "C41_http2", "C41_http2_start"], "HTTP/1: any interleaving of the connection and the body's reader; HTTP/2: assumes the h2 crate hands over no more than the announced length"),
 ("C42", P, ["C42_never_clean", "C42_dropped", "C42_failed"], ""),
 ("C43", P, ["C43_no_lost_wake", "C43_waiting_task_woken", "C43_finishes", "C43_next_look", "C43_no_early_wake", "C43_no_panic"], "every interleaving of the atomic steps of watch.rs and of atomic-waker, sequentially consistent"),
 ("C44", P, ["C44_woken", "C44_finishes", "C44_finishes_without_capacity"], "every interleaving of the atomic steps of the user, the task and atomic-waker"),
 ("C45", Q, ["C45_stripped_partial", "C45_second_te_kept", "C45_second_connection_ignored"], "Proved for every header map with a disallowed TE judged by the first TE field; a second, disallowed TE field after an allowed first one is kept, which is proved."),
 ("C46", P, ["C46_complete", "C46_nothing_lost", "C46_user_error", "C46_stream_error", "C46_no_stuck_chunk", "C46_succeeds", "C46_asks", "C46_reset_reason"], "every sequence of body frames and of answers of the h2 stream"),
 ("C47", P, ["C47_window", "C47_delay", "C47_small_window_shrinks", "C47_large_window_shrinks"], "every sequence of samples; the floating-point comparison is arbitrary; the last two show that the bounds on the initial window are needed"),
 ("C48", Q, ["C48_timeout", "C48_timeout_partial", "C48_other_ping", "C48_flag", "C48_disabled"], "in full without the adaptive window; with it the unanswered ping may be a window probe sent earlier, shown by C48_other_ping"),
 ("C49", P, ["C49_started", "C49_deadline_fixed", "C49_timeout", "C49_stopped"], ""),
 ("C50", P, ["C50_accepted_iff", "C50_status_line_whole"], ""),
 ("C51", P, ["C51_block_splits_back", "C51_response_splits_back", "C51_response_fields_sent", "C51_request_fields_sent"], ""),
 ("C52", P, ["C52_at_most_a_second_old"], ""),
 ("C53", P, ["C53_short_body_closes"], ""),
 ("C54", Q, ["C54_clean_end_partial", "C54_lingering", "C54_reader"], "Proved for clients and for servers whose response is not yet over when the body ends; otherwise the sender lingers and an error follows the complete body (witness)."),
 ("C55", Q, ["C55_order", "C55_one_end", "C55_complete_partial", "C55_lost"], "false in full: a write accepted between the task's two checks is lost, shown by C55_lost"),
 ("C56", P, ["C56_read_takes_next", "C56_each_byte_once", "C56_end_iff", "C56_failure_reported"], ""),
 ("C57", Q, ["C57_writes", "C57_failure_once", "C57_failure_reported", "C57_shutdown", "C57_flush_partial", "C57_flush_early"], "The clause about flushing is false: a flush succeeds while an accepted write waits, shown by C57_flush_early."),
 ("C58", P, ["C58_orderly", "C58_answered", "C58_head", "C58_service_error"], ""),
 ("C59", Q, ["C59_no_content_partial", "C59_content_sent"], "Proved when the body says that it is at its end; otherwise its content is sent, shown by C59_content_sent."),
 ("C60", Q, ["C60_each_request_once", "C60_stays_partial", "C60_connect_ends_all", "C60_timeout_reported"], "A CONNECT request with a content-length ends the whole connection, shown by C60_connect_ends_all; proved without such requests."),
 ("C61", P, ["C61_shutdown_first", "C61_only_if_asked"], ""),
 ("C62", P, ["C62_orderly", "C62_head", "C62_connect_refused", "C62_body_complete", "C62_canceled", "C62_cancel_only_if", "C62_response", "C62_unsent", "C62_told"], ""),
 ("C63", Q, ["C63_result", "C63_asked", "C63_server_flushed_partial", "C63_client_flushed_partial", "C63_lost_by_shutdown", "C63_lost_with_body", "C63_lost_by_client", "C63_refused_handed_over"], "Buffered bytes are lost at the hand-over in the executions of C63_lost_by_shutdown, C63_lost_with_body and C63_lost_by_client; proved without them (server: no request body, no graceful shutdown, no pipeline_flush; client: the response comes after the request was sent)."),
 ("C64", Q, ["C64_run", "C64_attended", "C64_answered_partial", "C64_never_silent_partial", "C64_yield", "C64_service_forgotten", "C64_silent", "C64_request_forgotten", "C64_response_kept_back"], "With queued output the service, or the queue of requests, is not asked when the flush at the end of the poll makes room for a head (C64_service_forgotten, C64_silent, C64_request_forgotten): proved for it with one flat buffer, for everything else with both. pipeline_flush is excluded: a response is kept back behind a partial request (C64_response_kept_back)."),
 ("C65", Q, ["C65_wire_partial", "C65_wire", "C65_client_wire", "C65_settled", "C65_finished", "C65_sent", "C65_continue_overtakes"], "Proved in full with the flattening strategy, and for clients. On a server with the queueing one, heads the connection puts on its own (100 Continue, the answer to an unparsable request) can get into the body before (C65_continue_overtakes); proved for the runs without that."),
 ("C66", P, ["C66_server_stable", "C66_client_stable", "C66_messages", "C66_next_head", "C66_segmentation", "C66_server_segmentation"], "The tokeniser (httparse) is a parameter; assumed: a head it has recognised it recognises whatever follows. Reading HTTP/0.9 responses is off (the default)."),
 ("C67", P, ["C67_requests"], "The parsers (httparse) are parameters; assumed of them is that they read well-formed heads, whatever follows; a reference parser with these properties is given. The response direction is C68."),
 ("C68", Q, ["C68_exchange_partial", "C68_exchange_flat"], "Proved in full for a server whose write buffer flattens. With the queueing strategy the claim needs that no interim response or answer to unparsable bytes is put while bytes of an earlier body are queued, for they overtake them (C65_continue_overtakes). Upgraded bytes after a 101 or CONNECT are not followed. The parsers (httparse) are parameters, as in C67."),
 ("C69", P, ["C69_head", "C69_body", "C69_server_ending", "C69_client_ending"], "The tokeniser (httparse) is a parameter; assumed: a head it recognises ends with an empty line and is recognised as soon as that line is there, whatever follows; reference parsers with these properties are given. Reading HTTP/0.9 responses is off (the default)."),
 ("C70", Q, ["C70_reader", "C70_last", "C70_client", "C70_server_partial", "C70_body_leaks", "C70_refused_later"], "Proved for clients, and for every message the connection says it ends with. For servers proved: nothing but the requests read is taken, and if the last one was read to its end the new owner reads exactly what follows it. False of the code, with counterexamples: when the reader of the request's body is dropped, the rest of the body is handed over as bytes of the new protocol (C70_body_leaks); after a refused upgrade with a keep-alive answer later requests are read, and the connection is handed over after them (C70_refused_later). Assumptions about the tokeniser as in C66."),
 ("C71", P, ["C71_no_new", "C71_at_most_one", "C71_kept", "C71_at_once", "C71_announced", "C71_says_close", "C71_ends", "C71_http10_says_keep_alive"], "C71_http10_says_keep_alive shows why the words are claimed for HTTP/1.1 connections only: toward an HTTP/1.0 client a Connection: keep-alive of the service stays in the last response."),
 ("C72", Q, ["C72_contract", "C72_read", "C72_panics_iff", "C72_no_panic_partial", "C72_panics", "C72_h2"], "The account is proved true for all buffers; that the read does not panic is proved for buffers initialised exactly as far as filled (those h2 uses) or as a whole. For others it is false: assume_init counts from the end of the filled part, but is given the number of bytes newly initialised after the initialised part (C72_panics). Tokio's assume_init and set_filled are modelled after their documentation."),
 ("C73", Q, ["C73_in_order", "C73_end_partial", "C73_error", "C73_ends", "C73_cut_off_silently"], "Proved in full for streams that are not reset with NO_ERROR. With NO_ERROR, in the middle of a response of known length too, the reader gets a clean end (C73_cut_off_silently). The crate h2's stream is modelled after its documentation; assumed: it hands over no more data than announced."),
 ("C74", P, ["C74_request_recorded", "C74_response_recorded", "C74_length_recorded", "C74_request_forwarded", "C74_response_forwarded", "C74_title_case"], "Recorded for all fields (of content-length fields the first, which is the one kept). Forwarded for every name but those hyper writes itself: content-length and transfer-encoding; in responses also connection, trailer and date. httparse is a parameter: the fields are those it splits the head into."),
 ("C75", Q, ["C75_foreach_partial", "C75_edited_partial", "C75_received", "C75_received_order", "C75_received_names", "C75_sound", "C75_set_hides", "C75_added_only", "C75_refused", "C75_taken", "C75_safe", "C75_stops"], "The full claim is false of the code (DESIGN finding 31): after hyper_headers_set of a name with several values the iteration stops early (C75_set_hides), and after hyper_headers_add to a response received without its order only the added entries are shown (C75_added_only). Proved in full without such calls. Null pointers are not modelled."),
 ("C76", P, ["C76_withheld", "C76_sent", "C76_requests"], "The tokeniser (httparse) is a parameter, as in C66."),
 ("C77", P, ["C77_server", "C77_client", "C77_between"], "An error of the transport between two requests counts as its end, as in the code: it is not reported. The tokeniser (httparse) is a parameter, as in C69."),
 ("C78", P, ["C78_conserved", "C78_outputs", "C78_null", "C78_terminates", "C78_spins", "C78_panic", "C78_abort"], "`FuturesUnordered` is modelled after its published source (futures-util 0.3), single threaded. C78_spins: a task that wakes itself on every poll keeps `hyper_executor_poll` from returning. C78_abort: after a task's panic a push, a poll and another push abort the process."),
 ("C79", P, ["C79_once", "C79_all_told", "C79_order", "C79_served", "C79_unused", "C79_notified", "C79_eof"], "What goes on inside the task that sends a body and the one that waits for a response is the subject of C46 and C62; here they are there until they end. A `ClientTask` that has ended is taken to be dropped at once, as by `Connection`'s callers that await it."),
 ("C80", P, ["C80_outcome", "C80_polls", "C80_handed_once", "C80_no_hang", "C80_open", "C80_refused_handed_later", "C80_replaced"], "Refinement of the channel between connection and future by a function of the events since the head came.  The last two are executions: a refused request gets the connection when it ends later; a second asking head cancels the first."),
 ("C81", Q, ["C81_requests", "C81_request_body", "C81_responses_partial", "C81_response_body_partial", "C81_no_standoff_partial", "C81_no_standoff_flat"], "Proved in full for a server whose write buffer flattens.  With the queueing strategy it needs, as C65 and C68 do, that no interim response or answer to unparsable bytes is put while bytes of an earlier body are queued.  A last answer whose head could not be encoded leaves nothing on the wire; the server is then closed for writing and does not wait.  The parsers (httparse) are parameters, as in C67 and C69."),
 ("C82", Q, ["C82_data_tasks", "C82_data_ends", "C82_foreach", "C82_data_func", "C82_data_codes", "C82_unconfigured", "C82_read_partial", "C82_read_lost", "C82_write_partial", "C82_write_twice", "C82_request", "C82_refused", "C82_version", "C82_print", "C82_status_beyond"], "Missing because false of the code: counts of 0xFFFFFFFF and 0xFFFFFFFE bytes are taken for the sentinels (C82_read_lost, C82_write_twice), and statuses up to 999 are accepted (C82_status_beyond).  The parsers of methods and URIs (crate http) are parameters."),
 ("C83", P, ["C83_server", "C83_server_panics", "C83_client", "C83_client_panics", "C83_ffi"], ""),
 ("C84", P, ["C84_server", "C84_server_panics", "C84_client", "C84_client_panics", "C84_adaptive", "C84_forgets"], "The assertions that the crate h2 makes on the values (frame sizes, windows) are outside the model."),
 ("C85", Q, ["C85_server", "C85_client", "C85_bodies", "C85_blame", "C85_questions", "C85_incomplete_body_partial", "C85_cut_body_not_incomplete"], "The last sentence is false of the code: the reader of a body cut off is told an error of the kind Body (`C85_cut_body_not_incomplete`, finding 36); everything else is proved."),
 ("C86", P, ["C86_encoded_stands", "C86_size_line", "C86_encode", "C86_encode_and_end", "C86_end_and_trailers", "C86_send_stands", "C86_on_the_wire", "C86_default_vectored_gap"], "The assumption on vectored chunks is needed: the default method of the trait does not meet it for buffers of several pieces (`C86_default_vectored_gap`, finding 37)."),
 ("C87", P, ["C87_response", "C87_waiting", "C87_own", "C87_over"], "`h09_responses` is off.  The tokeniser recognises a complete head whatever follows it, as in C20 and C66."),
 ("C88", P, ["C88_order", "C88_prefix", "C88_one_piece", "C88_room", "C88_data_sent", "C88_error_sent", "C88_gone_only_if", "C88_sender_woken", "C88_reader_woken", "C88_end", "C88_trailers", "C88_finishes", "C88_drop_finishes"], "The channels of `futures-channel` 0.3 are modelled after its published source, sequentially consistent; operations of its queues and of `AtomicWaker` (whose own steps are followed in C43) are one step each."),
 ("C89", Q, ["C89_backpressure", "C89_bound_partial", "C89_bodyless", "C89_heads_unbounded", "C89_pipeline_unbounded"], "Holds for the body's data, and for everything on a server whose requests have no bodies (`C89_bodyless`). In general the heads are not bounded, and nothing is with `pipeline_flush`; both negations are proved for every size."),
 ("C90", P, ["C90_backpressure", "C90_held", "C90_piece", "C90_parsers_shrink"], "The size of one read is a parameter; it is the spare capacity of the read buffer, at most twice the maximum (`C31_at_most_twice`)."),
 ("C91", P, ["C91_own", "C91_requests", "C91_answers", "C91_sound", "C91_exchange_flat"], "`C91_exchange_flat` is for a server with the flattening write strategy; with the queueing one it is as C68. A request's content is a function of its number."),
 ("C92", Q, ["C92_request_ok", "C92_request_read_again", "C92_no_smuggling", "C92_response_ok_partial", "C92_response_written_partial", "C92_no_response_smuggling_partial", "C92_length_beside_coding", "C92_opaque_coding", "C92_refused", "C92_http09_panics"], "Requests: proved in full (`C92_no_smuggling`). Responses: false of the code in four cases, each with a witness, and proved outside them: a response with both framing fields is cut short or refused (`C92_length_beside_coding`), codings that are not ASCII are joined and then not read (`C92_opaque_coding`), lengths to HEAD or CONNECT are refused (`C92_refused`), a response of HTTP/0.9 panics (`C92_http09_panics`). How `http::Uri` prints a target is a parameter (`TargetOk`)."),
 ("C93", Q, ["C93_ended_partial", "C93_through_a_proxy_partial", "C93_unsent", "C93_lost"], "False of the code in one case, with a witness: a body of unknown length, sent to a server that has answered as HTTP/1.0 (or with GET, HEAD or CONNECT), is not sent at all, and the server has a complete request without a body (`C93_unsent`, `C93_lost`). Proved outside it."),
 ("C94", Q, ["C94_ended_partial", "C94_ended_flat", "C94_through_a_proxy_partial", "C94_torn"], "False of the code for bodies that end with the connection, with a witness: to a client of HTTP/1.0 a body of unknown length is sent until the close, and if it fails after two bytes the client has a complete response of two bytes (`C94_torn`). Proved outside it; with the queueing strategy for runs that are `Gated`, as in C68."),
 ("C95", Q, ["C95_no_panic", "C95_peer", "C95_parse_partial", "C95_max_headers_panics", "C95_version_panics", "C95_request_version_panics"], "The connection is proved. For the parser false of the code, with a witness: with `max_headers` above 24576 a request with more fields than that makes `HeaderMap::reserve` panic (`C95_max_headers_panics`), where the documentation promises 431; up to 24576 fields it is proved. What the map's limit is is knowledge of the `http` crate, not of the source at hand. Debug assertions are not counted."),
 ("C96", Q, ["C96_in_order", "C96_complete_partial", "C96_reset_only_if", "C96_torn", "C96_gave_up", "C96_relay", "C96_through_a_proxy_partial", "C96_torn_on"], "False of the code, with two witnesses: a server whose keep-alive times out ends its connection with `NO_ERROR`, which the readers of its requests' bodies take for the end (`C96_gave_up`); and a user's body that fails with an error that has an HTTP/2 error with `NO_ERROR` among its causes resets its stream with `NO_ERROR`, with the same effect (`C96_torn`). A proxy even makes a real end of it (`C96_torn_on`). Proved for every other case, and that the second needs such an error (`C96_reset_only_if`). `Arrives` says what is assumed of the `h2` crate and the network: in particular that a stream dropped unfinished is not seen as ended. Whether a `content-length` would tell the reader otherwise is the `h2` crate's affair."),
 ("C97", Q, ["C97_found_out", "C97_woken_partial", "C97_sleeps"], "The first half is proved in full (`C97_found_out`). The second is false of the code for an interval of zero, with a witness (`C97_sleeps`), and proved otherwise, if a poll takes less than the interval. Assumed: pings can be sent (the connection is not over), a sleep that is polled after its deadline is ready, and, unless keep-alive is on for idle connections too, there are streams."),
 ("C98", Q, ["C98_no_panic_partial", "C98_expects_hold", "C98_timeout_too_long", "C98_interval_too_long"], "The three `expect`s are shown not to fail whatever the configuration (`C98_expects_hold`). The additions are false of the code for an interval or a timeout that is too long to be represented, with witnesses; otherwise nothing panics. Not covered: the sums of bytes, which do not overflow before 2^64 bytes, and a user's timer that panics."),
 ("C99", Q, ["C99_down_partial", "C99_up_partial", "C99_gave_up", "C99_back_down_partial", "C99_back_up_partial", "C99_back_torn"], "False of the code, with a witness: when the proxy's HTTP/2 server gives its connection up because its keep-alive timed out, what came of a body is handed on as a complete chunked HTTP/1 request (`C99_gave_up`, from C96's finding). Proved otherwise, but for the other exceptions of C93 and C96: a stream that was reset with `NO_ERROR`, bodies of unknown length that HTTP/1 does not send, and responses that end with their connection (`C99_back_torn`). That the proxy hands bodies on unchanged is what `HandsDown`, `HandsBack` and `HandsUp` say."),
 ("C100", Q, ["C100_in_order", "C100_ended_partial", "C100_gave_up", "C100_given_up"], "False of the code, with witnesses: a server whose keep-alive times out ends its connection with `NO_ERROR`, which a tunnel's reader is told as the end (`C100_gave_up`); a writer's task that is dropped by its executor before it is done leaves the stream to be reset with `CANCEL`, which the peer's reader is told as the end, too (`C100_given_up`); and a write can race with the end (`C55_lost`). Proved for every other case. `Crosses` says what is assumed of the `h2` crate and the network."),
 ("C101", Q, ["C101_queued_partial", "C101_waiting_partial", "C101_neighbour"], "False of the code, with a witness: the connection closes when it finds the caller of the next request gone, and the request behind it is not written though nothing has failed (`C101_neighbour`). Proved otherwise: the abandoned request is not written, no other exchange is in progress when that happens, and all who wait are given their requests back unwritten if they asked for that, or else an error."),
 ("C102", Q, ["C102_trailers_handed_on_partial", "C102_request_partial", "C102_response_partial", "C102_refused_at_limit"], "False of the code at the limit, with a witness: hyper writes a blank after the colon, so trailers just below the limit of 16384 bytes are above it when written again, and a reader with the same limit refuses the body (`C102_refused_at_limit`). Proved for trailers that as written are within the next reader's limits."),
 ("C103", Q, ["C103_up_partial", "C103_down_partial", "C103_trailers_as_they_are", "C103_forbidden_sent"], "False of the code, with a witness: `Connection` and the like are removed from heads but not from trailers, so a stream is given fields that HTTP/2 forbids (`C103_forbidden_sent`). Proved otherwise, but for the exceptions of C96 (`NO_ERROR`) and limits as in C102. What the `h2` crate does with such fields is not modelled."),
 ("C104", Q, ["C104_request", "C104_response_partial", "C104_length_beside_coding"], "False of the code for responses with both framing fields, with a witness: the client reads such a response by its coding and keeps the Content-Length, which is then announced over HTTP/2 (`C104_length_beside_coding`). Proved for all requests and for all other responses."),
 ("C105", Q, ["C105_request_partial", "C105_body_dropped", "C105_two_lengths"], "False of the code: every request with a body of unknown length that is marked as HTTP/2, as it arrives, and every such GET or HEAD, is written as a request without a body, and none of the body is sent (`C105_body_dropped`, for all such requests). Proved for all others, provided that the Content-Length is one number and right and that there is no Transfer-Encoding, which is for the `h2` crate to see to (`C105_two_lengths` for what is written otherwise)."),
 ("C106", Q, ["C106_response_partial", "C106_two_lengths"], "False of the code for responses with two lengths that differ, and for answers to HEAD that repeat their length: delivered over HTTP/2, they are refused over HTTP/1 (`C106_two_lengths`). Proved for all others whose framing fields are as the `h2` crate has to see to (no Transfer-Encoding, one number for Content-Length), and that have ended if they cannot have a body."),
 ("C107", P, ["C107_no_smuggling"], "From C67 by way of C60: what the HTTP/2 server's body says of its size makes every such request one of those C67 is about. A request marked as HTTP/2 is not covered: it may lose its body (C105). That lengths agree with each other and with the stream is for the `h2` crate to see to; `C105_two_lengths` has what is written otherwise."),
 ("C108", Q, ["C108_no_splitting_partial", "C108_no_splitting_flat"], "From C68 by way of C62. Partial as C68 is: a server's connection with the queueing strategy has to keep to the condition of C65 on its buffers; with the flattening strategy (`C108_no_splitting_flat`) nothing is missing. A 101 is not covered. That lengths agree with each other is for the `h2` crate to see to; `C106_two_lengths` has what is written otherwise."),
 ("C109", P, ["C109_request", "C109_fields", "C109_spelling", "C109_codes", "C109_line", "C109_response"], "Null pointers are not modelled. What `http` takes for a method or URI is a parameter. The fields of responses are in C75. The setters alone, and the documentation of `hyper_response_status`, are in C82 too."),
 ("C110", P, ["C110_no_injection"], "From C67 by way of C109: an invariant of the header maps of the C API over all calls (`CReq.Tidy`) makes every such request one of those C67 is about. What the crate `http` takes for a method and prints for a URI is assumed to be without blanks and controls (`HttpSound`)."),
 ("C111", Q, ["C111_phrase_partial", "C111_none_arrives", "C111_lost"], "Shown for phrases that are ASCII and statuses that have a usual phrase or where one was set. False in the other cases, for all responses: `C111_none_arrives` (`<none>` arrives as a phrase that was set) and `C111_lost` (a phrase that is not ASCII arrives empty; what `httparse` does with it is assumed). The table of usual phrases is an assumed input, the same at both ends, with `OK` for 200."),
]
exec(open(os.path.join(ROOT, "tools", "more_claims.py")).read()) if os.path.exists(os.path.join(ROOT, "tools", "more_claims.py")) else None
json.dump({"claims": [{"property": p, "status": s, "theorems": ["Hyper." + t for t in ts], "note": n}
                      for p, s, ts, n in sorted(CLAIMS)]},
          open(os.path.join(ROOT, "MANIFEST.json"), "w"), indent=1)
props = sorted(glob.glob(os.path.join(ROOT, "lean/Verif/Props/*.lean")))
imps = ["import Verif.Props." + os.path.basename(f)[:-5] for f in props]
names = [t for _, _, ts, _ in sorted(CLAIMS) for t in ts]
with open(os.path.join(ROOT, "lean/Verif/Audit.lean"), "w") as f:
    f.write("\n".join(imps) + "\n\n/-! # Axioms every property theorem depends on -/\n\n")
    for t in names:
        f.write("#print axioms Hyper.%s\n" % t)
with open(os.path.join(ROOT, "lean/Verif.lean"), "w") as f:
    conf = sorted(glob.glob(os.path.join(ROOT, "lean/Verif/Conform/*.lean")))
    imps += ["import Verif.Conform." + os.path.basename(c)[:-5] for c in conf]
    f.write("\n".join(imps) + "\nimport Verif.Audit\n")
text = "".join(open(f).read() for f in props)
for t in names:
    if not re.search(r"theorem %s\b" % re.escape(t), text):
        print("MISSING", t)
for t in re.findall(r"^theorem (C\d\d\w*)", text, re.M):
    if t not in names:
        print("UNLISTED", t)
