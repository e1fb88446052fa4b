{
 "claims": [
  {
   "property": "C01",
   "status": "proved",
   "theorems": [
    "Hyper.C01_chunked_round_trip"
   ],
   "note": "Any frames, any reader limits, any segmentation."
  },
  {
   "property": "C02",
   "status": "proved",
   "theorems": [
    "Hyper.C02_segmentation_independent"
   ],
   "note": "All decoder states reachable by single steps."
  },
  {
   "property": "C03",
   "status": "proved",
   "theorems": [
    "Hyper.C03_chunked_grammar_exact"
   ],
   "note": "Both directions against an independent inductive grammar."
  },
  {
   "property": "C04",
   "status": "proved",
   "theorems": [
    "Hyper.C04_overflow_rejected",
    "Hyper.C04_size_exact"
   ],
   "note": ""
  },
  {
   "property": "C05",
   "status": "proved",
   "theorems": [
    "Hyper.C05_extension_bound"
   ],
   "note": ""
  },
  {
   "property": "C06",
   "status": "proved",
   "theorems": [
    "Hyper.C06_trailer_bytes_bounded",
    "Hyper.C06_trailers_rejected"
   ],
   "note": "Bytes held in the trailer buffer; allocation capacity is not modelled."
  },
  {
   "property": "C07",
   "status": "proved",
   "theorems": [
    "Hyper.C07_content_length_body"
   ],
   "note": ""
  },
  {
   "property": "C08",
   "status": "proved",
   "theorems": [
    "Hyper.C08_close_delimited_body"
   ],
   "note": ""
  },
  {
   "property": "C09",
   "status": "proved",
   "theorems": [
    "Hyper.C09_truncated_never_complete"
   ],
   "note": ""
  },
  {
   "property": "C10",
   "status": "partial",
   "theorems": [
    "Hyper.C10_never_over_length_partial",
    "Hyper.C10_short_end_unreported"
   ],
   "note": "The last clause is false of the code for a last frame that announces end of stream; witness proved. C53 gives what does hold."
  },
  {
   "property": "C100",
   "status": "partial",
   "theorems": [
    "Hyper.C100_in_order",
    "Hyper.C100_ended_partial",
    "Hyper.C100_gave_up",
    "Hyper.C100_given_up"
   ],
   "note": "False of the code, with witnesses: a server whose keep-alive times out ends its connection with `NO_ERROR`, which a tunnel's reader is told as the end (`C100_gave_up`); a writer's task that is dropped by its executor before it is done leaves the stream to be reset with `CANCEL`, which the peer's reader is told as the end, too (`C100_given_up`); and a write can race with the end (`C55_lost`). Proved for every other case. `Crosses` says what is assumed of the `h2` crate and the network."
  },
  {
   "property": "C101",
   "status": "partial",
   "theorems": [
    "Hyper.C101_queued_partial",
    "Hyper.C101_waiting_partial",
    "Hyper.C101_neighbour"
   ],
   "note": "False of the code, with a witness: the connection closes when it finds the caller of the next request gone, and the request behind it is not written though nothing has failed (`C101_neighbour`). Proved otherwise: the abandoned request is not written, no other exchange is in progress when that happens, and all who wait are given their requests back unwritten if they asked for that, or else an error."
  },
  {
   "property": "C102",
   "status": "partial",
   "theorems": [
    "Hyper.C102_trailers_handed_on_partial",
    "Hyper.C102_request_partial",
    "Hyper.C102_response_partial",
    "Hyper.C102_refused_at_limit"
   ],
   "note": "False of the code at the limit, with a witness: hyper writes a blank after the colon, so trailers just below the limit of 16384 bytes are above it when written again, and a reader with the same limit refuses the body (`C102_refused_at_limit`). Proved for trailers that as written are within the next reader's limits."
  },
  {
   "property": "C103",
   "status": "partial",
   "theorems": [
    "Hyper.C103_up_partial",
    "Hyper.C103_down_partial",
    "Hyper.C103_trailers_as_they_are",
    "Hyper.C103_forbidden_sent"
   ],
   "note": "False of the code, with a witness: `Connection` and the like are removed from heads but not from trailers, so a stream is given fields that HTTP/2 forbids (`C103_forbidden_sent`). Proved otherwise, but for the exceptions of C96 (`NO_ERROR`) and limits as in C102. What the `h2` crate does with such fields is not modelled."
  },
  {
   "property": "C104",
   "status": "partial",
   "theorems": [
    "Hyper.C104_request",
    "Hyper.C104_response_partial",
    "Hyper.C104_length_beside_coding"
   ],
   "note": "False of the code for responses with both framing fields, with a witness: the client reads such a response by its coding and keeps the Content-Length, which is then announced over HTTP/2 (`C104_length_beside_coding`). Proved for all requests and for all other responses."
  },
  {
   "property": "C105",
   "status": "partial",
   "theorems": [
    "Hyper.C105_request_partial",
    "Hyper.C105_body_dropped",
    "Hyper.C105_two_lengths"
   ],
   "note": "False of the code: every request with a body of unknown length that is marked as HTTP/2, as it arrives, and every such GET or HEAD, is written as a request without a body, and none of the body is sent (`C105_body_dropped`, for all such requests). Proved for all others, provided that the Content-Length is one number and right and that there is no Transfer-Encoding, which is for the `h2` crate to see to (`C105_two_lengths` for what is written otherwise)."
  },
  {
   "property": "C106",
   "status": "partial",
   "theorems": [
    "Hyper.C106_response_partial",
    "Hyper.C106_two_lengths"
   ],
   "note": "False of the code for responses with two lengths that differ, and for answers to HEAD that repeat their length: delivered over HTTP/2, they are refused over HTTP/1 (`C106_two_lengths`). Proved for all others whose framing fields are as the `h2` crate has to see to (no Transfer-Encoding, one number for Content-Length), and that have ended if they cannot have a body."
  },
  {
   "property": "C107",
   "status": "proved",
   "theorems": [
    "Hyper.C107_no_smuggling"
   ],
   "note": "From C67 by way of C60: what the HTTP/2 server's body says of its size makes every such request one of those C67 is about. A request marked as HTTP/2 is not covered: it may lose its body (C105). That lengths agree with each other and with the stream is for the `h2` crate to see to; `C105_two_lengths` has what is written otherwise."
  },
  {
   "property": "C108",
   "status": "partial",
   "theorems": [
    "Hyper.C108_no_splitting_partial",
    "Hyper.C108_no_splitting_flat"
   ],
   "note": "From C68 by way of C62. Partial as C68 is: a server's connection with the queueing strategy has to keep to the condition of C65 on its buffers; with the flattening strategy (`C108_no_splitting_flat`) nothing is missing. A 101 is not covered. That lengths agree with each other is for the `h2` crate to see to; `C106_two_lengths` has what is written otherwise."
  },
  {
   "property": "C109",
   "status": "proved",
   "theorems": [
    "Hyper.C109_request",
    "Hyper.C109_fields",
    "Hyper.C109_spelling",
    "Hyper.C109_codes",
    "Hyper.C109_line",
    "Hyper.C109_response"
   ],
   "note": "Null pointers are not modelled. What `http` takes for a method or URI is a parameter. The fields of responses are in C75. The setters alone, and the documentation of `hyper_response_status`, are in C82 too."
  },
  {
   "property": "C11",
   "status": "proved",
   "theorems": [
    "Hyper.C11_declared_trailers_only",
    "Hyper.C11_no_trailers_otherwise",
    "Hyper.C11_declared_in_head",
    "Hyper.C11_declared_in_request_head"
   ],
   "note": "The last two theorems link the names held by the encoder with the Trailer field of the head."
  },
  {
   "property": "C110",
   "status": "proved",
   "theorems": [
    "Hyper.C110_no_injection"
   ],
   "note": "From C67 by way of C109: an invariant of the header maps of the C API over all calls (`CReq.Tidy`) makes every such request one of those C67 is about. What the crate `http` takes for a method and prints for a URI is assumed to be without blanks and controls (`HttpSound`)."
  },
  {
   "property": "C111",
   "status": "partial",
   "theorems": [
    "Hyper.C111_phrase_partial",
    "Hyper.C111_none_arrives",
    "Hyper.C111_lost"
   ],
   "note": "Shown for phrases that are ASCII and statuses that have a usual phrase or where one was set. False in the other cases, for all responses: `C111_none_arrives` (`<none>` arrives as a phrase that was set) and `C111_lost` (a phrase that is not ASCII arrives empty; what `httparse` does with it is assumed). The table of usual phrases is an assumed input, the same at both ends, with `OK` for 200."
  },
  {
   "property": "C12",
   "status": "proved",
   "theorems": [
    "Hyper.C12_trailers_round_trip"
   ],
   "note": "External header parser is a parameter assumed to read well-formed blocks; a reference parser is proved to satisfy the assumption."
  },
  {
   "property": "C13",
   "status": "proved",
   "theorems": [
    "Hyper.C13_content_length_exact",
    "Hyper.C13_refused_otherwise"
   ],
   "note": ""
  },
  {
   "property": "C14",
   "status": "proved",
   "theorems": [
    "Hyper.C14_repeated_lengths_agree",
    "Hyper.C14_disagreeing_response_rejected"
   ],
   "note": ""
  },
  {
   "property": "C15",
   "status": "proved",
   "theorems": [
    "Hyper.C15_close_recognised",
    "Hyper.C15_field_options",
    "Hyper.C15_te_trailers"
   ],
   "note": "Values with bytes outside tab, space and visible ASCII are never honoured."
  },
  {
   "property": "C16",
   "status": "proved",
   "theorems": [
    "Hyper.C16_chunked_iff_final"
   ],
   "note": "Values with bytes outside tab, space and visible ASCII are never chunked."
  },
  {
   "property": "C17",
   "status": "proved",
   "theorems": [
    "Hyper.C17_request_framing",
    "Hyper.C17_violations_rejected",
    "Hyper.C17_accepted_iff",
    "Hyper.C17_fields_shown",
    "Hyper.C17_rejection_answered"
   ],
   "note": ""
  },
  {
   "property": "C18",
   "status": "partial",
   "theorems": [
    "Hyper.C18_persistence",
    "Hyper.C18_single_field",
    "Hyper.C18_expect",
    "Hyper.C18_upgrade_partial",
    "Hyper.C18_connect_upgrade_lost",
    "Hyper.C18_close_overridden"
   ],
   "note": "The CONNECT clause is false of the code on HTTP/1.0 with an Upgrade field; witness proved."
  },
  {
   "property": "C19",
   "status": "proved",
   "theorems": [
    "Hyper.C19_response_framing"
   ],
   "note": ""
  },
  {
   "property": "C20",
   "status": "proved",
   "theorems": [
    "Hyper.C20_interim_never_final",
    "Hyper.C20_final_delivered"
   ],
   "note": "HTTP/0.9 mode excluded from the first theorem: there any unparsable data is a 200 response."
  },
  {
   "property": "C21",
   "status": "partial",
   "theorems": [
    "Hyper.C21_kinds_agree",
    "Hyper.C21_response_framing_partial",
    "Hyper.C21_body_follows_head",
    "Hyper.C21_failed_head_writes_nothing",
    "Hyper.C21_wrong_length_announced",
    "Hyper.C21_unreadable_coding_announced"
   ],
   "note": "Kinds of framing agree unconditionally. The exact statement needs the user's own framing headers to be right (a Content-Length beside a body of known length equal to it, Transfer-Encoding in plain ASCII); both violations proved."
  },
  {
   "property": "C22",
   "status": "proved",
   "theorems": [
    "Hyper.C22_no_body_bytes"
   ],
   "note": ""
  },
  {
   "property": "C23",
   "status": "proved",
   "theorems": [
    "Hyper.C23_http10_never_chunked",
    "Hyper.C23_http10_request_never_chunked"
   ],
   "note": ""
  },
  {
   "property": "C24",
   "status": "partial",
   "theorems": [
    "Hyper.C24_kinds_agree",
    "Hyper.C24_request_framing_partial",
    "Hyper.C24_length_without_body_announced",
    "Hyper.C24_unreadable_length_announced",
    "Hyper.C24_unreadable_coding_announced",
    "Hyper.C24_length_list_announced",
    "Hyper.C24_http2_body_dropped"
   ],
   "note": "Kinds of framing agree unconditionally. The exact statement needs the user's own framing headers to be right; the violations are proved."
  },
  {
   "property": "C25",
   "status": "partial",
   "theorems": [
    "Hyper.C25_client_to_server_partial",
    "Hyper.C25_server_to_client_partial",
    "Hyper.C25_request_end_to_end_partial",
    "Hyper.C25_response_end_to_end_partial",
    "Hyper.C25_disagreement"
   ],
   "note": "For right framing headers of the user's, lengths within 2^64-3, names shorter than 64 KiB and heads within the parser's field limit, both directions agree, head and body; without the first the claim is false, which is proved."
  },
  {
   "property": "C26",
   "status": "partial",
   "theorems": [
    "Hyper.C26_server_persist",
    "Hyper.C26_client_persist",
    "Hyper.C26_response_close_partial",
    "Hyper.C26_request_close",
    "Hyper.C26_response_persistence",
    "Hyper.C26_response_announces_close",
    "Hyper.C26_request_announces_close",
    "Hyper.C26_http10_response_closes",
    "Hyper.C26_requests",
    "Hyper.C26_responses",
    "Hyper.C26_close_overridden"
   ],
   "note": "No head follows a message marked as the last one, a peer's message that ends the connection, or shutdown (but for the very first exchange). Left open: a service's Connection: close toward an HTTP/1.0 keep-alive peer, which hyper replaces by keep-alive (witness)."
  },
  {
   "property": "C27",
   "status": "proved",
   "theorems": [
    "Hyper.C27_server_order",
    "Hyper.C27_client_order"
   ],
   "note": ""
  },
  {
   "property": "C28",
   "status": "proved",
   "theorems": [
    "Hyper.C28_continue",
    "Hyper.C28_client",
    "Hyper.C28_expecting",
    "Hyper.C28_marks"
   ],
   "note": ""
  },
  {
   "property": "C29",
   "status": "partial",
   "theorems": [
    "Hyper.C29_short_end",
    "Hyper.C29_user_error",
    "Hyper.C29_frames_error",
    "Hyper.C29_short_frame_partial",
    "Hyper.C29_short_frame_unreported",
    "Hyper.C29_not_reused"
   ],
   "note": "Not reused in every case; an error is reported except when the last data frame itself is short (witness)."
  },
  {
   "property": "C30",
   "status": "proved",
   "theorems": [
    "Hyper.C30_no_terminator_missed",
    "Hyper.C30_complete_has_terminator",
    "Hyper.C30_complete_head_never_skipped"
   ],
   "note": ""
  },
  {
   "property": "C31",
   "status": "partial",
   "theorems": [
    "Hyper.C31_never_exceeds_partial",
    "Hyper.C31_at_most_twice",
    "Hyper.C31_too_large_reported",
    "Hyper.C31_waits_below_maximum",
    "Hyper.C31_room_to_read",
    "Hyper.C31_no_panic",
    "Hyper.C31_maximum_exceeded"
   ],
   "note": "The bound holds if BytesMut::reserve grants exactly what is asked; with doubling only twice the maximum holds and the claimed bound is violated, which is proved. Too-large reporting is proved without assumption."
  },
  {
   "property": "C32",
   "status": "proved",
   "theorems": [
    "Hyper.C32_within_bounds",
    "Hyper.C32_grows_only_when_filled",
    "Hyper.C32_shrinks_after_two",
    "Hyper.C32_exact_constant"
   ],
   "note": ""
  },
  {
   "property": "C33",
   "status": "partial",
   "theorems": [
    "Hyper.C33_in_order_partial",
    "Hyper.C33_accepted_grows",
    "Hyper.C33_flush_hands_over_all",
    "Hyper.C33_shutdown_after_all",
    "Hyper.C33_ungated_head_overtakes"
   ],
   "note": "Proved for heads put only when the queue has drained. The automatic 100 Continue and the answer to an unparsable request are put without that check, and then the claim is false, which is proved. Flush success is excepted while pipelined answers are being gathered."
  },
  {
   "property": "C34",
   "status": "partial",
   "theorems": [
    "Hyper.C34_strategies_agree_partial",
    "Hyper.C34_flatten_always_gated",
    "Hyper.C34_ungated_differs"
   ],
   "note": "Proved for heads put only when the queue has drained; for the two heads put without that check (C33) the strategies differ, which is proved."
  },
  {
   "property": "C35",
   "status": "proved",
   "theorems": [
    "Hyper.C35_read_takes_next",
    "Hyper.C35_each_byte_once",
    "Hyper.C35_buffered_first",
    "Hyper.C35_then_transport",
    "Hyper.C35_into_inner"
   ],
   "note": ""
  },
  {
   "property": "C36",
   "status": "proved",
   "theorems": [
    "Hyper.C36_list_is_concatenation",
    "Hyper.C36_push_appends",
    "Hyper.C36_sequences"
   ],
   "note": ""
  },
  {
   "property": "C37",
   "status": "proved",
   "theorems": [
    "Hyper.C37_cursor_accounting",
    "Hyper.C37_panics_without_writing"
   ],
   "note": ""
  },
  {
   "property": "C38",
   "status": "proved",
   "theorems": [
    "Hyper.C38_at_most_one",
    "Hyper.C38_never_lost",
    "Hyper.C38_exactly_one",
    "Hyper.submitted_iff"
   ],
   "note": "any interleaving of the atomic steps of sender, receiver and HTTP/2 response tasks, including drops of either"
  },
  {
   "property": "C39",
   "status": "proved",
   "theorems": [
    "Hyper.C39_back_not_sent",
    "Hyper.C39_back_wanted"
   ],
   "note": "a request counts as sent from the moment it leaves the queue to be written"
  },
  {
   "property": "C40",
   "status": "proved",
   "theorems": [
    "Hyper.C40_accepted",
    "Hyper.C40_waiting"
   ],
   "note": "acceptances never exceed the connection's demands by more than one; three waiting requests are reachable because the queue check and the signal are two steps"
  },
  {
   "property": "C41",
   "status": "proved",
   "theorems": [
    "Hyper.C41_http1",
    "Hyper.C41_complete",
    "Hyper.C41_http2",
    "Hyper.C41_http2_start"
   ],
   "note": "HTTP/1: any interleaving of the connection and the body's reader; HTTP/2: assumes the h2 crate hands over no more than the announced length"
  },
  {
   "property": "C42",
   "status": "proved",
   "theorems": [
    "Hyper.C42_never_clean",
    "Hyper.C42_dropped",
    "Hyper.C42_failed"
   ],
   "note": ""
  },
  {
   "property": "C43",
   "status": "proved",
   "theorems": [
    "Hyper.C43_no_lost_wake",
    "Hyper.C43_waiting_task_woken",
    "Hyper.C43_finishes",
    "Hyper.C43_next_look",
    "Hyper.C43_no_early_wake",
    "Hyper.C43_no_panic"
   ],
   "note": "every interleaving of the atomic steps of watch.rs and of atomic-waker, sequentially consistent"
  },
  {
   "property": "C44",
   "status": "proved",
   "theorems": [
    "Hyper.C44_woken",
    "Hyper.C44_finishes",
    "Hyper.C44_finishes_without_capacity"
   ],
   "note": "every interleaving of the atomic steps of the user, the task and atomic-waker"
  },
  {
   "property": "C45",
   "status": "partial",
   "theorems": [
    "Hyper.C45_stripped_partial",
    "Hyper.C45_second_te_kept",
    "Hyper.C45_second_connection_ignored"
   ],
   "note": "Proved for every header map with a disallowed TE judged by the first TE field; a second, disallowed TE field after an allowed first one is kept, which is proved."
  },
  {
   "property": "C46",
   "status": "proved",
   "theorems": [
    "Hyper.C46_complete",
    "Hyper.C46_nothing_lost",
    "Hyper.C46_user_error",
    "Hyper.C46_stream_error",
    "Hyper.C46_no_stuck_chunk",
    "Hyper.C46_succeeds",
    "Hyper.C46_asks",
    "Hyper.C46_reset_reason"
   ],
   "note": "every sequence of body frames and of answers of the h2 stream"
  },
  {
   "property": "C47",
   "status": "proved",
   "theorems": [
    "Hyper.C47_window",
    "Hyper.C47_delay",
    "Hyper.C47_small_window_shrinks",
    "Hyper.C47_large_window_shrinks"
   ],
   "note": "every sequence of samples; the floating-point comparison is arbitrary; the last two show that the bounds on the initial window are needed"
  },
  {
   "property": "C48",
   "status": "partial",
   "theorems": [
    "Hyper.C48_timeout",
    "Hyper.C48_timeout_partial",
    "Hyper.C48_other_ping",
    "Hyper.C48_flag",
    "Hyper.C48_disabled"
   ],
   "note": "in full without the adaptive window; with it the unanswered ping may be a window probe sent earlier, shown by C48_other_ping"
  },
  {
   "property": "C49",
   "status": "proved",
   "theorems": [
    "Hyper.C49_started",
    "Hyper.C49_deadline_fixed",
    "Hyper.C49_timeout",
    "Hyper.C49_stopped"
   ],
   "note": ""
  },
  {
   "property": "C50",
   "status": "proved",
   "theorems": [
    "Hyper.C50_accepted_iff",
    "Hyper.C50_status_line_whole"
   ],
   "note": ""
  },
  {
   "property": "C51",
   "status": "proved",
   "theorems": [
    "Hyper.C51_block_splits_back",
    "Hyper.C51_response_splits_back",
    "Hyper.C51_response_fields_sent",
    "Hyper.C51_request_fields_sent"
   ],
   "note": ""
  },
  {
   "property": "C52",
   "status": "proved",
   "theorems": [
    "Hyper.C52_at_most_a_second_old"
   ],
   "note": ""
  },
  {
   "property": "C53",
   "status": "proved",
   "theorems": [
    "Hyper.C53_short_body_closes"
   ],
   "note": ""
  },
  {
   "property": "C54",
   "status": "partial",
   "theorems": [
    "Hyper.C54_clean_end_partial",
    "Hyper.C54_lingering",
    "Hyper.C54_reader"
   ],
   "note": "Proved for clients and for servers whose response is not yet over when the body ends; otherwise the sender lingers and an error follows the complete body (witness)."
  },
  {
   "property": "C55",
   "status": "partial",
   "theorems": [
    "Hyper.C55_order",
    "Hyper.C55_one_end",
    "Hyper.C55_complete_partial",
    "Hyper.C55_lost"
   ],
   "note": "false in full: a write accepted between the task's two checks is lost, shown by C55_lost"
  },
  {
   "property": "C56",
   "status": "proved",
   "theorems": [
    "Hyper.C56_read_takes_next",
    "Hyper.C56_each_byte_once",
    "Hyper.C56_end_iff",
    "Hyper.C56_failure_reported"
   ],
   "note": ""
  },
  {
   "property": "C57",
   "status": "partial",
   "theorems": [
    "Hyper.C57_writes",
    "Hyper.C57_failure_once",
    "Hyper.C57_failure_reported",
    "Hyper.C57_shutdown",
    "Hyper.C57_flush_partial",
    "Hyper.C57_flush_early"
   ],
   "note": "The clause about flushing is false: a flush succeeds while an accepted write waits, shown by C57_flush_early."
  },
  {
   "property": "C58",
   "status": "proved",
   "theorems": [
    "Hyper.C58_orderly",
    "Hyper.C58_answered",
    "Hyper.C58_head",
    "Hyper.C58_service_error"
   ],
   "note": ""
  },
  {
   "property": "C59",
   "status": "partial",
   "theorems": [
    "Hyper.C59_no_content_partial",
    "Hyper.C59_content_sent"
   ],
   "note": "Proved when the body says that it is at its end; otherwise its content is sent, shown by C59_content_sent."
  },
  {
   "property": "C60",
   "status": "partial",
   "theorems": [
    "Hyper.C60_each_request_once",
    "Hyper.C60_stays_partial",
    "Hyper.C60_connect_ends_all",
    "Hyper.C60_timeout_reported"
   ],
   "note": "A CONNECT request with a content-length ends the whole connection, shown by C60_connect_ends_all; proved without such requests."
  },
  {
   "property": "C61",
   "status": "proved",
   "theorems": [
    "Hyper.C61_shutdown_first",
    "Hyper.C61_only_if_asked"
   ],
   "note": ""
  },
  {
   "property": "C62",
   "status": "proved",
   "theorems": [
    "Hyper.C62_orderly",
    "Hyper.C62_head",
    "Hyper.C62_connect_refused",
    "Hyper.C62_body_complete",
    "Hyper.C62_canceled",
    "Hyper.C62_cancel_only_if",
    "Hyper.C62_response",
    "Hyper.C62_unsent",
    "Hyper.C62_told"
   ],
   "note": ""
  },
  {
   "property": "C63",
   "status": "partial",
   "theorems": [
    "Hyper.C63_result",
    "Hyper.C63_asked",
    "Hyper.C63_server_flushed_partial",
    "Hyper.C63_client_flushed_partial",
    "Hyper.C63_lost_by_shutdown",
    "Hyper.C63_lost_with_body",
    "Hyper.C63_lost_by_client",
    "Hyper.C63_refused_handed_over"
   ],
   "note": "Buffered bytes are lost at the hand-over in the executions of C63_lost_by_shutdown, C63_lost_with_body and C63_lost_by_client; proved without them (server: no request body, no graceful shutdown, no pipeline_flush; client: the response comes after the request was sent)."
  },
  {
   "property": "C64",
   "status": "partial",
   "theorems": [
    "Hyper.C64_run",
    "Hyper.C64_attended",
    "Hyper.C64_answered_partial",
    "Hyper.C64_never_silent_partial",
    "Hyper.C64_yield",
    "Hyper.C64_service_forgotten",
    "Hyper.C64_silent",
    "Hyper.C64_request_forgotten",
    "Hyper.C64_response_kept_back"
   ],
   "note": "With queued output the service, or the queue of requests, is not asked when the flush at the end of the poll makes room for a head (C64_service_forgotten, C64_silent, C64_request_forgotten): proved for it with one flat buffer, for everything else with both. pipeline_flush is excluded: a response is kept back behind a partial request (C64_response_kept_back)."
  },
  {
   "property": "C65",
   "status": "partial",
   "theorems": [
    "Hyper.C65_wire_partial",
    "Hyper.C65_wire",
    "Hyper.C65_client_wire",
    "Hyper.C65_settled",
    "Hyper.C65_finished",
    "Hyper.C65_sent",
    "Hyper.C65_continue_overtakes"
   ],
   "note": "Proved in full with the flattening strategy, and for clients. On a server with the queueing one, heads the connection puts on its own (100 Continue, the answer to an unparsable request) can get into the body before (C65_continue_overtakes); proved for the runs without that."
  },
  {
   "property": "C66",
   "status": "proved",
   "theorems": [
    "Hyper.C66_server_stable",
    "Hyper.C66_client_stable",
    "Hyper.C66_messages",
    "Hyper.C66_next_head",
    "Hyper.C66_segmentation",
    "Hyper.C66_server_segmentation"
   ],
   "note": "The tokeniser (httparse) is a parameter; assumed: a head it has recognised it recognises whatever follows. Reading HTTP/0.9 responses is off (the default)."
  },
  {
   "property": "C67",
   "status": "proved",
   "theorems": [
    "Hyper.C67_requests"
   ],
   "note": "The parsers (httparse) are parameters; assumed of them is that they read well-formed heads, whatever follows; a reference parser with these properties is given. The response direction is C68."
  },
  {
   "property": "C68",
   "status": "partial",
   "theorems": [
    "Hyper.C68_exchange_partial",
    "Hyper.C68_exchange_flat"
   ],
   "note": "Proved in full for a server whose write buffer flattens. With the queueing strategy the claim needs that no interim response or answer to unparsable bytes is put while bytes of an earlier body are queued, for they overtake them (C65_continue_overtakes). Upgraded bytes after a 101 or CONNECT are not followed. The parsers (httparse) are parameters, as in C67."
  },
  {
   "property": "C69",
   "status": "proved",
   "theorems": [
    "Hyper.C69_head",
    "Hyper.C69_body",
    "Hyper.C69_server_ending",
    "Hyper.C69_client_ending"
   ],
   "note": "The tokeniser (httparse) is a parameter; assumed: a head it recognises ends with an empty line and is recognised as soon as that line is there, whatever follows; reference parsers with these properties are given. Reading HTTP/0.9 responses is off (the default)."
  },
  {
   "property": "C70",
   "status": "partial",
   "theorems": [
    "Hyper.C70_reader",
    "Hyper.C70_last",
    "Hyper.C70_client",
    "Hyper.C70_server_partial",
    "Hyper.C70_body_leaks",
    "Hyper.C70_refused_later"
   ],
   "note": "Proved for clients, and for every message the connection says it ends with. For servers proved: nothing but the requests read is taken, and if the last one was read to its end the new owner reads exactly what follows it. False of the code, with counterexamples: when the reader of the request's body is dropped, the rest of the body is handed over as bytes of the new protocol (C70_body_leaks); after a refused upgrade with a keep-alive answer later requests are read, and the connection is handed over after them (C70_refused_later). Assumptions about the tokeniser as in C66."
  },
  {
   "property": "C71",
   "status": "proved",
   "theorems": [
    "Hyper.C71_no_new",
    "Hyper.C71_at_most_one",
    "Hyper.C71_kept",
    "Hyper.C71_at_once",
    "Hyper.C71_announced",
    "Hyper.C71_says_close",
    "Hyper.C71_ends",
    "Hyper.C71_http10_says_keep_alive"
   ],
   "note": "C71_http10_says_keep_alive shows why the words are claimed for HTTP/1.1 connections only: toward an HTTP/1.0 client a Connection: keep-alive of the service stays in the last response."
  },
  {
   "property": "C72",
   "status": "partial",
   "theorems": [
    "Hyper.C72_contract",
    "Hyper.C72_read",
    "Hyper.C72_panics_iff",
    "Hyper.C72_no_panic_partial",
    "Hyper.C72_panics",
    "Hyper.C72_h2"
   ],
   "note": "The account is proved true for all buffers; that the read does not panic is proved for buffers initialised exactly as far as filled (those h2 uses) or as a whole. For others it is false: assume_init counts from the end of the filled part, but is given the number of bytes newly initialised after the initialised part (C72_panics). Tokio's assume_init and set_filled are modelled after their documentation."
  },
  {
   "property": "C73",
   "status": "partial",
   "theorems": [
    "Hyper.C73_in_order",
    "Hyper.C73_end_partial",
    "Hyper.C73_error",
    "Hyper.C73_ends",
    "Hyper.C73_cut_off_silently"
   ],
   "note": "Proved in full for streams that are not reset with NO_ERROR. With NO_ERROR, in the middle of a response of known length too, the reader gets a clean end (C73_cut_off_silently). The crate h2's stream is modelled after its documentation; assumed: it hands over no more data than announced."
  },
  {
   "property": "C74",
   "status": "proved",
   "theorems": [
    "Hyper.C74_request_recorded",
    "Hyper.C74_response_recorded",
    "Hyper.C74_length_recorded",
    "Hyper.C74_request_forwarded",
    "Hyper.C74_response_forwarded",
    "Hyper.C74_title_case"
   ],
   "note": "Recorded for all fields (of content-length fields the first, which is the one kept). Forwarded for every name but those hyper writes itself: content-length and transfer-encoding; in responses also connection, trailer and date. httparse is a parameter: the fields are those it splits the head into."
  },
  {
   "property": "C75",
   "status": "partial",
   "theorems": [
    "Hyper.C75_foreach_partial",
    "Hyper.C75_edited_partial",
    "Hyper.C75_received",
    "Hyper.C75_received_order",
    "Hyper.C75_received_names",
    "Hyper.C75_sound",
    "Hyper.C75_set_hides",
    "Hyper.C75_added_only",
    "Hyper.C75_refused",
    "Hyper.C75_taken",
    "Hyper.C75_safe",
    "Hyper.C75_stops"
   ],
   "note": "The full claim is false of the code (DESIGN finding 31): after hyper_headers_set of a name with several values the iteration stops early (C75_set_hides), and after hyper_headers_add to a response received without its order only the added entries are shown (C75_added_only). Proved in full without such calls. Null pointers are not modelled."
  },
  {
   "property": "C76",
   "status": "proved",
   "theorems": [
    "Hyper.C76_withheld",
    "Hyper.C76_sent",
    "Hyper.C76_requests"
   ],
   "note": "The tokeniser (httparse) is a parameter, as in C66."
  },
  {
   "property": "C77",
   "status": "proved",
   "theorems": [
    "Hyper.C77_server",
    "Hyper.C77_client",
    "Hyper.C77_between"
   ],
   "note": "An error of the transport between two requests counts as its end, as in the code: it is not reported. The tokeniser (httparse) is a parameter, as in C69."
  },
  {
   "property": "C78",
   "status": "proved",
   "theorems": [
    "Hyper.C78_conserved",
    "Hyper.C78_outputs",
    "Hyper.C78_null",
    "Hyper.C78_terminates",
    "Hyper.C78_spins",
    "Hyper.C78_panic",
    "Hyper.C78_abort"
   ],
   "note": "`FuturesUnordered` is modelled after its published source (futures-util 0.3), single threaded. C78_spins: a task that wakes itself on every poll keeps `hyper_executor_poll` from returning. C78_abort: after a task's panic a push, a poll and another push abort the process."
  },
  {
   "property": "C79",
   "status": "proved",
   "theorems": [
    "Hyper.C79_once",
    "Hyper.C79_all_told",
    "Hyper.C79_order",
    "Hyper.C79_served",
    "Hyper.C79_unused",
    "Hyper.C79_notified",
    "Hyper.C79_eof"
   ],
   "note": "What goes on inside the task that sends a body and the one that waits for a response is the subject of C46 and C62; here they are there until they end. A `ClientTask` that has ended is taken to be dropped at once, as by `Connection`'s callers that await it."
  },
  {
   "property": "C80",
   "status": "proved",
   "theorems": [
    "Hyper.C80_outcome",
    "Hyper.C80_polls",
    "Hyper.C80_handed_once",
    "Hyper.C80_no_hang",
    "Hyper.C80_open",
    "Hyper.C80_refused_handed_later",
    "Hyper.C80_replaced"
   ],
   "note": "Refinement of the channel between connection and future by a function of the events since the head came.  The last two are executions: a refused request gets the connection when it ends later; a second asking head cancels the first."
  },
  {
   "property": "C81",
   "status": "partial",
   "theorems": [
    "Hyper.C81_requests",
    "Hyper.C81_request_body",
    "Hyper.C81_responses_partial",
    "Hyper.C81_response_body_partial",
    "Hyper.C81_no_standoff_partial",
    "Hyper.C81_no_standoff_flat"
   ],
   "note": "Proved in full for a server whose write buffer flattens.  With the queueing strategy it needs, as C65 and C68 do, that no interim response or answer to unparsable bytes is put while bytes of an earlier body are queued.  A last answer whose head could not be encoded leaves nothing on the wire; the server is then closed for writing and does not wait.  The parsers (httparse) are parameters, as in C67 and C69."
  },
  {
   "property": "C82",
   "status": "partial",
   "theorems": [
    "Hyper.C82_data_tasks",
    "Hyper.C82_data_ends",
    "Hyper.C82_foreach",
    "Hyper.C82_data_func",
    "Hyper.C82_data_codes",
    "Hyper.C82_unconfigured",
    "Hyper.C82_read_partial",
    "Hyper.C82_read_lost",
    "Hyper.C82_write_partial",
    "Hyper.C82_write_twice",
    "Hyper.C82_request",
    "Hyper.C82_refused",
    "Hyper.C82_version",
    "Hyper.C82_print",
    "Hyper.C82_status_beyond"
   ],
   "note": "Missing because false of the code: counts of 0xFFFFFFFF and 0xFFFFFFFE bytes are taken for the sentinels (C82_read_lost, C82_write_twice), and statuses up to 999 are accepted (C82_status_beyond).  The parsers of methods and URIs (crate http) are parameters."
  },
  {
   "property": "C83",
   "status": "proved",
   "theorems": [
    "Hyper.C83_server",
    "Hyper.C83_server_panics",
    "Hyper.C83_client",
    "Hyper.C83_client_panics",
    "Hyper.C83_ffi"
   ],
   "note": ""
  },
  {
   "property": "C84",
   "status": "proved",
   "theorems": [
    "Hyper.C84_server",
    "Hyper.C84_server_panics",
    "Hyper.C84_client",
    "Hyper.C84_client_panics",
    "Hyper.C84_adaptive",
    "Hyper.C84_forgets"
   ],
   "note": "The assertions that the crate h2 makes on the values (frame sizes, windows) are outside the model."
  },
  {
   "property": "C85",
   "status": "partial",
   "theorems": [
    "Hyper.C85_server",
    "Hyper.C85_client",
    "Hyper.C85_bodies",
    "Hyper.C85_blame",
    "Hyper.C85_questions",
    "Hyper.C85_incomplete_body_partial",
    "Hyper.C85_cut_body_not_incomplete"
   ],
   "note": "The last sentence is false of the code: the reader of a body cut off is told an error of the kind Body (`C85_cut_body_not_incomplete`, finding 36); everything else is proved."
  },
  {
   "property": "C86",
   "status": "proved",
   "theorems": [
    "Hyper.C86_encoded_stands",
    "Hyper.C86_size_line",
    "Hyper.C86_encode",
    "Hyper.C86_encode_and_end",
    "Hyper.C86_end_and_trailers",
    "Hyper.C86_send_stands",
    "Hyper.C86_on_the_wire",
    "Hyper.C86_default_vectored_gap"
   ],
   "note": "The assumption on vectored chunks is needed: the default method of the trait does not meet it for buffers of several pieces (`C86_default_vectored_gap`, finding 37)."
  },
  {
   "property": "C87",
   "status": "proved",
   "theorems": [
    "Hyper.C87_response",
    "Hyper.C87_waiting",
    "Hyper.C87_own",
    "Hyper.C87_over"
   ],
   "note": "`h09_responses` is off.  The tokeniser recognises a complete head whatever follows it, as in C20 and C66."
  },
  {
   "property": "C88",
   "status": "proved",
   "theorems": [
    "Hyper.C88_order",
    "Hyper.C88_prefix",
    "Hyper.C88_one_piece",
    "Hyper.C88_room",
    "Hyper.C88_data_sent",
    "Hyper.C88_error_sent",
    "Hyper.C88_gone_only_if",
    "Hyper.C88_sender_woken",
    "Hyper.C88_reader_woken",
    "Hyper.C88_end",
    "Hyper.C88_trailers",
    "Hyper.C88_finishes",
    "Hyper.C88_drop_finishes"
   ],
   "note": "The channels of `futures-channel` 0.3 are modelled after its published source, sequentially consistent; operations of its queues and of `AtomicWaker` (whose own steps are followed in C43) are one step each."
  },
  {
   "property": "C89",
   "status": "partial",
   "theorems": [
    "Hyper.C89_backpressure",
    "Hyper.C89_bound_partial",
    "Hyper.C89_bodyless",
    "Hyper.C89_heads_unbounded",
    "Hyper.C89_pipeline_unbounded"
   ],
   "note": "Holds for the body's data, and for everything on a server whose requests have no bodies (`C89_bodyless`). In general the heads are not bounded, and nothing is with `pipeline_flush`; both negations are proved for every size."
  },
  {
   "property": "C90",
   "status": "proved",
   "theorems": [
    "Hyper.C90_backpressure",
    "Hyper.C90_held",
    "Hyper.C90_piece",
    "Hyper.C90_parsers_shrink"
   ],
   "note": "The size of one read is a parameter; it is the spare capacity of the read buffer, at most twice the maximum (`C31_at_most_twice`)."
  },
  {
   "property": "C91",
   "status": "proved",
   "theorems": [
    "Hyper.C91_own",
    "Hyper.C91_requests",
    "Hyper.C91_answers",
    "Hyper.C91_sound",
    "Hyper.C91_exchange_flat"
   ],
   "note": "`C91_exchange_flat` is for a server with the flattening write strategy; with the queueing one it is as C68. A request's content is a function of its number."
  },
  {
   "property": "C92",
   "status": "partial",
   "theorems": [
    "Hyper.C92_request_ok",
    "Hyper.C92_request_read_again",
    "Hyper.C92_no_smuggling",
    "Hyper.C92_response_ok_partial",
    "Hyper.C92_response_written_partial",
    "Hyper.C92_no_response_smuggling_partial",
    "Hyper.C92_length_beside_coding",
    "Hyper.C92_opaque_coding",
    "Hyper.C92_refused",
    "Hyper.C92_http09_panics"
   ],
   "note": "Requests: proved in full (`C92_no_smuggling`). Responses: false of the code in four cases, each with a witness, and proved outside them: a response with both framing fields is cut short or refused (`C92_length_beside_coding`), codings that are not ASCII are joined and then not read (`C92_opaque_coding`), lengths to HEAD or CONNECT are refused (`C92_refused`), a response of HTTP/0.9 panics (`C92_http09_panics`). How `http::Uri` prints a target is a parameter (`TargetOk`)."
  },
  {
   "property": "C93",
   "status": "partial",
   "theorems": [
    "Hyper.C93_ended_partial",
    "Hyper.C93_through_a_proxy_partial",
    "Hyper.C93_unsent",
    "Hyper.C93_lost"
   ],
   "note": "False of the code in one case, with a witness: a body of unknown length, sent to a server that has answered as HTTP/1.0 (or with GET, HEAD or CONNECT), is not sent at all, and the server has a complete request without a body (`C93_unsent`, `C93_lost`). Proved outside it."
  },
  {
   "property": "C94",
   "status": "partial",
   "theorems": [
    "Hyper.C94_ended_partial",
    "Hyper.C94_ended_flat",
    "Hyper.C94_through_a_proxy_partial",
    "Hyper.C94_torn"
   ],
   "note": "False of the code for bodies that end with the connection, with a witness: to a client of HTTP/1.0 a body of unknown length is sent until the close, and if it fails after two bytes the client has a complete response of two bytes (`C94_torn`). Proved outside it; with the queueing strategy for runs that are `Gated`, as in C68."
  },
  {
   "property": "C95",
   "status": "partial",
   "theorems": [
    "Hyper.C95_no_panic",
    "Hyper.C95_peer",
    "Hyper.C95_parse_partial",
    "Hyper.C95_max_headers_panics",
    "Hyper.C95_version_panics",
    "Hyper.C95_request_version_panics"
   ],
   "note": "The connection is proved. For the parser false of the code, with a witness: with `max_headers` above 24576 a request with more fields than that makes `HeaderMap::reserve` panic (`C95_max_headers_panics`), where the documentation promises 431; up to 24576 fields it is proved. What the map's limit is is knowledge of the `http` crate, not of the source at hand. Debug assertions are not counted."
  },
  {
   "property": "C96",
   "status": "partial",
   "theorems": [
    "Hyper.C96_in_order",
    "Hyper.C96_complete_partial",
    "Hyper.C96_reset_only_if",
    "Hyper.C96_torn",
    "Hyper.C96_gave_up",
    "Hyper.C96_relay",
    "Hyper.C96_through_a_proxy_partial",
    "Hyper.C96_torn_on"
   ],
   "note": "False of the code, with two witnesses: a server whose keep-alive times out ends its connection with `NO_ERROR`, which the readers of its requests' bodies take for the end (`C96_gave_up`); and a user's body that fails with an error that has an HTTP/2 error with `NO_ERROR` among its causes resets its stream with `NO_ERROR`, with the same effect (`C96_torn`). A proxy even makes a real end of it (`C96_torn_on`). Proved for every other case, and that the second needs such an error (`C96_reset_only_if`). `Arrives` says what is assumed of the `h2` crate and the network: in particular that a stream dropped unfinished is not seen as ended. Whether a `content-length` would tell the reader otherwise is the `h2` crate's affair."
  },
  {
   "property": "C97",
   "status": "partial",
   "theorems": [
    "Hyper.C97_found_out",
    "Hyper.C97_woken_partial",
    "Hyper.C97_sleeps"
   ],
   "note": "The first half is proved in full (`C97_found_out`). The second is false of the code for an interval of zero, with a witness (`C97_sleeps`), and proved otherwise, if a poll takes less than the interval. Assumed: pings can be sent (the connection is not over), a sleep that is polled after its deadline is ready, and, unless keep-alive is on for idle connections too, there are streams."
  },
  {
   "property": "C98",
   "status": "partial",
   "theorems": [
    "Hyper.C98_no_panic_partial",
    "Hyper.C98_expects_hold",
    "Hyper.C98_timeout_too_long",
    "Hyper.C98_interval_too_long"
   ],
   "note": "The three `expect`s are shown not to fail whatever the configuration (`C98_expects_hold`). The additions are false of the code for an interval or a timeout that is too long to be represented, with witnesses; otherwise nothing panics. Not covered: the sums of bytes, which do not overflow before 2^64 bytes, and a user's timer that panics."
  },
  {
   "property": "C99",
   "status": "partial",
   "theorems": [
    "Hyper.C99_down_partial",
    "Hyper.C99_up_partial",
    "Hyper.C99_gave_up",
    "Hyper.C99_back_down_partial",
    "Hyper.C99_back_up_partial",
    "Hyper.C99_back_torn"
   ],
   "note": "False of the code, with a witness: when the proxy's HTTP/2 server gives its connection up because its keep-alive timed out, what came of a body is handed on as a complete chunked HTTP/1 request (`C99_gave_up`, from C96's finding). Proved otherwise, but for the other exceptions of C93 and C96: a stream that was reset with `NO_ERROR`, bodies of unknown length that HTTP/1 does not send, and responses that end with their connection (`C99_back_torn`). That the proxy hands bodies on unchanged is what `HandsDown`, `HandsBack` and `HandsUp` say."
  }
 ]
}