import Verif.Props.Backlog
import Verif.Props.BodyChan
import Verif.Props.Buf
import Verif.Props.Buffered
import Verif.Props.Builders
import Verif.Props.ClientChan
import Verif.Props.ClientEncode
import Verif.Props.ClientParse
import Verif.Props.ClientTask
import Verif.Props.ClosedLoop
import Verif.Props.Compat
import Verif.Props.Conn
import Verif.Props.CrossCut
import Verif.Props.CutOff
import Verif.Props.CutReply
import Verif.Props.Decode
import Verif.Props.DownCross
import Verif.Props.Downgrade
import Verif.Props.Encode
import Verif.Props.EncodedBuf
import Verif.Props.EndToEnd
import Verif.Props.Ended
import Verif.Props.Errors
import Verif.Props.Executor
import Verif.Props.FfiBody
import Verif.Props.FfiHeaders
import Verif.Props.FfiRequest
import Verif.Props.FfiSend
import Verif.Props.Forward
import Verif.Props.GoneCaller
import Verif.Props.H1Upgrade
import Verif.Props.H2Client
import Verif.Props.H2ClientConn
import Verif.Props.H2CutOff
import Verif.Props.H2KeepAlive
import Verif.Props.H2Ping
import Verif.Props.H2PingPanics
import Verif.Props.H2Pipe
import Verif.Props.H2Reader
import Verif.Props.H2Server
import Verif.Props.H2Upgrade
import Verif.Props.H2Upgraded
import Verif.Props.HeaderCase
import Verif.Props.Headers
import Verif.Props.Incoming
import Verif.Props.Informational
import Verif.Props.Input
import Verif.Props.Intake
import Verif.Props.LengthCross
import Verif.Props.OnUpgrade
import Verif.Props.Panics
import Verif.Props.Phrase
import Verif.Props.PollLoop
import Verif.Props.Prompt
import Verif.Props.ReadBuf
import Verif.Props.Received
import Verif.Props.Report
import Verif.Props.RoundTrip
import Verif.Props.ServerEncode
import Verif.Props.ServerParse
import Verif.Props.Shutdown
import Verif.Props.Small
import Verif.Props.Standoff
import Verif.Props.TrailerCross
import Verif.Props.TrailerRelay
import Verif.Props.Tunnel
import Verif.Props.Upgraded
import Verif.Props.Watch
import Verif.Props.Wire
import Verif.Props.WriteBuf

/-! # Axioms every property theorem depends on -/

#print axioms Hyper.C01_chunked_round_trip
#print axioms Hyper.C02_segmentation_independent
#print axioms Hyper.C03_chunked_grammar_exact
#print axioms Hyper.C04_overflow_rejected
#print axioms Hyper.C04_size_exact
#print axioms Hyper.C05_extension_bound
#print axioms Hyper.C06_trailer_bytes_bounded
#print axioms Hyper.C06_trailers_rejected
#print axioms Hyper.C07_content_length_body
#print axioms Hyper.C08_close_delimited_body
#print axioms Hyper.C09_truncated_never_complete
#print axioms Hyper.C10_never_over_length_partial
#print axioms Hyper.C10_short_end_unreported
#print axioms Hyper.C100_in_order
#print axioms Hyper.C100_ended_partial
#print axioms Hyper.C100_gave_up
#print axioms Hyper.C100_given_up
#print axioms Hyper.C101_queued_partial
#print axioms Hyper.C101_waiting_partial
#print axioms Hyper.C101_neighbour
#print axioms Hyper.C102_trailers_handed_on_partial
#print axioms Hyper.C102_request_partial
#print axioms Hyper.C102_response_partial
#print axioms Hyper.C102_refused_at_limit
#print axioms Hyper.C103_up_partial
#print axioms Hyper.C103_down_partial
#print axioms Hyper.C103_trailers_as_they_are
#print axioms Hyper.C103_forbidden_sent
#print axioms Hyper.C104_request
#print axioms Hyper.C104_response_partial
#print axioms Hyper.C104_length_beside_coding
#print axioms Hyper.C105_request_partial
#print axioms Hyper.C105_body_dropped
#print axioms Hyper.C105_two_lengths
#print axioms Hyper.C106_response_partial
#print axioms Hyper.C106_two_lengths
#print axioms Hyper.C107_no_smuggling
#print axioms Hyper.C108_no_splitting_partial
#print axioms Hyper.C108_no_splitting_flat
#print axioms Hyper.C109_request
#print axioms Hyper.C109_fields
#print axioms Hyper.C109_spelling
#print axioms Hyper.C109_codes
#print axioms Hyper.C109_line
#print axioms Hyper.C109_response
#print axioms Hyper.C11_declared_trailers_only
#print axioms Hyper.C11_no_trailers_otherwise
#print axioms Hyper.C11_declared_in_head
#print axioms Hyper.C11_declared_in_request_head
#print axioms Hyper.C110_no_injection
#print axioms Hyper.C111_phrase_partial
#print axioms Hyper.C111_none_arrives
#print axioms Hyper.C111_lost
#print axioms Hyper.C12_trailers_round_trip
#print axioms Hyper.C13_content_length_exact
#print axioms Hyper.C13_refused_otherwise
#print axioms Hyper.C14_repeated_lengths_agree
#print axioms Hyper.C14_disagreeing_response_rejected
#print axioms Hyper.C15_close_recognised
#print axioms Hyper.C15_field_options
#print axioms Hyper.C15_te_trailers
#print axioms Hyper.C16_chunked_iff_final
#print axioms Hyper.C17_request_framing
#print axioms Hyper.C17_violations_rejected
#print axioms Hyper.C17_accepted_iff
#print axioms Hyper.C17_fields_shown
#print axioms Hyper.C17_rejection_answered
#print axioms Hyper.C18_persistence
#print axioms Hyper.C18_single_field
#print axioms Hyper.C18_expect
#print axioms Hyper.C18_upgrade_partial
#print axioms Hyper.C18_connect_upgrade_lost
#print axioms Hyper.C18_close_overridden
#print axioms Hyper.C19_response_framing
#print axioms Hyper.C20_interim_never_final
#print axioms Hyper.C20_final_delivered
#print axioms Hyper.C21_kinds_agree
#print axioms Hyper.C21_response_framing_partial
#print axioms Hyper.C21_body_follows_head
#print axioms Hyper.C21_failed_head_writes_nothing
#print axioms Hyper.C21_wrong_length_announced
#print axioms Hyper.C21_unreadable_coding_announced
#print axioms Hyper.C22_no_body_bytes
#print axioms Hyper.C23_http10_never_chunked
#print axioms Hyper.C23_http10_request_never_chunked
#print axioms Hyper.C24_kinds_agree
#print axioms Hyper.C24_request_framing_partial
#print axioms Hyper.C24_length_without_body_announced
#print axioms Hyper.C24_unreadable_length_announced
#print axioms Hyper.C24_unreadable_coding_announced
#print axioms Hyper.C24_length_list_announced
#print axioms Hyper.C24_http2_body_dropped
#print axioms Hyper.C25_client_to_server_partial
#print axioms Hyper.C25_server_to_client_partial
#print axioms Hyper.C25_request_end_to_end_partial
#print axioms Hyper.C25_response_end_to_end_partial
#print axioms Hyper.C25_disagreement
#print axioms Hyper.C26_server_persist
#print axioms Hyper.C26_client_persist
#print axioms Hyper.C26_response_close_partial
#print axioms Hyper.C26_request_close
#print axioms Hyper.C26_response_persistence
#print axioms Hyper.C26_response_announces_close
#print axioms Hyper.C26_request_announces_close
#print axioms Hyper.C26_http10_response_closes
#print axioms Hyper.C26_requests
#print axioms Hyper.C26_responses
#print axioms Hyper.C26_close_overridden
#print axioms Hyper.C27_server_order
#print axioms Hyper.C27_client_order
#print axioms Hyper.C28_continue
#print axioms Hyper.C28_client
#print axioms Hyper.C28_expecting
#print axioms Hyper.C28_marks
#print axioms Hyper.C29_short_end
#print axioms Hyper.C29_user_error
#print axioms Hyper.C29_frames_error
#print axioms Hyper.C29_short_frame_partial
#print axioms Hyper.C29_short_frame_unreported
#print axioms Hyper.C29_not_reused
#print axioms Hyper.C30_no_terminator_missed
#print axioms Hyper.C30_complete_has_terminator
#print axioms Hyper.C30_complete_head_never_skipped
#print axioms Hyper.C31_never_exceeds_partial
#print axioms Hyper.C31_at_most_twice
#print axioms Hyper.C31_too_large_reported
#print axioms Hyper.C31_waits_below_maximum
#print axioms Hyper.C31_room_to_read
#print axioms Hyper.C31_no_panic
#print axioms Hyper.C31_maximum_exceeded
#print axioms Hyper.C32_within_bounds
#print axioms Hyper.C32_grows_only_when_filled
#print axioms Hyper.C32_shrinks_after_two
#print axioms Hyper.C32_exact_constant
#print axioms Hyper.C33_in_order_partial
#print axioms Hyper.C33_accepted_grows
#print axioms Hyper.C33_flush_hands_over_all
#print axioms Hyper.C33_shutdown_after_all
#print axioms Hyper.C33_ungated_head_overtakes
#print axioms Hyper.C34_strategies_agree_partial
#print axioms Hyper.C34_flatten_always_gated
#print axioms Hyper.C34_ungated_differs
#print axioms Hyper.C35_read_takes_next
#print axioms Hyper.C35_each_byte_once
#print axioms Hyper.C35_buffered_first
#print axioms Hyper.C35_then_transport
#print axioms Hyper.C35_into_inner
#print axioms Hyper.C36_list_is_concatenation
#print axioms Hyper.C36_push_appends
#print axioms Hyper.C36_sequences
#print axioms Hyper.C37_cursor_accounting
#print axioms Hyper.C37_panics_without_writing
#print axioms Hyper.C38_at_most_one
#print axioms Hyper.C38_never_lost
#print axioms Hyper.C38_exactly_one
#print axioms Hyper.submitted_iff
#print axioms Hyper.C39_back_not_sent
#print axioms Hyper.C39_back_wanted
#print axioms Hyper.C40_accepted
#print axioms Hyper.C40_waiting
#print axioms Hyper.C41_http1
#print axioms Hyper.C41_complete
#print axioms Hyper.C41_http2
#print axioms Hyper.C41_http2_start
#print axioms Hyper.C42_never_clean
#print axioms Hyper.C42_dropped
#print axioms Hyper.C42_failed
#print axioms Hyper.C43_no_lost_wake
#print axioms Hyper.C43_waiting_task_woken
#print axioms Hyper.C43_finishes
#print axioms Hyper.C43_next_look
#print axioms Hyper.C43_no_early_wake
#print axioms Hyper.C43_no_panic
#print axioms Hyper.C44_woken
#print axioms Hyper.C44_finishes
#print axioms Hyper.C44_finishes_without_capacity
#print axioms Hyper.C45_stripped_partial
#print axioms Hyper.C45_second_te_kept
#print axioms Hyper.C45_second_connection_ignored
#print axioms Hyper.C46_complete
#print axioms Hyper.C46_nothing_lost
#print axioms Hyper.C46_user_error
#print axioms Hyper.C46_stream_error
#print axioms Hyper.C46_no_stuck_chunk
#print axioms Hyper.C46_succeeds
#print axioms Hyper.C46_asks
#print axioms Hyper.C46_reset_reason
#print axioms Hyper.C47_window
#print axioms Hyper.C47_delay
#print axioms Hyper.C47_small_window_shrinks
#print axioms Hyper.C47_large_window_shrinks
#print axioms Hyper.C48_timeout
#print axioms Hyper.C48_timeout_partial
#print axioms Hyper.C48_other_ping
#print axioms Hyper.C48_flag
#print axioms Hyper.C48_disabled
#print axioms Hyper.C49_started
#print axioms Hyper.C49_deadline_fixed
#print axioms Hyper.C49_timeout
#print axioms Hyper.C49_stopped
#print axioms Hyper.C50_accepted_iff
#print axioms Hyper.C50_status_line_whole
#print axioms Hyper.C51_block_splits_back
#print axioms Hyper.C51_response_splits_back
#print axioms Hyper.C51_response_fields_sent
#print axioms Hyper.C51_request_fields_sent
#print axioms Hyper.C52_at_most_a_second_old
#print axioms Hyper.C53_short_body_closes
#print axioms Hyper.C54_clean_end_partial
#print axioms Hyper.C54_lingering
#print axioms Hyper.C54_reader
#print axioms Hyper.C55_order
#print axioms Hyper.C55_one_end
#print axioms Hyper.C55_complete_partial
#print axioms Hyper.C55_lost
#print axioms Hyper.C56_read_takes_next
#print axioms Hyper.C56_each_byte_once
#print axioms Hyper.C56_end_iff
#print axioms Hyper.C56_failure_reported
#print axioms Hyper.C57_writes
#print axioms Hyper.C57_failure_once
#print axioms Hyper.C57_failure_reported
#print axioms Hyper.C57_shutdown
#print axioms Hyper.C57_flush_partial
#print axioms Hyper.C57_flush_early
#print axioms Hyper.C58_orderly
#print axioms Hyper.C58_answered
#print axioms Hyper.C58_head
#print axioms Hyper.C58_service_error
#print axioms Hyper.C59_no_content_partial
#print axioms Hyper.C59_content_sent
#print axioms Hyper.C60_each_request_once
#print axioms Hyper.C60_stays_partial
#print axioms Hyper.C60_connect_ends_all
#print axioms Hyper.C60_timeout_reported
#print axioms Hyper.C61_shutdown_first
#print axioms Hyper.C61_only_if_asked
#print axioms Hyper.C62_orderly
#print axioms Hyper.C62_head
#print axioms Hyper.C62_connect_refused
#print axioms Hyper.C62_body_complete
#print axioms Hyper.C62_canceled
#print axioms Hyper.C62_cancel_only_if
#print axioms Hyper.C62_response
#print axioms Hyper.C62_unsent
#print axioms Hyper.C62_told
#print axioms Hyper.C63_result
#print axioms Hyper.C63_asked
#print axioms Hyper.C63_server_flushed_partial
#print axioms Hyper.C63_client_flushed_partial
#print axioms Hyper.C63_lost_by_shutdown
#print axioms Hyper.C63_lost_with_body
#print axioms Hyper.C63_lost_by_client
#print axioms Hyper.C63_refused_handed_over
#print axioms Hyper.C64_run
#print axioms Hyper.C64_attended
#print axioms Hyper.C64_answered_partial
#print axioms Hyper.C64_never_silent_partial
#print axioms Hyper.C64_yield
#print axioms Hyper.C64_service_forgotten
#print axioms Hyper.C64_silent
#print axioms Hyper.C64_request_forgotten
#print axioms Hyper.C64_response_kept_back
#print axioms Hyper.C65_wire_partial
#print axioms Hyper.C65_wire
#print axioms Hyper.C65_client_wire
#print axioms Hyper.C65_settled
#print axioms Hyper.C65_finished
#print axioms Hyper.C65_sent
#print axioms Hyper.C65_continue_overtakes
#print axioms Hyper.C66_server_stable
#print axioms Hyper.C66_client_stable
#print axioms Hyper.C66_messages
#print axioms Hyper.C66_next_head
#print axioms Hyper.C66_segmentation
#print axioms Hyper.C66_server_segmentation
#print axioms Hyper.C67_requests
#print axioms Hyper.C68_exchange_partial
#print axioms Hyper.C68_exchange_flat
#print axioms Hyper.C69_head
#print axioms Hyper.C69_body
#print axioms Hyper.C69_server_ending
#print axioms Hyper.C69_client_ending
#print axioms Hyper.C70_reader
#print axioms Hyper.C70_last
#print axioms Hyper.C70_client
#print axioms Hyper.C70_server_partial
#print axioms Hyper.C70_body_leaks
#print axioms Hyper.C70_refused_later
#print axioms Hyper.C71_no_new
#print axioms Hyper.C71_at_most_one
#print axioms Hyper.C71_kept
#print axioms Hyper.C71_at_once
#print axioms Hyper.C71_announced
#print axioms Hyper.C71_says_close
#print axioms Hyper.C71_ends
#print axioms Hyper.C71_http10_says_keep_alive
#print axioms Hyper.C72_contract
#print axioms Hyper.C72_read
#print axioms Hyper.C72_panics_iff
#print axioms Hyper.C72_no_panic_partial
#print axioms Hyper.C72_panics
#print axioms Hyper.C72_h2
#print axioms Hyper.C73_in_order
#print axioms Hyper.C73_end_partial
#print axioms Hyper.C73_error
#print axioms Hyper.C73_ends
#print axioms Hyper.C73_cut_off_silently
#print axioms Hyper.C74_request_recorded
#print axioms Hyper.C74_response_recorded
#print axioms Hyper.C74_length_recorded
#print axioms Hyper.C74_request_forwarded
#print axioms Hyper.C74_response_forwarded
#print axioms Hyper.C74_title_case
#print axioms Hyper.C75_foreach_partial
#print axioms Hyper.C75_edited_partial
#print axioms Hyper.C75_received
#print axioms Hyper.C75_received_order
#print axioms Hyper.C75_received_names
#print axioms Hyper.C75_sound
#print axioms Hyper.C75_set_hides
#print axioms Hyper.C75_added_only
#print axioms Hyper.C75_refused
#print axioms Hyper.C75_taken
#print axioms Hyper.C75_safe
#print axioms Hyper.C75_stops
#print axioms Hyper.C76_withheld
#print axioms Hyper.C76_sent
#print axioms Hyper.C76_requests
#print axioms Hyper.C77_server
#print axioms Hyper.C77_client
#print axioms Hyper.C77_between
#print axioms Hyper.C78_conserved
#print axioms Hyper.C78_outputs
#print axioms Hyper.C78_null
#print axioms Hyper.C78_terminates
#print axioms Hyper.C78_spins
#print axioms Hyper.C78_panic
#print axioms Hyper.C78_abort
#print axioms Hyper.C79_once
#print axioms Hyper.C79_all_told
#print axioms Hyper.C79_order
#print axioms Hyper.C79_served
#print axioms Hyper.C79_unused
#print axioms Hyper.C79_notified
#print axioms Hyper.C79_eof
#print axioms Hyper.C80_outcome
#print axioms Hyper.C80_polls
#print axioms Hyper.C80_handed_once
#print axioms Hyper.C80_no_hang
#print axioms Hyper.C80_open
#print axioms Hyper.C80_refused_handed_later
#print axioms Hyper.C80_replaced
#print axioms Hyper.C81_requests
#print axioms Hyper.C81_request_body
#print axioms Hyper.C81_responses_partial
#print axioms Hyper.C81_response_body_partial
#print axioms Hyper.C81_no_standoff_partial
#print axioms Hyper.C81_no_standoff_flat
#print axioms Hyper.C82_data_tasks
#print axioms Hyper.C82_data_ends
#print axioms Hyper.C82_foreach
#print axioms Hyper.C82_data_func
#print axioms Hyper.C82_data_codes
#print axioms Hyper.C82_unconfigured
#print axioms Hyper.C82_read_partial
#print axioms Hyper.C82_read_lost
#print axioms Hyper.C82_write_partial
#print axioms Hyper.C82_write_twice
#print axioms Hyper.C82_request
#print axioms Hyper.C82_refused
#print axioms Hyper.C82_version
#print axioms Hyper.C82_print
#print axioms Hyper.C82_status_beyond
#print axioms Hyper.C83_server
#print axioms Hyper.C83_server_panics
#print axioms Hyper.C83_client
#print axioms Hyper.C83_client_panics
#print axioms Hyper.C83_ffi
#print axioms Hyper.C84_server
#print axioms Hyper.C84_server_panics
#print axioms Hyper.C84_client
#print axioms Hyper.C84_client_panics
#print axioms Hyper.C84_adaptive
#print axioms Hyper.C84_forgets
#print axioms Hyper.C85_server
#print axioms Hyper.C85_client
#print axioms Hyper.C85_bodies
#print axioms Hyper.C85_blame
#print axioms Hyper.C85_questions
#print axioms Hyper.C85_incomplete_body_partial
#print axioms Hyper.C85_cut_body_not_incomplete
#print axioms Hyper.C86_encoded_stands
#print axioms Hyper.C86_size_line
#print axioms Hyper.C86_encode
#print axioms Hyper.C86_encode_and_end
#print axioms Hyper.C86_end_and_trailers
#print axioms Hyper.C86_send_stands
#print axioms Hyper.C86_on_the_wire
#print axioms Hyper.C86_default_vectored_gap
#print axioms Hyper.C87_response
#print axioms Hyper.C87_waiting
#print axioms Hyper.C87_own
#print axioms Hyper.C87_over
#print axioms Hyper.C88_order
#print axioms Hyper.C88_prefix
#print axioms Hyper.C88_one_piece
#print axioms Hyper.C88_room
#print axioms Hyper.C88_data_sent
#print axioms Hyper.C88_error_sent
#print axioms Hyper.C88_gone_only_if
#print axioms Hyper.C88_sender_woken
#print axioms Hyper.C88_reader_woken
#print axioms Hyper.C88_end
#print axioms Hyper.C88_trailers
#print axioms Hyper.C88_finishes
#print axioms Hyper.C88_drop_finishes
#print axioms Hyper.C89_backpressure
#print axioms Hyper.C89_bound_partial
#print axioms Hyper.C89_bodyless
#print axioms Hyper.C89_heads_unbounded
#print axioms Hyper.C89_pipeline_unbounded
#print axioms Hyper.C90_backpressure
#print axioms Hyper.C90_held
#print axioms Hyper.C90_piece
#print axioms Hyper.C90_parsers_shrink
#print axioms Hyper.C91_own
#print axioms Hyper.C91_requests
#print axioms Hyper.C91_answers
#print axioms Hyper.C91_sound
#print axioms Hyper.C91_exchange_flat
#print axioms Hyper.C92_request_ok
#print axioms Hyper.C92_request_read_again
#print axioms Hyper.C92_no_smuggling
#print axioms Hyper.C92_response_ok_partial
#print axioms Hyper.C92_response_written_partial
#print axioms Hyper.C92_no_response_smuggling_partial
#print axioms Hyper.C92_length_beside_coding
#print axioms Hyper.C92_opaque_coding
#print axioms Hyper.C92_refused
#print axioms Hyper.C92_http09_panics
#print axioms Hyper.C93_ended_partial
#print axioms Hyper.C93_through_a_proxy_partial
#print axioms Hyper.C93_unsent
#print axioms Hyper.C93_lost
#print axioms Hyper.C94_ended_partial
#print axioms Hyper.C94_ended_flat
#print axioms Hyper.C94_through_a_proxy_partial
#print axioms Hyper.C94_torn
#print axioms Hyper.C95_no_panic
#print axioms Hyper.C95_peer
#print axioms Hyper.C95_parse_partial
#print axioms Hyper.C95_max_headers_panics
#print axioms Hyper.C95_version_panics
#print axioms Hyper.C95_request_version_panics
#print axioms Hyper.C96_in_order
#print axioms Hyper.C96_complete_partial
#print axioms Hyper.C96_reset_only_if
#print axioms Hyper.C96_torn
#print axioms Hyper.C96_gave_up
#print axioms Hyper.C96_relay
#print axioms Hyper.C96_through_a_proxy_partial
#print axioms Hyper.C96_torn_on
#print axioms Hyper.C97_found_out
#print axioms Hyper.C97_woken_partial
#print axioms Hyper.C97_sleeps
#print axioms Hyper.C98_no_panic_partial
#print axioms Hyper.C98_expects_hold
#print axioms Hyper.C98_timeout_too_long
#print axioms Hyper.C98_interval_too_long
#print axioms Hyper.C99_down_partial
#print axioms Hyper.C99_up_partial
#print axioms Hyper.C99_gave_up
#print axioms Hyper.C99_back_down_partial
#print axioms Hyper.C99_back_up_partial
#print axioms Hyper.C99_back_torn
