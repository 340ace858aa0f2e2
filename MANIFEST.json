{"claims": [
{"property": "C01", "status": "proved", "theorems": ["PRpc.Props.c01_header_round_trip"], "note": "All keys, sequence numbers and bodies."},
{"property": "C02", "status": "proved", "theorems": ["PRpc.Props.c02_header_canonical", "PRpc.Props.c02_header_prefix_free"], "note": "Canonicity and prefix-freeness follow from inversion of the decoder."},
{"property": "C03", "status": "proved", "theorems": ["PRpc.Props.c03_header_decode_no_panic", "PRpc.Props.c03_header_decode_accepts_iff"], "note": "Exact acceptance condition; the unreachable!() arm is proved unreachable."},
{"property": "C04", "status": "proved", "theorems": ["PRpc.Props.c04_header_layout"], "note": "Against an independent arithmetic layout."},
{"property": "C05", "status": "proved", "theorems": ["PRpc.Props.c05_header_write_to_slice"], "note": "Success iff the buffer is long enough; bytes after the header untouched."},
{"property": "C06", "status": "proved", "theorems": ["PRpc.Props.c06_shrink_length", "PRpc.Props.c06_shrink_is_fold", "PRpc.Props.c06_shrink_steps", "PRpc.Props.c06_try_from"], "note": "Against a group-wise XOR fold on byte lists."},
{"property": "C07", "status": "proved", "theorems": ["PRpc.Props.c07_key_eq_iff", "PRpc.Props.c07_key_eq_refl_symm", "PRpc.Props.c07_key_eq_shrink", "PRpc.Props.c07_key_eq_trans", "PRpc.Props.c07_key_eq_not_trans"], "note": "Includes the non-transitivity witness."},
{"property": "C08", "status": "proved", "theorems": ["PRpc.Props.c08_seq_eq_iff", "PRpc.Props.c08_seq_resize", "PRpc.Props.c08_seq_widen", "PRpc.Props.c08_seq_into"], "note": "The code compares by numeric value; the doc comment on the type claims otherwise (see DESIGN.md)."},
{"property": "C09", "status": "proved", "theorems": ["PRpc.Props.c09_min_key_least", "PRpc.Props.c09_min_key_panics_iff", "PRpc.Props.c09_distinct_mono"], "note": "Nested index loops; panics exactly on duplicate full keys."},
{"property": "C10", "status": "proved", "theorems": ["PRpc.Props.c10_dispatcher_key_length", "PRpc.Props.c10_dispatcher_key_length_least", "PRpc.Props.c10_dispatcher_refused_iff", "PRpc.Props.c10_kind_of_sz"], "note": "Error and standard keys are only covered when they are in the lists (see DESIGN.md)."},
{"property": "C11", "status": "partial", "theorems": ["PRpc.Props.c11_request_routing_false", "PRpc.Props.c11_request_routing_partial", "PRpc.Props.c11_topic_routing_partial"], "note": "False as stated: with omit_std = true a built-in endpoint can shadow a user endpoint (c11_request_routing_false). Proved for applications whose list contains the standard endpoints, for endpoints and topics, all key lengths."},
{"property": "C12", "status": "proved", "theorems": ["PRpc.Props.c12_short_key_refused", "PRpc.Props.c12_long_key_not_refused"], "note": "Both directions."},
{"property": "C13", "status": "partial", "theorems": ["PRpc.Props.c13_unknown_key_false", "PRpc.Props.c13_unknown_key_partial", "PRpc.Props.c13_unknown_key_same_length_partial", "PRpc.Props.c13_unknown_key_only"], "note": "False as stated: a longer unknown key is folded before matching and can hit a handler (c13_unknown_key_false). Proved for keys whose folded form is unhandled, and for keys of exactly the dispatcher's length; UnknownKey is sent only then."},
{"property": "C14", "status": "proved", "theorems": ["PRpc.Props.c14_one_reply", "PRpc.Props.c14_topic_silent", "PRpc.Props.c14_ping"], "note": "Exact event sequence for blocking and async endpoints, topics and ping."},
{"property": "C15", "status": "proved", "theorems": ["PRpc.Props.c15_undecodable_request", "PRpc.Props.c15_undecodable_topic", "PRpc.Props.c15_undecodable_ping"], "note": "Endpoints, topics and ping."},
{"property": "C16", "status": "proved", "theorems": ["PRpc.Props.c16_spawn"], "note": "Accepted and refused spawns."},
{"property": "C17", "status": "proved", "theorems": ["PRpc.Props.c17_still_running", "PRpc.Props.c17_stops_on_rx", "PRpc.Props.c17_stops_on_tx", "PRpc.Props.c17_panics_iff"], "note": "Exact characterisation of all four outcomes of the loop, for any Dispatch implementation."},
{"property": "C18", "status": "partial", "theorems": ["PRpc.Props.c18_reply_failure_false", "PRpc.Props.c18_reply_failure_partial", "PRpc.Props.c18_ping_reply_failure"], "note": "False as stated: the reply's error is dropped when the follow-up SerFailed frame goes out (c18_reply_failure_false). Proved: the loop's outcome is that of the follow-up frame; for ping the reply's error is reported."},
{"property": "C19", "status": "proved", "theorems": ["PRpc.Props.c19_schema_dump", "PRpc.Props.c19_schema_dump_overflow"], "note": "All failure patterns; beyond 65535 entries with overflow checks the query panics."},
{"property": "C20", "status": "partial", "theorems": ["PRpc.Props.c20_report_exact_partial", "PRpc.Props.c20_lossless_report", "PRpc.Props.c20_loss_refused", "PRpc.Props.c20_types_right", "PRpc.Props.c20_report_exact_false", "PRpc.Props.c20_type_loss_unnoticed", "PRpc.Props.c20_with_device"], "note": "False as stated when data of another request arrive as well: a repeated entry makes up for a lost one (c20_report_exact_false). Proved for the data of one request under every loss pattern and iteration order: a report is exact (types up to hash collisions), any lost endpoint or topic entry or failed publication is refused, and nothing lost gives the report. Lost type messages that no entry needs go unnoticed (c20_type_loss_unnoticed)."},
{"property": "C21", "status": "proved", "theorems": ["PRpc.Props.c21_unique_types_sound"], "note": "For every schema tree."},
{"property": "C22", "status": "partial", "theorems": ["PRpc.Props.c22_unique_types_complete_false", "PRpc.Props.c22_unique_types_partial", "PRpc.Props.c22_unique_types_complete_partial"], "note": "False as stated: nothing strictly inside a newtype-variant payload is listed (c22_unique_types_complete_false). The exact set listed is characterised, and completeness proved for flat payloads."},
{"property": "C23", "status": "proved", "theorems": ["PRpc.Props.c23_unique_types_no_panic"], "note": "Capacity bound by induction on the schema."},
{"property": "C24", "status": "proved", "theorems": ["PRpc.Props.c24_schema_eq_iff"], "note": "nty_eq decides equality of schema trees."},
{"property": "C25", "status": "proved", "theorems": ["PRpc.Props.c25_merge_types", "PRpc.Props.c25_merge_unique_lists", "PRpc.Props.c25_concat_arrays"], "note": "Merge keeps first occurrences of non-primitive types; concatenation is exact."},
{"property": "C26", "status": "proved", "theorems": ["PRpc.Props.c26_cobs_chunking"], "note": "For every capacity, every list of encodings in the COBS grammar that fit, every chunking."},
{"property": "C27", "status": "proved", "theorems": ["PRpc.Props.c27_cobs_resync", "PRpc.Props.c27_cobs_noise_confined"], "note": "From every reachable accumulator state, for arbitrary noise; good frames before the noise are unaffected."},
{"property": "C28", "status": "partial", "theorems": ["PRpc.Props.c28_cobs_feed_safe", "PRpc.Props.c28_cobs_progress_false", "PRpc.Props.c28_cobs_progress_partial", "PRpc.Props.c28_cobs_loop_terminates", "PRpc.Props.c28_cobs_zero_capacity_stuck"], "note": "Safety and loop termination proved for all reachable states. The per-feed progress claim is false (c28_cobs_progress_false: exactly full buffer, zero-free input); proved: that is the only such case and it empties the buffer. Capacity zero never progresses."},
{"property": "C29", "status": "partial", "theorems": ["PRpc.Props.c29_serial_delivery_partial", "PRpc.Props.c29_serial_short_frame_lost", "PRpc.Props.c29_serial_delivery_false", "PRpc.Props.c29_serial_long_frame_spurious"], "note": "False as stated: frames shorter than nine bytes are dropped, and frames too long for the 1024-byte accumulator are lost and can produce a frame nobody sent. Proved: of fitting frames exactly those of nine bytes or more are delivered, once, in order, for every chunking."},
{"property": "C30", "status": "proved", "theorems": ["PRpc.Props.c30_usb_send_succeeds", "PRpc.Props.c30_usb_send_framing"], "note": "For every history of successful sends, any lengths: the host's transfers are exactly the non-empty frames, none in progress."},
{"property": "C31", "status": "proved", "theorems": ["PRpc.Props.c31_usb_interrupted_sends", "PRpc.Props.c31_usb_next_send_intact"], "note": "For every history with every cut or failure point: each send contributes at most one transfer, a prefix of its own frame (whole if it succeeded), in order; the next successful send arrives intact."},
{"property": "C32", "status": "partial", "theorems": ["PRpc.Props.c32_usb_receive_false", "PRpc.Props.c32_usb_receive_exact_fit_refused", "PRpc.Props.c32_usb_receive_misaligned", "PRpc.Props.c32_usb_receive_partial", "PRpc.Props.c32_usb_receive_fitting_partial"], "note": "False as stated: a frame exactly filling a buffer of a multiple of 64 bytes is refused (in general), and with a buffer that is not a multiple of 64 an oversized frame's tail is delivered as a frame of its own. Proved: the exact results for every buffer that is a multiple of 64, and exact delivery of fitting frames for every buffer."},
{"property": "C33", "status": "partial", "theorems": ["PRpc.Props.c33_usb_timeout_clamped", "PRpc.Props.c33_usb_timeout_overflow", "PRpc.Props.c33_usb_timeout_partial", "PRpc.Props.c33_usb_timeout_32bit_partial", "PRpc.Props.c33_usb_timeout_default_partial"], "note": "Clamping proved. Overflow freedom is false for 8 MiB frames on a 32-bit device (witness); proved for every size where the packets times 60000 fit usize, in particular up to 4 MiB on 32-bit."},
{"property": "C34", "status": "partial", "theorems": ["PRpc.Props.c34_log_fmt_partial", "PRpc.Props.c34_log_fmt_display_error", "PRpc.Props.c34_log_fmt_length_panic", "PRpc.Props.c34_log_fmt_false", "PRpc.Props.c34_log_fmt_long_panics", "PRpc.Props.c34_log_fmt_short_text_partial", "PRpc.Props.c34_log_fmt_panics_iff"], "note": "False as stated: text that does not fit panics instead of being truncated, and 128 or more bytes of text panic when 129 to 255 bytes remain. c34_log_fmt_partial characterises exactly which inputs are sent correctly, refused, or panic."},
{"property": "C35", "status": "proved", "theorems": ["PRpc.Props.c35_sequence_numbers_unique", "PRpc.Props.c35_typed_calls_have_seq4"], "note": "For every interleaving; typed calls carry the number as a four-byte sequence number."},
{"property": "C36", "status": "proved", "theorems": ["PRpc.Props.c36_completed_by_own_response", "PRpc.Props.c36_completed_by_matching_frame", "PRpc.Props.c36_one_call_per_frame", "PRpc.Props.c36_completes_once"], "note": "The completing frame agrees in key and sequence number, arrived after registration, completes no other call, and a call completes once."},
{"property": "C37", "status": "proved", "theorems": ["PRpc.Props.c37_unclaimed_frame_offered", "PRpc.Props.c37_response_reaches_its_call", "PRpc.Props.c37_no_lost_response", "PRpc.Props.c37_sequence_condition", "PRpc.Props.c37_answer_is_kept"], "note": "A frame no subscription claims is offered to the waiting calls, and one answering a call whose request was handed over is given to that call (it is registered by then), kept until it returns. Needs distinct sequence numbers among unfinished calls, which c37_sequence_condition gives for fewer than 2^32 typed calls."},
{"property": "C38", "status": "partial", "theorems": ["PRpc.Props.c38_stays_closed", "PRpc.Props.c38_failures_close", "PRpc.Props.c38_no_silent_worker_exit", "PRpc.Props.c38_closing_false", "PRpc.Props.c38_no_late_traffic_partial", "PRpc.Props.c38_no_late_response_partial", "PRpc.Props.c38_no_late_transmission", "PRpc.Props.c38_workers_end", "PRpc.Props.c38_publish_fails", "PRpc.Props.c38_calls_are_released", "PRpc.Props.c38_subscription_drains", "PRpc.Props.c38_multi_subscription_drains"], "note": "False as stated for pending calls: a receive worker in the middle of a poll looks at the stop flag only at its next poll (c38_closing_false). Proved: permanence, failures close, nothing is received or sent once the workers are not mid-poll, every pending call is released, publications fail, subscriptions drain then end."},
{"property": "C39", "status": "proved", "theorems": ["PRpc.Props.c39_at_most_one", "PRpc.Props.c39_only_registered_receive", "PRpc.Props.c39_exclusive_refused_iff_live", "PRpc.Props.c39_replace_ends_previous"], "note": "Every history."},
{"property": "C40", "status": "partial", "theorems": ["PRpc.Props.c40_arrivals", "PRpc.Props.c40_starts_now", "PRpc.Props.c40_delivery_order", "PRpc.Props.c40_multi_delivery_order", "PRpc.Props.c40_all_delivered_false", "PRpc.Props.c40_all_delivered_partial", "PRpc.Props.c40_prefix_delivered_partial", "PRpc.Props.c40_multi_all_accounted_partial"], "note": "Order and no duplication proved for exclusive and multi subscriptions. Completeness is false when two subscribed topics agree in their short keys (c40_all_delivered_false); proved when no arriving frame is of two subscribed topics."},
{"property": "C41", "status": "proved", "theorems": ["PRpc.Props.c41_no_subscription_outlives", "PRpc.Props.c41_racing_subscription_ends"], "note": "Including subscriptions made during shutdown."},
{"property": "C42", "status": "partial", "theorems": ["PRpc.Props.c42_request_key", "PRpc.Props.c42_publication_key", "PRpc.Props.c42_only_these", "PRpc.Props.c42_typed_request_full_key", "PRpc.Props.c42_adapts_key_length_false", "PRpc.Props.c42_adapts_key_length_partial", "PRpc.Props.c42_length_of_the_server", "PRpc.Props.c42_length_was_learned", "PRpc.Props.c42_request_is_routed"], "note": "False as stated: a response at the length its own call was sent with is not taken as news although another length was learnt since (c42_adapts_key_length_false). Proved: the key sent is always the full key folded to the length the client held when the call read it; how the length changes; the one-length server case; routing."},
{"property": "C43", "status": "partial", "theorems": ["PRpc.Props.c43_configured_width_false", "PRpc.Props.c43_configured_width_partial"], "note": "False as stated: the configured width is stored but never used, typed calls always send four bytes (c43_configured_width_false). Proved for a configuration of four bytes."},
{"property": "C44", "status": "partial", "theorems": ["PRpc.Props.c44_errors_distinguishable_false", "PRpc.Props.c44_errors_distinguishable_partial", "PRpc.Props.c44_declared_error_key_suffices", "PRpc.Props.c44_collision_blocks_calls"], "note": "False as stated: the error key takes no part in choosing the key length, so an accepted interface can have an error key that shortens to a response key (c44_errors_distinguishable_false: the error is returned as the reply); from then on calls of that endpoint fail (c44_collision_blocks_calls). Proved when the shortened error key differs from every shortened response key, in particular when it is among the declared keys."},
{"property": "C45", "status": "partial", "theorems": ["PRpc.Props.c45_end_to_end_partial", "PRpc.Props.c45_end_to_end_errors_partial", "PRpc.Props.c45_publication_fails_call", "PRpc.Props.c45_end_to_end_false", "PRpc.Props.c45_wrapped"], "note": "False as stated only because the error key takes no part in choosing the key length: with a colliding error key a call returns the server's error as its reply (c45_end_to_end_false). Proved, over all interleavings of callers, workers, dispatcher and spawned tasks, when the shortened error key differs from every response key, for any key length of the server at which its outgoing keys differ (every length from the dispatcher's up, c75_long_keys_apart). Errors belong to the call's own request or to a publication that was given the same sequence number (c45_publication_fails_call). c45_wrapped: without the limit of 2^32 calls, for numbers of which no call was given up or closed."},
{"property": "C46", "status": "partial", "theorems": ["PRpc.Props.c46_in_flight", "PRpc.Props.c46_in_flight_history", "PRpc.Props.c46_full_while_waiting", "PRpc.Props.c46_tolerates", "PRpc.Props.c46_gives_up", "PRpc.Props.c46_uncleared_stall", "PRpc.Props.c46_every_sequence", "PRpc.Props.c46_no_loss_false", "PRpc.Props.c46_no_loss_partial"], "note": "Queue depth, tolerance of up to ten recoveries in a row, and giving up (eleventh stall in a row, first other error, failed clear) proved for every sequence. 'Without loss' is false: a transfer that completes well while a recovery cancels the queue is discarded (c46_no_loss_false); proved when those were all cancelled."},
{"property": "C47", "status": "proved", "theorems": ["PRpc.Props.c47_usb_transmit", "PRpc.Props.c47_usb_transmit_unknown_size", "PRpc.Props.c47_packet_size_detected", "PRpc.Props.c47_device_receives"], "note": "For non-empty frames (every frame has a header). With an unknown packet size, or one that only divides the endpoint's, an extra empty packet may follow. A packet size of zero would panic."},
{"property": "C48", "status": "proved", "theorems": ["PRpc.Props.c48_submission_order", "PRpc.Props.c48_accepted_only_grows", "PRpc.Props.c48_success_means_accepted", "PRpc.Props.c48_call_submits_once", "PRpc.Props.c48_publication_returns_once", "PRpc.Props.c48_nothing_after_error"], "note": "Transmission order equals the order of acceptance; success means accepted; nothing is transmitted after a transport error."},
{"property": "C49", "status": "partial", "theorems": ["PRpc.Props.c49_usb_link_blocks", "PRpc.Props.c49_usb_link_partial", "PRpc.Props.c49_usb_link_false", "PRpc.Props.c49_usb_link_interrupted"], "note": "False as stated for frames of 1024 bytes and more: the host asks for transfers of 1024 bytes, so such a frame is returned in pieces, the last possibly empty (c49_usb_link_false, c49_usb_link_blocks). Proved for shorter frames, also with interrupted sends."},
{"property": "C50", "status": "partial", "theorems": ["PRpc.Props.c50_webusb_transmit_false", "PRpc.Props.c50_webusb_joins", "PRpc.Props.c50_webusb_transmit_partial"], "note": "False as stated: a frame that fills its last packet is not ended and the next frame is joined to it (c50_webusb_transmit_false, c50_webusb_joins). Proved for the other lengths."},
{"property": "C51", "status": "proved", "theorems": ["PRpc.Props.c51_endpoints_macro", "PRpc.Props.c51_topics_macro"], "note": "For every key function; the type list is the one of C21-C25 merged over the rows."},
{"property": "C52", "status": "proved", "theorems": ["PRpc.Props.c52_user_endpoint_routed", "PRpc.Props.c52_user_topic_routed", "PRpc.Props.c52_builtin_reached", "PRpc.Props.c52_outgoing_separate"], "note": "From C51, C10, C11, C14 and C19; shows that omit_std is what makes C11 fail."},
{"property": "C53", "status": "proved", "theorems": ["PRpc.Props.c53_usb_messages", "PRpc.Props.c53_usb_panics_iff"], "note": "All four operations, any history. The only panics are those of formatted log messages (C34), characterised by c53_usb_panics_iff."},
{"property": "C54", "status": "proved", "theorems": ["PRpc.Props.c54_log_gaps"], "note": "Including wrap-around; a gap of a multiple of 65536 is invisible."},
{"property": "C55", "status": "partial", "theorems": ["PRpc.Props.c55_serial_read_error_partial", "PRpc.Props.c55_serial_eof_waits", "PRpc.Props.c55_serial_end_false"], "note": "false at end of file: reads of zero bytes are repeated for ever; proved for read errors, wherever in a frame the port ends"},
{"property": "C56", "status": "partial", "theorems": ["PRpc.Props.c56_webusb_babble", "PRpc.Props.c56_webusb_blocks", "PRpc.Props.c56_webusb_receive_partial", "PRpc.Props.c56_webusb_outcomes", "PRpc.Props.c56_webusb_first_error", "PRpc.Props.c56_webusb_receive_false"], "note": "false for frames longer than the transfer length (lost with an error, or cut into pieces, both characterised); proved for all shorter ones"},
{"property": "C57", "status": "partial", "theorems": ["PRpc.Props.c57_webusb_send_false", "PRpc.Props.c57_webusb_send_partial", "PRpc.Props.c57_webusb_send_iff"], "note": "false: the status of a completed transfer is ignored; proved for errors the browser raises, and a send succeeds exactly when the browser raises none"},
{"property": "C58", "status": "partial", "theorems": ["PRpc.Props.c58_report_given_partial", "PRpc.Props.c58_report_given_false"], "note": "false for a message type that is itself usize or isize: the device does not send it and the host does not know it; proved for every other interface"},
{"property": "C59", "status": "proved", "theorems": ["PRpc.Props.c59_channel_faithful", "PRpc.Props.c59_channel_drained", "PRpc.Props.c59_closed_is_final"], "note": "all interleavings of calls, failures, dropped futures, receives and stops"},
{"property": "C60", "status": "partial", "theorems": ["PRpc.Props.c60_log_numbers", "PRpc.Props.c60_log_distinct", "PRpc.Props.c60_log_order_false", "PRpc.Props.c60_log_order_partial"], "note": "numbering proved; the order is false for concurrent senders (number taken before the channel slot); proved when calls do not overlap"},
{"property": "C61", "status": "partial", "theorems": ["PRpc.Props.c61_stop_false", "PRpc.Props.c61_stop_partial", "PRpc.Props.c61_server_ends"], "note": "false: select! is unbiased, so ready frames may still be sent and received after stop; proved: every call can return at once, ChannelClosed has no other cause than a stop or the other side being gone, and the server ends at the first"},
{"property": "C62", "status": "partial", "theorems": ["PRpc.Props.c62_depth_honoured_false", "PRpc.Props.c62_depth_honoured_partial"], "note": "false: a later subscriber joins the first one's channel whatever depth it asks for; proved when every subscriber of the topic asked for at least d"},
{"property": "C63", "status": "partial", "theorems": ["PRpc.Props.c63_ends_for_a_reason_false", "PRpc.Props.c63_multi_ends_for_a_reason_false", "PRpc.Props.c63_ends_for_a_reason_partial", "PRpc.Props.c63_multi_ends_for_a_reason_partial", "PRpc.Props.c63_end_is_seen"], "note": "false: removing the entry of a dropped subscription removes every entry matching the arriving short key; proved when no arriving frame is of two subscribed topics; the converse (the end is seen) proved in full"},
{"property": "C64", "status": "proved", "theorems": ["PRpc.Props.c64_typed_receive", "PRpc.Props.c64_typed_multi_receive"], "note": "exclusive and multi-subscriptions, any decoder"},
{"property": "C65", "status": "proved", "theorems": ["PRpc.Props.c65_dropped_client_drains", "PRpc.Props.c65_dropped_client_ends", "PRpc.Props.c65_dropping_ends", "PRpc.Props.c65_close_discards"], "note": "safety over all runs, and existence of a worker-only schedule to the end; c65_close_discards shows that close does not have the property"},
{"property": "C66", "status": "proved", "theorems": ["PRpc.Props.c66_work_is_bounded", "PRpc.Props.c66_nothing_stuck", "PRpc.Props.c66_comes_to_rest", "PRpc.Props.c66_idle_sent_everything"], "note": "bound on every schedule, characterisation of rest, existence of rest; for an outgoing queue of positive depth (tokio refuses depth 0)"},
{"property": "C67", "status": "proved", "theorems": ["PRpc.Props.c67_at_rest_answered", "PRpc.Props.c67_finite", "PRpc.Props.c67_stuck_is_at_rest", "PRpc.Props.c67_every_call_answered", "PRpc.Props.c67_oversized_request_hangs", "PRpc.Props.c67_subscription_takes_answer", "PRpc.Props.c67_failed_send_hangs"], "note": "rest implies answered (custody invariant of every outstanding request), every schedule ends, and ends at rest; three witnesses show what the conditions are for: c67_oversized_request_hangs, c67_subscription_takes_answer, c67_failed_send_hangs"},
{"property": "C68", "status": "proved", "theorems": ["PRpc.Props.c68_usb_send_result"], "note": "characterisation of all four results by the outcomes of the packet writes"},
{"property": "C69", "status": "proved", "theorems": ["PRpc.Props.c69_context", "PRpc.Props.c69_context_threads"], "note": "for one frame and along every run of the server loop"},
{"property": "C70", "status": "proved", "theorems": ["PRpc.Props.c70_queue_bounded", "PRpc.Props.c70_waits_for_room", "PRpc.Props.c70_send_makes_room"], "note": "bound, exact condition for waiting, and room after every frame taken"},
{"property": "C71", "status": "proved", "theorems": ["PRpc.Props.c71_closed_for_a_reason", "PRpc.Props.c71_bad_bytes_ignored", "PRpc.Props.c71_closed_results", "PRpc.Props.c71_bad_response_cause", "PRpc.Props.c71_typed_calls_not_refused"], "note": "causes of closing, of Closed and failed publications, and of BadResponse; no refusal of typed calls"},
{"property": "C72", "status": "proved", "theorems": ["PRpc.Props.c72_host_receives", "PRpc.Props.c72_never_misread", "PRpc.Props.c72_server_log", "PRpc.Props.c72_round_trip"], "note": "link, no misreading, server log, and round trip; 1024 bytes is the limit found in C49, longer frames are cut by the host (C49)"},
{"property": "C73", "status": "partial", "theorems": ["PRpc.Props.c73_usb_send_in_time", "PRpc.Props.c73_usb_prompt_host_partial", "PRpc.Props.c73_usb_prompt_host_false", "PRpc.Props.c73_usb_third_of_allowance"], "note": "time limit and results proved (c73_usb_send_in_time, c73_usb_third_of_allowance); the last sentence is false: packets that only end a frame are not allowed for, so a frame whose length is a multiple of 64, or one after a cut frame, can time out on a host that takes every packet within the allowance. Proved exactly which frames are affected (c73_usb_prompt_host_partial), and the negation (c73_usb_prompt_host_false)"},
{"property": "C74", "status": "proved", "theorems": ["PRpc.Props.c74_reply_begins", "PRpc.Props.c74_error_begins", "PRpc.Props.c74_typed_reply", "PRpc.Props.c74_typed_reply_later", "PRpc.Props.c74_typed_error", "PRpc.Props.c74_failed_send_arrives", "PRpc.Props.c74_raw_gets_a_beginning", "PRpc.Props.c74_cut_header_hangs"], "note": "c74_typed_reply and c74_typed_error for the typed interface (errors in every session; c74_typed_reply_later for replies in every session, where a reply may be that of a task of an earlier one), c74_reply_begins and c74_error_begins for what is received whatever the decoder does. The proviso is needed: a caller of the raw interface gets the beginning as it is (c74_raw_gets_a_beginning). A reply cut within its header leaves the call waiting (c74_cut_header_hangs); a failed send whose bytes all got out is an answer like any other (c74_failed_send_arrives)"},
{"property": "C75", "status": "proved", "theorems": ["PRpc.Props.c75_long_keys_apart", "PRpc.Props.c75_long_keys_accepted", "PRpc.Props.c75_long_never_refused", "PRpc.Props.c75_short_locks_out", "PRpc.Props.c75_short_second_call_refused", "PRpc.Props.c75_short_keys_cross"], "note": "c75_long_keys_apart, c75_long_keys_accepted, c75_long_never_refused for lengths at least the dispatcher's; c75_short_locks_out for smaller ones, with the run c75_short_second_call_refused in which a call is answered and the same call made again is refused. If the outgoing keys collide at the smaller length a call can return a publication as its reply (c75_short_keys_cross). An error a late call returns that is not for its own request is for a publication of the client with the same sequence number, as in C45"},
{"property": "C76", "status": "proved", "theorems": ["PRpc.Props.c76_bounded_runs", "PRpc.Props.c76_replies", "PRpc.Props.c76_no_deadlock", "PRpc.Props.c76_every_call_answered"], "note": "c76_bounded_runs (refinement and capacity), c76_replies (C45 over bounded channels), c76_no_deadlock, c76_every_call_answered (every schedule is finite and ends with every call answered). The example run fills both channels with the server and the transmit worker waiting"},
{"property": "C77", "status": "partial", "theorems": ["PRpc.Props.c77_replies", "PRpc.Props.c77_own_replies_partial", "PRpc.Props.c77_no_spawned_partial", "PRpc.Props.c77_errors", "PRpc.Props.c77_every_call_answered", "PRpc.Props.c77_context_kept", "PRpc.Props.c77_own_replies_false"], "note": "false of the code: c77_own_replies_false (a task spawned for the earlier client's call 0 replies into the new session and the new client's call 0 returns it). Proved for every session: c77_replies (own reply, or that of an earlier client's task for a request with the same sequence number and response key), c77_errors (errors always belong to this session), c77_own_replies_partial (no earlier task replies), c77_no_spawned_partial (no spawned endpoint handlers), c77_every_call_answered (every session is served to the end, in the sense of C67), c77_context_kept"},
{"property": "C78", "status": "partial", "theorems": ["PRpc.Props.c78_requests", "PRpc.Props.c78_requests_false", "PRpc.Props.c78_requests_partial", "PRpc.Props.c78_new_frame_swallowed", "PRpc.Props.c78_replies", "PRpc.Props.c78_replies_false", "PRpc.Props.c78_replies_partial"], "note": "false of the code in both directions: c78_requests_false (the first frame of the new process is joined to the unfinished one of the old), c78_replies_false (the end of a frame is taken for a message). Proved: exactly what arrives in every case (c78_requests, c78_replies), that a merged frame is the old request with the new frame in its body and nothing else (c78_new_frame_swallowed), and the claim itself when the old process ended between frames (c78_requests_partial, c78_replies_partial). That opening the device does not reset its endpoints is an assumption."},
{"property": "C79", "status": "partial", "theorems": ["PRpc.Props.c79_connected", "PRpc.Props.c79_connect_fails", "PRpc.Props.c79_chosen", "PRpc.Props.c79_by_class", "PRpc.Props.c79_interface_false", "PRpc.Props.c79_interface_partial", "PRpc.Props.c79_endpoints_false", "PRpc.Props.c79_alternate_setting_false", "PRpc.Props.c79_endpoints_partial", "PRpc.Props.c79_own_devices", "PRpc.Props.c79_webusb"], "note": "false in general: c79_interface_false (the place of the interface in the list is taken for its number), c79_endpoints_false (the last of several bulk OUT endpoints is used with the least of their packet sizes), c79_alternate_setting_false (endpoints of a setting not in use). Proved: exactly what is chosen and when connecting fails (c79_connected, c79_connect_fails, c79_chosen, c79_by_class), the claim for devices that list interfaces by number (c79_interface_partial) and interfaces with one setting and one bulk OUT endpoint (c79_endpoints_partial), hence for all devices built with this crate (c79_own_devices); WebUSB (c79_webusb)"},
{"property": "C80", "status": "partial", "theorems": ["PRpc.Props.c80_setup", "PRpc.Props.c80_client_is_a_client", "PRpc.Props.c80_server_receives", "PRpc.Props.c80_client_receives", "PRpc.Props.c80_call_answered", "PRpc.Props.c80_failure_stops_traffic_partial", "PRpc.Props.c80_failure_does_not_stop_traffic", "PRpc.Props.c80_work_is_bounded", "PRpc.Props.c80_failure_ends_client", "PRpc.Props.c80_rest", "PRpc.Props.c80_ends_for_a_reason", "PRpc.Props.c80_send_refused"], "note": "false as stated: c80_failure_does_not_stop_traffic (a receive or send already waiting when the failure is caused can still win the select). Proved: at most one message in each direction gets through after the failure, none where nothing was waiting (c80_failure_stops_traffic_partial); the client's end after a failure (c80_failure_ends_client, with a bound on the number of steps); both channels in order without loss (c80_server_receives, c80_client_receives, c80_rest); what a call can end with (c80_call_answered); the client of the pair is a client of the other properties (c80_client_is_a_client); a bound of 0 panics (c80_setup); the client ends only for a reason, and not before it has received everything the server said when that reason is the dropped sender (c80_ends_for_a_reason); refused sends (c80_send_refused)"},
{"property": "C81", "status": "partial", "theorems": ["PRpc.Props.c81_leds", "PRpc.Props.c81_led_answer", "PRpc.Props.c81_all_answer", "PRpc.Props.c81_ping_id", "PRpc.Props.c81_streams", "PRpc.Props.c81_sensor_values", "PRpc.Props.c81_one_stream", "PRpc.Props.c81_reply_to_start", "PRpc.Props.c81_stop_answer", "PRpc.Props.c81_stop_stops", "PRpc.Props.c81_stream_goes_on_partial", "PRpc.Props.c81_stream_ends_by_itself", "PRpc.Props.c81_range_ignored"], "note": "false as stated in two ways: c81_stream_ends_by_itself (a stop that comes while the reply to a start is on its way is kept if that reply fails, and ends the next stream at once), c81_range_ignored (the range of the request is not used; it is always 8 g). Proved: the stream goes on if no reply has failed before (c81_stream_goes_on_partial); LEDs (c81_leds, c81_led_answer, c81_all_answer), pings and id (c81_ping_id), the stream's messages (c81_streams), the samples are the sensor's readings in order (c81_sensor_values), one stream at a time (c81_one_stream, c81_reply_to_start), stop (c81_stop_answer, c81_stop_stops)"},
{"property": "C82", "status": "partial", "theorems": ["PRpc.Props.c82_gathers_partial", "PRpc.Props.c82_report_partial", "PRpc.Props.c82_report_false", "PRpc.Props.c82_ends", "PRpc.Props.c82_silence", "PRpc.Props.c82_no_limit", "PRpc.Props.c82_asks", "PRpc.Props.c82_waits"], "note": "false as stated: c82_report_false (a device that needs 100 ms before a message makes the query fail with LostData although every message arrives). Proved: complete when each message comes less than 100 ms after the one before, the first less than 100 ms after the subscription (c82_report_partial); what is collected is the beginning of what arrived and contains the prompt part (c82_gathers_partial); the end after 100 ms of silence, whatever else goes on (c82_silence), and that it comes (c82_ends); no end before (c82_no_limit); subscription before request, and what is asked (c82_asks); answer only after both ended (c82_waits)"},
{"property": "C83", "status": "proved", "theorems": ["PRpc.Props.c83_one_message", "PRpc.Props.c83_queue", "PRpc.Props.c83_zero", "PRpc.Props.c83_why", "PRpc.Props.c83_lock", "PRpc.Props.c83_room", "PRpc.Props.c83_dropped", "PRpc.Props.c83_close", "PRpc.Props.c83_goes_on", "PRpc.Props.c83_reached"], "note": "c83_one_message and c83_queue (how the delays add up), c83_reached (the bound is attained for every timeout and number of messages), c83_zero, c83_lock, c83_dropped, c83_why, c83_room, c83_close; c83_goes_on shows that the assumption on the worker can always be met"},
{"property": "C84", "status": "proved", "theorems": ["PRpc.Props.c84_typed_reply_later", "PRpc.Props.c84_typed_error_later", "PRpc.Props.c84_refines", "PRpc.Props.c84_typed_reply", "PRpc.Props.c84_typed_error", "PRpc.Props.c84_no_deadlock", "PRpc.Props.c84_finite", "PRpc.Props.c84_every_call_answered", "PRpc.Props.c84_host_packets", "PRpc.Props.c84_device_writes", "PRpc.Props.c84_device_reads", "PRpc.Props.c84_device_drains", "PRpc.Props.c84_long_reply_forges", "PRpc.Props.c84_full_buffer_hangs"], "note": "c84_refines (simulation), c84_typed_reply, c84_typed_error (c84_typed_reply_later, c84_typed_error_later in every session of a device idle between them), c84_no_deadlock, c84_finite, c84_every_call_answered; c84_host_packets, c84_device_writes, c84_device_reads, c84_device_drains tie the steps to the transports' functions; c84_long_reply_forges and c84_full_buffer_hangs show that both bounds are needed"},
{"property": "C85", "status": "proved", "theorems": ["PRpc.Props.c85_layout", "PRpc.Props.c85_error", "PRpc.Props.c85_number", "PRpc.Props.c85_totals", "PRpc.Props.c85_item", "PRpc.Props.c85_log_text", "PRpc.Props.c85_padding_bound", "PRpc.Props.c85_sizes", "PRpc.Props.c85_answered", "PRpc.Props.c85_error_reported", "PRpc.Props.c85_ping_answer", "PRpc.Props.c85_usb_error_reported", "PRpc.Props.c85_usb_ping_answer"], "note": "c85_layout fixes the bytes; c85_error, c85_number, c85_totals, c85_item, c85_log_text: understood by the other side and not when cut; c85_sizes; c85_error_reported, c85_ping_answer, c85_answered carry it to calls, pings (both in every session of a server, over the cable too: c85_usb_error_reported, c85_usb_ping_answer) and schema reports; c85_padding_bound shows that the bound on padding is needed. postcard's own rules (varint, enum as u32 position, str as length and bytes) are modelled as they are documented, its source is not in the repository"},
{"property": "C86", "status": "proved", "theorems": ["PRpc.Props.c86_round_trip", "PRpc.Props.c86_every_request", "PRpc.Props.c86_answered", "PRpc.Props.c86_no_room"], "note": "c86_round_trip: the host gets exactly the answers MustAnswer asks for (an inductive specification without reference to the dispatcher's code); c86_every_request: MustAnswer has an answer to everything; c86_answered: both; c86_no_room: a buffer one byte too small leaves a ping unanswered. FitsStd is met by postcard's encodings (C85)"},
{"property": "C87", "status": "partial", "theorems": ["PRpc.Props.c87_shown_partial", "PRpc.Props.c87_lost", "PRpc.Props.c87_returns", "PRpc.Props.c87_not_shown", "PRpc.Props.c87_cycle"], "note": "c87_shown_partial: holds if every call is followed by 30 \u00b5s per LED and 50 \u00b5s more before the next. Missing because false: c87_returns (write returns at least 184 \u00b5s before the bits are sent, with nine or more LEDs), c87_lost (a call within that time, less one bit's time, has no effect at all, however long one waits afterwards), c87_not_shown (negation, with the example's 24 LEDs). c87_cycle: at 125 MHz the divider gives cycles of exactly 125 ns"},
{"property": "C88", "status": "proved", "theorems": ["PRpc.Props.c88_once", "PRpc.Props.c88_contexts", "PRpc.Props.c88_applied", "PRpc.Props.c88_real_time", "PRpc.Props.c88_usb_once", "PRpc.Props.c88_usb_contexts", "PRpc.Props.c88_usb_applied", "PRpc.Props.c88_usb_real_time"], "note": "c88_once, c88_contexts, c88_applied, c88_real_time over links that carry whole messages; c88_usb_* over a USB cable packet by packet (as long as what the server sends is shorter than 1024 bytes, as in C84). For a spawned endpoint the context is that left by spawn_ctxt, and its reply is any; requests too long for the server's buffer change nothing and are not answered. Not claimed for calls that return errors: an error for a publication with the call's sequence number ends the call (C45)"},
{"property": "C89", "status": "proved", "theorems": ["PRpc.Props.c89_made", "PRpc.Props.c89_board", "PRpc.Props.c89_returns", "PRpc.Props.c89_comes_to_rest"], "note": "c89_made, c89_board, c89_returns, c89_comes_to_rest. The last two take the server's receive buffer to hold at least 128 bytes (the example's has 1024), every send to succeed and subscriptions to be to the topics the board publishes. Standard messages (errors, schemas) are taken to be at most 1000 bytes long, so that every message is shorter than the host's transfers of 1024 bytes (C84); the example's own are at most 72 bytes, which is proved. What the LEDs show when the driver is given colours is C87's matter. What stop_accelerometer returns is what the stop flag gave to the handler's call of it (the board's `busy`), in the order of the calls; that this tells whether the accelerometer was running is C81's matter. A returned start_accelerometer has had a task spawned with its interval and range, the report of the schemas C63's"},
{"property": "C90", "status": "proved", "theorems": ["PRpc.Props.c90_error_cause", "PRpc.Props.c90_error_told", "PRpc.Props.c90_untouched", "PRpc.Props.c90_usb_error_told"], "note": "c90_error_cause, c90_error_told, c90_untouched, c90_usb_error_told. The error's key must differ from the keys of responses and outgoing topics at the server's key length (a session in which it does not is C74's matter); the publication case is real, as a program gives publications any sequence number (C37, C74). Over the cable: also in sessions after others that ended with the device idle or by a disconnect"},
{"property": "C91", "status": "proved", "theorems": ["PRpc.Props.c91_report_exact", "PRpc.Props.c91_types", "PRpc.Props.c91_full_report", "PRpc.Props.c91_postcard", "PRpc.Props.c91_default_report", "PRpc.Props.c91_usb_report_exact", "PRpc.Props.c91_usb_types", "PRpc.Props.c91_usb_full_report"], "note": "c91_report_exact, c91_types, c91_full_report, c91_default_report, c91_postcard; c91_usb_report_exact, c91_usb_types, c91_usb_full_report over a USB cable. Conditions in the statement: one query at a time asks for the schemas and the application itself sends nothing under the schema keys (SchemasOwn, ReportUsed); the host takes no beginning of an item or of the totals for one (HostReads, which holds of postcard by c91_postcard); at most 2^32 - 1 endpoints or topics (the totals are u32). Over USB the frames are shorter than 1024 bytes as in C84; timing as in C82"},
{"property": "C92", "status": "proved", "theorems": ["PRpc.Props.c92_calls", "PRpc.Props.c92_frames", "PRpc.Props.c92_queues", "PRpc.Props.c92_tables", "PRpc.Props.c92_entries_stay", "PRpc.Props.c92_frame_frees"], "note": "c92_calls, c92_frames, c92_queues, c92_tables, c92_entries_stay, c92_frame_frees. c92_entries_stay shows that the tables are not bounded by the live subscriptions (any set of topics, all dropped, leaves its entries); that the end of the client empties them is C38"},
{"property": "C93", "status": "partial", "theorems": ["PRpc.Props.c93_dialogue", "PRpc.Props.c93_one_at_a_time", "PRpc.Props.c93_mistakes_partial", "PRpc.Props.c93_lines", "PRpc.Props.c93_panics", "PRpc.Props.c93_end_of_input", "PRpc.Props.c93_listen_time", "PRpc.Props.c93_listen_waits", "PRpc.Props.c93_goes_on", "PRpc.Props.c93_mistakes_false"], "note": "c93_dialogue, c93_one_at_a_time, c93_lines, c93_mistakes_partial, c93_panics, c93_end_of_input, c93_listen_time, c93_listen_waits, c93_goes_on. False as to mistakes (c93_mistakes_false): `rgb 0 0 0 256` and `rgb 24 1 1 1` make the program panic; c93_panics lists all causes. Printed text is kept as data; what `accel listen` receives and what is in a schema report are arbitrary here (C82, C91)"},
{"property": "C94", "status": "proved", "theorems": ["PRpc.Props.c94_no_gaps", "PRpc.Props.c94_no_gaps_multi", "PRpc.Props.c94_usb_no_gaps", "PRpc.Props.c94_usb_no_gaps_multi", "PRpc.Props.c94_order", "PRpc.Props.c94_order_multi", "PRpc.Props.c94_complete", "PRpc.Props.c94_complete_multi", "PRpc.Props.c94_usb", "PRpc.Props.c94_usb_multi", "PRpc.Props.c94_published_before"], "note": "c94_order, c94_order_multi, c94_complete, c94_complete_multi, c94_usb, c94_usb_multi; c94_no_gaps, c94_no_gaps_multi, c94_usb_no_gaps, c94_usb_no_gaps_multi (at any time, what was received are the first publications up to one of them, none missing); c94_published_before shows that messages still on their way when the subscription is made are received. Hypotheses: typed use (`Used`), declared topics, keys apart as define_dispatch! ensures, the topic's shortened key differs from that of the error (not ensured by the macro, see C44); for the completeness also that all subscriptions of the client are to declared topics. Over USB: frames below 1024 bytes, and earlier sessions that ended with the device idle or by a disconnect (C102, C103)"},
{"property": "C95", "status": "partial", "theorems": ["PRpc.Props.c95_shown", "PRpc.Props.c95_complete", "PRpc.Props.c95_stops_false", "PRpc.Props.c95_stops_partial", "PRpc.Props.c95_goes_on", "PRpc.Props.c95_frames"], "note": "c95_shown, c95_complete, c95_goes_on, c95_frames for all but the end. That \"Device disconnected\" is said only at the end of the connection is false: c95_stops_false, a reader 65 messages behind gets Lagged and the `while let Ok` stops; c95_stops_partial: it is said only then (more than 64 messages waited, the newest 64 still do) or when the receive worker is ending or has ended. Hypotheses as for C90: the workbook's keys do not collide when shortened, the host's UTF-8 check passes ASCII, standard messages other than log messages below 1000 bytes"},
{"property": "C96", "status": "partial", "theorems": ["PRpc.Props.c96_any_board", "PRpc.Props.c96_shown", "PRpc.Props.c96_ends", "PRpc.Props.c96_terminates", "PRpc.Props.c96_panics_false", "PRpc.Props.c96_panics_partial", "PRpc.Props.c96_lost"], "note": "c96_any_board, c96_shown for the lines, c96_ends and c96_terminates for the end, c96_lost: the client stops exactly when a transfer has failed. That the program never panics is false: c96_panics_false, when the connection is lost during a ping, select! may poll `run` first, whose unwrap panics on HostErr::Closed instead of printing that the client is closed; c96_panics_partial: it panics only after the connection was lost, never in assert_eq!, and as long as it has not ended it can then say so and end. Hypotheses as for C89: the workbook's keys do not collide when shortened, standard messages below 1000 bytes, for the end also: sends of the board succeed"},
{"property": "C97", "status": "partial", "theorems": ["PRpc.Props.c97_panics_iff", "PRpc.Props.c97_built", "PRpc.Props.c97_looks", "PRpc.Props.c97_found", "PRpc.Props.c97_no_panic_false", "PRpc.Props.c97_no_panic_partial"], "note": "c97_built, c97_looks, c97_found as stated. That a program that uses each storage once does not panic is false: c97_no_panic_false, the handler of init_poststation is one static for the whole program, so a second device set up with it panics; c97_panics_iff says exactly when, c97_no_panic_partial is the case of one such device. embassy-usb's builder and static_cell are external and modelled as documented"},
{"property": "C98", "status": "partial", "theorems": ["PRpc.Props.c98_not_misread_partial", "PRpc.Props.c98_replies", "PRpc.Props.c98_errors", "PRpc.Props.c98_unknown_no_effect", "PRpc.Props.c98_answered_partial", "PRpc.Props.c98_other_topics", "PRpc.Props.c98_not_misread_false", "PRpc.Props.c98_misread_reply", "PRpc.Props.c98_answered_false", "PRpc.Props.c98_declared", "PRpc.Props.c98_usb_not_misread_partial", "PRpc.Props.c98_usb_replies", "PRpc.Props.c98_usb_errors", "PRpc.Props.c98_usb_unknown_no_effect", "PRpc.Props.c98_usb_answered_partial"], "note": "c98_replies, c98_errors, c98_unknown_no_effect and c98_other_topics hold if the keys differ when shortened; so does c98_not_misread_partial. That it is enough that the keys differ is false: c98_not_misread_false, c98_misread_reply, the dispatcher compares keys shortened to tell the board's own keys apart, and runs the handler of another endpoint for a call with the full key. That every call returns is false if only the response of an endpoint has changed: c98_answered_false; c98_answered_partial is the case where no endpoint has. The c98_usb theorems say the same of client and board over a USB cable, with messages short enough for it"},
{"property": "C99", "status": "proved", "theorems": ["PRpc.Props.c99_leds", "PRpc.Props.c99_goes_round", "PRpc.Props.c99_leds_shown", "PRpc.Props.c99_pressed", "PRpc.Props.c99_buttons", "PRpc.Props.c99_potentiometer", "PRpc.Props.c99_accelerometer", "PRpc.Props.c99_panics_iff", "PRpc.Props.c99_fade", "PRpc.Props.c99_unique_id"], "note": "c99_leds, c99_goes_round, c99_leds_shown, c99_pressed, c99_buttons, c99_potentiometer, c99_accelerometer, c99_panics_iff, c99_fade and c99_unique_id. Time is in c99_leds_shown only; embassy, smart_leds and the drivers of the sensors are external"},
{"property": "C100", "status": "partial", "theorems": ["PRpc.Props.c100_reply_from", "PRpc.Props.c100_own_reply_partial", "PRpc.Props.c100_error_from", "PRpc.Props.c100_answered", "PRpc.Props.c100_refused", "PRpc.Props.c100_report_calls", "PRpc.Props.c100_replies_false", "PRpc.Props.c100_kept_reply_partial", "PRpc.Props.c100_kept_error", "PRpc.Props.c100_second_reply", "PRpc.Props.c100_usb_reply_from", "PRpc.Props.c100_usb_own_reply_partial", "PRpc.Props.c100_usb_error_from", "PRpc.Props.c100_usb_answered"], "note": "False as stated for the number of a call given up: c100_replies_false, such a call leaves its request, and a later raw call with its number gets the reply. c100_reply_from is what holds of every call, c100_own_reply_partial and c100_error_from are for a call that is the only one of its session with its number, c100_kept_reply_partial and c100_kept_error for numbers used any number of times by calls none of which was given up or closed and by no publication, if spawned handlers reply at most once (that this is needed: c100_second_reply), c100_refused for numbers in use, c100_answered for sessions in which all numbers differ, c100_report_calls for hosts that know the report only. For the replies and the report tasks of earlier sessions are assumed not to reply (see C77). c100_usb_reply_from, c100_usb_own_reply_partial, c100_usb_error_from and c100_usb_answered say the same over a USB cable, for devices used by any number of host processes and connections before, with replies of tasks of theirs, and sends that fail (for the first three), allowed for"},
{"property": "C101", "status": "partial", "theorems": ["PRpc.Props.c101_shown", "PRpc.Props.c101_turn", "PRpc.Props.c101_complete", "PRpc.Props.c101_sensor", "PRpc.Props.c101_panics_false", "PRpc.Props.c101_panics_partial", "PRpc.Props.c101_own_false", "PRpc.Props.c101_own_partial"], "note": "c101_shown is for any moment, c101_turn says which readings they are, c101_complete when they are all, c101_sensor that they are the sensor's. The statement about dying is false: c101_panics_false, nine readings that arrive while the program does not look make recv return Lagged, which line 77 unwraps; c101_panics_partial says that this is the only other reason. That the readings are of the stream asked for is false too: c101_own_false, a task that was told to stop may publish once more, after the next accel listen has subscribed; c101_own_partial proves it if no task runs on the board when the program subscribes and nothing is left to do. Assumes at most what C93 assumes about the firmware's dispatcher; a publish that fails may leave a readable beginning of a reading unless sends that fail leave nothing (Clean)"},
{"property": "C102", "status": "partial", "theorems": ["PRpc.Props.c102_replies_partial", "PRpc.Props.c102_own_replies_partial", "PRpc.Props.c102_errors_partial", "PRpc.Props.c102_answered_partial", "PRpc.Props.c102_context_kept", "PRpc.Props.c102_replies_false", "PRpc.Props.c102_answered_false"], "note": "False as stated: the device keeps what is in its endpoint and in the receiver's buffer. c102_replies_false: a request the earlier process left is answered to the new one's call with the same number; c102_answered_false: half a message it left swallows the new one's first request. The partial theorems are for devices that were idle whenever a process ended: c102_replies_partial allows replies of tasks spawned for earlier processes (as C77), c102_own_replies_partial is for applications without spawned endpoint handlers, c102_errors_partial and c102_answered_partial need neither, c102_context_kept is for the context"},
{"property": "C103", "status": "proved", "theorems": ["PRpc.Props.c103_replies", "PRpc.Props.c103_own_replies", "PRpc.Props.c103_errors", "PRpc.Props.c103_answered", "PRpc.Props.c103_context_kept"], "note": "c103_replies, c103_own_replies (without spawned endpoint handlers) and c103_errors allow sends to fail, c103_answered is for connections in which no send fails while the device is connected and requests fit, c103_context_kept is for the context. The device keeps its power"},
{"property": "C104", "status": "partial", "theorems": ["PRpc.Props.c104_as_cable_partial", "PRpc.Props.c104_typed_reply_partial", "PRpc.Props.c104_typed_error_partial", "PRpc.Props.c104_answered_partial", "PRpc.Props.c104_finite_partial", "PRpc.Props.c104_host_packets", "PRpc.Props.c104_transfers", "PRpc.Props.c104_answered_false", "PRpc.Props.c104_swallows", "PRpc.Props.c104_whole_unheard", "PRpc.Props.c104_taken_count"], "note": "False as stated (c104_answered_false): a request of 64, 128, ... bytes is never answered, and takes the next one with it (c104_swallows). c104_whole_unheard says this of all systems: from an idle device on, as long as a page sends only such requests, the server takes none of them. c104_taken_count counts the messages it takes from any page: they are as many as the requests that leave their last packet unfilled, once all packets have been read. For requests that do not fill their last packet the system does only what one over nusb does (c104_as_cable_partial), so replies, errors, answers and finiteness hold. c104_host_packets and c104_transfers tie the composite to the transport functions of C50 and C56"},
{"property": "C105", "status": "proved", "theorems": ["PRpc.Props.c105_refused", "PRpc.Props.c105_answered", "PRpc.Props.c105_minimal", "PRpc.Props.c105_comes_to_rest"], "note": "c105_refused and c105_answered for any application; c105_minimal and c105_comes_to_rest for the firmware minimal.rs. Assumes what C84 does: messages shorter than 1024 bytes and the receive buffer (met by all of the workbook's), keys of the interface that differ at the length chosen. All also for sessions after others: a task of an earlier session cannot answer, as define_dispatch! lets no two listed endpoints have the same response key, and minimal.rs spawns none"},
{"property": "C106", "status": "proved", "theorems": ["PRpc.Props.c106_only_published", "PRpc.Props.c106_none_left_out", "PRpc.Props.c106_complete", "PRpc.Props.c106_comes_through", "PRpc.Props.c106_before_reply", "PRpc.Props.c106_usb_only_published", "PRpc.Props.c106_usb_none_left_out", "PRpc.Props.c106_usb_complete", "PRpc.Props.c106_usb_comes_through", "PRpc.Props.c106_usb_before_reply", "PRpc.Props.c106_too_large_unheard"], "note": "c106_only_published, c106_none_left_out, c106_complete, c106_comes_through (a system left to itself), c106_before_reply and the same over the USB cable (c106_usb_*, which assume messages of the server shorter than 1024 bytes as C84 does); c106_before_reply is for the first session of a server. c106_too_large_unheard shows that the condition on the receive buffer is needed. That a system left to itself gets to where it can do nothing more is C67, C84 and C100"},
{"property": "C107", "status": "proved", "theorems": ["PRpc.Props.c107_one_history", "PRpc.Props.c107_once", "PRpc.Props.c107_applied", "PRpc.Props.c107_real_time", "PRpc.Props.c107_published", "PRpc.Props.c107_usb_one_history", "PRpc.Props.c107_usb_once", "PRpc.Props.c107_usb_applied", "PRpc.Props.c107_usb_real_time", "PRpc.Props.c107_usb_published", "PRpc.Props.c107_stale_unheard"], "note": "c107_one_history, c107_once, c107_applied, c107_real_time, c107_published and the same over the USB cable (c107_usb_*, which assume messages of the server shorter than 1024 bytes as C84 does). c107_stale_unheard shows that the condition on tasks of earlier sessions is needed for publications; C77 shows that the exception for replies occurs"},
{"property": "C108", "status": "proved", "theorems": ["PRpc.Props.c108_not_misread", "PRpc.Props.c108_replies", "PRpc.Props.c108_unknown_no_reply", "PRpc.Props.c108_errors", "PRpc.Props.c108_unknown_no_effect", "PRpc.Props.c108_answered", "PRpc.Props.c108_stale_reply", "PRpc.Props.c108_usb_not_misread", "PRpc.Props.c108_usb_replies", "PRpc.Props.c108_usb_unknown_no_reply", "PRpc.Props.c108_usb_errors", "PRpc.Props.c108_usb_unknown_no_effect", "PRpc.Props.c108_usb_answered"], "note": "c108_not_misread, c108_replies, c108_unknown_no_reply, c108_errors, c108_unknown_no_effect, c108_answered and the same over the USB cable (c108_usb_*, which assume messages of the server shorter than 1024 bytes and, for the last, requests shorter than the receive buffer, as C84 does). c108_stale_reply shows that the exception occurs: a call of an endpoint the board does not know returns the reply of a task an earlier host has left. C98 shows that the conditions on keys are needed"},
{"property": "C109", "status": "proved", "theorems": ["PRpc.Props.c109_replies", "PRpc.Props.c109_own_replies", "PRpc.Props.c109_typed_reply", "PRpc.Props.c109_errors", "PRpc.Props.c109_page_answered", "PRpc.Props.c109_process_answered", "PRpc.Props.c109_context_kept", "PRpc.Props.c109_reload_swallows"], "note": "c109_replies, c109_own_replies, c109_typed_reply, c109_errors, c109_page_answered, c109_process_answered, c109_context_kept. c109_reload_swallows shows what the condition on the requests of pages is for: after a request of 64 bytes the device seems idle but waits for the end of it, and the call of the page that is loaded next returns an error for a message made of both requests"}
]}
