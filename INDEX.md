# Where each property is proved

The files are in `lean/Verif/Props`. What the statements mean is said in `properties.jsonl`, how they are proved in `DESIGN.md`,
and the axioms of each theorem are listed in `AXIOMS.md`. This file is made from `MANIFEST.json`.

| property | title | status | theorems |
|---|---|---|---|
| C01 | decode computes percent-decoding | proved | Decode.lean: `C01_decode` |
| C02 | decode inverts every percent-encoder | proved | Decode.lean: `C02_round_trip` |
| C03 | decode reports the first offending byte | proved | Decode.lean: `C03_error` |
| C04 | decode output is valid text and no longer than its input | partial | Decode.lean: `C04_total`, `C04_utf8_partial`, `C04_text_partial`, `C04_fails` |
| C05 | query iteration yields exactly the encoded pairs | partial | Query.lean: `C05_query_partial`, `C05_rejects_name_escapes`, `C05_fails` |
| C06 | query iteration stops after an error | partial | Query.lean: `C06_total`, `C06_stops_partial`, `C06_fails` |
| C07 | field iteration yields exactly the fields | partial | Field.lean: `C07_fields_partial`, `C07_rejects_quoted`, `C07_fails` |
| C08 | field names are lower-cased when normalisation is on | partial | Field.lean: `C08_normalize_partial`, `C08_names`, `C08_drops`, `C08_fails` |
| C09 | field iteration is total | partial | Field.lean: `C09_total_partial`, `C09_terminates`, `C09_fails` |
| C10 | byte classes | partial | ByteClasses.lean: `C10_byte_classes_partial`, `C10_fails` |
| C11 | HTTP/1 resume always returns | proved | Http1Calls.lean: `C11_resume_returns`, `C11_linear` |
| C12 | HTTP/1 resume never panics | partial | Http1Calls.lean: `C12_no_panic_partial`, `C12_no_panic_other_types_partial`, `C12_fails_byte_255`, `C12_fails_empty_slice`, `C12_fails_no_boundary`, `C12_fails_boundary_changed` |
| C13 | HTTP/1 consumed counts are exact | proved | Http1Calls.lean: `C13_eos_count`, `C13_callback_count`, `C13_finished_count`, `C17_pausing_invisible` |
| C14 | HTTP/1 byte_count accounting | partial | Http1Calls.lean: `C14_byte_count_partial`, `C14_one_call`, `C14_fails` |
| C15 | HTTP/1 dead parser stays dead | proved | Http1Calls.lean: `C15_dead_stays_dead` |
| C16 | HTTP/1 finished parser stays finished | proved | Http1Calls.lean: `C16_finished_stays_finished` |
| C17 | HTTP/1 pausing is invisible | proved | Http1Calls.lean: `C17_pausing_invisible`, `C17_false_stops` |
| C18 | HTTP/1 head parsing does not depend on slicing | partial | Http1Slicing.lean: `C18_head_slicing_partial`, `C18_new_slicing_partial`, `C18_runs_complete`, `C18_fails`; Http1Detect.lean: `C72_two_readings_partial`, `C72_letters_are_lost`, `C72_whole_word_is_rejected` |
| C19 | HTTP/1 chunked parsing does not depend on slicing | partial | Http1Slicing.lean: `C19_chunked_slicing_partial`, `C19_runs_complete`, `C19_fails` |
| C20 | HTTP/1 url-encoded parsing does not depend on slicing | partial | Http1Slicing.lean: `C20_url_encoded_slicing_partial`, `C20_runs_complete`, `C20_fails` |
| C21 | HTTP/1 multipart parsing does not depend on slicing | partial | Http1Slicing.lean: `C21_multipart_slicing_partial`, `C21_runs_complete`, `C21_cr_in_boundary` |
| C22 | state() tells the truth | partial | Http1Calls.lean: `C22_state_partial`, `C22_fails` |
| C23 | reset restores the initial behaviour | proved | Http1Calls.lean: `C23_init_is_new`, `C23_reset_is_new` |
| C24 | leading blank lines are skipped | partial | Http1RoundTrip.lean: `C24_leading_blanks_partial`, `C24_fails` |
| C25 | request heads round-trip | partial | Http1RoundTrip.lean: `C25_request_round_trip_partial`, `C25_runs_complete`, `C25_fails` |
| C26 | response heads round-trip | partial | Http1RoundTrip.lean: `C26_response_round_trip_partial`, `C25_runs_complete`, `C26_fails` |
| C27 | header names are delivered lower-case | partial | Http1Head.lean: `C27_head_names_partial`, `C27_chunked_names`, `C27_multipart_names` |
| C28 | no control bytes reach the handler in head data | partial | Http1Head.lean: `C28_head_data_partial`, `C28_chunked_data`, `C28_multipart_data` |
| C29 | head callbacks come in protocol order | partial | Http1Head.lean: `C29_callback_order_partial` |
| C30 | numbers are decoded exactly | partial | Http1Head.lean: `C30_numbers_exact_partial`, `C30_numbers_fit` |
| C31 | fast paths are invisible | partial | Http1Slicing.lean: `C31_head_fast_paths_partial`, `C31_trailer_fast_paths`; Http1ShortHeads.lean: `C31_fails` |
| C32 | chunked bodies round-trip | partial | Http1Chunked.lean: `C32_chunked_round_trip_partial`, `C32_runs_complete`, `C32_fails` |
| C33 | chunk data never exceeds the announced length | proved | Http1Chunked.lean: `C33_chunk_data` |
| C34 | chunk lengths are exact | proved | Http1Chunked.lean: `C34_lengths_exact`, `C34_lengths_fit`, `C34_long_rejected` |
| C35 | the last chunk ends the body | partial | Http1Chunked.lean: `C35_last_chunk_partial`, `C35_finishes_after_last`, `C35_fails` |
| C36 | multipart bodies round-trip | partial | Http1Multipart.lean: `C36_multipart_round_trip_partial`, `C36_line_end_before_boundary` |
| C37 | multipart data is conserved | partial | Http1Multipart.lean: `C37_data_conserved_partial` |
| C38 | url-encoded bodies round-trip | proved | Http1Url.lean: `C38_url_encoded_round_trip`, `C38_empty`, `C38_runs_complete` |
| C39 | url-encoded parsing stops at the declared length | proved | Http1Url.lean: `C39_stops_at_length`, `C39_finishes` |
| C40 | truncated escapes are rejected | partial | Http1Url.lean: `C40_bad_escape_partial`, `C40_fails` |
| C41 | HTTP/2 frame headers are decoded exactly | partial | Http2Frames.lean: `C41_frame_header_partial`, `C41_frame_header_half_id_partial`, `C41_small_id_partial`, `C41_fails` |
| C42 | HTTP/2 payload data is delivered without padding | partial | Http2Frames.lean: `C42_payload_partial`, `C42_payload_half_id_partial`, `C42_fails` |
| C43 | HTTP/2 frame sequences are parsed in sync | partial | Http2Frames.lean: `C43_frames_partial`, `C43_frames_half_ids_partial`, `C43_frames_small_ids_partial`, `C43_fails` |
| C44 | HTTP/2 parsing does not depend on slicing | partial | Http2Frames.lean: `C44_slicing_partial`, `C44_slicing_half_ids_partial`, `C44_slicing_small_ids_partial`, `C44_fails`, `C44_fails_settings`, `C41_fails` |
| C45 | HTTP/2 resume is total | partial | Http2Calls.lean: `C45_resume_total_partial`, `C45_fails`; Http2Frames.lean: `C43_frames_partial`; Http2Any.lean: `C71_one_slice` |
| C46 | HTTP/2 stream ids are 31 bits | partial | Http2Calls.lean: `C46_ids_partial`, `C46_ids_panic_partial`, `C46_fails`; Http2ReleasePauses.lean: `C46_release_ids_partial` |
| C47 | HTTP/2 byte_count accounting | proved | Http2Calls.lean: `C47_byte_count` |
| C48 | HTTP/2 wire constants | partial | Http2Consts.lean: `C48_frame_types`, `C48_frame_type_queries`, `C48_error_codes_partial`, `C48_error_code_queries`, `C48_settings`, `C48_setting_queries`, `C48_flags` |
| C49 | FrameFormat packing | proved | Http2Consts.lean: `C49_frame_format` |
| C50 | only heads are accepted | partial | Http1Accept.lean: `C50_only_heads_accepted_partial`, `C50_all_heads_accepted`, `C50_fails` |
| C51 | cut-off heads ask for more | partial | Http1Accept.lean: `C51_cut_off_heads_partial`; Http1ShortHeads.lean: `C51_every_slicing_partial`, `C51_fails` |
| C52 | only chunked bodies are accepted | partial | Http1AcceptChunked.lean: `C52_only_chunked_accepted_partial`, `C52_all_chunked_accepted`, `C52_fails` |
| C53 | cut-off chunked bodies ask for more | partial | Http1AcceptChunked.lean: `C53_cut_off_chunked_partial`; Http1ShortHeads.lean: `C53_fails` |
| C54 | only URL-encoded bodies are accepted | partial | Http1AcceptUrl.lean: `C54_accepted_bodies_partial`, `C54_all_bodies_accepted`; Http1Url.lean: `C40_fails` |
| C55 | URL-encoded rejections are justified | proved | Http1AcceptUrl.lean: `C55_rejected_bodies`, `C55_offences_rejected` |
| C56 | errors are found at the earliest byte and name it | partial | Http1Earliest.lean: `C56_head_errors_partial`, `C56_head_eos_partial`, `C56_chunked_errors`, `C56_chunked_eos`, `C56_url_errors`, `C56_url_eos`; Http1ShortHeads.lean: `C56_fails` |
| C57 | a client that keeps passing bytes gets done | proved | Http1Progress.lean: `C57_client_finishes` |
| C58 | exactly the header fields of a grammar are accepted | partial | FieldAccept.lean: `C58_only_fields_accepted`, `C58_all_fields_accepted_partial`, `C58_fails` |
| C59 | header field rejections are justified | partial | FieldAccept.lean: `C59_rejections`, `C59_rejected_partial`, `C59_stops` |
| C60 | query rejections are justified | proved | FieldAccept.lean: `C60_query_rejections`, `C60_one_error` |
| C61 | iterators return well-formed strings | partial | FieldAccept.lean: `C61_field_names`, `C61_field_values_partial`, `C61_query_names`, `C61_query_values_partial`, `C61_query_utf8_partial`, `C61_fails` |
| C62 | no data callback without data | proved | Http1Calls.lean: `C62_no_empty_data` |
| C63 | HTTP/2: a refused callback stops the call | proved | Http2Pauses.lean: `C63_false_stops`; Http2ReleasePauses.lean: `C63_release_false_stops` |
| C64 | HTTP/2: pausing is invisible | proved | Http2Pauses.lean: `C64_pausing_invisible`; Http2ReleasePauses.lean: `C64_release_pausing_invisible` |
| C65 | HTTP/2: clients that keep passing bytes get done | proved | Http2Pauses.lean: `C65_client_finishes`; Http2ReleaseProgress.lean: `C65_release_client_finishes` |
| C66 | HTTP/2: no empty data callback before the last | proved | Http2Pauses.lean: `C66_no_empty_data`, `C66_no_empty_data_panic`; Http2ReleasePauses.lean: `C66_release_no_empty_data` |
| C67 | only multipart bodies are accepted | partial | Http1AcceptMultipart.lean: `C67_only_multipart_accepted_partial`, `C67_all_multipart_accepted`, `C67_delimited`, `C67_fails` |
| C68 | cut-off multipart bodies ask for more | partial | Http1AcceptMultipart.lean: `C68_cut_off_multipart_partial`; Http1ShortHeads.lean: `C68_fails` |
| C69 | errors in multipart bodies are found at the earliest byte and name it | partial | Http1AcceptMultipart.lean: `C69_multipart_errors_partial`, `C69_multipart_eos`, `C69_boundary_errors` |
| C70 | the HTTP/2 parser never falls silent | partial | Http2Silent.lean: `C70_alive_partial`, `C70_silent`, `C70_right_before_silence`, `C70_frames`, `C70_fails` |
| C71 | what the HTTP/2 parser tells about any bytes | partial | Http2Any.lean: `C71_one_slice`, `C71_reads_any_input_partial`, `C71_every_slicing_partial`, `told_of_frames`, `C71_fails` |
| C72 | what an unlucky first slice does to a head | partial | Http1Detect.lean: `C72_two_readings_partial`, `C72_words`, `C72_letters_are_lost`, `C72_reads_like_another_word`, `C72_whole_word_is_rejected`, `C72_requests`, `C72_runs_complete` |
| C73 | many messages through one parser | partial | Http1Conn.lean: `C73_connection_partial`, `C73_open_connection_partial`, `C73_runs_complete`; Http1ShortHeads.lean: `C73_fails` |
| C74 | what any bytes mean as a head | partial | Http1Read.lean: `C74_heads_partial`, `C74_new_partial`, `C74_panics_exactly` |
| C75 | what any bytes mean as a chunked body | partial | Http1Read.lean: `C75_chunked_partial`, `C75_panics_exactly` |
| C76 | what any bytes mean as a URL-encoded body | partial | Http1Read.lean: `C76_url_partial`, `C76_never_panics` |
| C77 | what any bytes mean as a multipart body | partial | Http1Read.lean: `C77_multipart_partial` |
| C78 | exactly what HTTP/2 input in any slices leads to | proved | Http2Slices.lean: `C78_every_slicing`, `C78_panics_exactly`, `C78_marks`, `C78_whole` |
| C79 | what any bytes mean as a header field list | proved | Iterators.lean: `C79_fields` |
| C80 | what any bytes mean as a query | proved | Iterators.lean: `C80_queries` |
| C81 | queries and URL-encoded bodies agree | proved | FormQuery.lean: `C81_same`, `C81_fields`, `C81_accepts`, `C81_converse_fails` |
| C82 | what was reported is final | partial | Http1Final.lean: `C82_head_partial`, `C82_chunked`, `C82_url_encoded`, `C82_multipart`, `C82_withheld`; Http1ShortHeads.lean: `C82_head_every_slicing_partial`, `C82_fails` |
| C83 | the end of a message is unambiguous | partial | Http1Final.lean: `C83_head_partial`, `C83_chunked`, `C83_multipart`; Http1ShortHeads.lean: `C83_head_end_partial`, `C83_head_meaning_partial`, `C83_fails` |
| C84 | what was reported of HTTP/2 input is final | partial | Http2Final.lean: `C84_told`, `C84_final_partial`, `C84_fails`; Http2ReleaseFinal.lean: `C84_release_told`, `C84_release_final_partial`, `C84_release_fails` |
| C85 | the documented head program works on every head | partial | Http1Programs.lean: `C85_request_partial`, `C85_response_partial`, `C85_fails` |
| C86 | a handler that stops gets the same callbacks, call by call | partial | Http1Pauses.lean: `C86_call_by_call`, `C86_multipart_partial`, `C86_chunked_partial`; Http1PausesAny.lean: `C86_any_multipart_partial`, `C86_any_chunked_partial` |
| C87 | the form program reads every form part by part | partial | Http1Form.lean: `C87_form_partial`, `C87_fails` |
| C88 | the chunk program reads every chunked body chunk by chunk | partial | Http1ChunkProgram.lean: `C88_chunks_partial`, `C88_fails` |
| C89 | the program for URL-encoded forms stores what was sent | partial | Http1UrlProgram.lean: `C89_url_encoded_partial`, `C89_fails` |
| C90 | messages tell values apart | partial | Messages.lean: `C90_errors`, `C90_values_partial`, `C90_fails` |
| C91 | the HTTP/2 parser without overflow checks | partial | Http2Release.lean: `C91_total_partial`, `C91_call_partial`, `C91_run_partial`, `C91_swallows`, `C91_fails` |
| C92 | body callbacks come in the documented order | proved | Http1Order.lean: `C92_chunked_order`, `C92_multipart_order`, `C92_url_encoded_order`, `C92_length_after_headers`, `C92_length_only_multipart` |
| C93 | what the documented head program stores for any bytes | proved | Http1AnyHead.lean: `C93_any_head` |
| C94 | what the test programs for bodies store for any bytes | proved | Http1AnyBody.lean: `C94_chunk_program`, `C94_url_program`; Http1AnyForm.lean: `C94_form_program`, `C94_form_head` |
| C95 | what the HTTP/2 parser without overflow checks reports for any bytes | proved | Http2ReleaseAny.lean: `C95_one_slice`, `C95_after_panic`, `C95_lost_frames`, `C95_every_slicing` |
| C96 | HTTP/1 errors name the byte at which parsing stopped | proved | Http1Blame.lean: `C96_names_last_byte`, `C96_no_overflow`, `C96_client` |
| C97 | what the test program for heads stores for any bytes | proved | Http1HeadTest.lean: `C97_head_test`, `C97_empty` |
| C98 | a peer gets no more out of a parser than it pays for | partial | Http1Cost.lean: `C98_heads`, `C98_new`, `C98_chunked`, `C98_url`, `C98_multipart_partial`; Http2Cost.lean: `C98_http2`, `C98_http2_release` |
| C99 | iterators produce no more than their input | proved | IteratorCost.lean: `C99_fields`, `C99_queries` |
| C100 | HTTP/2 callbacks come in the documented order, and no frame gets more payload than it announced | proved | Http2Order.lean: `C100_order`, `C100_payload`, `C100_release` |
| C101 | a head ends at its first empty line | proved | Http1End.lean: `C101_first_empty_line`, `C101_line_ends` |
| C102 | a head can be passed on | proved | Http1Forward.lean: `C102_forward`, `C102_again` |
| C103 | a body can be passed on | proved | Http1ForwardBody.lean: `C103_chunked`, `C103_url`, `C103_multipart`, `C103_again`, `C103_again_multipart` |
| C104 | HTTP/2 frames can be passed on | proved | Http2Forward.lean: `C104_pass_on`, `C104_size` |
| C105 | the items of a query can be passed on | proved | QueryForward.lean: `C105_query`, `C105_which` |
| C106 | a connection can be passed on | proved | Http1ForwardConn.lean: `C106_connection`, `C106_completes` |
| C107 | the items of a header field can be passed on | proved | FieldForward.lean: `C107_field`, `C107_which` |
| C108 | others find the same end of a chunked body | partial | Http1Framing.lean: `C108_same_end`, `C108_line_ends`, `C108_standard_partial`, `C108_fails` |
| C109 | others find the same parts of a multipart body | partial | Http1MpFraming.lean: `C109_same_parts_iff`, `C109_same_parts_partial`, `C109_fails` |
| C110 | others find the same HTTP/2 frames | partial | Http2Framing.lean: `C110_same_frames_partial`, `C110_one_slice_partial`, `C110_release_partial`, `C110_fails` |
| C111 | others find the same names and values in a query or form | partial | FormSplit.lean: `C111_query_partial`, `C111_form_partial`, `C111_fails` |
| C112 | others find the same start line and header fields | partial | Http1HeadScan.lean: `C112_same_head_partial`, `C112_trimmed_partial`, `C112_fails`; Http1ConnScan.lean: `C112_every_slicing_partial` |
| C113 | others find the same items in a header field | partial | FieldItems.lean: `C113_same_items_partial`, `C113_strict_partial`, `C113_fails` |
| C114 | others cut a connection into the same messages | partial | Http1ConnScan.lean: `C114_same_messages_partial`, `C114_every_run_partial`, `C114_fails` |
| C115 | what any bytes mean as a connection | partial | Http1ConnRead.lean: `C115_connections_partial`, `C115_every_slicing_partial`, `C115_completes` |
| C116 | what was reported of a connection is final | partial | Http1ConnFinal.lean: `C116_connection_final_partial`, `C116_fails` |
| C117 | the work is linear in the number of bytes | proved | Http1Rounds.lean: `C117_counted`, `C117_call`, `C117_client`, `C117_connection`, `C117_total`; Http2Rounds.lean: `C117_counted`, `C117_call`, `C117_client`, `C117_total`; Http2ReleaseRounds.lean: `C117_release_counted`, `C117_release_call`, `C117_release_client`; Http2ReleaseProgress.lean: `C117_release_total` |
| C118 | HTTP/2 payload data is taken from the slice that was passed | proved | Http2Pieces.lean: `C118_call`, `C118_client`, `C118_release_call`, `C118_release_client` |
| C119 | between frames an HTTP/2 parser is as good as new | proved | Http2Between.lean: `C119_between_frames`, `C119_release_between_frames`, `C119_reset` |
