# Axioms of each theorem

The output of `#print axioms` for the theorems of `MANIFEST.json`, grouped.

## propext (7)

* `Verif.Util.C06_fails`
* `Verif.Util.C09_fails`
* `Verif.C10_byte_classes_partial`
* `Verif.C10_fails`
* `Verif.Http2.C48_frame_type_queries`
* `Verif.Http2.C48_settings`
* `Verif.Util.C113_fails`

## no axioms (1)

* `Verif.Http2.C48_error_code_queries`

## propext, Quot.sound (70)

* `Verif.Http1.C12_fails_byte_255`
* `Verif.Http1.C12_fails_empty_slice`
* `Verif.Http1.C12_fails_no_boundary`
* `Verif.Http1.C12_fails_boundary_changed`
* `Verif.Http1.C14_fails`
* `Verif.Http1.C18_fails`
* `Verif.Http1.C19_fails`
* `Verif.Http1.C20_fails`
* `Verif.Http1.C21_cr_in_boundary`
* `Verif.Http1.C22_fails`
* `Verif.Http1.C24_fails`
* `Verif.Http1.C25_fails`
* `Verif.Http1.C26_fails`
* `Verif.Http1.C31_fails`
* `Verif.Http1.C32_fails`
* `Verif.Http1.C35_fails`
* `Verif.Http1.C36_line_end_before_boundary`
* `Verif.Http2.C41_fails`
* `Verif.Http2.C42_fails`
* `Verif.Http2.C43_fails`
* `Verif.Http2.C44_fails`
* `Verif.Http2.C44_fails_settings`
* `Verif.Http2.C45_fails`
* `Verif.Http2.C46_fails`
* `Verif.Http2.C48_frame_types`
* `Verif.Http2.C48_error_codes_partial`
* `Verif.Http2.C48_setting_queries`
* `Verif.Http2.C48_flags`
* `Verif.Http1.C50_fails`
* `Verif.Http1.C51_fails`
* `Verif.Http1.C52_fails`
* `Verif.Http1.C53_fails`
* `Verif.Http1.C56_fails`
* `Verif.Http1.C67_fails`
* `Verif.Http1.C68_fails`
* `Verif.Http1.C69_boundary_errors`
* `Verif.Http2.C70_fails`
* `Verif.Http2.C71_fails`
* `Verif.Http1.C73_fails`
* `Verif.Http2.C78_whole`
* `Verif.Http1.C82_withheld`
* `Verif.Http1.C82_fails`
* `Verif.Http1.C83_fails`
* `Verif.Http2.C84_fails`
* `Verif.Http2.Release.C84_release_told`
* `Verif.Http2.Release.C84_release_fails`
* `Verif.Http1.C87_fails`
* `Verif.Http1.C88_fails`
* `Verif.Http1.C89_fails`
* `Verif.C90_errors`
* `Verif.C90_values_partial`
* `Verif.C90_fails`
* `Verif.Http2.C91_call_partial`
* `Verif.Http2.C91_run_partial`
* `Verif.Http2.C91_fails`
* `Verif.Http1.C92_length_after_headers`
* `Verif.Http1.C92_length_only_multipart`
* `Verif.Http2.C95_after_panic`
* `Verif.Http1.C97_empty`
* `Verif.Http2.C100_release`
* `Verif.Http1.C108_fails`
* `Verif.Http1.C109_fails`
* `Verif.Http2.C110_fails`
* `Verif.Http1.C111_fails`
* `Verif.Http1.C112_fails`
* `Verif.Http1.C114_fails`
* `Verif.Http1.C116_fails`
* `Verif.Http2.C119_between_frames`
* `Verif.Http2.Release.C119_release_between_frames`
* `Verif.Http2.C119_reset`

## propext, Classical.choice, Quot.sound (285)

* `Verif.Util.C01_decode`
* `Verif.Util.C02_round_trip`
* `Verif.Util.C03_error`
* `Verif.Util.C04_total`
* `Verif.Util.C04_utf8_partial`
* `Verif.Util.C04_text_partial`
* `Verif.Util.C04_fails`
* `Verif.Util.C05_query_partial`
* `Verif.Util.C05_rejects_name_escapes`
* `Verif.Util.C05_fails`
* `Verif.Util.C06_total`
* `Verif.Util.C06_stops_partial`
* `Verif.Util.C07_fields_partial`
* `Verif.Util.C07_rejects_quoted`
* `Verif.Util.C07_fails`
* `Verif.Util.C08_normalize_partial`
* `Verif.Util.C08_names`
* `Verif.Util.C08_drops`
* `Verif.Util.C08_fails`
* `Verif.Util.C09_total_partial`
* `Verif.Util.C09_terminates`
* `Verif.Http1.C11_resume_returns`
* `Verif.Http1.C11_linear`
* `Verif.Http1.C12_no_panic_partial`
* `Verif.Http1.C12_no_panic_other_types_partial`
* `Verif.Http1.C13_eos_count`
* `Verif.Http1.C13_callback_count`
* `Verif.Http1.C13_finished_count`
* `Verif.Http1.C17_pausing_invisible`
* `Verif.Http1.C14_byte_count_partial`
* `Verif.Http1.C14_one_call`
* `Verif.Http1.C15_dead_stays_dead`
* `Verif.Http1.C16_finished_stays_finished`
* `Verif.Http1.C17_false_stops`
* `Verif.Http1.C18_head_slicing_partial`
* `Verif.Http1.C18_new_slicing_partial`
* `Verif.Http1.C18_runs_complete`
* `Verif.Http1.C72_two_readings_partial`
* `Verif.Http1.C72_letters_are_lost`
* `Verif.Http1.C72_whole_word_is_rejected`
* `Verif.Http1.C19_chunked_slicing_partial`
* `Verif.Http1.C19_runs_complete`
* `Verif.Http1.C20_url_encoded_slicing_partial`
* `Verif.Http1.C20_runs_complete`
* `Verif.Http1.C21_multipart_slicing_partial`
* `Verif.Http1.C21_runs_complete`
* `Verif.Http1.C22_state_partial`
* `Verif.Http1.C23_init_is_new`
* `Verif.Http1.C23_reset_is_new`
* `Verif.Http1.C24_leading_blanks_partial`
* `Verif.Http1.C25_request_round_trip_partial`
* `Verif.Http1.C25_runs_complete`
* `Verif.Http1.C26_response_round_trip_partial`
* `Verif.Http1.C27_head_names_partial`
* `Verif.Http1.C27_chunked_names`
* `Verif.Http1.C27_multipart_names`
* `Verif.Http1.C28_head_data_partial`
* `Verif.Http1.C28_chunked_data`
* `Verif.Http1.C28_multipart_data`
* `Verif.Http1.C29_callback_order_partial`
* `Verif.Http1.C30_numbers_exact_partial`
* `Verif.Http1.C30_numbers_fit`
* `Verif.Http1.C31_head_fast_paths_partial`
* `Verif.Http1.C31_trailer_fast_paths`
* `Verif.Http1.C32_chunked_round_trip_partial`
* `Verif.Http1.C32_runs_complete`
* `Verif.Http1.C33_chunk_data`
* `Verif.Http1.C34_lengths_exact`
* `Verif.Http1.C34_lengths_fit`
* `Verif.Http1.C34_long_rejected`
* `Verif.Http1.C35_last_chunk_partial`
* `Verif.Http1.C35_finishes_after_last`
* `Verif.Http1.C36_multipart_round_trip_partial`
* `Verif.Http1.C37_data_conserved_partial`
* `Verif.Http1.C38_url_encoded_round_trip`
* `Verif.Http1.C38_empty`
* `Verif.Http1.C38_runs_complete`
* `Verif.Http1.C39_stops_at_length`
* `Verif.Http1.C39_finishes`
* `Verif.Http1.C40_bad_escape_partial`
* `Verif.Http1.C40_fails`
* `Verif.Http2.C41_frame_header_partial`
* `Verif.Http2.C41_frame_header_half_id_partial`
* `Verif.Http2.C41_small_id_partial`
* `Verif.Http2.C42_payload_partial`
* `Verif.Http2.C42_payload_half_id_partial`
* `Verif.Http2.C43_frames_partial`
* `Verif.Http2.C43_frames_half_ids_partial`
* `Verif.Http2.C43_frames_small_ids_partial`
* `Verif.Http2.C44_slicing_partial`
* `Verif.Http2.C44_slicing_half_ids_partial`
* `Verif.Http2.C44_slicing_small_ids_partial`
* `Verif.Http2.C45_resume_total_partial`
* `Verif.Http2.C71_one_slice`
* `Verif.Http2.C46_ids_partial`
* `Verif.Http2.C46_ids_panic_partial`
* `Verif.Http2.Release.C46_release_ids_partial`
* `Verif.Http2.C47_byte_count`
* `Verif.Http2.C49_frame_format`
* `Verif.Http1.C50_only_heads_accepted_partial`
* `Verif.Http1.C50_all_heads_accepted`
* `Verif.Http1.C51_cut_off_heads_partial`
* `Verif.Http1.C51_every_slicing_partial`
* `Verif.Http1.C52_only_chunked_accepted_partial`
* `Verif.Http1.C52_all_chunked_accepted`
* `Verif.Http1.C53_cut_off_chunked_partial`
* `Verif.Http1.C54_accepted_bodies_partial`
* `Verif.Http1.C54_all_bodies_accepted`
* `Verif.Http1.C55_rejected_bodies`
* `Verif.Http1.C55_offences_rejected`
* `Verif.Http1.C56_head_errors_partial`
* `Verif.Http1.C56_head_eos_partial`
* `Verif.Http1.C56_chunked_errors`
* `Verif.Http1.C56_chunked_eos`
* `Verif.Http1.C56_url_errors`
* `Verif.Http1.C56_url_eos`
* `Verif.Http1.C57_client_finishes`
* `Verif.Util.C58_only_fields_accepted`
* `Verif.Util.C58_all_fields_accepted_partial`
* `Verif.Util.C58_fails`
* `Verif.Util.C59_rejections`
* `Verif.Util.C59_rejected_partial`
* `Verif.Util.C59_stops`
* `Verif.Util.C60_query_rejections`
* `Verif.Util.C60_one_error`
* `Verif.Util.C61_field_names`
* `Verif.Util.C61_field_values_partial`
* `Verif.Util.C61_query_names`
* `Verif.Util.C61_query_values_partial`
* `Verif.Util.C61_query_utf8_partial`
* `Verif.Util.C61_fails`
* `Verif.Http1.C62_no_empty_data`
* `Verif.Http2.C63_false_stops`
* `Verif.Http2.Release.C63_release_false_stops`
* `Verif.Http2.C64_pausing_invisible`
* `Verif.Http2.Release.C64_release_pausing_invisible`
* `Verif.Http2.C65_client_finishes`
* `Verif.Http2.Release.C65_release_client_finishes`
* `Verif.Http2.C66_no_empty_data`
* `Verif.Http2.C66_no_empty_data_panic`
* `Verif.Http2.Release.C66_release_no_empty_data`
* `Verif.Http1.C67_only_multipart_accepted_partial`
* `Verif.Http1.C67_all_multipart_accepted`
* `Verif.Http1.C67_delimited`
* `Verif.Http1.C68_cut_off_multipart_partial`
* `Verif.Http1.C69_multipart_errors_partial`
* `Verif.Http1.C69_multipart_eos`
* `Verif.Http2.C70_alive_partial`
* `Verif.Http2.C70_silent`
* `Verif.Http2.C70_right_before_silence`
* `Verif.Http2.C70_frames`
* `Verif.Http2.C71_reads_any_input_partial`
* `Verif.Http2.C71_every_slicing_partial`
* `Verif.Http2.told_of_frames`
* `Verif.Http1.C72_words`
* `Verif.Http1.C72_reads_like_another_word`
* `Verif.Http1.C72_requests`
* `Verif.Http1.C72_runs_complete`
* `Verif.Http1.C73_connection_partial`
* `Verif.Http1.C73_open_connection_partial`
* `Verif.Http1.C73_runs_complete`
* `Verif.Http1.C74_heads_partial`
* `Verif.Http1.C74_new_partial`
* `Verif.Http1.C74_panics_exactly`
* `Verif.Http1.C75_chunked_partial`
* `Verif.Http1.C75_panics_exactly`
* `Verif.Http1.C76_url_partial`
* `Verif.Http1.C76_never_panics`
* `Verif.Http1.C77_multipart_partial`
* `Verif.Http2.C78_every_slicing`
* `Verif.Http2.C78_panics_exactly`
* `Verif.Http2.C78_marks`
* `Verif.Util.C79_fields`
* `Verif.Util.C80_queries`
* `Verif.Http1.C81_same`
* `Verif.Http1.C81_fields`
* `Verif.Http1.C81_accepts`
* `Verif.Http1.C81_converse_fails`
* `Verif.Http1.C82_head_partial`
* `Verif.Http1.C82_head_every_slicing_partial`
* `Verif.Http1.C82_chunked`
* `Verif.Http1.C82_url_encoded`
* `Verif.Http1.C82_multipart`
* `Verif.Http1.C83_head_partial`
* `Verif.Http1.C83_head_end_partial`
* `Verif.Http1.C83_head_meaning_partial`
* `Verif.Http1.C83_chunked`
* `Verif.Http1.C83_multipart`
* `Verif.Http2.C84_told`
* `Verif.Http2.C84_final_partial`
* `Verif.Http2.Release.C84_release_final_partial`
* `Verif.Http1.C85_request_partial`
* `Verif.Http1.C85_response_partial`
* `Verif.Http1.C85_fails`
* `Verif.Http1.C86_call_by_call`
* `Verif.Http1.C86_multipart_partial`
* `Verif.Http1.C86_chunked_partial`
* `Verif.Http1.C86_any_multipart_partial`
* `Verif.Http1.C86_any_chunked_partial`
* `Verif.Http1.C87_form_partial`
* `Verif.Http1.C88_chunks_partial`
* `Verif.Http1.C89_url_encoded_partial`
* `Verif.Http2.C91_total_partial`
* `Verif.Http2.C91_swallows`
* `Verif.Http1.C92_chunked_order`
* `Verif.Http1.C92_multipart_order`
* `Verif.Http1.C92_url_encoded_order`
* `Verif.Http1.C93_any_head`
* `Verif.Http1.C94_chunk_program`
* `Verif.Http1.C94_url_program`
* `Verif.Http1.C94_form_program`
* `Verif.Http1.C94_form_head`
* `Verif.Http2.C95_one_slice`
* `Verif.Http2.C95_lost_frames`
* `Verif.Http2.C95_every_slicing`
* `Verif.Http1.C96_names_last_byte`
* `Verif.Http1.C96_no_overflow`
* `Verif.Http1.C96_client`
* `Verif.Http1.C97_head_test`
* `Verif.Http1.C98_heads`
* `Verif.Http1.C98_new`
* `Verif.Http1.C98_chunked`
* `Verif.Http1.C98_url`
* `Verif.Http1.C98_multipart_partial`
* `Verif.Http2.C98_http2`
* `Verif.Http2.C98_http2_release`
* `Verif.Util.C99_fields`
* `Verif.Util.C99_queries`
* `Verif.Http2.C100_order`
* `Verif.Http2.C100_payload`
* `Verif.Http1.C101_first_empty_line`
* `Verif.Http1.C101_line_ends`
* `Verif.Http1.C102_forward`
* `Verif.Http1.C102_again`
* `Verif.Http1.C103_chunked`
* `Verif.Http1.C103_url`
* `Verif.Http1.C103_multipart`
* `Verif.Http1.C103_again`
* `Verif.Http1.C103_again_multipart`
* `Verif.Http2.C104_pass_on`
* `Verif.Http2.C104_size`
* `Verif.Util.C105_query`
* `Verif.Util.C105_which`
* `Verif.Http1.C106_connection`
* `Verif.Http1.C106_completes`
* `Verif.Util.C107_field`
* `Verif.Util.C107_which`
* `Verif.Http1.C108_same_end`
* `Verif.Http1.C108_line_ends`
* `Verif.Http1.C108_standard_partial`
* `Verif.Http1.C109_same_parts_iff`
* `Verif.Http1.C109_same_parts_partial`
* `Verif.Http2.C110_same_frames_partial`
* `Verif.Http2.C110_one_slice_partial`
* `Verif.Http2.C110_release_partial`
* `Verif.Http1.C111_query_partial`
* `Verif.Http1.C111_form_partial`
* `Verif.Http1.C112_same_head_partial`
* `Verif.Http1.C112_trimmed_partial`
* `Verif.Http1.C112_every_slicing_partial`
* `Verif.Util.C113_same_items_partial`
* `Verif.Util.C113_strict_partial`
* `Verif.Http1.C114_same_messages_partial`
* `Verif.Http1.C114_every_run_partial`
* `Verif.Http1.C115_connections_partial`
* `Verif.Http1.C115_every_slicing_partial`
* `Verif.Http1.C115_completes`
* `Verif.Http1.C116_connection_final_partial`
* `Verif.Http1.C117_counted`
* `Verif.Http2.C117_counted`
* `Verif.Http2.Release.C117_release_counted`
* `Verif.Http1.C117_call`
* `Verif.Http1.C117_client`
* `Verif.Http1.C117_connection`
* `Verif.Http2.C117_call`
* `Verif.Http2.C117_client`
* `Verif.Http2.Release.C117_release_call`
* `Verif.Http2.Release.C117_release_client`
* `Verif.Http1.C117_total`
* `Verif.Http2.C117_total`
* `Verif.Http2.Release.C117_release_total`
* `Verif.Http2.C118_call`
* `Verif.Http2.C118_client`
* `Verif.Http2.Release.C118_release_call`
* `Verif.Http2.Release.C118_release_client`
