{
 "claims": [
  {
   "property": "C01",
   "status": "proved",
   "theorems": [
    "Verif.Util.C01_decode"
   ],
   "note": "Equivalence with the grammar of URL encoding, every byte string."
  },
  {
   "property": "C02",
   "status": "proved",
   "theorems": [
    "Verif.Util.C02_round_trip"
   ],
   "note": "Every byte string and every allowed way to write each byte."
  },
  {
   "property": "C03",
   "status": "proved",
   "theorems": [
    "Verif.Util.C03_error"
   ],
   "note": "Equivalence: which error is reported is determined by the first offending byte."
  },
  {
   "property": "C04",
   "status": "partial",
   "theorems": [
    "Verif.Util.C04_total",
    "Verif.Util.C04_utf8_partial",
    "Verif.Util.C04_text_partial",
    "Verif.Util.C04_fails"
   ],
   "note": "Totality proved for all inputs. The code violates the UTF-8 part: %FF gives a String that is not UTF-8 (String::from_utf8_unchecked). Proved for inputs whose escapes are below %80 and for the encodings of UTF-8 text."
  },
  {
   "property": "C05",
   "status": "partial",
   "theorems": [
    "Verif.Util.C05_query_partial",
    "Verif.Util.C05_rejects_name_escapes",
    "Verif.Util.C05_fails"
   ],
   "note": "The code rejects every % in a name. Proved as an equivalence for queries whose names are written without escapes."
  },
  {
   "property": "C06",
   "status": "partial",
   "theorems": [
    "Verif.Util.C06_total",
    "Verif.Util.C06_stops_partial",
    "Verif.Util.C06_fails"
   ],
   "note": "The code violates the first part: after an error about a bad hex digit the iterator yields again. Totality is proved for all inputs."
  },
  {
   "property": "C07",
   "status": "partial",
   "theorems": [
    "Verif.Util.C07_fields_partial",
    "Verif.Util.C07_rejects_quoted",
    "Verif.Util.C07_fails"
   ],
   "note": "The code rejects a quoted value that is followed by the delimiter and another item. Proved for lists where only the last value is quoted and the delimiter is not =, /, a blank or byte 255."
  },
  {
   "property": "C08",
   "status": "partial",
   "theorems": [
    "Verif.Util.C08_normalize_partial",
    "Verif.Util.C08_names",
    "Verif.Util.C08_drops",
    "Verif.Util.C08_fails"
   ],
   "note": "The code drops a last name without value that ends in an upper-case letter (or in a slash, with and without normalisation)."
  },
  {
   "property": "C09",
   "status": "partial",
   "theorems": [
    "Verif.Util.C09_total_partial",
    "Verif.Util.C09_terminates",
    "Verif.Util.C09_fails"
   ],
   "note": "The code panics on byte 255 (table with 255 entries). Proved for all fields without it; termination and progress for all fields."
  },
  {
   "property": "C10",
   "status": "partial",
   "theorems": [
    "Verif.C10_byte_classes_partial",
    "Verif.C10_fails"
   ],
   "note": "The table functions panic on byte 255; all other bytes proved."
  },
  {
   "property": "C100",
   "status": "proved",
   "theorems": [
    "Verif.Http2.C100_order",
    "Verif.Http2.C100_payload",
    "Verif.Http2.C100_release"
   ],
   "note": "With overflow checks; C100_release shows that it is false without them."
  },
  {
   "property": "C101",
   "status": "proved",
   "theorems": [
    "Verif.Http1.C101_first_empty_line",
    "Verif.Http1.C101_line_ends"
   ],
   "note": "Through the exact grammar of C50 and the completions of C56, for every slicing."
  },
  {
   "property": "C102",
   "status": "proved",
   "theorems": [
    "Verif.Http1.C102_forward",
    "Verif.Http1.C102_again"
   ],
   "note": "The first client may use any slices; the second must not meet the exception of C72 (a first word in H in slices of fewer than nine bytes), as the statement says."
  },
  {
   "property": "C103",
   "status": "proved",
   "theorems": [
    "Verif.Http1.C103_chunked",
    "Verif.Http1.C103_url",
    "Verif.Http1.C103_multipart",
    "Verif.Http1.C103_again",
    "Verif.Http1.C103_again_multipart"
   ],
   "note": "The second reader of a URL-encoded body is told the length of what was written."
  },
  {
   "property": "C104",
   "status": "proved",
   "theorems": [
    "Verif.Http2.C104_pass_on",
    "Verif.Http2.C104_size"
   ],
   "note": "The slices of the first reader are arbitrary; the second one gets one slice or slices that do not end within the fields of C41 and C70, as the statement says. With overflow checks."
  },
  {
   "property": "C105",
   "status": "proved",
   "theorems": [
    "Verif.Util.C105_query",
    "Verif.Util.C105_which"
   ],
   "note": "Through the grammar of C05 and the reader of C80. The items after an error, if the loop goes on, are not spoken of."
  },
  {
   "property": "C106",
   "status": "proved",
   "theorems": [
    "Verif.Http1.C106_connection",
    "Verif.Http1.C106_completes"
   ],
   "note": "Bodies of URL-encoded forms are left out: their length is given by a head, which the handler would have to change."
  },
  {
   "property": "C107",
   "status": "proved",
   "theorems": [
    "Verif.Util.C107_field",
    "Verif.Util.C107_which"
   ],
   "note": "Through the grammars of C58 and C59. The items after an error, if the loop goes on, are not spoken of."
  },
  {
   "property": "C108",
   "status": "partial",
   "theorems": [
    "Verif.Http1.C108_same_end",
    "Verif.Http1.C108_line_ends",
    "Verif.Http1.C108_standard_partial",
    "Verif.Http1.C108_fails"
   ],
   "note": "C108_same_end is the full claim, and C108_line_ends that about other line ends, for a program that takes a size line for the last one only if it is 0 and nothing else, as the code does. With the rule of the standard (size zero) the code violates the claim: C108_fails has a last chunk with an extension, after which the parser reads the next message as more chunks. C108_standard_partial is the claim for accepted bodies without this."
  },
  {
   "property": "C109",
   "status": "partial",
   "theorems": [
    "Verif.Http1.C109_same_parts_iff",
    "Verif.Http1.C109_same_parts_partial",
    "Verif.Http1.C109_fails"
   ],
   "note": "The code violates the full claim: C109_fails has a header line that starts with the delimiter, data that starts with it right after the empty line, and data that ends in CR before it (C36); others find other parts and another end. C109_same_parts_iff says exactly for which accepted bodies the claim holds, C109_same_parts_partial is a simple condition on what is reported."
  },
  {
   "property": "C11",
   "status": "proved",
   "theorems": [
    "Verif.Http1.C11_resume_returns",
    "Verif.Http1.C11_linear"
   ],
   "note": "Every parser value, slice and handler; at most 8*length+8 state-function calls."
  },
  {
   "property": "C110",
   "status": "partial",
   "theorems": [
    "Verif.Http2.C110_same_frames_partial",
    "Verif.Http2.C110_one_slice_partial",
    "Verif.Http2.C110_release_partial",
    "Verif.Http2.C110_fails"
   ],
   "note": "The code violates the full claim: it takes the lengths of PRIORITY, RST_STREAM, SETTINGS and WINDOW_UPDATE frames from the type instead of the frame header (C110_fails: an acknowledgement of settings, two settings, a PRIORITY frame with more bytes), and panics on a frame of an unknown type with the flag for padding. The theorems hold for all input in which every length suits its type; exceptions for slices that end within some fields are those of C44."
  },
  {
   "property": "C111",
   "status": "partial",
   "theorems": [
    "Verif.Http1.C111_query_partial",
    "Verif.Http1.C111_form_partial",
    "Verif.Http1.C111_fails"
   ],
   "note": "The code violates the full claim: it takes ; for a separator, which the standard does not (C111_fails: a=1;admin=1), and drops an escape that is cut off at the end of a body (C40). The theorems are the claim for programs that know ; as well, and for all programs if there is no ;."
  },
  {
   "property": "C112",
   "status": "partial",
   "theorems": [
    "Verif.Http1.C112_same_head_partial",
    "Verif.Http1.C112_trimmed_partial",
    "Verif.Http1.C112_every_slicing_partial",
    "Verif.Http1.C112_fails"
   ],
   "note": "The code violates the full claim: it reports blanks at the end of a value, which the standard says are not part of it (C112_fails: Transfer-Encoding: chunked followed by a blank). The theorems are the claim for programs that keep them, and for all programs if no line ends with a blank. C112_every_slicing_partial is the claim for every slicing, except that letters of HTTP may be missing at the start of a method (C18)."
  },
  {
   "property": "C113",
   "status": "partial",
   "theorems": [
    "Verif.Util.C113_same_items_partial",
    "Verif.Util.C113_strict_partial",
    "Verif.Util.C113_fails"
   ],
   "note": "The code violates the full claim: it does not report a last name that ends with a slash or, with normalize, an upper-case letter (C113_fails: TEXT/HTML), and leaves out blanks within names. The theorems are the claim for all other fields and for programs that leave out such blanks, too, or find none."
  },
  {
   "property": "C114",
   "status": "partial",
   "theorems": [
    "Verif.Http1.C114_same_messages_partial",
    "Verif.Http1.C114_every_run_partial",
    "Verif.Http1.C114_fails"
   ],
   "note": "The code violates the full claim: it drops letters of HTTP at the start of a method that comes in short slices (C18; C114_fails: HEAD is reported as EAD). The theorem is the claim with everything but these letters, for rules that do not look at the method, and for programs that keep blanks at the end of values (C112) and take only the size 0 as the last chunk (C108)."
  },
  {
   "property": "C115",
   "status": "partial",
   "theorems": [
    "Verif.Http1.C115_connections_partial",
    "Verif.Http1.C115_every_slicing_partial",
    "Verif.Http1.C115_completes"
   ],
   "note": "The exceptions of C74 to C77 after an error apply here too."
  },
  {
   "property": "C116",
   "status": "partial",
   "theorems": [
    "Verif.Http1.C116_connection_final_partial",
    "Verif.Http1.C116_fails"
   ],
   "note": "The code violates the full claim for heads whose first word starts with H, which it reads in two ways (C72; C116_fails: a head that is rejected would have been accepted with more bytes). The theorem is the claim for connections without such heads."
  },
  {
   "property": "C117",
   "status": "proved",
   "theorems": [
    "Verif.Http1.C117_counted",
    "Verif.Http2.C117_counted",
    "Verif.Http2.Release.C117_release_counted",
    "Verif.Http1.C117_call",
    "Verif.Http1.C117_client",
    "Verif.Http1.C117_connection",
    "Verif.Http2.C117_call",
    "Verif.Http2.C117_client",
    "Verif.Http2.Release.C117_release_call",
    "Verif.Http2.Release.C117_release_client",
    "Verif.Http1.C117_total",
    "Verif.Http2.C117_total",
    "Verif.Http2.Release.C117_release_total"
   ],
   "note": "The work is counted in calls of state functions; what a state function does in itself is not counted. HTTP/2: with and without overflow checks."
  },
  {
   "property": "C118",
   "status": "proved",
   "theorems": [
    "Verif.Http2.C118_call",
    "Verif.Http2.C118_client",
    "Verif.Http2.Release.C118_release_call",
    "Verif.Http2.Release.C118_release_client"
   ],
   "note": "With and without overflow checks. That all payload bytes are handed over is C42, C71 and C78."
  },
  {
   "property": "C119",
   "status": "proved",
   "theorems": [
    "Verif.Http2.C119_between_frames",
    "Verif.Http2.Release.C119_release_between_frames",
    "Verif.Http2.C119_reset"
   ],
   "note": "With and without overflow checks; after any slices, also empty ones and ones that pause or panic."
  },
  {
   "property": "C12",
   "status": "partial",
   "theorems": [
    "Verif.Http1.C12_no_panic_partial",
    "Verif.Http1.C12_no_panic_other_types_partial",
    "Verif.Http1.C12_fails_byte_255",
    "Verif.Http1.C12_fails_empty_slice",
    "Verif.Http1.C12_fails_no_boundary",
    "Verif.Http1.C12_fails_boundary_changed"
   ],
   "note": "The code violates the full claim: byte 0xFF, an empty first slice for a new parser, multipart without boundary and changing the boundary while it is compared are counterexamples. Proved for every other history."
  },
  {
   "property": "C13",
   "status": "proved",
   "theorems": [
    "Verif.Http1.C13_eos_count",
    "Verif.Http1.C13_callback_count",
    "Verif.Http1.C13_finished_count",
    "Verif.Http1.C17_pausing_invisible"
   ],
   "note": "Continuation after Callback(n): C17_pausing_invisible; continuation after Eos(n): the slicing theorems of C18-C21."
  },
  {
   "property": "C14",
   "status": "partial",
   "theorems": [
    "Verif.Http1.C14_byte_count_partial",
    "Verif.Http1.C14_one_call",
    "Verif.Http1.C14_fails"
   ],
   "note": "The code counts the bytes of the call that finishes a URL-encoded body twice (C14_one_call says exactly so, for every history); proved for every history without such a call."
  },
  {
   "property": "C15",
   "status": "proved",
   "theorems": [
    "Verif.Http1.C15_dead_stays_dead"
   ],
   "note": ""
  },
  {
   "property": "C16",
   "status": "proved",
   "theorems": [
    "Verif.Http1.C16_finished_stays_finished"
   ],
   "note": ""
  },
  {
   "property": "C17",
   "status": "proved",
   "theorems": [
    "Verif.Http1.C17_pausing_invisible",
    "Verif.Http1.C17_false_stops"
   ],
   "note": "Every reachable parser, slice and handler, all four parser types; equality of callbacks including how data is cut."
  },
  {
   "property": "C18",
   "status": "partial",
   "theorems": [
    "Verif.Http1.C18_head_slicing_partial",
    "Verif.Http1.C18_new_slicing_partial",
    "Verif.Http1.C18_runs_complete",
    "Verif.Http1.C18_fails",
    "Verif.Http1.C72_two_readings_partial",
    "Verif.Http1.C72_letters_are_lost",
    "Verif.Http1.C72_whole_word_is_rejected"
   ],
   "note": "The code loses the H of a method starting with H when fewer than nine bytes are available; proved for every message outside that situation. What happens in that situation is C72."
  },
  {
   "property": "C19",
   "status": "partial",
   "theorems": [
    "Verif.Http1.C19_chunked_slicing_partial",
    "Verif.Http1.C19_runs_complete",
    "Verif.Http1.C19_fails"
   ],
   "note": "When a body is rejected or the parser panics, the data of the token in which that happens may be delivered in one slicing only, so the full claim is false (C19_fails); proved apart from that."
  },
  {
   "property": "C20",
   "status": "partial",
   "theorems": [
    "Verif.Http1.C20_url_encoded_slicing_partial",
    "Verif.Http1.C20_runs_complete",
    "Verif.Http1.C20_fails"
   ],
   "note": "When a body is rejected or the parser panics, the data of the token in which that happens may be delivered in one slicing only, so the full claim is false (C20_fails); proved apart from that."
  },
  {
   "property": "C21",
   "status": "partial",
   "theorems": [
    "Verif.Http1.C21_multipart_slicing_partial",
    "Verif.Http1.C21_runs_complete",
    "Verif.Http1.C21_cr_in_boundary"
   ],
   "note": "False for boundaries with CR (C21_cr_in_boundary). Proved for boundaries without CR below 2^14 bytes and handlers whose part lengths depend only on the headers, apart from the data of a token in which an error or panic occurs and the byte named when a boundary differs."
  },
  {
   "property": "C22",
   "status": "partial",
   "theorems": [
    "Verif.Http1.C22_state_partial",
    "Verif.Http1.C22_fails"
   ],
   "note": "The code violates it for a new parser: state() says StripDetect, but the parser is in Detect1."
  },
  {
   "property": "C23",
   "status": "proved",
   "theorems": [
    "Verif.Http1.C23_init_is_new",
    "Verif.Http1.C23_reset_is_new"
   ],
   "note": ""
  },
  {
   "property": "C24",
   "status": "partial",
   "theorems": [
    "Verif.Http1.C24_leading_blanks_partial",
    "Verif.Http1.C24_fails"
   ],
   "note": "The code violates it for parsers made with new. Proved for every initialised or reset parser."
  },
  {
   "property": "C25",
   "status": "partial",
   "theorems": [
    "Verif.Http1.C25_request_round_trip_partial",
    "Verif.Http1.C25_runs_complete",
    "Verif.Http1.C25_fails"
   ],
   "note": "The code rejects empty header values, values that start with a byte above 0x7E and some escapes, and panics on byte 255; methods that start with H need nine bytes in the first slice. Proved for all other request heads, all slicings, all handlers."
  },
  {
   "property": "C26",
   "status": "partial",
   "theorems": [
    "Verif.Http1.C26_response_round_trip_partial",
    "Verif.Http1.C25_runs_complete",
    "Verif.Http1.C26_fails"
   ],
   "note": "The code rejects an empty reason and the header values of C25. Proved for all other response heads, all slicings, all handlers."
  },
  {
   "property": "C27",
   "status": "partial",
   "theorems": [
    "Verif.Http1.C27_head_names_partial",
    "Verif.Http1.C27_chunked_names",
    "Verif.Http1.C27_multipart_names"
   ],
   "note": "All inputs, slicings, handlers and boundaries. Missing only: an empty first slice for a parser made with new, where the code reads out of bounds (C12)."
  },
  {
   "property": "C28",
   "status": "partial",
   "theorems": [
    "Verif.Http1.C28_head_data_partial",
    "Verif.Http1.C28_chunked_data",
    "Verif.Http1.C28_multipart_data"
   ],
   "note": "All inputs, slicings, handlers and boundaries. Missing only: an empty first slice for a parser made with new, where the code reads out of bounds (C12)."
  },
  {
   "property": "C29",
   "status": "partial",
   "theorems": [
    "Verif.Http1.C29_callback_order_partial"
   ],
   "note": "Every input, slicing and handler, complete or not, but a parser made with new must get a first slice that is not empty (C12)."
  },
  {
   "property": "C30",
   "status": "partial",
   "theorems": [
    "Verif.Http1.C30_numbers_exact_partial",
    "Verif.Http1.C30_numbers_fit"
   ],
   "note": "Every input, slicing and handler, but a parser made with new must get a first slice that is not empty (C12)."
  },
  {
   "property": "C31",
   "status": "partial",
   "theorems": [
    "Verif.Http1.C31_head_fast_paths_partial",
    "Verif.Http1.C31_trailer_fast_paths",
    "Verif.Http1.C31_fails"
   ],
   "note": "Same exception as C18: methods starting with H. What happens there is C72."
  },
  {
   "property": "C32",
   "status": "partial",
   "theorems": [
    "Verif.Http1.C32_chunked_round_trip_partial",
    "Verif.Http1.C32_runs_complete",
    "Verif.Http1.C32_fails"
   ],
   "note": "All chunked bodies, slicings and handlers, except extension and trailer values that the code rejects (empty, starting with a byte above 0x7E, byte 255, some escapes)."
  },
  {
   "property": "C33",
   "status": "proved",
   "theorems": [
    "Verif.Http1.C33_chunk_data"
   ],
   "note": "Every input, slicing and handler, complete or not."
  },
  {
   "property": "C34",
   "status": "proved",
   "theorems": [
    "Verif.Http1.C34_lengths_exact",
    "Verif.Http1.C34_lengths_fit",
    "Verif.Http1.C34_long_rejected"
   ],
   "note": "Every input, slicing and handler."
  },
  {
   "property": "C35",
   "status": "partial",
   "theorems": [
    "Verif.Http1.C35_last_chunk_partial",
    "Verif.Http1.C35_finishes_after_last",
    "Verif.Http1.C35_fails"
   ],
   "note": "The code violates it: a last chunk with extensions does not end the body. Proved for a zero length that is not followed by an extension."
  },
  {
   "property": "C36",
   "status": "partial",
   "theorems": [
    "Verif.Http1.C36_multipart_round_trip_partial",
    "Verif.Http1.C36_line_end_before_boundary"
   ],
   "note": "All part lists and boundaries (no CR, below 2^14 bytes), data of known length without restriction, data delimited by the boundary unless it ends with CR, CRLF or CRLF-hyphen: there the code misses the boundary (C36_line_end_before_boundary)."
  },
  {
   "property": "C37",
   "status": "partial",
   "theorems": [
    "Verif.Http1.C37_data_conserved_partial"
   ],
   "note": "Missing: boundaries with CR or of 2^14 bytes or more, neither proved nor refuted. All inputs, slicings, pauses and handlers otherwise."
  },
  {
   "property": "C38",
   "status": "proved",
   "theorems": [
    "Verif.Http1.C38_url_encoded_round_trip",
    "Verif.Http1.C38_empty",
    "Verif.Http1.C38_runs_complete"
   ],
   "note": "Every body, encoding, slicing and handler."
  },
  {
   "property": "C39",
   "status": "proved",
   "theorems": [
    "Verif.Http1.C39_stops_at_length",
    "Verif.Http1.C39_finishes"
   ],
   "note": "Every input, length, slicing and handler, complete or not."
  },
  {
   "property": "C40",
   "status": "partial",
   "theorems": [
    "Verif.Http1.C40_bad_escape_partial",
    "Verif.Http1.C40_fails"
   ],
   "note": "The code violates it: a body that ends inside an escape finishes silently (proved for every such body). Proved: an escape with a byte that is no hex digit is rejected."
  },
  {
   "property": "C41",
   "status": "partial",
   "theorems": [
    "Verif.Http2.C41_frame_header_partial",
    "Verif.Http2.C41_frame_header_half_id_partial",
    "Verif.Http2.C41_small_id_partial",
    "Verif.Http2.C41_fails"
   ],
   "note": "Any 9 byte header, whatever follows, any handler and slicing in which no call of resume stops within the stream id of this header (bytes 6 to 8); later stops are not restricted. Missing: these stops; C41_fails proves that the claim is false there (frame_stream_id1-3 overwrite instead of or-ing, only 16 bits survive). Ids below 65536 may be cut anywhere; for any id and any slicing it is right or lacks its upper half (C41_frame_header_half_id_partial)."
  },
  {
   "property": "C42",
   "status": "partial",
   "theorems": [
    "Verif.Http2.C42_payload_partial",
    "Verif.Http2.C42_payload_half_id_partial",
    "Verif.Http2.C42_fails"
   ],
   "note": "Missing: calls that stop within the stream id of this frame or the last stream id of a GOAWAY frame (by position; stops after the frame are not restricted); a frame without data and padding has its last callback only when the next byte arrives (C42_fails)."
  },
  {
   "property": "C43",
   "status": "partial",
   "theorems": [
    "Verif.Http2.C43_frames_partial",
    "Verif.Http2.C43_frames_half_ids_partial",
    "Verif.Http2.C43_frames_small_ids_partial",
    "Verif.Http2.C43_fails"
   ],
   "note": "Any sequence of frames of all types with any padding, flags, ids; SETTINGS with exactly one setting. Missing: SETTINGS frames with none or several settings, where the parser loses sync (C43_fails), and calls that stop within a stream id, a last stream id or a settings value (given by position in the frames, idsAt and longAt)."
  },
  {
   "property": "C44",
   "status": "partial",
   "theorems": [
    "Verif.Http2.C44_slicing_partial",
    "Verif.Http2.C44_slicing_half_ids_partial",
    "Verif.Http2.C44_slicing_small_ids_partial",
    "Verif.Http2.C44_fails",
    "Verif.Http2.C44_fails_settings",
    "Verif.Http2.C41_fails"
   ],
   "note": "Any byte string, any two handlers and slicings that do not stop within stream ids / last stream ids / settings values; the claim is false for those (C41_fails, C44_fails, C44_fails_settings)."
  },
  {
   "property": "C45",
   "status": "partial",
   "theorems": [
    "Verif.Http2.C45_resume_total_partial",
    "Verif.Http2.C45_fails",
    "Verif.Http2.C43_frames_partial",
    "Verif.Http2.C71_one_slice"
   ],
   "note": "Termination, no error, and the reported numbers for all reachable parsers, slices and handlers. Panics are possible (u32 underflow for frames shorter than their fields or padding): C45_fails; not for well-formed frames: C43_frames_partial; C71_one_slice says for exactly which bytes a new parser panics."
  },
  {
   "property": "C46",
   "status": "partial",
   "theorems": [
    "Verif.Http2.C46_ids_partial",
    "Verif.Http2.C46_ids_panic_partial",
    "Verif.Http2.Release.C46_release_ids_partial",
    "Verif.Http2.C46_fails"
   ],
   "note": "Holds for on_frame_format, on_go_away, on_headers, on_priority; false for on_push_promise and on_window_update (C46_fails)."
  },
  {
   "property": "C47",
   "status": "proved",
   "theorems": [
    "Verif.Http2.C47_byte_count"
   ],
   "note": "All histories of new, resume (any result) and reset."
  },
  {
   "property": "C48",
   "status": "partial",
   "theorems": [
    "Verif.Http2.C48_frame_types",
    "Verif.Http2.C48_frame_type_queries",
    "Verif.Http2.C48_error_codes_partial",
    "Verif.Http2.C48_error_code_queries",
    "Verif.Http2.C48_settings",
    "Verif.Http2.C48_setting_queries",
    "Verif.Http2.C48_flags"
   ],
   "note": "Everything except 32-bit error codes, for which the code has no conversion (from_u8 only)."
  },
  {
   "property": "C49",
   "status": "proved",
   "theorems": [
    "Verif.Http2.C49_frame_format"
   ],
   "note": "All 24-bit lengths, types, flags and stream ids."
  },
  {
   "property": "C50",
   "status": "partial",
   "theorems": [
    "Verif.Http1.C50_only_heads_accepted_partial",
    "Verif.Http1.C50_all_heads_accepted",
    "Verif.Http1.C50_fails"
   ],
   "note": "The grammar of accepted heads is exact (both directions, all slicings and handlers). It contains two forms that are not HTTP, which the code accepts: empty header names and folded lines before the first field (C50_fails). Methods starting with H need nine bytes in the first slice (C18)."
  },
  {
   "property": "C51",
   "status": "partial",
   "theorems": [
    "Verif.Http1.C51_cut_off_heads_partial",
    "Verif.Http1.C51_every_slicing_partial",
    "Verif.Http1.C51_fails"
   ],
   "note": "All accepted heads, cuts, slicings and handlers. The code violates it for the methods H, HT, HTT and HTTP in short slices (C51_every_slicing_partial says exactly when, C51_fails is a witness); heads that the code rejects as a whole (C25, C26) are missing."
  },
  {
   "property": "C52",
   "status": "partial",
   "theorems": [
    "Verif.Http1.C52_only_chunked_accepted_partial",
    "Verif.Http1.C52_all_chunked_accepted",
    "Verif.Http1.C52_fails"
   ],
   "note": "The grammar of accepted bodies is exact (both directions, all slicings and handlers). It contains forms that are not HTTP, which the code accepts: extensions without name or value, and zero chunks with extensions that do not end the body (C52_fails)."
  },
  {
   "property": "C53",
   "status": "partial",
   "theorems": [
    "Verif.Http1.C53_cut_off_chunked_partial",
    "Verif.Http1.C53_fails"
   ],
   "note": "All accepted bodies, cuts, slicings and handlers; bodies that the code rejects as a whole (C32) are missing, C53_fails is one."
  },
  {
   "property": "C54",
   "status": "partial",
   "theorems": [
    "Verif.Http1.C54_accepted_bodies_partial",
    "Verif.Http1.C54_all_bodies_accepted",
    "Verif.Http1.C40_fails"
   ],
   "note": "The grammar of accepted bodies is exact. It contains bodies that end inside an escape (C40_fails)."
  },
  {
   "property": "C55",
   "status": "proved",
   "theorems": [
    "Verif.Http1.C55_rejected_bodies",
    "Verif.Http1.C55_offences_rejected"
   ],
   "note": "Every byte string, length, slicing and handler."
  },
  {
   "property": "C56",
   "status": "partial",
   "theorems": [
    "Verif.Http1.C56_head_errors_partial",
    "Verif.Http1.C56_head_eos_partial",
    "Verif.Http1.C56_chunked_errors",
    "Verif.Http1.C56_chunked_eos",
    "Verif.Http1.C56_url_errors",
    "Verif.Http1.C56_url_eos",
    "Verif.Http1.C56_fails"
   ],
   "note": "Chunked and URL-encoded bodies without restriction; heads whose method starts with H need nine bytes in the first slice (C18), without them the code violates the claim (C56_fails)."
  },
  {
   "property": "C57",
   "status": "proved",
   "theorems": [
    "Verif.Http1.C57_client_finishes"
   ],
   "note": "Every byte string, handler and slicing with non-empty slices, every reachable parser (a new parser must not be given an empty message, see C12)."
  },
  {
   "property": "C58",
   "status": "partial",
   "theorems": [
    "Verif.Util.C58_only_fields_accepted",
    "Verif.Util.C58_all_fields_accepted_partial",
    "Verif.Util.C58_fails"
   ],
   "note": "The grammar of accepted fields is exact, for every field, delimiter (the second half: other than = / double quote, blanks, byte 255) and flag. It contains texts that are no fields in the sense of C07, such as one more byte after a closing quote (C58_fails)."
  },
  {
   "property": "C59",
   "status": "partial",
   "theorems": [
    "Verif.Util.C59_rejections",
    "Verif.Util.C59_rejected_partial",
    "Verif.Util.C59_stops"
   ],
   "note": "Every field, delimiter and flag, but that every such field is rejected is only proved for delimiters other than = / double quote, blanks and byte 255."
  },
  {
   "property": "C60",
   "status": "proved",
   "theorems": [
    "Verif.Util.C60_query_rejections",
    "Verif.Util.C60_one_error"
   ],
   "note": "Every query, as an equivalence."
  },
  {
   "property": "C61",
   "status": "partial",
   "theorems": [
    "Verif.Util.C61_field_names",
    "Verif.Util.C61_field_values_partial",
    "Verif.Util.C61_query_names",
    "Verif.Util.C61_query_values_partial",
    "Verif.Util.C61_query_utf8_partial",
    "Verif.Util.C61_fails"
   ],
   "note": "Names without restriction; values for fields that are UTF-8 and whose delimiter is ASCII or does not occur in them, and for queries whose escapes write ASCII or that decode to UTF-8. The code returns other bytes unchecked (C61_fails)."
  },
  {
   "property": "C62",
   "status": "proved",
   "theorems": [
    "Verif.Http1.C62_no_empty_data"
   ],
   "note": "Every parser (reachable or not), slice and handler; also calls that panic."
  },
  {
   "property": "C63",
   "status": "proved",
   "theorems": [
    "Verif.Http2.C63_false_stops",
    "Verif.Http2.Release.C63_release_false_stops"
   ],
   "note": "With and without overflow checks. Every history, slice and handler; also calls that panic."
  },
  {
   "property": "C64",
   "status": "proved",
   "theorems": [
    "Verif.Http2.C64_pausing_invisible",
    "Verif.Http2.Release.C64_release_pausing_invisible"
   ],
   "note": "With and without overflow checks. Same callbacks in the same order, same rest, same parser; or both runs panic after the same callbacks."
  },
  {
   "property": "C65",
   "status": "proved",
   "theorems": [
    "Verif.Http2.C65_client_finishes",
    "Verif.Http2.Release.C65_release_client_finishes"
   ],
   "note": "Bound: 4 * length + 4 calls, with and without overflow checks."
  },
  {
   "property": "C66",
   "status": "proved",
   "theorems": [
    "Verif.Http2.C66_no_empty_data",
    "Verif.Http2.C66_no_empty_data_panic",
    "Verif.Http2.Release.C66_release_no_empty_data"
   ],
   "note": "With and without overflow checks."
  },
  {
   "property": "C67",
   "status": "partial",
   "theorems": [
    "Verif.Http1.C67_only_multipart_accepted_partial",
    "Verif.Http1.C67_all_multipart_accepted",
    "Verif.Http1.C67_delimited",
    "Verif.Http1.C67_fails"
   ],
   "note": "The exact grammar of what is accepted. It has forms that are not multipart (a delimiter directly after CR, CRLF or CRLF and a hyphen is read as data; header lines without a name): the witnesses are C67_fails."
  },
  {
   "property": "C68",
   "status": "partial",
   "theorems": [
    "Verif.Http1.C68_cut_off_multipart_partial",
    "Verif.Http1.C68_fails"
   ],
   "note": "All bodies of the grammar of C67; bodies with data that hides the delimiter are read differently (C36, C68_fails)."
  },
  {
   "property": "C69",
   "status": "partial",
   "theorems": [
    "Verif.Http1.C69_multipart_errors_partial",
    "Verif.Http1.C69_multipart_eos",
    "Verif.Http1.C69_boundary_errors"
   ],
   "note": "Errors are found at the earliest byte. Errors about an expected boundary name the last byte consumed too, but that may be an earlier one (C69_boundary_errors)."
  },
  {
   "property": "C70",
   "status": "partial",
   "theorems": [
    "Verif.Http2.C70_alive_partial",
    "Verif.Http2.C70_silent",
    "Verif.Http2.C70_right_before_silence",
    "Verif.Http2.C70_frames",
    "Verif.Http2.C70_fails"
   ],
   "note": "The code violates it: once a call stops within the last stream id of a GOAWAY frame or the value of a setting, the parser swallows everything (C70_silent, for every such run). Proved for all other runs. C70_frames describes every slicing of every sequence of frames."
  },
  {
   "property": "C71",
   "status": "partial",
   "theorems": [
    "Verif.Http2.C71_one_slice",
    "Verif.Http2.C71_reads_any_input_partial",
    "Verif.Http2.C71_every_slicing_partial",
    "Verif.Http2.told_of_frames",
    "Verif.Http2.C71_fails"
   ],
   "note": "Exact, without exceptions, for input in one slice and any handler (C71_one_slice; this includes the exact condition for a panic). The code violates it for slices that end within a stream id or within the fields of C70; C71_every_slicing_partial says what remains true in every slicing."
  },
  {
   "property": "C72",
   "status": "partial",
   "theorems": [
    "Verif.Http1.C72_two_readings_partial",
    "Verif.Http1.C72_words",
    "Verif.Http1.C72_letters_are_lost",
    "Verif.Http1.C72_reads_like_another_word",
    "Verif.Http1.C72_whole_word_is_rejected",
    "Verif.Http1.C72_requests",
    "Verif.Http1.C72_runs_complete"
   ],
   "note": "All messages, slicings and handlers, but parsers made with new must get a first slice that is not empty (C12) and does not start with a blank (C24)."
  },
  {
   "property": "C73",
   "status": "partial",
   "theorems": [
    "Verif.Http1.C73_connection_partial",
    "Verif.Http1.C73_open_connection_partial",
    "Verif.Http1.C73_runs_complete",
    "Verif.Http1.C73_fails"
   ],
   "note": "The messages are those of C25, C26, C32, C36 and C38, with what is missing there; methods in H need slices of nine bytes (C72), otherwise the code violates the claim (C73_fails)."
  },
  {
   "property": "C74",
   "status": "partial",
   "theorems": [
    "Verif.Http1.C74_heads_partial",
    "Verif.Http1.C74_new_partial",
    "Verif.Http1.C74_panics_exactly"
   ],
   "note": "Every byte string, slicing and handler. After an error, data of the token in which it occurred may not have been delivered, which the claim does not allow. The reader of Http1/ReadSpec accepts and rejects what the code does, which is not always HTTP (C50, DESIGN section 5)."
  },
  {
   "property": "C75",
   "status": "partial",
   "theorems": [
    "Verif.Http1.C75_chunked_partial",
    "Verif.Http1.C75_panics_exactly"
   ],
   "note": "Every byte string, slicing and handler. After an error, data of the token in which it occurred may not have been delivered, which the claim does not allow."
  },
  {
   "property": "C76",
   "status": "partial",
   "theorems": [
    "Verif.Http1.C76_url_partial",
    "Verif.Http1.C76_never_panics"
   ],
   "note": "Every byte string, length, slicing and handler. After an error, data of the token in which it occurred may not have been delivered, which the claim does not allow."
  },
  {
   "property": "C77",
   "status": "partial",
   "theorems": [
    "Verif.Http1.C77_multipart_partial"
   ],
   "note": "Weaker than stated where a boundary differs: the byte named may be any one up to the first differing one. Otherwise every byte string, slicing and handler."
  },
  {
   "property": "C78",
   "status": "proved",
   "theorems": [
    "Verif.Http2.C78_every_slicing",
    "Verif.Http2.C78_panics_exactly",
    "Verif.Http2.C78_marks",
    "Verif.Http2.C78_whole"
   ],
   "note": "Every byte string, slicing and handler, no exceptions. toldC says what the code does, including what it loses when a slice ends within a field (C41, C70); C71 is the claim that nothing is lost."
  },
  {
   "property": "C79",
   "status": "proved",
   "theorems": [
    "Verif.Util.C79_fields"
   ],
   "note": "Every byte string, delimiter, flag and number of calls, with the panics. The reader of Util/ReadSpec accepts what the code does, which is not always what was meant (C07, DESIGN section 5)."
  },
  {
   "property": "C80",
   "status": "proved",
   "theorems": [
    "Verif.Util.C80_queries"
   ],
   "note": "Every byte string and number of calls."
  },
  {
   "property": "C81",
   "status": "proved",
   "theorems": [
    "Verif.Http1.C81_same",
    "Verif.Http1.C81_fields",
    "Verif.Http1.C81_accepts",
    "Verif.Http1.C81_converse_fails"
   ],
   "note": "The iterator refuses some bodies that the parser accepts (C81_converse_fails), so the agreement goes in one direction; C81_accepts and C05_query_partial say exactly what each accepts."
  },
  {
   "property": "C82",
   "status": "partial",
   "theorems": [
    "Verif.Http1.C82_head_partial",
    "Verif.Http1.C82_head_every_slicing_partial",
    "Verif.Http1.C82_chunked",
    "Verif.Http1.C82_url_encoded",
    "Verif.Http1.C82_multipart",
    "Verif.Http1.C82_withheld",
    "Verif.Http1.C82_fails"
   ],
   "note": "Bodies: proved for every input (multipart: boundaries without CR below 2^14 bytes). Heads: in every slicing, but for a first word in H only if both clients read it in the same of the two ways of C72; otherwise the code is wrong (C82_fails). When a panic follows, the data of its token may be withheld too, which the claim allows only for errors."
  },
  {
   "property": "C83",
   "status": "partial",
   "theorems": [
    "Verif.Http1.C83_head_partial",
    "Verif.Http1.C83_head_end_partial",
    "Verif.Http1.C83_head_meaning_partial",
    "Verif.Http1.C83_chunked",
    "Verif.Http1.C83_multipart",
    "Verif.Http1.C83_fails"
   ],
   "note": "Bodies: proved for every input (the length of a URL-encoded body is given beforehand). Heads: that there is at most one such beginning is proved for every input and slicing (C83_head_end_partial), that it has one meaning not when only one of two clients gets a first word in H in short slices, where it is false (C83_fails)."
  },
  {
   "property": "C84",
   "status": "partial",
   "theorems": [
    "Verif.Http2.C84_told",
    "Verif.Http2.C84_final_partial",
    "Verif.Http2.C84_fails",
    "Verif.Http2.Release.C84_release_told",
    "Verif.Http2.Release.C84_release_final_partial",
    "Verif.Http2.Release.C84_release_fails"
   ],
   "note": "With and without overflow checks (for the latter: one slice, with pauses). Proved for slices that do not end within a stream id, a last stream id or the value of a setting, where the code is wrong (C41, C70); for the same slices it holds trivially, since the same calls are made."
  },
  {
   "property": "C85",
   "status": "partial",
   "theorems": [
    "Verif.Http1.C85_request_partial",
    "Verif.Http1.C85_response_partial",
    "Verif.Http1.C85_fails"
   ],
   "note": "It panics exactly when the value of some header field is not UTF-8; otherwise proved. What it does for heads outside C25 and C26 is C93; the claim that it never panics is false (C85_fails)."
  },
  {
   "property": "C86",
   "status": "partial",
   "theorems": [
    "Verif.Http1.C86_call_by_call",
    "Verif.Http1.C86_multipart_partial",
    "Verif.Http1.C86_chunked_partial",
    "Verif.Http1.C86_any_multipart_partial",
    "Verif.Http1.C86_any_chunked_partial"
   ],
   "note": "Callbacks and number of calls: every input (C86_call_by_call). One part or chunk per call: only for the bodies of C36 and C32 and those the parser accepts, not every well-formed body (C36_line_end_before_boundary, C32_fails, C35_fails); boundaries without CR below 2^14 bytes."
  },
  {
   "property": "C87",
   "status": "partial",
   "theorems": [
    "Verif.Http1.C87_form_partial",
    "Verif.Http1.C87_fails"
   ],
   "note": "Missing: the heads of C25, the fields of C07 and the bodies of C36; outside of these the program panics or mixes parts (C87_fails); C94 says exactly what it does there."
  },
  {
   "property": "C88",
   "status": "partial",
   "theorems": [
    "Verif.Http1.C88_chunks_partial",
    "Verif.Http1.C88_fails"
   ],
   "note": "Missing: the heads of C25 and the bodies of C32; outside of these the program panics or changes trailers (C88_fails); C94 says exactly what it does there."
  },
  {
   "property": "C89",
   "status": "partial",
   "theorems": [
    "Verif.Http1.C89_url_encoded_partial",
    "Verif.Http1.C89_fails"
   ],
   "note": "Proved when every field has a name and a value, neither empty, and for the heads of C25. Otherwise fields are glued together (C89_fails); C94 says exactly how."
  },
  {
   "property": "C90",
   "status": "partial",
   "theorems": [
    "Verif.C90_errors",
    "Verif.C90_values_partial",
    "Verif.C90_fails"
   ],
   "note": "Proved for all errors, the Debug text of results, frame types, error codes and settings. Display of a result is only its number, flags leave out bits without a name, frame formats leave out the number of an unknown type (C90_fails)."
  },
  {
   "property": "C91",
   "status": "partial",
   "theorems": [
    "Verif.Http2.C91_total_partial",
    "Verif.Http2.C91_call_partial",
    "Verif.Http2.C91_run_partial",
    "Verif.Http2.C91_swallows",
    "Verif.Http2.C91_fails"
   ],
   "note": "No panics, and agreement with the build with overflow checks, proved for all calls and runs. The last sentence is false for the code: everything after a frame with more padding than payload, up to 16 MB, is taken for its data (C91_swallows, for every handler and slicing), likewise after other frames that are too short (C91_fails)."
  },
  {
   "property": "C92",
   "status": "proved",
   "theorems": [
    "Verif.Http1.C92_chunked_order",
    "Verif.Http1.C92_multipart_order",
    "Verif.Http1.C92_url_encoded_order",
    "Verif.Http1.C92_length_after_headers",
    "Verif.Http1.C92_length_only_multipart"
   ],
   "note": "Orders are given by three automata in Http1/OrderSpec."
  },
  {
   "property": "C93",
   "status": "proved",
   "theorems": [
    "Verif.Http1.C93_any_head"
   ],
   "note": "What folded lines and fields without a name amount to is joined in Http1/JoinSpec. The bytes can be read as a head, and for every such reading the stored values are those of the reading."
  },
  {
   "property": "C94",
   "status": "proved",
   "theorems": [
    "Verif.Http1.C94_chunk_program",
    "Verif.Http1.C94_url_program",
    "Verif.Http1.C94_form_program",
    "Verif.Http1.C94_form_head"
   ],
   "note": "The grammars are those of C50, C53, C54 and C67; joined (Http1/JoinSpec) and glued (Http1/GlueSpec) say which lines and fields belong together."
  },
  {
   "property": "C95",
   "status": "proved",
   "theorems": [
    "Verif.Http2.C95_one_slice",
    "Verif.Http2.C95_after_panic",
    "Verif.Http2.C95_lost_frames",
    "Verif.Http2.C95_every_slicing"
   ],
   "note": "The reader is Release.told in Http2/ReleaseSpec. Exact for input in one slice with any pauses; C95_every_slicing compares with the checked parser in every slicing."
  },
  {
   "property": "C96",
   "status": "proved",
   "theorems": [
    "Verif.Http1.C96_names_last_byte",
    "Verif.Http1.C96_no_overflow",
    "Verif.Http1.C96_client"
   ],
   "note": "PErr.byte is the byte that an error carries; Dead and ChunkLengthOverflow carry none."
  },
  {
   "property": "C97",
   "status": "proved",
   "theorems": [
    "Verif.Http1.C97_head_test",
    "Verif.Http1.C97_empty"
   ],
   "note": "The description is Read.start of Http1/ReadSpec. For the empty input see C97_empty: the call reads outside of it."
  },
  {
   "property": "C98",
   "status": "partial",
   "theorems": [
    "Verif.Http1.C98_heads",
    "Verif.Http1.C98_new",
    "Verif.Http1.C98_chunked",
    "Verif.Http1.C98_url",
    "Verif.Http1.C98_multipart_partial",
    "Verif.Http2.C98_http2",
    "Verif.Http2.C98_http2_release"
   ],
   "note": "For an HTTP/1 multipart boundary error the bytes left over are not counted off. HTTP/2 with overflow checks; without them see C91, C95."
  },
  {
   "property": "C99",
   "status": "proved",
   "theorems": [
    "Verif.Util.C99_fields",
    "Verif.Util.C99_queries"
   ],
   "note": "Through the readers of C79 and C80."
  }
 ]
}