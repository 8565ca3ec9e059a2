{"id": "C01", "title": "decode computes percent-decoding", "statement": "util::decode(x) returns Ok(s) exactly when x is a sequence of visible 7-bit bytes in which every '%' is followed by two hex digits, and s is then the string in which every '+' became a space, every %XY became the byte 16*X+Y, and every other byte is unchanged, in order.", "quantifier": "every byte string x", "why_tests_cant": "inputs are unbounded byte strings; segments, escapes and plus signs interleave in unboundedly many ways", "anchors": ["src/util/decode.rs:decode", "src/collect.rs:collect_hex8"]}
{"id": "C02", "title": "decode inverts every percent-encoder", "statement": "For any byte string s and any choice, byte by byte, of writing it literally (when allowed), as '+' (for space) or as %XY with any letter case, util::decode of the written form returns s.", "quantifier": "every byte string and every per-byte encoding choice", "why_tests_cant": "unbounded strings times 2^n encoding choices", "anchors": ["src/util/decode.rs:decode"]}
{"id": "C03", "title": "decode reports the first offending byte", "statement": "When util::decode(x) fails, the error kind and byte are determined by the longest decodable prefix: an illegal byte b gives DecodeError::Byte(b); a bad escape gives DecodeError::HexSequence of the first non-hex byte (or of the last byte present when the input ends inside the escape).", "quantifier": "every byte string x", "why_tests_cant": "unbounded inputs, the error may occur after any valid prefix", "anchors": ["src/util/decode.rs:decode", "src/collect.rs:collect_hex8"]}
{"id": "C04", "title": "decode output is valid text and no longer than its input", "statement": "util::decode never panics, always terminates, and the returned string is no longer than the input; the returned String is well-formed UTF-8.", "quantifier": "every byte string x", "why_tests_cant": "UTF-8 validity of a String built through unsafe code must hold for every input; the tests only decode ASCII", "anchors": ["src/util/decode.rs:decode"]}
{"id": "C05", "title": "query iteration yields exactly the encoded pairs", "statement": "Iterating over name1=value1&name2=value2... (either '&' or ';' as separator, values and names URL-encoded, value part optional) yields exactly the decoded pairs in order, then None.", "quantifier": "every list of pairs and every URL-encoding of them", "why_tests_cant": "unbounded lists of unbounded strings", "anchors": ["src/util/query.rs:QueryIterator::next"]}
{"id": "C06", "title": "query iteration stops after an error", "statement": "Once QueryIterator::next has reported an error it returned None and every later call returns None; on any input the iterator yields at most length+1 items and never panics.", "quantifier": "every query byte string and every number of calls to next", "why_tests_cant": "histories of next() calls on unbounded inputs", "anchors": ["src/util/query.rs:QueryIterator::next", "src/collect.rs:collect_hex8_iter"]}
{"id": "C07", "title": "field iteration yields exactly the fields", "statement": "Iterating over a header field made of name, name=value and name=\"quoted value\" items joined by the delimiter (with optional blanks after the delimiter) yields exactly these items in order, with quoted-pairs unescaped.", "quantifier": "every list of items, every delimiter, every legal quoting", "why_tests_cant": "unbounded lists of unbounded items", "anchors": ["src/util/field.rs:FieldIterator::next"]}
{"id": "C08", "title": "field names are lower-cased when normalisation is on", "statement": "With normalize = true every yielded name equals the lower-cased name written in the field (no name is dropped or altered otherwise); with normalize = false it is yielded verbatim.", "quantifier": "every field byte string", "why_tests_cant": "the position of upper-case letters relative to the end of the input matters; unbounded", "anchors": ["src/util/field.rs:FieldIterator::next"]}
{"id": "C09", "title": "field iteration is total", "statement": "FieldIterator::next terminates without panicking on every input and consumes at least one byte whenever it yields an item, so iteration is finite.", "quantifier": "every byte string, delimiter and flag", "why_tests_cant": "termination and absence of out-of-bounds indexing over all inputs", "anchors": ["src/util/field.rs:FieldIterator::next", "src/byte.rs:is_token"]}
{"id": "C10", "title": "byte classes", "statement": "is_token(b) holds exactly for the RFC 2616 token bytes, is_header_field(b) exactly for TAB, 0x20-0x7E except '\"', and 0x80-0xFF; is_quoted_header_field additionally excludes backslash; none of them panics.", "quantifier": "every byte value", "why_tests_cant": "the unit tests stop at byte 254", "anchors": ["src/byte.rs:is_header_field", "src/byte.rs:is_quoted_header_field", "src/byte.rs:is_token"]}
{"id": "C11", "title": "HTTP/1 resume always returns", "statement": "http1::Parser::resume terminates: the parser loop makes a bounded number of state-function calls, linear in the slice length, from every reachable parser state and for every handler.", "quantifier": "every parser configuration, slice and handler", "why_tests_cant": "absence of infinite loops over all inputs and handler behaviours", "anchors": ["src/http1/parser.rs:Parser::parse", "src/http1/parser.rs:Parser::resume"]}
{"id": "C12", "title": "HTTP/1 resume never panics", "statement": "http1::Parser::resume never panics and never reads outside the slice, from every reachable state, whatever bytes are passed.", "quantifier": "every history of calls, slice and handler", "why_tests_cant": "memory safety and panic freedom must hold for every byte sequence; tests exclude byte 255 and empty slices", "anchors": ["src/http1/parser.rs:Parser::resume", "src/http1/parser.rs:Parser::detect1", "src/byte.rs"]}
{"id": "C13", "title": "HTTP/1 consumed counts are exact", "statement": "resume returns Eos(n) only with n = slice length, and Callback(n)/Finished(n) only with n <= slice length; n is exactly the number of bytes processed, i.e. resuming with the remaining slice[n..] continues the same message.", "quantifier": "every reachable state, slice, handler", "why_tests_cant": "quantifies over all states and slices", "anchors": ["src/fsm.rs:Success", "src/http1/parser.rs:Parser::resume"]}
{"id": "C14", "title": "HTTP/1 byte_count accounting", "statement": "byte_count() equals the sum over all past resume calls of the number of bytes processed by that call, and reset/init do not change it.", "quantifier": "every history of init, set_*, resume and reset calls", "why_tests_cant": "histories are unbounded", "anchors": ["src/http1/parser.rs:Parser::byte_count", "src/http1/parser.rs:Parser::parse", "src/http1/parser.rs:Parser::resume"]}
{"id": "C15", "title": "HTTP/1 dead parser stays dead", "statement": "After resume returned an error, every later resume returns Err(Dead), consumes nothing and runs no callback, and state() is Dead, until reset or an init function is called.", "quantifier": "every history", "why_tests_cant": "unbounded histories", "anchors": ["src/http1/parser.rs:Parser::dead", "src/http1/parser.rs:Parser::parse"]}
{"id": "C16", "title": "HTTP/1 finished parser stays finished", "statement": "After resume returned Finished, state() is Finished and every later resume returns Finished(0) without running a callback, until reset or an init function is called.", "quantifier": "every history", "why_tests_cant": "unbounded histories", "anchors": ["src/http1/parser.rs:Parser::finished", "src/http1/parser.rs:Parser::parse"]}
{"id": "C17", "title": "HTTP/1 pausing is invisible", "statement": "If a callback returns false, resume exits with Callback(n); calling resume again with the unprocessed rest continues as if the callback had returned true: the sequence of callback data over the whole message is the same whatever the callbacks return.", "quantifier": "every message, every pattern of true/false callback results, every parser type", "why_tests_cant": "2^n pause patterns at every callback", "anchors": ["src/fsm.rs:callback", "src/http1/parser.rs:Parser::resume"]}
{"id": "C18", "title": "HTTP/1 head parsing does not depend on slicing", "statement": "Parsing a request or response head delivers the same method, URL, version, status code, reason, header names and values, in the same order, the same final result and the same unprocessed rest, however the bytes are cut into slices.", "quantifier": "every byte string and every way to cut it into slices", "why_tests_cant": "2^n ways to cut an n byte message", "anchors": ["src/http1/parser.rs:Parser::detect1", "src/http1/parser.rs:Parser::request_method", "src/http1/parser.rs:Parser::first_header_name"]}
{"id": "C19", "title": "HTTP/1 chunked parsing does not depend on slicing", "statement": "Parsing a chunked body delivers the same chunk lengths, extensions, data and trailers, and the same result and unprocessed rest, however the bytes are cut into slices.", "quantifier": "every byte string and every slicing", "why_tests_cant": "2^n slicings", "anchors": ["src/http1/parser.rs:Parser::chunk_length1", "src/http1/parser.rs:Parser::chunk_data"]}
{"id": "C20", "title": "HTTP/1 url-encoded parsing does not depend on slicing", "statement": "Parsing a URL-encoded body of declared length delivers the same names and values and the same result and unprocessed rest however the bytes are cut into slices.", "quantifier": "every byte string, declared length and slicing", "why_tests_cant": "2^n slicings", "anchors": ["src/http1/parser.rs:Parser::url_encoded_name", "src/http1/parser.rs:Parser::resume"]}
{"id": "C21", "title": "HTTP/1 multipart parsing does not depend on slicing", "statement": "Parsing a multipart body delivers the same part headers and part data and the same kind of result however the bytes are cut into slices.", "quantifier": "every byte string, boundary and slicing", "why_tests_cant": "2^n slicings, including cuts inside the boundary", "anchors": ["src/http1/parser.rs:Parser::multipart_boundary", "src/http1/parser.rs:Parser::multipart_data_by_byte"]}
{"id": "C22", "title": "state() tells the truth", "statement": "The state reported by state() is the state whose function processes the next byte.", "quantifier": "every history", "why_tests_cant": "must hold after every call sequence", "anchors": ["src/http1/parser.rs:Parser::new", "src/http1/parser.rs:Parser::state", "src/fsm.rs:set_state"]}
{"id": "C23", "title": "reset restores the initial behaviour", "statement": "After init_head/init_chunked/init_multipart/init_url_encoded or reset the parser behaves, for every later input, as a newly created and initialised parser of that type (only byte_count differs).", "quantifier": "every earlier history and every later input", "why_tests_cant": "unbounded histories before and after", "anchors": ["src/http1/parser.rs:Parser::reset", "src/http1/parser.rs:Parser::init_head"]}
{"id": "C24", "title": "leading blank lines are skipped", "statement": "A head parser skips any CR, LF, TAB and SPACE bytes before the request or status line, for new and for reset parsers alike.", "quantifier": "every amount of leading blanks, every message", "why_tests_cant": "unbounded prefixes", "anchors": ["src/http1/parser.rs:Parser::strip_detect", "src/http1/parser.rs:Parser::new"]}
{"id": "C25", "title": "request heads round-trip", "statement": "Any request line and header list written in standard form (METHOD SP URL SP HTTP/a.b CRLF, Name: value CRLF ..., CRLF) is parsed to exactly that method, URL, version and header list with lower-cased names, followed by on_headers_finished, and resume returns Finished at the end of the head.", "quantifier": "every well-formed request head", "why_tests_cant": "unbounded token, URL, header lists", "anchors": ["src/http1/parser.rs:Parser::request_method", "src/http1/parser.rs:Parser::header_value", "src/http1/parser.rs:Parser::header_end"]}
{"id": "C26", "title": "response heads round-trip", "statement": "Any status line (HTTP/a.b SP code SP reason CRLF) and header list is parsed to exactly that version, status code, reason and header list with lower-cased names, and resume returns Finished at the end of the head.", "quantifier": "every well-formed response head", "why_tests_cant": "unbounded reasons and header lists", "anchors": ["src/http1/parser.rs:Parser::response_status_code1", "src/http1/parser.rs:Parser::response_status2"]}
{"id": "C27", "title": "header names are delivered lower-case", "statement": "No byte passed to on_header_name or on_chunk_extension_name is an upper-case letter, and every byte is a token byte.", "quantifier": "every input, slicing and handler", "why_tests_cant": "universally quantified over hostile inputs", "anchors": ["src/http1/parser.rs:Parser::first_header_name", "src/http1/parser.rs:Parser::upper_header_name", "src/http1/parser.rs:Parser::lower_header_name", "src/http1/parser.rs:Parser::upper_chunk_extension_name"]}
{"id": "C28", "title": "no control bytes reach the handler in head data", "statement": "Bytes passed to on_method are upper-case letters; to on_url visible 7-bit; to on_status non-control; to on_header_value never CR, LF, NUL or another control byte except TAB.", "quantifier": "every input, slicing and handler", "why_tests_cant": "injection safety over hostile inputs", "anchors": ["src/http1/parser.rs:Parser::header_value", "src/http1/parser.rs:Parser::request_url2", "src/http1/parser.rs:Parser::response_status2"]}
{"id": "C29", "title": "head callbacks come in protocol order", "statement": "The callbacks of a head form a prefix of: method+ url+ version initial_finished (request) or version status_code status+ initial_finished (response), then header names and values, then headers_finished, which is executed exactly once when the head finishes and never before.", "quantifier": "every input, slicing and handler", "why_tests_cant": "all callback histories", "anchors": ["src/http1/parser.rs:Parser::initial_end", "src/http1/parser.rs:Parser::header_end"]}
{"id": "C30", "title": "numbers are decoded exactly", "statement": "The version and status code passed to callbacks are the decimal values of the digits in the message; each is at most 999, so never truncated.", "quantifier": "every message", "why_tests_cant": "all digit strings in all positions and slicings", "anchors": ["src/http1/parser.rs:Parser::request_version_major1", "src/http1/parser.rs:Parser::response_status_code1"]}
{"id": "C31", "title": "fast paths are invisible", "statement": "Recognising well-known methods, versions, status codes and header names in one step when enough bytes are available delivers the same data and leaves the parser in the same state as byte by byte parsing.", "quantifier": "every input and slicing", "why_tests_cant": "fast paths depend on how many bytes happen to be available", "anchors": ["src/http1/parser.rs:Parser::detect1", "src/http1/parser.rs:Parser::request_http1", "src/http1/parser.rs:Parser::first_header_name", "src/http1/parser.rs:Parser::response_status_code1"]}
{"id": "C32", "title": "chunked bodies round-trip", "statement": "Encoding any list of non-empty chunks (length in hex, any letter case, at most 8 digits without leading zeros; optional extensions), followed by 0 CRLF, trailers and CRLF, is parsed to exactly the chunk lengths, extensions, chunk data and trailers, and resume returns Finished after the final CRLF.", "quantifier": "every list of chunks, extensions and trailers", "why_tests_cant": "unbounded bodies", "anchors": ["src/http1/parser.rs:Parser::chunk_length1", "src/http1/parser.rs:Parser::chunk_data", "src/http1/parser.rs:Parser::chunk_extension_value"]}
{"id": "C33", "title": "chunk data never exceeds the announced length", "statement": "For every input, the bytes passed to on_chunk_data between two on_chunk_length callbacks number at most the announced length, and exactly that length when a further chunk begins.", "quantifier": "every input, slicing, handler", "why_tests_cant": "hostile inputs, all prefixes", "anchors": ["src/http1/parser.rs:Parser::chunk_data"]}
{"id": "C34", "title": "chunk lengths are exact", "statement": "The value passed to on_chunk_length is the value of the hex digits of the chunk-size line, is below 2^32, and a chunk size with more than eight digits is rejected.", "quantifier": "every digit string", "why_tests_cant": "all digit strings", "anchors": ["src/http1/parser.rs:Parser::chunk_length1", "src/http1/parser.rs:Parser::chunk_length8", "src/http1/parser.rs:Parser::chunk_length_cr"]}
{"id": "C35", "title": "the last chunk ends the body", "statement": "A chunk of size zero, with or without chunk extensions, is the last chunk: after it only trailers are parsed and the body finishes.", "quantifier": "every extension list", "why_tests_cant": "all extensions", "anchors": ["src/http1/parser.rs:Parser::chunk_length_cr", "src/http1/parser.rs:Parser::chunk_extensions_finished", "src/http1/parser.rs:Parser::chunk_length_lf"]}
{"id": "C36", "title": "multipart bodies round-trip", "statement": "Encoding any list of parts (headers and data) with a boundary that does not occur in the data is parsed to exactly these parts' headers and data, and resume returns Finished after the closing boundary.", "quantifier": "every part list, every boundary, data delimited by boundary or by content length", "why_tests_cant": "unbounded parts; data may end in any bytes, including CR LF", "anchors": ["src/http1/parser.rs:Parser::multipart_data_by_byte", "src/http1/parser.rs:Parser::multipart_hyphen1", "src/http1/parser.rs:Parser::multipart_boundary"]}
{"id": "C37", "title": "multipart data is conserved", "statement": "Within a part, the bytes passed to on_multipart_data are exactly the body bytes processed so far, in order, except for a pending possible boundary: nothing is lost, duplicated or invented.", "quantifier": "every input, slicing, handler", "why_tests_cant": "hostile inputs near the boundary", "anchors": ["src/http1/parser.rs:Parser::multipart_boundary", "src/http1/parser.rs:Parser::multipart_hyphen2"]}
{"id": "C38", "title": "url-encoded bodies round-trip", "statement": "Encoding any list of name/value pairs (either separator, any URL-encoding) is parsed to exactly the decoded pairs, and resume returns Finished after the declared length.", "quantifier": "every pair list and encoding", "why_tests_cant": "unbounded lists", "anchors": ["src/http1/parser.rs:Parser::url_encoded_name", "src/http1/parser.rs:Parser::url_encoded_value"]}
{"id": "C39", "title": "url-encoded parsing stops at the declared length", "statement": "resume in URL-encoded mode never processes more bytes in total than the declared length, and finishes exactly when that many bytes have been processed.", "quantifier": "every input, slicing, handler, length", "why_tests_cant": "all histories", "anchors": ["src/http1/parser.rs:Parser::resume", "src/http1/parser.rs:Parser::set_length"]}
{"id": "C40", "title": "truncated escapes are rejected", "statement": "A URL-encoded body that ends inside a %XY escape is reported as an error.", "quantifier": "every body", "why_tests_cant": "all bodies", "anchors": ["src/http1/parser.rs:Parser::url_encoded_name_hex1", "src/http1/parser.rs:Parser::resume"]}
{"id": "C41", "title": "HTTP/2 frame headers are decoded exactly", "statement": "For every 9 byte frame header, on_frame_format receives the 24-bit length, the type byte, the flags byte and the 31-bit stream id, however the bytes are cut into slices.", "quantifier": "every frame header and slicing", "why_tests_cant": "2^72 headers times slicings", "anchors": ["src/http2/parser.rs:Parser::frame_length1", "src/http2/parser.rs:Parser::frame_stream_id1", "src/http2/parser.rs:Parser::frame_format_end"]}
{"id": "C42", "title": "HTTP/2 payload data is delivered without padding", "statement": "For DATA, HEADERS/CONTINUATION fragments, PUSH_PROMISE fragments, GOAWAY debug data and unknown frames the data callbacks deliver exactly the payload bytes without pad length, fixed fields and padding, the last call and only the last call having finished = true.", "quantifier": "every frame with padding not larger than the payload, every slicing, every handler", "why_tests_cant": "unbounded payloads and slicings", "anchors": ["src/http2/parser.rs:parse_payload_data", "src/http2/parser.rs:Parser::data_data"]}
{"id": "C43", "title": "HTTP/2 frame sequences are parsed in sync", "statement": "For every sequence of well-formed frames of any types the parser reports every frame's header and fields exactly, and is ready for the next frame header after each.", "quantifier": "every sequence of well-formed frames", "why_tests_cant": "unbounded sequences", "anchors": ["src/http2/parser.rs:Parser::frame_format_end", "src/http2/parser.rs:Parser::settings_id1", "src/http2/parser.rs:Parser::go_away_stream_id1"]}
{"id": "C44", "title": "HTTP/2 parsing does not depend on slicing", "statement": "The frames reported for a byte stream do not depend on how it is cut into slices.", "quantifier": "every byte string and slicing", "why_tests_cant": "2^n slicings", "anchors": ["src/http2/parser.rs:Parser::frame_stream_id2", "src/http2/parser.rs:Parser::go_away_stream_id3", "src/http2/parser.rs:Parser::settings_value3"]}
{"id": "C45", "title": "HTTP/2 resume is total", "statement": "http2::Parser::resume terminates, never panics or overflows, and returns Eos(n) only with n = slice length, Callback(n) only with n <= slice length.", "quantifier": "every reachable state, slice, handler", "why_tests_cant": "all inputs", "anchors": ["src/http2/parser.rs:Parser::resume", "src/http2/parser.rs:dec_payload_length", "src/http2/parser.rs:actual_length"]}
{"id": "C46", "title": "HTTP/2 stream ids are 31 bits", "statement": "The reserved bit is never part of a stream id, promised stream id, dependency or window increment passed to a callback.", "quantifier": "every input", "why_tests_cant": "all inputs", "anchors": ["src/http2/parser.rs:Parser::frame_format_end", "src/http2/parser.rs:Parser::push_promise_callback", "src/http2/parser.rs:Parser::window_update_increment1"]}
{"id": "C47", "title": "HTTP/2 byte_count accounting", "statement": "byte_count() equals the number of bytes processed since the parser was created or reset.", "quantifier": "every history of resume/reset", "why_tests_cant": "unbounded histories", "anchors": ["src/http2/parser.rs:Parser::byte_count", "src/http2/parser.rs:Parser::reset"]}
{"id": "C48", "title": "HTTP/2 wire constants", "statement": "FrameType, ErrorCode, Setting and Flags conversions: every known constant survives the conversion to and from its wire value, distinct constants have distinct wire values, every other wire value is classified as unsupported, and each is_* query answers exactly for its constant or bit.", "quantifier": "every wire value", "why_tests_cant": "every u8/u16/u32 value", "anchors": ["src/http2/frame_type.rs", "src/http2/error_code.rs", "src/http2/setting.rs", "src/http2/flags.rs"]}
{"id": "C49", "title": "FrameFormat packing", "statement": "FrameFormat reports exactly the payload length, type, flags and stream id it was built from.", "quantifier": "every 24-bit length, every type, flags and stream id", "why_tests_cant": "2^24 lengths", "anchors": ["src/http2/frame_format.rs"]}
{"id": "C50", "title": "only heads are accepted", "statement": "When the parser returns Finished for a head, the bytes it consumed are (blank bytes and) a request or response head: start line with well-formed method, URL, version, status code and reason, and header lines; and the callbacks are exactly what these bytes mean. Every such head is accepted.", "quantifier": "every byte string, handler, slicing", "why_tests_cant": "soundness of acceptance ranges over all byte strings; tests feed a few malformed ones", "anchors": ["src/http1/parser.rs"]}
{"id": "C51", "title": "cut-off heads ask for more", "statement": "A head that is cut off anywhere before its last byte is neither finished nor rejected: parsing ends with Eos, and what was reported is a beginning of what the whole head means.", "quantifier": "every head, every cut, slicing and handler", "why_tests_cant": "every prefix of every head", "anchors": ["src/http1/parser.rs"]}
{"id": "C52", "title": "only chunked bodies are accepted", "statement": "When the parser returns Finished for a chunked body, the bytes it consumed are a sequence of chunks of the announced sizes, a last chunk of size zero and a trailer, and the callbacks are exactly what these bytes mean. Every such body is accepted.", "quantifier": "every byte string, handler, slicing", "why_tests_cant": "soundness of acceptance ranges over all byte strings (request smuggling hides in the rest)", "anchors": ["src/http1/parser.rs"]}
{"id": "C53", "title": "cut-off chunked bodies ask for more", "statement": "A chunked body that is cut off anywhere before its last byte is neither finished nor rejected, and what was reported is a beginning of what the whole body means.", "quantifier": "every chunked body, every cut, slicing and handler", "why_tests_cant": "every prefix of every body", "anchors": ["src/http1/parser.rs"]}
{"id": "C54", "title": "only URL-encoded bodies are accepted", "statement": "When the parser returns Finished for a URL-encoded body of declared length n, exactly n bytes were consumed, they are fields separated by & or ; whose names and values decode without remainder, and the callbacks are exactly what they mean. Every such body is accepted.", "quantifier": "every byte string, length, handler, slicing", "why_tests_cant": "soundness of acceptance ranges over all byte strings", "anchors": ["src/http1/parser.rs"]}
{"id": "C55", "title": "URL-encoded rejections are justified", "statement": "When the parser returns an error for a URL-encoded body, what was consumed lies within the declared length and ends with a byte that is not visible 7-bit ASCII or an escape that is no escape; the error names this byte and whether it belongs to a name or a value. Every such body is rejected.", "quantifier": "every byte string, length, handler, slicing", "why_tests_cant": "false rejections range over all byte strings", "anchors": ["src/http1/parser.rs"]}
{"id": "C56", "title": "errors are found at the earliest byte and name it", "statement": "When parsing ends with an error, the error names the last byte consumed; the bytes before it could still have been completed to an accepted message; with this byte no continuation is accepted. When parsing ends with Eos, the bytes can be completed to an accepted message.", "quantifier": "every byte string, handler, slicing, for heads, chunked and URL-encoded bodies", "why_tests_cant": "quantifies over all continuations of all byte strings", "anchors": ["src/http1/parser.rs"]}
{"id": "C57", "title": "a client that keeps passing bytes gets done", "statement": "Whatever the bytes are and however often callbacks pause the parser: a client that passes at least one of its unread bytes with every call reaches Finished, an error, or the end of its bytes, after a number of calls bounded linearly in the number of bytes. No message and no pattern of pauses makes the client loop forever.", "quantifier": "every byte string, handler, slicing, reachable parser", "why_tests_cant": "absence of livelock over unboundedly many calls", "anchors": ["src/http1/parser.rs"]}
{"id": "C58", "title": "exactly the header fields of a grammar are accepted", "statement": "If iterating over a header field reports no error, the field is a delimiter-separated list of names, name=value and name=\"quoted value\" items and the iterator yields exactly these items; every such list is accepted.", "quantifier": "every byte string, delimiter, both settings of normalize", "why_tests_cant": "soundness over all byte strings: no sample shows that no malformed field slips through", "anchors": ["src/util/field.rs"]}
{"id": "C59", "title": "header field rejections are justified", "statement": "When iterating over a header field reports an error, it reports exactly one; the field starts with the items yielded so far and goes on with a byte that may not stand there (the byte the error names), or with a quoted value that never ends. Every such field is rejected with this error. After None the iterator stays exhausted and reports nothing more.", "quantifier": "every byte string, delimiter, both settings of normalize", "why_tests_cant": "false rejections and wrong error reports range over all byte strings", "anchors": ["src/util/field.rs"]}
{"id": "C60", "title": "query rejections are justified", "statement": "When iterating over a query reports an error, it reports exactly one; the query starts with the pairs yielded so far and goes on with the byte or escape the error names, in the name or value the error tells. Every such query is rejected with this error.", "quantifier": "every byte string", "why_tests_cant": "false rejections and wrong error reports range over all byte strings", "anchors": ["src/util/query.rs"]}
{"id": "C61", "title": "iterators return well-formed strings", "statement": "Every name and value returned by the field iterator and by the query iterator is valid UTF-8, as Rust's String type promises.", "quantifier": "every byte string, delimiter, both settings of normalize, any number of calls", "why_tests_cant": "undefined behaviour for some input among all byte strings", "anchors": ["src/util/field.rs", "src/util/query.rs"]}
{"id": "C62", "title": "no data callback without data", "statement": "Every data callback (method, URL, status, header names and values, chunk data, chunk extensions, multipart data, URL-encoded names and values) is passed at least one byte; an empty token gets no callback.", "quantifier": "every parser state, slice and handler", "why_tests_cant": "every cut of every message at every token boundary", "anchors": ["src/fsm.rs:callback", "src/http1/parser.rs"]}
{"id": "C63", "title": "HTTP/2: a refused callback stops the call", "statement": "A call of the HTTP/2 parser's resume returns Callback(n) exactly when one of the callbacks it executed returned false, and that callback is the last one it executed.", "quantifier": "every history of resume/reset, every slice, every handler (answers may depend on the whole history)", "why_tests_cant": "every callback of every frame type at every slice position, with every pattern of answers", "anchors": ["src/http2/parser.rs", "src/fsm.rs:199-233"]}
{"id": "C64", "title": "HTTP/2: pausing is invisible", "statement": "If the client passes the unprocessed rest of the slice again after each Callback(n), the callbacks, their arguments and order, the number of bytes processed and the final parser state are the same as with a handler that never pauses.", "quantifier": "every history of resume/reset, every slice, every handler", "why_tests_cant": "unboundedly many pause patterns", "anchors": ["src/http2/parser.rs"]}
{"id": "C65", "title": "HTTP/2: clients that keep passing bytes get done", "statement": "A client that passes at least one unread byte with every call has all bytes processed after a number of calls linear in their number, whatever the callbacks answer (or the parser panicked).", "quantifier": "every history, byte string, schedule of positive lengths and handler", "why_tests_cant": "liveness over all inputs and schedules", "anchors": ["src/http2/parser.rs"]}
{"id": "C66", "title": "HTTP/2: no empty data callback before the last", "statement": "on_data, on_headers_fragment, on_ping, on_go_away_debug_data and on_unsupported are executed with an empty slice only with finished = true.", "quantifier": "every history of resume/reset, every slice, every handler", "why_tests_cant": "every cut of every frame", "anchors": ["src/http2/parser.rs:parse_payload_data"]}
{"id": "C67", "title": "only multipart bodies are accepted", "statement": "When the parser returns Finished for a multipart body, the bytes it consumed are the boundary, then parts (header lines, an empty line, data, the delimiter), then two hyphens; the data of a part has the length that the handler told, or contains no delimiter; and the callbacks are exactly what these bytes mean. Every such body is accepted.", "quantifier": "every byte string, handler, slicing, and boundary without CR shorter than 2^14 bytes", "why_tests_cant": "soundness of acceptance ranges over all byte strings; hidden delimiters are how uploads are smuggled past filters", "anchors": ["src/http1/parser.rs"]}
{"id": "C68", "title": "cut-off multipart bodies ask for more", "statement": "A multipart body that is cut off anywhere before its last byte is neither finished nor rejected, and what was reported is a beginning of what the whole body means.", "quantifier": "every multipart body, every cut, slicing and handler, and boundary without CR shorter than 2^14 bytes", "why_tests_cant": "every prefix of every body", "anchors": ["src/http1/parser.rs"]}
{"id": "C69", "title": "errors in multipart bodies are found at the earliest byte and name it", "statement": "When parsing a multipart body ends with an error, the error names the last byte consumed; the bytes before it could still have been completed to an accepted body; with this byte no continuation is accepted. When parsing ends with Eos, the bytes can be completed to an accepted body.", "quantifier": "every byte string, slicing, handler whose content lengths depend only on the data it got, and boundary without CR shorter than 2^14 bytes", "why_tests_cant": "quantifies over all continuations of all byte strings", "anchors": ["src/http1/parser.rs"]}
{"id": "C70", "title": "the HTTP/2 parser never falls silent", "statement": "After any input in any slices, if the parser did not panic, there is a continuation for which it executes a further callback or panics; it never gets into a state in which it swallows all further bytes.", "quantifier": "every byte string, slicing and handler; for sequences of frames also what exactly is reported in every slicing", "why_tests_cant": "quantifies over all inputs and slicings, and a silent parser is silent for all continuations", "anchors": ["src/http2/parser.rs"]}
{"id": "C71", "title": "what the HTTP/2 parser tells about any bytes", "statement": "For any byte string, well-formed or not, the callbacks are determined by the bytes alone and are exactly those of a short description that reads frame by frame: a 9 byte header, the fields of the frame type, then as much data as the header leaves, then the padding. The parser panics exactly for the byte strings for which the description says so: frames shorter than their fields, or with more padding than payload; then all callbacks before that place were executed.", "quantifier": "every byte string, every handler, every slicing", "why_tests_cant": "all byte strings, not only frames that a test author thought of; a peer can send anything", "anchors": ["src/http2/parser.rs"]}
{"id": "C72", "title": "what an unlucky first slice does to a head", "statement": "What a head is read as depends on the slicing only through one bit: whether the call that brings the first byte of the first word has fewer than nine bytes of the head, and this matters only if that word starts with H and differs from HTTP/. In that case the letters that the word has in common with HTTP/ are missing from the method and nothing else changes: the end, the unprocessed bytes and all other callbacks are those of the other reading; if no letter of the method remains (H, HT, HTT, HTTP), the head is rejected at the space after it, without a callback.", "quantifier": "every byte string, every slicing, every handler, every parser initialised or reset for heads or made with new", "why_tests_cant": "all messages and all slicings; a test fixes one message and a few cuts, and the loss of a letter shows only for one kind of word and one kind of cut", "anchors": ["src/http1/parser.rs lines 418-703"]}
{"id": "C73", "title": "many messages through one parser", "statement": "A client reads a whole connection with one parser: after each Finished it decides, from the callbacks so far, whether a head, a chunked body, a form of known length or a multipart body follows, calls the matching init function (and set_length or set_boundary) and goes on with the bytes that were not processed. Whatever sequence of well-formed messages the peer writes, the callbacks are exactly those that the messages mean, one message after the other: no byte of a message is taken for the next one, and nothing of an earlier message changes how a later one is read. A client that goes on calling gets through.", "quantifier": "every sequence of well-formed heads and bodies, every slicing (slices may span several messages), every pause behaviour, every rule by which the client decides", "why_tests_cant": "unbounded sequences of messages of five kinds in all slicings; a test has one sequence and mostly one parser per message", "anchors": ["src/http1/parser.rs lines 157-340"]}
{"id": "C74", "title": "what any bytes mean as a head", "statement": "For every byte string, a client that reads it as a head gets the callbacks and the end that a plain recursive-descent reader of heads tells: the same method, URL, version, status, header names and values, the same unprocessed bytes after the head, the same error for the same byte, the same need for more bytes. The only thing that slices decide is whether a first word in H loses the letters it has in common with HTTP/ (C72). The program panics exactly where the reader says so: at byte 255 in or after a header name or in a header value.", "quantifier": "every byte string, slicing, pause behaviour, parser initialised or reset for heads, or made with new and given a first slice that is not empty", "why_tests_cant": "all byte strings, not only well-formed ones, in all slicings; tests have samples of errors at sample positions", "anchors": ["src/http1/parser.rs lines 418-1904"]}
{"id": "C75", "title": "what any bytes mean as a chunked body", "statement": "For every byte string, a client that reads it as a chunked body gets the callbacks and the end that a plain recursive-descent reader of chunked bodies tells: sizes, extensions, data, trailers, the unprocessed bytes after the body, the error and the byte it is about, or a panic (byte 255 in or after an extension name, in a value, or in trailers).", "quantifier": "every byte string, slicing and pause behaviour, any earlier use of the parser", "why_tests_cant": "all byte strings in all slicings", "anchors": ["src/http1/parser.rs lines 1470-2509"]}
{"id": "C76", "title": "what any bytes mean as a URL-encoded body", "statement": "For every byte string and declared length, a client that reads it as a URL-encoded body gets the callbacks and the end that a plain reader of forms tells: the decoded names and values, the bytes after the body, or the error and the byte it is about. It never panics.", "quantifier": "every byte string, declared length, slicing and pause behaviour", "why_tests_cant": "all byte strings and lengths in all slicings", "anchors": ["src/http1/parser.rs lines 2880-3178"]}
{"id": "C77", "title": "what any bytes mean as a multipart body", "statement": "For every byte string and boundary (shorter than 2^14, without CR), a client that reads it as a multipart body gets the callbacks and the end that a plain recursive-descent reader of multipart bodies tells, given the lengths that the handler has answered: header fields and data of every part, the bytes after the body, the error, or a panic. Where a boundary is due and differs, it is an error; only which of the differing bytes is named depends on the slices.", "quantifier": "every byte string, boundary, handler (also one that announces part lengths), slicing and pause behaviour", "why_tests_cant": "all byte strings in all slicings, and all answers of the handler", "anchors": ["src/http1/parser.rs lines 2511-2878"]}
{"id": "C78", "title": "exactly what HTTP/2 input in any slices leads to", "statement": "For every byte string and every way to cut it into slices, the callbacks that are executed, and whether the parser panics, are those of a plain reader of frames that knows where the slices end: a stream id of a frame header loses its upper half exactly if a slice ends within it, and nothing is reported after the header of a SETTINGS or GOAWAY frame exactly if a slice ends within the value of the setting or the last stream id. No other slice end has any effect.", "quantifier": "every byte string, slicing and pause behaviour", "why_tests_cant": "all byte strings in all slicings", "anchors": ["src/http2/parser.rs lines 44-1577"]}
{"id": "C79", "title": "what any bytes mean as a header field list", "statement": "For every byte string, delimiter and flag, the result of every call of next of a FieldIterator (an item, None with or without a call of the error callback, or a panic) is that of a plain reader of fields: skip blanks, read a name in lower case up to '=', the delimiter or the end, then a value that is quoted or not.", "quantifier": "every byte string, delimiter byte, flag for names and number of calls of next", "why_tests_cant": "all byte strings", "anchors": ["src/util/field.rs:FieldIterator::next"]}
{"id": "C80", "title": "what any bytes mean as a query", "statement": "For every byte string, the result of every call of next of a QueryIterator (an item or None, with or without a call of the error callback) is that of a plain reader of queries: a name up to '=', '&', ';' or the end, then a value up to '&', ';' or the end, in which '+' is a space and %XY a byte.", "quantifier": "every byte string and number of calls of next", "why_tests_cant": "all byte strings", "anchors": ["src/util/query.rs:QueryIterator::next"]}
{"id": "C81", "title": "queries and URL-encoded bodies agree", "statement": "If a loop over a query string yields some names and values without an error, then the HTTP/1 parser, given the same bytes as a URL-encoded body, reports the same names and values in order and finishes directly after them. The parser accepts exactly the sequences of fields with any escapes, and those cut off within an escape.", "quantifier": "every query string, and every slicing, handler and bytes after the body", "why_tests_cant": "two independent implementations over all byte strings", "anchors": ["src/util/query.rs:QueryIterator::next", "src/http1/parser.rs lines 2880-3160"]}
{"id": "C82", "title": "what was reported is final", "statement": "When the HTTP/1 parser has finished or rejected a message, bytes that follow it never change how it ends, what was reported or where the message ends: they stay unprocessed. When it has used up its input and wants more, then whatever follows, everything that was reported so far is reported before anything else (if an error follows, the data of the token with the error may be withheld).", "quantifier": "every message, every continuation of it, every slicing of both and every handler", "why_tests_cant": "all continuations of all messages in all slicings", "anchors": ["src/http1/parser.rs:Parser::resume", "src/http1/parser.rs:Parser::parse"]}
{"id": "C83", "title": "the end of a message is unambiguous", "statement": "A stream of bytes has at most one beginning that the HTTP/1 parser accepts as a whole head, chunked body or multipart body, and that beginning has one meaning: no accepted message is the beginning of a longer accepted message, for any two clients.", "quantifier": "every two messages, slicings and handlers", "why_tests_cant": "relates all pairs of messages and of executions", "anchors": ["src/http1/parser.rs:Parser::resume", "src/http1/parser.rs:Parser::parse"]}
{"id": "C84", "title": "what was reported of HTTP/2 input is final", "statement": "When the HTTP/2 parser has processed some bytes, whatever follows, everything it reported so far is reported before anything else; if it panics over some bytes, it panics over every continuation of them after the same callbacks.", "quantifier": "every byte string, every continuation of it, every slicing of both and every handler", "why_tests_cant": "all continuations of all inputs in all slicings", "anchors": ["src/http2/parser.rs:Parser::resume", "src/http2/parser.rs:Parser::parse"]}
{"id": "C85", "title": "the documented head program works on every head", "statement": "The program in the documentation that collects the parts of a request or response head in a handler ends up, for every well-formed head passed in slices of any sizes, with the method, URL, status and version as written and, for every header name, the value of the last header field with that name; it never panics.", "quantifier": "every well-formed head, whatever follows it, every slicing", "why_tests_cant": "all heads in all slicings; the documentation runs it on one head in one slice", "anchors": ["examples/http1_head_parsing.md", "src/http1/parser.rs:Parser::resume", "src/http1/http_handler.rs:HttpHandler"]}
{"id": "C86", "title": "a handler that stops gets the same callbacks, call by call", "statement": "A handler that answers false to some callbacks and goes on when asked to resume gets the same callbacks as without the stops: each false ends one call with Callback, and one call more than the number of false answers finishes like a single call. In particular a handler that stops whenever a part of a multipart body begins, except for the first, reads exactly one part per call, and the same for the chunks of a chunk-encoded body.", "quantifier": "every parser a client can have, every handler, every input; every well-formed multipart or chunk-encoded body, whatever follows it, every number of calls", "why_tests_cant": "all bodies and all places to stop; the tests pause in one file each", "anchors": ["src/http1/parser.rs:Parser::resume", "tests/http1_multipart.rs", "tests/http1_chunk_encoded.rs"]}
{"id": "C87", "title": "the form program reads every form part by part", "statement": "The program in the tests that reads the head of a request, takes the boundary from its content type and then reads the multipart body one part per call stores, for every well-formed request and body, the header fields and the data of each part exactly as written, nothing of one part in another; it never panics.", "quantifier": "every well-formed request head, content type with a boundary, and multipart body with at least one part, whatever follows it", "why_tests_cant": "all forms; the test runs on one file with four parts", "anchors": ["tests/http1_multipart.rs", "src/util/field.rs:FieldIterator", "src/http1/parser.rs:Parser::resume"]}
{"id": "C88", "title": "the chunk program reads every chunked body chunk by chunk", "statement": "The program in the tests that reads the head of a request and then its chunk-encoded body one chunk per call has stored, after each call, the length, the data and the extensions of exactly one chunk, and after the last call the trailers, each name with its last value; it never panics.", "quantifier": "every well-formed request head and chunk-encoded body, whatever follows it", "why_tests_cant": "all bodies; the test runs on one file with three chunks", "anchors": ["tests/http1_chunk_encoded.rs", "src/http1/parser.rs:Parser::resume"]}
{"id": "C89", "title": "the program for URL-encoded forms stores what was sent", "statement": "The program in the tests that reads the head of a request and then its URL-encoded body stores, for every name, the decoded value of the last field with that name, and nothing else; it never panics.", "quantifier": "every well-formed request head and URL-encoded body", "why_tests_cant": "all bodies; the test runs on one file with four fields", "anchors": ["tests/http1_url_encoded.rs", "src/http1/parser.rs:Parser::resume"]}
{"id": "C90", "title": "messages tell values apart", "statement": "The text written by Debug and Display for an error, a parser result, an HTTP/2 frame type, error code, setting, set of flags or frame format determines the value: two values with the same text are equal. The text of an error that names a byte has the value of that byte, in decimal, as its last word.", "quantifier": "every pair of values of each of these types", "why_tests_cant": "all pairs of values; no test looks at a message", "anchors": ["src/http1/parser_error.rs:ParserError::format", "src/fsm.rs:Success", "src/util/decode.rs:DecodeError::format", "src/util/query.rs:QueryError::format", "src/util/field.rs:FieldError::format", "src/http2/setting.rs:Setting::format", "src/http2/flags.rs:Flags::format", "src/http2/frame_format.rs:FrameFormat::format"]}
{"id": "C91", "title": "the HTTP/2 parser without overflow checks", "statement": "Compiled without overflow checks, the HTTP/2 parser never panics: every call returns Eos with the length of the slice or Callback with at most that. Wherever the parser compiled with overflow checks does not panic, both do the same. A frame that is too short for its fields or its padding does not affect how the frames after it are reported.", "quantifier": "every sequence of calls with every handler and slices", "why_tests_cant": "all inputs; tests run in one build mode, and such frames are in none of them", "anchors": ["src/http2/parser.rs:dec_payload_length", "src/http2/parser.rs:actual_length", "src/http2/parser.rs:Parser::resume"]}
{"id": "C92", "title": "body callbacks come in the documented order", "statement": "The callbacks of a body come in the documented order. Chunked: each chunk begins, then has its length, its extensions (name, value, end of the extension), the end of the extensions, and its data; the last chunk has extensions but no data, then come the trailers, the end of the headers and the end of the body. Multipart: each part begins, then has its headers, the end of the headers, and its data; then comes the end of the body. URL-encoded: each field begins, then has its name, then its value; then comes the end of the body. on_body_finished is executed exactly when the body is finished. content_length is asked only in multipart bodies, directly after on_headers_finished.", "quantifier": "every body (also malformed), every slicing, every handler, every moment; multipart boundaries of less than 16384 bytes without CR", "why_tests_cant": "all bodies and slicings; tests compare what was collected, not the order in which it came", "anchors": ["src/http1/http_handler.rs:HttpHandler", "src/http1/parser.rs:Parser::resume"]}
{"id": "C93", "title": "what the documented head program stores for any bytes", "statement": "The program of examples/http1_head_parsing.md, run on any bytes in any slices: if the parser says Finished, the bytes are white space and an accepted head, and the program panics exactly if the value of some header field is not UTF-8. Otherwise it has stored the parts of the start line, and under every header name, in lower case, the value of the last field with that name, and nothing else. Lines that begin with a blank, and fields without a name, are part of the value of the field before them; before the first field they are lost.", "quantifier": "all bytes and all slicings whose first slice is as C18 requires (nine bytes, or a first letter other than H)", "why_tests_cant": "all bytes; the example parses one head, without folded lines or nameless fields", "anchors": ["examples/http1_head_parsing.md", "src/http1/parser.rs:Parser::resume"]}
{"id": "C94", "title": "what the test programs for bodies store for any bytes", "statement": "The programs of tests/http1_chunk_encoded.rs, tests/http1_url_encoded.rs and tests/http1_multipart.rs, run on any bytes: each panics exactly if the bytes are not an accepted head followed by an accepted body. Otherwise each has stored exactly what the body says: per chunk the length, data and extensions, and the trailers; per name the value of the last URL-encoded field with that name, where a field without a value is part of the next name and one without a name is part of the value before; per part the data and the header fields, each name with its last value.", "quantifier": "all inputs; for multipart, all bytes after an accepted head whose content type is a well-formed field with the item boundary, shorter than 16384 bytes and without CR", "why_tests_cant": "all inputs; each test runs its program on one file", "anchors": ["tests/http1_chunk_encoded.rs", "tests/http1_url_encoded.rs", "tests/http1_multipart.rs", "src/http1/parser.rs:Parser::resume"]}
{"id": "C95", "title": "what the HTTP/2 parser without overflow checks reports for any bytes", "statement": "Compiled without overflow checks, the HTTP/2 parser processes any bytes passed as one piece to the end, and the callbacks it executes are exactly those of a reader that goes through the bytes frame by frame and takes a payload shorter than its fields for one 2^24 bytes longer, and one shorter than its padding for one 2^32 bytes longer. Where the parser with overflow checks does not panic, these are its callbacks; where it panics, they are its callbacks up to that point, and after it no further frame and no end of a payload is reported unless 16 MB follow. The comparison holds for input in any slices too.", "quantifier": "all inputs, every handler and all its pauses, for the comparison also all slicings; the comparison for inputs of fewer than 2^24 - 264 bytes", "why_tests_cant": "all inputs; the repository has no test with such frames, and tests run with overflow checks", "anchors": ["src/http2/parser.rs:dec_payload_length", "src/http2/parser.rs:actual_length", "src/http2/parser.rs:Parser::resume"]}
{"id": "C96", "title": "HTTP/1 errors name the byte at which parsing stopped", "statement": "When resume returns an error from a parser that was not dead, the error names a byte of the slice, and byte_count() grows by the number of bytes up to and including that byte; so whatever the slices, the bytes left over are exactly those after the named one. A dead parser reports Dead and counts nothing. ChunkLengthOverflow is never reported.", "quantifier": "every parser that was made, configured and resumed in any way, every slice and every slicing, every handler", "why_tests_cant": "all states of the parser with all bytes; tests check the error kind and its byte for single inputs, not that the byte is the last one that was counted", "anchors": ["src/http1/parser.rs:Parser::resume", "src/http1/parser.rs:Parser::parse", "src/http1/parser.rs:ParserError"]}
{"id": "C97", "title": "what the test program for heads stores for any bytes", "statement": "The program of tests/http1_head.rs, which passes its input to one call and does not look at the result, run on any bytes: it panics exactly if the plain reader of heads (C74) says that the bytes make the parser panic. Otherwise it has stored exactly what its handler makes of what that reader tells; if the bytes are rejected, data of the token with the error may be missing. If they begin with an accepted head, it has stored the method, the URL, the version, and under every header name, in lower case, the value of the last field with that name, and nothing else.", "quantifier": "all inputs that are not empty", "why_tests_cant": "all inputs; the test has one file, does not look at the result of the call, and never sees a head that is cut short or rejected", "anchors": ["tests/http1_head.rs:Handler", "tests/http1_head.rs:head", "src/http1/parser.rs:Parser::resume"]}
{"id": "C98", "title": "a peer gets no more out of a parser than it pays for", "statement": "At every moment of a run, the bytes of data handed to the handler are no more than the bytes that were received, and the callbacks are no more than the bytes received (one more for chunked bodies, two more for URL-encoded bodies). When an HTTP/1 run has ended, the bytes behind the message do not count. For HTTP/2, the payload handed over and nine bytes for each frame reported are no more than the bytes received, and callbacks and six for each frame are no more than that. The bound on the payload also holds without overflow checks, for input in one slice.", "quantifier": "all byte strings, all handlers, all ways of cutting and pausing, any number of calls, complete or not; heads, chunked, URL-encoded and multipart bodies (boundary shorter than 2^14, without CR) and HTTP/2", "why_tests_cant": "a bound for all inputs: replayed multipart data, empty tokens or repeated callbacks in one state would break it for some input, and tests compare only the callbacks of chosen inputs", "anchors": ["src/http1/parser.rs:Parser::resume", "src/http1/http_handler.rs:HttpHandler", "src/http2/parser.rs:Parser::resume", "src/http2/http_handler.rs:HttpHandler"]}
{"id": "C99", "title": "iterators produce no more than their input", "statement": "All calls of next on a field or query iterator together, however many, return names and values with no more bytes than the input; adding the number of items and of errors reported, the sum is at most one more than the length of the input. So escapes, quotes and errors after which iteration goes on cannot make an iterator produce more than it reads.", "quantifier": "all inputs, all delimiters, with and without normalisation, any number of calls", "why_tests_cant": "all inputs and any number of calls; tests iterate over chosen inputs to the first None", "anchors": ["src/util/field.rs:FieldIterator::next", "src/util/query.rs:QueryIterator::next"]}
{"id": "C100", "title": "HTTP/2 callbacks come in the documented order, and no frame gets more payload than it announced", "statement": "In a build with overflow checks, at every moment of every run the history of callbacks is in order: a frame header is only reported when the previous frame is over; a frame with fields first gets the callback with its fields, and the callback for its payload is the one for the announced type; all pieces of payload handed over between a frame header and the next one are together no longer than the announced length, less the pad length and the fields; a payload without padding (or of a type that has none, whatever the flags are) is only marked as finished when the announced length is complete; and without the PRIORITY flag a HEADERS frame reports no priority. (Without overflow checks this is false: a frame that is shorter than its padding is handed more.)", "quantifier": "all byte strings, all handlers, all ways of cutting the input into slices and of pausing, after any number of calls, panics included", "why_tests_cant": "all peers, all slicings, all handlers; tests send well-formed frames of one type at a time", "anchors": ["src/http2/http_handler.rs", "src/http2/parser.rs:Parser::resume"]}
{"id": "C101", "title": "a head ends at its first empty line", "statement": "Leading blanks aside, a head that is accepted ends exactly after its first empty line (CR LF CR LF), and within it CR and LF only occur as CR LF; when the parser asks for more bytes, there was no empty line; when it rejects a head, it has not read beyond the first empty line. So a program that only looks for the empty line, such as a proxy in front, finds the same end of the head, and no bytes after the empty line can be mistaken for a part of it.", "quantifier": "all byte strings, all handlers, all ways of cutting the input into slices and of pausing, all parsers at the start of a head (a parser made with new must get a byte that is no blank first)", "why_tests_cant": "all byte strings and all slicings; folded lines, quoted strings and escapes could hide or fake a line end", "anchors": ["src/http1/parser.rs:Parser::resume", "src/http1/parser.rs:Parser::header_lf2"]}
{"id": "C102", "title": "a head can be passed on", "statement": "A handler that writes down an accepted head as its callbacks come (method, URL, version, status, each header field on one line with one blank after the colon) writes a head that means the same: whatever bytes follow it, every client that gets its first nine bytes at once accepts it, leaves the bytes after it alone, and is told the same method, URL, numbers, names and values; passing it on again gives the same bytes. So nothing that the parser reports can inject a line, a field or the end of the head when it is sent on.", "quantifier": "all byte strings that are accepted as a head, all handlers, all slicings and pauses on both sides, all bytes after the head", "why_tests_cant": "all accepted heads, including folded lines, quoted strings, empty names, leading zeros and leading blanks", "anchors": ["src/http1/parser.rs:Parser::resume", "src/http1/http_handler.rs"]}
{"id": "C103", "title": "a body can be passed on", "statement": "A handler that writes down an accepted chunked, URL-encoded or multipart body as its callbacks come (sizes in hexadecimal digits, values of chunk extensions as quoted strings, names and values of fields with everything but digits and letters escaped, parts between boundaries, header fields on one line each) writes a body that means the same: whatever bytes follow it, every client that reads it to its end accepts it, leaves the bytes after it alone, and is told the same sizes, extensions, fields, parts, trailers and data; passing it on again gives the same bytes. So nothing that is reported can forge the end of a chunk, an extension, a field, a part or the body when it is sent on.", "quantifier": "all byte strings that are accepted as a body of the three kinds, all handlers (for multipart: that tell the same lengths of parts on both sides), all boundaries of fewer than 16384 bytes without CR, all slicings and pauses on both sides, all bytes after the body", "why_tests_cant": "all accepted bodies, including extensions without names or values, escaped quotes, chunks of size zero with extensions, empty fields, escapes that are cut off, folded trailers, and data with pieces of boundaries", "anchors": ["src/http1/parser.rs:Parser::resume", "src/http1/http_handler.rs"]}
{"id": "C104", "title": "HTTP/2 frames can be passed on", "statement": "In a build with overflow checks, the callbacks of a run are at every moment those of complete frames and of at most one frame that is not complete. A handler that collects the callbacks of a frame and writes the frame when it is complete (the same type, flags and stream id, the reported fields, the reported payload, a pad length of 0 where there is one, and the length of what is written) has written all complete frames and nothing of the other one; and whoever reads what was written gets the same callbacks in the same order, with the same fields and payload, except for the announced length, and no panic. Passing it on again gives the same bytes. What is written is never longer than what was received. So nothing that a peer sends can forge a frame when it is sent on.", "quantifier": "all byte strings, all handlers, all ways of cutting the input into slices and of pausing, after any number of calls, panics included; on the second side all handlers, all next bytes, one slice or any slices that do not end within the fields of C41 and C70", "why_tests_cant": "all peers, all slicings, all combinations of frame types, flags, padding and lengths, including frames whose announced length does not fit their type", "anchors": ["src/http2/http_handler.rs", "src/http2/parser.rs:Parser::resume"]}
{"id": "C105", "title": "the items of a query can be passed on", "statement": "Let a loop over a query have given some items, whether it ended at the end of the query or with an error. A program that writes the items down again (a space of a name as +, everything in a value but digits and letters escaped, an item without a value without =, & after each item) writes a query that gives the same items in the same order, without an error; so passing it on again gives the same bytes. So nothing that is in a value can forge another item when it is sent on. The lists of items that can be got are exactly those in which the bytes of names are printable or spaces, none of %, +, =, & and ;, and in which the first name is not empty; the values can be any bytes.", "quantifier": "all byte strings given as a query, all lists of items", "why_tests_cant": "all queries, including those with errors, empty names and values, and values with separators, zero bytes and bytes that are not ASCII", "anchors": ["src/util/query.rs:QueryIterator::next"]}
{"id": "C106", "title": "a connection can be passed on", "statement": "A client reads one head or body after the other with one parser, and decides from what was reported what comes next: a head, a chunked body, a multipart body, or nothing more. A handler writes everything down as the callbacks come, as in C102 and C103. Whatever bytes came in, in whatever slices: when the client has come to the end of the last message, what was written is read by another client that decides in the same way with exactly the same result: the same callbacks in the same order, an end directly after the last message, whatever bytes follow, and the same bytes when it is passed on again. So no input can make a proxy send messages whose borders the next reader sees elsewhere.", "quantifier": "all byte strings, all handlers (that tell the same lengths of parts on both sides), all ways to decide what comes next that depend on the reported data only (boundaries of fewer than 16384 bytes without CR), all slicings and pauses on the first side; on the second side all pauses and all slicings, but slices of at least nine bytes if a method contains H (C72); all bytes after the last message", "why_tests_cant": "all connections of any number of messages, all contents and slicings, including folded lines, data that looks like messages, and methods that are misread in short slices", "anchors": ["src/http1/parser.rs:Parser::resume", "src/http1/parser.rs:Parser::init", "src/http1/http_handler.rs"]}
{"id": "C107", "title": "the items of a header field can be passed on", "statement": "A program that reads a header field with the field iterator and writes the items down again (values always between quotes, bytes that may not stand there after a backslash, the delimiter twice after a quoted value because the code ignores one byte there) writes a field that gives the same items with the same settings, without an error, whatever the first field was and even if reading it ended with an error. The items that can be got at all are exactly those whose names consist of token bytes and slashes, without upper-case letters if names are normalised, and without the delimiter (unless names are normalised and the delimiter is a lower-case letter); names may be empty and values may be any bytes.", "quantifier": "all byte strings, all lists of items, both settings of normalize, all delimiters other than =, /, \", blanks and byte 255", "why_tests_cant": "all fields, delimiters and lists of items; the second part says of infinitely many lists that no field gives them", "anchors": ["src/util/field.rs:FieldIterator::next", "src/util/field.rs:FieldIterator::new"]}
{"id": "C108", "title": "others find the same end of a chunked body", "statement": "A program that only looks at sizes and line ends, as RFC 7230 says (read a line, skip as many bytes as its hexadecimal number says and a CR LF, until the number is zero; then skip to the first empty line), finds the same end of a chunked body as the parser: an accepted body ends exactly there, when the parser asks for more bytes there is no such end yet, and when it rejects a body it has not read beyond it. The end of an accepted body is also found by a program that takes a bare LF for a line end. So a proxy in front of the parser cannot be led to see other messages than the parser does.", "quantifier": "all byte strings, all handlers, all ways of cutting the input into slices and of pausing", "why_tests_cant": "all byte strings and all slicings; quoted strings and escapes in extensions, data that looks like size lines, and folded trailers could hide or fake an end", "anchors": ["src/http1/parser.rs:Parser::resume", "src/http1/parser.rs:Parser::chunk_length_cr", "src/http1/parser.rs:Parser::chunk_extensions_finished"]}
{"id": "C109", "title": "others find the same parts of a multipart body", "statement": "A program that only looks for the delimiter, as RFC 2046 says (the parts of a multipart body are what lies between two occurrences of CR LF, two hyphens and the boundary, and the body ends with the delimiter that two hyphens follow), finds in every accepted multipart body the parts that the parser has reported, and the same end. So a filter in front of the parser that inspects the parts of a form sees what the application gets.", "quantifier": "all byte strings, all boundaries without CR of less than 16384 bytes, all handlers, all ways of cutting the input into slices and of pausing", "why_tests_cant": "all byte strings, all boundaries and all slicings; header lines, beginnings of delimiters in data and lengths told by the handler could hide or fake a delimiter", "anchors": ["src/http1/parser.rs:Parser::resume", "src/http1/parser.rs:Parser::multipart_boundary", "src/http1/parser.rs:Parser::multipart_data_by_byte"]}
{"id": "C110", "title": "others find the same HTTP/2 frames", "statement": "A program that only looks at the lengths in the frame headers, as RFC 7540 says, finds in any input the frames whose headers the HTTP/2 parser reports, in the same order and with the same length, type, flags and stream id; whatever the payloads contain, and also when the last frame is not complete. So a proxy in front of the parser and the parser see the same frames, and no payload is taken for a frame header.", "quantifier": "all byte strings, all handlers, all ways of cutting the input into slices and of pausing", "why_tests_cant": "all byte strings, lengths, flags and slicings; the parser reads fields and padding by type and flags, so that each of them could move the border of a frame", "anchors": ["src/http2/parser.rs:Parser::resume", "src/http2/parser.rs:Parser::frame_length1", "src/http2/parser.rs:Parser::settings_id1"]}
{"id": "C111", "title": "others find the same names and values in a query or form", "statement": "A program that follows the URL standard (split at &, skip empty pieces, split each piece at its first =, decode + and %XY) finds in every query over which a loop ends without an error, and in every URL-encoded body that the parser accepts, the names and values that the code reports, in the same order; empty items aside, and a missing value counting as an empty one. So a filter in front of the code that inspects parameters sees the parameters that the application gets.", "quantifier": "all byte strings, all handlers, all ways of cutting a body into slices and of pausing", "why_tests_cant": "all byte strings and all slicings; separators, = and % at any place, escapes and empty names could be read differently", "anchors": ["src/util/query.rs:QueryIterator::next", "src/http1/parser.rs:Parser::resume", "src/http1/parser.rs:Parser::url_encoded_name"]}
{"id": "C112", "title": "others find the same start line and header fields", "statement": "A program that takes the bytes of a head apart at line ends, the first line at its blanks and every other line at its first colon finds, in every head that the parser accepts, the method, URL, version, status, header names (in lower case) and values that were reported, in the same order, and the same end of the head; whether it takes only CR LF or also a bare LF for a line end, and whether or not it drops blanks at the end of values. So a proxy in front of the code cannot be made to see other header fields than the application.", "quantifier": "all byte strings, all handlers, all ways of cutting a head into slices and of pausing", "why_tests_cant": "all byte strings and all slicings; colons, blanks, folded lines, quoted strings and line ends at any place could be read differently", "anchors": ["src/http1/parser.rs:Parser::resume", "src/http1/parser.rs:Parser::lower_header_name", "src/http1/parser.rs:Parser::header_value", "src/http1/parser.rs:Parser::request_url2"]}
{"id": "C113", "title": "others find the same items in a header field", "statement": "A program that reads the items of a header field by the usual rules (a name goes up to = or the delimiter; a value is a quoted string, after which everything up to the next delimiter is ignored, or goes up to the delimiter) finds, in every field over which a loop ends without an error, the names and values that the iterator returns, in the same order; empty items aside, and a missing value counting as an empty one. So a filter in front of the code that inspects, say, the media type or a boundary sees what the application gets.", "quantifier": "all byte strings, all delimiters other than =, /, a quote and blanks, both settings of normalize", "why_tests_cant": "all byte strings; quotes, escapes, delimiters within quotes, blanks and empty items at any place could be read differently", "anchors": ["src/util/field.rs:FieldIterator::next"]}
{"id": "C114", "title": "others cut a connection into the same messages", "statement": "A client reads a connection of heads, chunked bodies and URL-encoded bodies of a given length, deciding from the start line and fields of each head which body follows, and stops after some message. Another program with the same rule, which cuts the same bytes into messages by line ends, colons, chunk sizes and lengths, finds the same number of messages, with the same start lines and fields, the same ones with a body, and the same place where the last one ends. In a run that is rejected or lacks bytes, the messages before are those that others find first, and the head or body in which it stops begins where they see it begin. So a request cannot be hidden in another from a proxy in front of the code, nor from the code.", "quantifier": "all byte strings, all slicings, all handlers, all rules and all stopping points, any number of messages", "why_tests_cant": "all byte strings and slicings; a difference may come from any message before, and from data that looks like a head", "anchors": ["src/http1/parser.rs:Parser::resume", "src/http1/parser.rs:Parser::init_head", "src/http1/parser.rs:Parser::init_chunked", "src/http1/parser.rs:Parser::init_url_encoded", "src/http1/parser.rs:Parser::set_length"]}
{"id": "C115", "title": "what any bytes mean as a connection", "statement": "A client reads any bytes as a connection, with one parser; after each head or body it decides from what was reported whether to go on with a head, a chunked body, a URL-encoded body or a multipart body. The calls report exactly what the descriptions of heads and bodies (C74 to C77) say, one after the other, each beginning directly after the one before: the same callbacks, the same end, error or panic, and the same bytes left over. Nothing of an earlier message has an influence on a later one but through the decisions. How the bytes are cut and when the handler pauses does not matter, except where a head starts with H (C72).", "quantifier": "all byte strings, all slicings and pauses, all ways to decide that depend on the reported data only, all handlers whose lengths of parts do, boundaries of fewer than 16384 bytes without CR, any number of messages", "why_tests_cant": "all byte strings, valid or not, in all slicings; state left over from any message could change the reading of any later one", "anchors": ["src/http1/parser.rs:Parser::resume", "src/http1/parser.rs:Parser::init_head", "src/http1/parser.rs:Parser::init_chunked", "src/http1/parser.rs:Parser::init_multipart", "src/http1/parser.rs:Parser::init_url_encoded", "src/http1/parser.rs:Parser::set_boundary", "src/http1/parser.rs:Parser::set_length"]}
{"id": "C116", "title": "what was reported of a connection is final", "statement": "When a client has read all the bytes it has so far as a connection (heads and bodies one after the other, with one parser, each asked for as the reports so far tell), bytes that come later never change what was reported: if the connection has come to its end or was rejected, it still is, with the same reports, and the new bytes stay unprocessed; otherwise all the reports so far come first, whatever follows (if an error or a panic follows, the data of the token in which it occurs may be withheld). It does not matter how either client cuts the bytes or pauses.", "quantifier": "every byte string and every continuation of it, every slicing of both, every pausing handler, all ways to decide what comes next that depend on the reported data only, any number of messages", "why_tests_cant": "all continuations of all connections in all slicings; a message could be read differently once the next one is there", "anchors": ["src/http1/parser.rs:Parser::resume", "src/http1/parser.rs:Parser::init_head", "src/http1/parser.rs:Parser::init_chunked", "src/http1/parser.rs:Parser::init_multipart", "src/http1/parser.rs:Parser::init_url_encoded"]}
{"id": "C117", "title": "the work is linear in the number of bytes", "statement": "No peer can make the parsers work more than a fixed amount for each byte it sends. The HTTP/1 parser goes at most 8 times around its loop for each byte that it processes and 8 times for each call, the HTTP/2 parser at most 4 times; over a whole message, or a connection with any number of messages, too. This does not depend on how the bytes are cut, how often a handler pauses, or how long the slices are that are passed again after a pause.", "quantifier": "all byte strings, all slicings, all handlers, all states of the parser, any number of messages", "why_tests_cant": "a bound for all inputs, slicings and handlers; the worst case need not be among the tests, and tests do not count", "anchors": ["src/http1/parser.rs:Parser::parse", "src/http1/parser.rs:Parser::resume", "src/http2/parser.rs:Parser::resume"]}
{"id": "C118", "title": "HTTP/2 payload data is taken from the slice that was passed", "statement": "The payload data that a call of the HTTP/2 parser hands over (on_data, on_headers_fragment, on_go_away_debug_data, on_ping, on_unsupported) are pieces of the slice that was passed to this very call, in their order in the slice and without overlap, and they lie within the bytes that the call reports as processed. Nothing is held back from an earlier call. So over a whole connection, however it is cut and whenever callbacks pause, no byte is handed over twice or out of order.", "quantifier": "all parsers in all reachable states, all slices, all handlers, all slicings of all byte strings; with and without overflow checks; also calls that panic", "why_tests_cant": "all states at which a slice can begin and all places at which a callback can pause; a byte that is handed over twice shows only for certain cuts", "anchors": ["src/http2/parser.rs:Parser::resume", "src/http2/parser.rs:parse_payload_data!"]}
{"id": "C119", "title": "between frames an HTTP/2 parser is as good as new", "statement": "When an HTTP/2 parser is between two frames (its state() is FrameLength1), nothing that it has read before has any influence on what follows: for all later calls it returns the same results, executes the same callbacks and reports the same state as a newly created parser; only byte_count() includes the earlier bytes. The same holds after reset(), in any state, where byte_count() starts anew.", "quantifier": "all parsers in this state, with any contents of the internal registers; all sequences of later calls with any slices and handlers; with and without overflow checks", "why_tests_cant": "all earlier and all later inputs; what an earlier frame left behind could show only with certain flags or lengths of a later one", "anchors": ["src/http2/parser.rs:Parser::resume", "src/http2/parser.rs:Parser::reset", "src/http2/parser.rs:Parser::state"]}
