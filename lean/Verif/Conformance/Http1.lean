import Verif.Conformance.Http1Base

/-!
# The tests of the HTTP/1 parser, run on the model

Made by conformance/http1.py from /repo/src/http1/test. Nothing here is a proof about the code; the tests
of the repository say what its authors saw the code do, and the model does the same.
-/

namespace Verif.Conformance.Http1

open Verif.Http1

/-- `on_chunk_begin`, src/http1/test/chunked/callback.rs lines 20-41. -/
example : (check (refuse [.chunkBegin])
   [.init .chunked,
    .callback b!"F" .chunkLength2 1]) = true := by decide +kernel

/-- `on_chunk_data`, src/http1/test/chunked/callback.rs lines 43-72. -/
example : (check (refuse [.chunkData])
   [.init .chunked,
    .eos b!"F\r\n" .chunkData 3,
    .callback b!"X" .chunkData 1]) = true := by decide +kernel

/-- `on_chunk_extension_finished`, src/http1/test/chunked/callback.rs lines 74-95. -/
example : (check (refuse [.chunkExtensionFinished])
   [.init .chunked,
    .callback b!"F;extension;" .stripChunkExtensionName 12]) = true := by decide +kernel

/-- `on_chunk_extension_name`, src/http1/test/chunked/callback.rs lines 97-118. -/
example : (check (refuse [.chunkExtensionName])
   [.init .chunked,
    .callback b!"F;extension" .lowerChunkExtensionName 11]) = true := by decide +kernel

/-- `on_chunk_extension_value`, src/http1/test/chunked/callback.rs lines 120-141. -/
example : (check (refuse [.chunkExtensionValue])
   [.init .chunked,
    .callback b!"F;extension=v" .chunkExtensionValue 13]) = true := by decide +kernel

/-- `on_chunk_extensions_finished`, src/http1/test/chunked/callback.rs lines 143-164. -/
example : (check (refuse [.chunkExtensionsFinished])
   [.init .chunked,
    .callback b!"F\r" .chunkLengthLf 2]) = true := by decide +kernel

/-- `on_chunk_length`, src/http1/test/chunked/callback.rs lines 166-187. -/
example : (check (refuse [.chunkLength])
   [.init .chunked,
    .callback b!"F\r" .chunkExtensionsFinished 2]) = true := by decide +kernel

/-- `entire_chunk`, src/http1/test/chunked/data.rs lines 38-54. -/
example : (check debug
   [.init .chunked,
    .eos b!"C\r\n" .chunkData 3,
    .eos b!"Hello, Rust!\r\n" .chunkLength1 14,
    .data .chunkData b!"Hello, Rust!"]) = true := by decide +kernel

/-- `entire_iter`, src/http1/test/chunked/data.rs lines 56-83. -/
example : (check debug
   [.init .chunked,
    .eos b!"C\r\n" .chunkData 3,
    .each b!"Hello, Rust!\r\n",
    .data .chunkData b!"Hello, Rust!"]) = true := by decide +kernel

/-- `state_chunk_length1`, src/http1/test/chunked/data.rs lines 85-107. -/
example : (check debug
   [.init .chunked,
    .eos b!"C\r\n" .chunkData 3,
    .each b!"Hello, Rust!\r\n"]) = true := by decide +kernel

/-- `allowed`, src/http1/test/chunked/extension_name.rs lines 39-52. -/
example : ((vec_token).all (fun b => check debug
   [.init .chunked,
    .eos b!"F;" .stripChunkExtensionName 2,
    .eos [b] .lowerChunkExtensionName 1])) = true := by decide +kernel

/-- `entire_iter`, src/http1/test/chunked/extension_name.rs lines 54-77. -/
example : (check debug
   [.init .chunked,
    .eos b!"F;" .stripChunkExtensionName 2,
    .each b!"Ext1;Ext2\r",
    .data .chunkExtensionName b!"ext1ext2"]) = true := by decide +kernel

/-- `not_allowed`, src/http1/test/chunked/extension_name.rs lines 79-97. -/
example : (((((((vec_non_token).filter fun x => (x != 13)).filter fun x => (x != 9)).filter fun x => (x != 32)).filter fun x => (x != 61)).filter fun x => (x != 59)).all (fun b => check debug
   [.init .chunked,
    .eos b!"F;" .stripChunkExtensionName 2,
    .error [b] (.chunkExtensionName b)])) = true := by decide +kernel

/-- `state_chunk_extensions_finished`, src/http1/test/chunked/extension_name.rs lines 99-109. -/
example : (check debug
   [.init .chunked,
    .eos b!"F;" .stripChunkExtensionName 2,
    .each b!"E\r"]) = true := by decide +kernel

/-- `state_strip_chunk_extension_name1`, src/http1/test/chunked/extension_name.rs lines 111-121. -/
example : (check debug
   [.init .chunked,
    .eos b!"F;" .stripChunkExtensionName 2,
    .each b!"E;"]) = true := by decide +kernel

/-- `state_strip_chunk_extension_name2`, src/http1/test/chunked/extension_name.rs lines 123-133. -/
example : (check debug
   [.init .chunked,
    .eos b!"F;" .stripChunkExtensionName 2,
    .each b!" \t"]) = true := by decide +kernel

/-- `state_strip_chunk_extension_value`, src/http1/test/chunked/extension_name.rs lines 135-145. -/
example : (check debug
   [.init .chunked,
    .eos b!"F;" .stripChunkExtensionName 2,
    .each b!"E="]) = true := by decide +kernel

/-- `allowed`, src/http1/test/chunked/extension_value.rs lines 40-53. -/
example : ((vec_token).all (fun b => check debug
   [.init .chunked,
    .eos b!"F;Extension=" .stripChunkExtensionValue 12,
    .eos [b] .chunkExtensionValue 1])) = true := by decide +kernel

/-- `allowed_escaped`, src/http1/test/chunked/extension_value.rs lines 55-77. -/
example : (((range 0 255).filter fun x => (decide (x > 31)) && (decide (x < 123))).all (fun b => check debug
   [.init .chunked,
    .eos b!"F;Extension=" .stripChunkExtensionValue 12,
    .eos b!"escaped \"\\" .chunkExtensionEscapedValue 10,
    .eos [b] .chunkExtensionQuotedValue 1])) = true := by decide +kernel

/-- `allowed_header_fields`, src/http1/test/chunked/extension_value.rs lines 79-109. -/
example : (((((vec_header_field).filter fun x => (x != 9)).filter fun x => (x != 59)).filter fun x => (x != 32)).all (fun b => check debug
   [.init .chunked,
    .eos b!"F;Extension=" .stripChunkExtensionValue 12,
    .eos [b] .chunkExtensionValue 1,
    .eos b!"\r" .chunkLengthLf 1,
    .data .chunkExtensionValue [b]])) = true := by decide +kernel

/-- `allowed_quoted_header_fields`, src/http1/test/chunked/extension_value.rs lines 111-148. -/
example : ((((vec_quoted_header_field).filter fun x => (x != 34)).filter fun x => (x != 92)).all (fun b => check debug
   [.init .chunked,
    .eos b!"F;Extension=" .stripChunkExtensionValue 12,
    .eos b!"\"" .chunkExtensionQuotedValue 1,
    .eos [b] .chunkExtensionQuotedValue 1,
    .eos b!"\"" .chunkExtensionValue 1,
    .data .chunkExtensionValue [b]])) = true := by decide +kernel

/-- `entire_iter`, src/http1/test/chunked/extension_value.rs lines 150-179. -/
example : (check debug
   [.init .chunked,
    .eos b!"F;Extension=" .stripChunkExtensionValue 12,
    .each b!"\"va\\lue1\"value2\r",
    .data .chunkExtensionValue b!"value1value2"]) = true := by decide +kernel

/-- `not_allowed_header_fields_error`, src/http1/test/chunked/extension_value.rs lines 181-197. -/
example : ((((((range 0 255).filter fun x => !(tIsHeaderField x)).filter fun x => (x != 13)).filter fun x => (x != 59)).filter fun x => (x != 34)).all (fun b => check debug
   [.init .chunked,
    .eos b!"F;Extension=" .stripChunkExtensionValue 12,
    .error [b] (.chunkExtensionValue b)])) = true := by decide +kernel

/-- `not_allowed_quoted_header_fields_error`, src/http1/test/chunked/extension_value.rs lines 199-222. -/
example : (((((range 0 255).filter fun x => !(tIsQuotedHeaderField x)).filter fun x => (x != 34)).filter fun x => (x != 92)).all (fun b => check debug
   [.init .chunked,
    .eos b!"F;Extension=" .stripChunkExtensionValue 12,
    .eos b!"\"" .chunkExtensionQuotedValue 1,
    .error [b] (.chunkExtensionValue b)])) = true := by decide +kernel

/-- `state_strip_chunk_extension_name`, src/http1/test/chunked/extension_value.rs lines 224-234. -/
example : (check debug
   [.init .chunked,
    .eos b!"F;Extension=" .stripChunkExtensionValue 12,
    .each b!"V;"]) = true := by decide +kernel

/-- `state_chunk_extension_escaped_value`, src/http1/test/chunked/extension_value.rs lines 236-247. -/
example : (check debug
   [.init .chunked,
    .eos b!"F;Extension=" .stripChunkExtensionValue 12,
    .each b!"V\"\\"]) = true := by decide +kernel

/-- `state_chunk_extension_quoted_value`, src/http1/test/chunked/extension_value.rs lines 249-259. -/
example : (check debug
   [.init .chunked,
    .eos b!"F;Extension=" .stripChunkExtensionValue 12,
    .each b!"V\""]) = true := by decide +kernel

/-- `state_chunk_extension_value`, src/http1/test/chunked/extension_value.rs lines 261-273. -/
example : (check debug
   [.init .chunked,
    .eos b!"F;Extension=" .stripChunkExtensionValue 12,
    .each b!"V\"V\""]) = true := by decide +kernel

/-- `finished`, src/http1/test/chunked/finished.rs lines 20-48. -/
example : (check debug
   [.init .chunked,
    .finished b!"0\r\nTrailer1: value1; value2\r\nTrailer2: complex=\"value\"\r\n\r\n" 58,
    .data .headerName b!"trailer1trailer2",
    .data .headerValue b!"value1; value2complex=\"value\""]) = true := by decide +kernel

/-- `allowed1`, src/http1/test/chunked/length.rs lines 30-46. -/
example : (check debug
   [.init .chunked,
    .eos b!"F\r" .chunkLengthLf 2,
    .num .chunkLength (15)]) = true := by decide +kernel

/-- `allowed2`, src/http1/test/chunked/length.rs lines 48-64. -/
example : (check debug
   [.init .chunked,
    .eos b!"FF\r" .chunkLengthLf 3,
    .num .chunkLength (255)]) = true := by decide +kernel

/-- `allowed3`, src/http1/test/chunked/length.rs lines 66-82. -/
example : (check debug
   [.init .chunked,
    .eos b!"FFF\r" .chunkLengthLf 4,
    .num .chunkLength (4095)]) = true := by decide +kernel

/-- `allowed4`, src/http1/test/chunked/length.rs lines 84-100. -/
example : (check debug
   [.init .chunked,
    .eos b!"FFFF\r" .chunkLengthLf 5,
    .num .chunkLength (65535)]) = true := by decide +kernel

/-- `allowed5`, src/http1/test/chunked/length.rs lines 102-118. -/
example : (check debug
   [.init .chunked,
    .eos b!"FFFFF\r" .chunkLengthLf 6,
    .num .chunkLength (1048575)]) = true := by decide +kernel

/-- `allowed6`, src/http1/test/chunked/length.rs lines 120-136. -/
example : (check debug
   [.init .chunked,
    .eos b!"FFFFFF\r" .chunkLengthLf 7,
    .num .chunkLength (16777215)]) = true := by decide +kernel

/-- `allowed7`, src/http1/test/chunked/length.rs lines 138-154. -/
example : (check debug
   [.init .chunked,
    .eos b!"FFFFFFF\r" .chunkLengthLf 8,
    .num .chunkLength (268435455)]) = true := by decide +kernel

/-- `allowed8`, src/http1/test/chunked/length.rs lines 156-172. -/
example : (check debug
   [.init .chunked,
    .eos b!"FFFFFFFF\r" .chunkLengthLf 9,
    .num .chunkLength (4294967295)]) = true := by decide +kernel

/-- `entire_iter`, src/http1/test/chunked/length.rs lines 174-196. -/
example : (check debug
   [.init .chunked,
    .each b!"FFFFFFFF\r",
    .num .chunkLength (4294967295)]) = true := by decide +kernel

/-- `not_allowed_hex_error1`, src/http1/test/chunked/length.rs lines 198-210. -/
example : (((range 0 255).filter fun x => !(isHex x)).all (fun b => check debug
   [.init .chunked,
    .error [b] (.chunkLength b)])) = true := by decide +kernel

/-- `not_allowed_hex_error2`, src/http1/test/chunked/length.rs lines 212-235. -/
example : (((((range 0 255).filter fun x => !(isHex x)).filter fun x => (x != 13)).filter fun x => (x != 59)).all (fun b => check debug
   [.init .chunked,
    .eos b!"F" .chunkLength2 1,
    .error [b] (.chunkLength b)])) = true := by decide +kernel

/-- `not_allowed_hex_error3`, src/http1/test/chunked/length.rs lines 237-260. -/
example : (((((range 0 255).filter fun x => !(isHex x)).filter fun x => (x != 13)).filter fun x => (x != 59)).all (fun b => check debug
   [.init .chunked,
    .eos b!"FF" .chunkLength3 2,
    .error [b] (.chunkLength b)])) = true := by decide +kernel

/-- `not_allowed_hex_error4`, src/http1/test/chunked/length.rs lines 262-285. -/
example : (((((range 0 255).filter fun x => !(isHex x)).filter fun x => (x != 13)).filter fun x => (x != 59)).all (fun b => check debug
   [.init .chunked,
    .eos b!"FFF" .chunkLength4 3,
    .error [b] (.chunkLength b)])) = true := by decide +kernel

/-- `not_allowed_hex_error5`, src/http1/test/chunked/length.rs lines 287-310. -/
example : (((((range 0 255).filter fun x => !(isHex x)).filter fun x => (x != 13)).filter fun x => (x != 59)).all (fun b => check debug
   [.init .chunked,
    .eos b!"FFFF" .chunkLength5 4,
    .error [b] (.chunkLength b)])) = true := by decide +kernel

/-- `not_allowed_hex_error6`, src/http1/test/chunked/length.rs lines 312-335. -/
example : (((((range 0 255).filter fun x => !(isHex x)).filter fun x => (x != 13)).filter fun x => (x != 59)).all (fun b => check debug
   [.init .chunked,
    .eos b!"FFFFF" .chunkLength6 5,
    .error [b] (.chunkLength b)])) = true := by decide +kernel

/-- `not_allowed_hex_error7`, src/http1/test/chunked/length.rs lines 337-360. -/
example : (((((range 0 255).filter fun x => !(isHex x)).filter fun x => (x != 13)).filter fun x => (x != 59)).all (fun b => check debug
   [.init .chunked,
    .eos b!"FFFFFF" .chunkLength7 6,
    .error [b] (.chunkLength b)])) = true := by decide +kernel

/-- `not_allowed_hex_error8`, src/http1/test/chunked/length.rs lines 362-385. -/
example : (((((range 0 255).filter fun x => !(isHex x)).filter fun x => (x != 13)).filter fun x => (x != 59)).all (fun b => check debug
   [.init .chunked,
    .eos b!"FFFFFFF" .chunkLength8 7,
    .error [b] (.chunkLength b)])) = true := by decide +kernel

/-- `overflow_error`, src/http1/test/chunked/length.rs lines 387-397. -/
example : (check debug
   [.init .chunked,
    .error b!"FFFFFFFFF" (.chunkLength 70)]) = true := by decide +kernel

/-- `state_chunk_data`, src/http1/test/chunked/length.rs lines 399-410. -/
example : (check debug
   [.init .chunked,
    .each b!"F\r\n"]) = true := by decide +kernel

/-- `state_extension_name`, src/http1/test/chunked/length.rs lines 412-422. -/
example : (check debug
   [.init .chunked,
    .each b!"F;"]) = true := by decide +kernel

/-- `on_header_name`, src/http1/test/head/callback.rs lines 20-41. -/
example : (check (refuse [.headerName])
   [.callback b!"X / HTTP/1.1\r\nH" .lowerHeaderName 15]) = true := by decide +kernel

/-- `on_header_value`, src/http1/test/head/callback.rs lines 43-64. -/
example : (check (refuse [.headerValue])
   [.callback b!"X / HTTP/1.1\r\nH: v" .headerValue 18]) = true := by decide +kernel

/-- `allowed_alpha_lowercase`, src/http1/test/head/header_name.rs lines 37-63. -/
example : ((vec_alpha_lower).all (fun b => check debug
   [.eos b!"GET / HTTP/1.1\r\n" .headerCr2 16,
    .eos [b] .lowerHeaderName 1,
    .eos b!":" .stripHeaderValue 1,
    .data .headerName [b]])) = true := by decide +kernel

/-- `allowed_alpha_uppercase`, src/http1/test/head/header_name.rs lines 65-92. -/
example : ((vec_alpha_upper).all (fun b => check debug
   [.eos b!"GET / HTTP/1.1\r\n" .headerCr2 16,
    .eos [b] .lowerHeaderName 1,
    .eos b!":" .stripHeaderValue 1,
    .data .headerName [b + 32]])) = true := by decide +kernel

/-- `allowed_tokens_without_alpha`, src/http1/test/head/header_name.rs lines 94-120. -/
example : (((vec_token).filter fun x => !(isAlpha x)).all (fun b => check debug
   [.eos b!"GET / HTTP/1.1\r\n" .headerCr2 16,
    .eos [b] .lowerHeaderName 1,
    .eos b!":" .stripHeaderValue 1,
    .data .headerName [b]])) = true := by decide +kernel

/-- `entire_iter`, src/http1/test/head/header_name.rs lines 122-142. -/
example : (check debug
   [.eos b!"GET / HTTP/1.1\r\n" .headerCr2 16,
    .each b!"Header:",
    .data .headerName b!"header"]) = true := by decide +kernel

/-- `not_allowed_error`, src/http1/test/head/header_name.rs lines 144-165. -/
example : (((vec_non_token).filter fun x => (x != 58)).all (fun b => check debug
   [.eos b!"GET / HTTP/1.1\r\n" .headerCr2 16,
    .eos b!"X" .lowerHeaderName 1,
    .error [b] (.headerName b)])) = true := by decide +kernel

/-- `state_strip_header_value`, src/http1/test/head/header_name.rs lines 167-177. -/
example : (check debug
   [.eos b!"GET / HTTP/1.1\r\n" .headerCr2 16,
    .each b!"H:"]) = true := by decide +kernel

/-- `allowed_escaped`, src/http1/test/head/header_value.rs lines 40-62. -/
example : (((range 0 255).filter fun x => (decide (x > 31)) && (decide (x < 123))).all (fun b => check debug
   [.eos b!"GET / HTTP/1.1\r\nHeader:" .stripHeaderValue 23,
    .eos b!"escaped \"\\" .headerEscapedValue 10,
    .eos [b] .headerQuotedValue 1])) = true := by decide +kernel

/-- `allowed_header_fields`, src/http1/test/head/header_value.rs lines 64-93. -/
example : ((((vec_header_field).filter fun x => (x != 32)).filter fun x => (x != 9)).all (fun b => check debug
   [.eos b!"GET / HTTP/1.1\r\nHeader:" .stripHeaderValue 23,
    .eos [b] .headerValue 1,
    .eos b!"\r" .headerLf1 1,
    .at .headerValue 0 b])) = true := by decide +kernel

/-- `allowed_quoted_header_fields`, src/http1/test/head/header_value.rs lines 95-147. -/
example : ((((vec_quoted_header_field).filter fun x => (x != 34)).filter fun x => (x != 92)).all (fun b => check debug
   [.eos b!"GET / HTTP/1.1\r\nHeader:" .stripHeaderValue 23,
    .eos b!"\"" .headerQuotedValue 1,
    .eos [b] .headerQuotedValue 1,
    .eos b!"\"" .headerValue 1,
    .size .headerValue 3,
    .at .headerValue 0 34,
    .at .headerValue 1 b,
    .at .headerValue 2 34])) = true := by decide +kernel

/-- `entire_iter`, src/http1/test/head/header_value.rs lines 149-178. -/
example : (check debug
   [.eos b!"GET / HTTP/1.1\r\nHeader:" .stripHeaderValue 23,
    .each b!"\"va\\lue1\"value2\r",
    .data .headerValue b!"\"va\\lue1\"value2"]) = true := by decide +kernel

/-- `multiline`, src/http1/test/head/header_value.rs lines 180-212. -/
example : (check debug
   [.eos b!"GET / HTTP/1.1\r\nHeader:" .stripHeaderValue 23,
    .eos b!"Part1\r\n" .headerCr2 7,
    .eos b!" Part2\r\n" .headerCr2 8,
    .eos b!" Part3\r\n" .headerCr2 8,
    .data .headerValue b!"Part1Part2Part3"]) = true := by decide +kernel

/-- `not_allowed_escaped_error`, src/http1/test/head/header_value.rs lines 214-235. -/
example : (((range 0 255).filter fun x => (decide (x < 32)) || (decide (x > 122))).all (fun b => check debug
   [.eos b!"GET / HTTP/1.1\r\nHeader:" .stripHeaderValue 23,
    .eos b!"escaped \"\\" .headerEscapedValue 10,
    .error [b] (.headerValue b)])) = true := by decide +kernel

/-- `not_allowed_header_fields_error`, src/http1/test/head/header_value.rs lines 237-252. -/
example : (((((range 0 255).filter fun x => !(tIsHeaderField x)).filter fun x => (x != 13)).filter fun x => (x != 34)).all (fun b => check debug
   [.eos b!"GET / HTTP/1.1\r\nHeader:" .stripHeaderValue 23,
    .error [b] (.headerValue b)])) = true := by decide +kernel

/-- `not_allowed_quoted_header_fields_error`, src/http1/test/head/header_value.rs lines 254-277. -/
example : (((((range 0 255).filter fun x => !(tIsQuotedHeaderField x)).filter fun x => (x != 34)).filter fun x => (x != 92)).all (fun b => check debug
   [.eos b!"GET / HTTP/1.1\r\nHeader:" .stripHeaderValue 23,
    .eos b!"\"" .headerQuotedValue 1,
    .error [b] (.headerValue b)])) = true := by decide +kernel

/-- `state_finished`, src/http1/test/head/header_value.rs lines 279-298. -/
example : (check debug
   [.eos b!"GET / HTTP/1.1\r\nHeader:" .stripHeaderValue 23,
    .each b!"V\r\n\r",
    .finished b!"\n" 1]) = true := by decide +kernel

/-- `on_multipart_begin`, src/http1/test/multipart/callback.rs lines 20-42. -/
example : (check (refuse [.multipartBegin])
   [.init .multipart,
    .setBoundary b!"XTestBoundaryX",
    .callback b!"--XTestBoundaryX\r" .initialLf 17]) = true := by decide +kernel

/-- `on_multipart_data`, src/http1/test/multipart/callback.rs lines 44-72. -/
example : (check (refuse [.multipartData])
   [.init .multipart,
    .setBoundary b!"XTestBoundaryX",
    .callback b!"--XTestBoundaryX\r\nHeader: Value\r\n\r\nData" .multipartDataByByte 39]) = true := by decide +kernel

/-- `finished`, src/http1/test/multipart/finished.rs lines 20-39. -/
example : (check debug
   [.init .multipart,
    .setBoundary b!"XTestBoundaryX",
    .finished b!"--XTestBoundaryX\r\n\r\nThis is the data.\r\n--XTestBoundaryX--" 57]) = true := by decide +kernel

/-- `headers`, src/http1/test/multipart/headers.rs lines 20-48. -/
example : (check debug
   [.init .multipart,
    .setBoundary b!"XTestBoundaryX",
    .eos b!"--XTestBoundaryX\r\nHeader1: Value1\r\nHeader2: Value2\r\n" .headerCr2 52,
    .data .headerName b!"header1header2",
    .data .headerValue b!"Value1Value2"]) = true := by decide +kernel

/-- `on_method`, src/http1/test/request/callback.rs lines 20-39. -/
example : (check (refuse [.method])
   [.callback b!"X" .requestMethod 1]) = true := by decide +kernel

/-- `on_url`, src/http1/test/request/callback.rs lines 41-60. -/
example : (check (refuse [.url])
   [.callback b!"X /" .requestUrl2 3]) = true := by decide +kernel

/-- `on_version`, src/http1/test/request/callback.rs lines 62-81. -/
example : (check (refuse [.version])
   [.callback b!"X / HTTP/1.1\r" .initialEnd 13]) = true := by decide +kernel

/-- `allowed`, src/http1/test/request/method.rs lines 27-54. -/
example : (((vec_alpha_upper).filter fun x => (x != 72)).all (fun b => check debug
   [.eos [b] .requestMethod 1,
    .eos b!" " .requestUrl1 1,
    .data .method [b]])) = true := by decide +kernel

/-- `callback_exit`, src/http1/test/request/method.rs lines 56-75. -/
example : (check (refuse [.method])
   [.callback b!"X" .requestMethod 1]) = true := by decide +kernel

/-- `entire_iter`, src/http1/test/request/method.rs lines 77-97. -/
example : (check debug
   [.each b!"METHOD ",
    .data .method b!"METHOD"]) = true := by decide +kernel

/-- `not_allowed_error`, src/http1/test/request/method.rs lines 99-112. -/
example : ((range 0 65 ++ range 91 255).all (fun b => check debug
   [.error [b] (.method b)])) = true := by decide +kernel

/-- `state_request_url`, src/http1/test/request/method.rs lines 114-124. -/
example : (check debug
   [.each b!"M "]) = true := by decide +kernel

/-- `allowed`, src/http1/test/request/url.rs lines 38-51. -/
example : ((vec_visible_7bit).all (fun b => check debug
   [.eos b!"GET " .requestUrl1 4,
    .eos [b] .requestUrl2 1])) = true := by decide +kernel

/-- `entire_iter`, src/http1/test/request/url.rs lines 53-72. -/
example : (check debug
   [.eos b!"GET " .requestUrl1 4,
    .each b!"/path ",
    .data .url b!"/path"]) = true := by decide +kernel

/-- `not_allowed_error`, src/http1/test/request/url.rs lines 74-89. -/
example : ((((vec_non_visible_7bit).filter fun x => (x != 9)).filter fun x => (x != 32)).all (fun b => check debug
   [.eos b!"GET " .requestUrl1 4,
    .error [b] (.url b)])) = true := by decide +kernel

/-- `state_request_http1`, src/http1/test/request/url.rs lines 91-101. -/
example : (check debug
   [.eos b!"GET " .requestUrl1 4,
    .each b!"/ "]) = true := by decide +kernel

/-- `allowed1`, src/http1/test/request/version.rs lines 38-85. -/
example : ((vec_digit).all (fun b => check debug
   [.eos b!"GET /path HTTP/" .requestVersionMajor1 15,
    .eos [b] .requestVersionMajor2 1,
    .eos b!"." .requestVersionMinor1 1,
    .eos [b] .requestVersionMinor2 1,
    .eos b!"\r" .initialLf 1,
    .num .major ((b.toNat - 48)),
    .num .minor ((b.toNat - 48))])) = true := by decide +kernel

/-- `allowed2`, src/http1/test/request/version.rs lines 87-150. -/
example : ((vec_digit).all (fun b => check debug
   [.eos b!"GET /path HTTP/" .requestVersionMajor1 15,
    .eos [b] .requestVersionMajor2 1,
    .eos [b] .requestVersionMajor3 1,
    .eos b!"." .requestVersionMinor1 1,
    .eos [b] .requestVersionMinor2 1,
    .eos [b] .requestVersionMinor3 1,
    .eos b!"\r" .initialLf 1,
    .num .major ((((b.toNat - 48) * 10) + (b.toNat - 48))),
    .num .minor ((((b.toNat - 48) * 10) + (b.toNat - 48)))])) = true := by decide +kernel

/-- `allowed3`, src/http1/test/request/version.rs lines 152-231. -/
example : ((vec_digit).all (fun b => check debug
   [.eos b!"GET /path HTTP/" .requestVersionMajor1 15,
    .eos [b] .requestVersionMajor2 1,
    .eos [b] .requestVersionMajor3 1,
    .eos [b] .requestVersionPeriod 1,
    .eos b!"." .requestVersionMinor1 1,
    .eos [b] .requestVersionMinor2 1,
    .eos [b] .requestVersionMinor3 1,
    .eos [b] .requestVersionCr 1,
    .eos b!"\r" .initialLf 1,
    .num .major ((((b.toNat - 48) * 100) + ((b.toNat - 48) * 10) + (b.toNat - 48))),
    .num .minor ((((b.toNat - 48) * 100) + ((b.toNat - 48) * 10) + (b.toNat - 48)))])) = true := by decide +kernel

/-- `entire_iter`, src/http1/test/request/version.rs lines 233-255. -/
example : (check debug
   [.eos b!"GET /path HTTP/" .requestVersionMajor1 15,
    .each b!"1.1\r",
    .num .major (1),
    .num .minor (1)]) = true := by decide +kernel

/-- `major_not_allowed_error`, src/http1/test/request/version.rs lines 257-269. -/
example : ((vec_non_digit).all (fun b => check debug
   [.eos b!"GET /path HTTP/" .requestVersionMajor1 15,
    .error [b] (.version b)])) = true := by decide +kernel

/-- `major_overflow_error`, src/http1/test/request/version.rs lines 271-281. -/
example : (check debug
   [.eos b!"GET /path HTTP/" .requestVersionMajor1 15,
    .error b!"9990" (.version 48)]) = true := by decide +kernel

/-- `minor_not_allowed_error`, src/http1/test/request/version.rs lines 283-303. -/
example : ((vec_non_digit).all (fun b => check debug
   [.eos b!"GET /path HTTP/" .requestVersionMajor1 15,
    .eos b!"1." .requestVersionMinor1 2,
    .error [b] (.version b)])) = true := by decide +kernel

/-- `minor_overflow_error`, src/http1/test/request/version.rs lines 305-315. -/
example : (check debug
   [.eos b!"GET /path HTTP/" .requestVersionMajor1 15,
    .error b!"1.9990" (.version 48)]) = true := by decide +kernel

/-- `state_lower_header_name`, src/http1/test/request/version.rs lines 317-331. -/
example : (check debug
   [.eos b!"GET /path HTTP/" .requestVersionMajor1 15,
    .each b!"1.1\r\nH"]) = true := by decide +kernel

/-- `on_status`, src/http1/test/response/callback.rs lines 20-39. -/
example : (check (refuse [.status])
   [.callback b!"HTTP/1.1 200 X" .responseStatus2 14]) = true := by decide +kernel

/-- `on_status_code`, src/http1/test/response/callback.rs lines 41-60. -/
example : (check (refuse [.statusCode])
   [.callback b!"HTTP/1.1 200 " .responseStatus1 13]) = true := by decide +kernel

/-- `on_version`, src/http1/test/response/callback.rs lines 62-81. -/
example : (check (refuse [.version])
   [.callback b!"HTTP/1.1 " .responseStatusCode1 9]) = true := by decide +kernel

/-- `allowed`, src/http1/test/response/status.rs lines 37-58. -/
example : ((vec_non_control).all (fun b => check debug
   [.eos b!"HTTP/1.1 200 " .responseStatus1 13,
    .eos b!"X" .responseStatus2 1,
    .eos [b] .responseStatus2 1])) = true := by decide +kernel

/-- `entire_iter`, src/http1/test/response/status.rs lines 60-83. -/
example : (check debug
   [.eos b!"HTTP/1.1 200 " .responseStatus1 13,
    .each b!"NOT FOUND\r",
    .data .status b!"NOT FOUND"]) = true := by decide +kernel

/-- `not_allowed_error`, src/http1/test/response/status.rs lines 85-106. -/
example : (((vec_control).filter fun x => (x != 13)).all (fun b => check debug
   [.eos b!"HTTP/1.1 200 " .responseStatus1 13,
    .eos b!"X" .responseStatus2 1,
    .error [b] (.status b)])) = true := by decide +kernel

/-- `state_lower_header_name`, src/http1/test/response/status.rs lines 108-121. -/
example : (check debug
   [.eos b!"HTTP/1.1 200 " .responseStatus1 13,
    .each b!"OK\r\nH"]) = true := by decide +kernel

/-- `allowed`, src/http1/test/response/status_code.rs lines 37-79. -/
example : ((vec_digit).all (fun b => check debug
   [.eos b!"HTTP/1.1 " .responseStatusCode1 9,
    .eos [b] .responseStatusCode2 1,
    .eos [b] .responseStatusCode3 1,
    .eos [b] .responseStatusCodeSpace 1,
    .eos b!" " .responseStatus1 1,
    .num .statusCode ((((b.toNat - 48) * 100) + ((b.toNat - 48) * 10) + (b.toNat - 48)))])) = true := by decide +kernel

/-- `callback_exit`, src/http1/test/response/status_code.rs lines 81-100. -/
example : (check (refuse [.statusCode])
   [.callback b!"HTTP/1.1 200 " .responseStatus1 13]) = true := by decide +kernel

/-- `entire_iter`, src/http1/test/response/status_code.rs lines 102-119. -/
example : (check debug
   [.eos b!"HTTP/1.1 " .responseStatusCode1 9,
    .each b!"200 ",
    .num .statusCode (200)]) = true := by decide +kernel

/-- `not_allowed_error1`, src/http1/test/response/status_code.rs lines 121-136. -/
example : (((((range 0 255).filter fun x => !(isDigit x)).filter fun x => (x != 9)).filter fun x => (x != 32)).all (fun b => check debug
   [.eos b!"HTTP/1.1 " .responseStatusCode1 9,
    .error [b] (.statusCode b)])) = true := by decide +kernel

/-- `not_allowed_error2`, src/http1/test/response/status_code.rs lines 138-161. -/
example : (((((range 0 255).filter fun x => !(isDigit x)).filter fun x => (x != 9)).filter fun x => (x != 32)).all (fun b => check debug
   [.eos b!"HTTP/1.1 " .responseStatusCode1 9,
    .eos b!"1" .responseStatusCode2 1,
    .error [b] (.statusCode b)])) = true := by decide +kernel

/-- `not_allowed_error3`, src/http1/test/response/status_code.rs lines 163-186. -/
example : (((((range 0 255).filter fun x => !(isDigit x)).filter fun x => (x != 9)).filter fun x => (x != 32)).all (fun b => check debug
   [.eos b!"HTTP/1.1 " .responseStatusCode1 9,
    .eos b!"12" .responseStatusCode3 2,
    .error [b] (.statusCode b)])) = true := by decide +kernel

/-- `state_response_status1`, src/http1/test/response/status_code.rs lines 188-200. -/
example : (check debug
   [.eos b!"HTTP/1.1 " .responseStatusCode1 9,
    .each b!"200 "]) = true := by decide +kernel

/-- `allowed1`, src/http1/test/response/version.rs lines 38-85. -/
example : ((vec_digit).all (fun b => check debug
   [.eos b!"HTTP/" .responseVersionMajor1 5,
    .eos [b] .responseVersionMajor2 1,
    .eos b!"." .responseVersionMinor1 1,
    .eos [b] .responseVersionMinor2 1,
    .eos b!" " .responseStatusCode1 1,
    .num .major ((b.toNat - 48)),
    .num .minor ((b.toNat - 48))])) = true := by decide +kernel

/-- `allowed2`, src/http1/test/response/version.rs lines 87-150. -/
example : ((vec_digit).all (fun b => check debug
   [.eos b!"HTTP/" .responseVersionMajor1 5,
    .eos [b] .responseVersionMajor2 1,
    .eos [b] .responseVersionMajor3 1,
    .eos b!"." .responseVersionMinor1 1,
    .eos [b] .responseVersionMinor2 1,
    .eos [b] .responseVersionMinor3 1,
    .eos b!" " .responseStatusCode1 1,
    .num .major ((((b.toNat - 48) * 10) + (b.toNat - 48))),
    .num .minor ((((b.toNat - 48) * 10) + (b.toNat - 48)))])) = true := by decide +kernel

/-- `allowed3`, src/http1/test/response/version.rs lines 152-231. -/
example : ((vec_digit).all (fun b => check debug
   [.eos b!"HTTP/" .responseVersionMajor1 5,
    .eos [b] .responseVersionMajor2 1,
    .eos [b] .responseVersionMajor3 1,
    .eos [b] .responseVersionPeriod 1,
    .eos b!"." .responseVersionMinor1 1,
    .eos [b] .responseVersionMinor2 1,
    .eos [b] .responseVersionMinor3 1,
    .eos [b] .responseVersionSpace 1,
    .eos b!" " .responseStatusCode1 1,
    .num .major ((((b.toNat - 48) * 100) + ((b.toNat - 48) * 10) + (b.toNat - 48))),
    .num .minor ((((b.toNat - 48) * 100) + ((b.toNat - 48) * 10) + (b.toNat - 48)))])) = true := by decide +kernel

/-- `entire_iter`, src/http1/test/response/version.rs lines 233-255. -/
example : (check debug
   [.eos b!"HTTP/" .responseVersionMajor1 5,
    .each b!"1.1 ",
    .num .major (1),
    .num .minor (1)]) = true := by decide +kernel

/-- `major_not_allowed_error`, src/http1/test/response/version.rs lines 257-269. -/
example : ((vec_non_digit).all (fun b => check debug
   [.eos b!"HTTP/" .responseVersionMajor1 5,
    .error [b] (.version b)])) = true := by decide +kernel

/-- `major_overflow_error`, src/http1/test/response/version.rs lines 271-281. -/
example : (check debug
   [.eos b!"HTTP/" .responseVersionMajor1 5,
    .error b!"9990" (.version 48)]) = true := by decide +kernel

/-- `minor_not_allowed_error`, src/http1/test/response/version.rs lines 283-303. -/
example : ((vec_non_digit).all (fun b => check debug
   [.eos b!"HTTP/" .responseVersionMajor1 5,
    .eos b!"1." .responseVersionMinor1 2,
    .error [b] (.version b)])) = true := by decide +kernel

/-- `minor_overflow_error`, src/http1/test/response/version.rs lines 305-315. -/
example : (check debug
   [.eos b!"HTTP/" .responseVersionMajor1 5,
    .error b!"1.9990" (.version 48)]) = true := by decide +kernel

/-- `state_response_status_code1`, src/http1/test/response/version.rs lines 317-329. -/
example : (check debug
   [.eos b!"HTTP/" .responseVersionMajor1 5,
    .each b!"1.1 "]) = true := by decide +kernel

/-- `on_url_encoded_begin`, src/http1/test/url_encoded/callback.rs lines 20-42. -/
example : (check (refuse [.urlEncodedBegin])
   [.init .urlEncoded,
    .setLength 1000,
    .callback b!"N" .urlEncodedName 0]) = true := by decide +kernel

/-- `on_url_encoded_name`, src/http1/test/url_encoded/callback.rs lines 44-66. -/
example : (check (refuse [.urlEncodedName])
   [.init .urlEncoded,
    .setLength 1000,
    .callback b!"N" .urlEncodedName 1]) = true := by decide +kernel

/-- `on_url_encoded_value`, src/http1/test/url_encoded/callback.rs lines 68-90. -/
example : (check (refuse [.urlEncodedValue])
   [.init .urlEncoded,
    .setLength 1000,
    .callback b!"N=V" .urlEncodedValue 3]) = true := by decide +kernel

/-- `finished`, src/http1/test/url_encoded/finished.rs lines 20-43. -/
example : (check debug
   [.init .urlEncoded,
    .setLength 22,
    .finished b!"Name+1%21=Value%201%21" 22,
    .data .urlEncodedName b!"Name 1!",
    .data .urlEncodedValue b!"Value 1!"]) = true := by decide +kernel

/-- `allowed`, src/http1/test/url_encoded/name.rs lines 32-56. -/
example : (((((((vec_visible_7bit).filter fun x => (x != 61)).filter fun x => (x != 37)).filter fun x => (x != 43)).filter fun x => (x != 38)).filter fun x => (x != 59)).all (fun b => check debug
   [.init .urlEncoded,
    .setLength 1000,
    .eos [b] .urlEncodedName 1,
    .data .urlEncodedName [b]])) = true := by decide +kernel

/-- `entire_iter`, src/http1/test/url_encoded/name.rs lines 58-93. -/
example : (check debug
   [.init .urlEncoded,
    .setLength 1000,
    .each b!"Name+1%21;Name%202%21=",
    .data .urlEncodedName b!"Name 1!Name 2!"]) = true := by decide +kernel

/-- `not_allowed_error`, src/http1/test/url_encoded/name.rs lines 95-107. -/
example : ((vec_non_visible_7bit).all (fun b => check debug
   [.init .urlEncoded,
    .setLength 1000,
    .error [b] (.urlEncodedName b)])) = true := by decide +kernel

/-- `state_url_encoded_name_hex`, src/http1/test/url_encoded/name.rs lines 109-121. -/
example : (check debug
   [.init .urlEncoded,
    .setLength 1000,
    .each b!"N%20"]) = true := by decide +kernel

/-- `state_first_url_encoded_name1`, src/http1/test/url_encoded/name.rs lines 123-133. -/
example : (check debug
   [.init .urlEncoded,
    .setLength 1000,
    .each b!"N;"]) = true := by decide +kernel

/-- `state_first_url_encoded_name2`, src/http1/test/url_encoded/name.rs lines 135-145. -/
example : (check debug
   [.init .urlEncoded,
    .setLength 1000,
    .each b!"N&"]) = true := by decide +kernel

/-- `state_url_encoded_name_plus`, src/http1/test/url_encoded/name.rs lines 147-157. -/
example : (check debug
   [.init .urlEncoded,
    .setLength 1000,
    .each b!"N+"]) = true := by decide +kernel

/-- `state_url_encoded_value`, src/http1/test/url_encoded/name.rs lines 159-169. -/
example : (check debug
   [.init .urlEncoded,
    .setLength 1000,
    .each b!"N="]) = true := by decide +kernel

/-- `allowed`, src/http1/test/url_encoded/value.rs lines 40-74. -/
example : ((((((vec_visible_7bit).filter fun x => (x != 37)).filter fun x => (x != 43)).filter fun x => (x != 38)).filter fun x => (x != 59)).all (fun b => check debug
   [.init .urlEncoded,
    .setLength 1000,
    .eos b!"N=" .urlEncodedValue 2,
    .init .urlEncoded,
    .setLength 1000,
    .eos b!"N=" .urlEncodedValue 2,
    .eos [b] .urlEncodedValue 1,
    .data .urlEncodedValue [b]])) = true := by decide +kernel

/-- `entire_iter`, src/http1/test/url_encoded/value.rs lines 76-111. -/
example : (check debug
   [.init .urlEncoded,
    .setLength 1000,
    .eos b!"N=" .urlEncodedValue 2,
    .each b!"Value+1%21Value%202%21",
    .data .urlEncodedValue b!"Value 1!Value 2!"]) = true := by decide +kernel

/-- `not_allowed_error`, src/http1/test/url_encoded/value.rs lines 113-125. -/
example : ((vec_non_visible_7bit).all (fun b => check debug
   [.init .urlEncoded,
    .setLength 1000,
    .eos b!"N=" .urlEncodedValue 2,
    .error [b] (.urlEncodedValue b)])) = true := by decide +kernel

/-- `state_url_encoded_value_hex`, src/http1/test/url_encoded/value.rs lines 127-139. -/
example : (check debug
   [.init .urlEncoded,
    .setLength 1000,
    .eos b!"N=" .urlEncodedValue 2,
    .each b!"V%20"]) = true := by decide +kernel

/-- `state_first_url_encoded_name1`, src/http1/test/url_encoded/value.rs lines 141-151. -/
example : (check debug
   [.init .urlEncoded,
    .setLength 1000,
    .eos b!"N=" .urlEncodedValue 2,
    .each b!"V;"]) = true := by decide +kernel

/-- `state_first_url_encoded_name2`, src/http1/test/url_encoded/value.rs lines 153-163. -/
example : (check debug
   [.init .urlEncoded,
    .setLength 1000,
    .eos b!"N=" .urlEncodedValue 2,
    .each b!"V&"]) = true := by decide +kernel

/-- `state_url_encoded_value_plus`, src/http1/test/url_encoded/value.rs lines 165-175. -/
example : (check debug
   [.init .urlEncoded,
    .setLength 1000,
    .eos b!"N=" .urlEncodedValue 2,
    .each b!"V+"]) = true := by decide +kernel

end Verif.Conformance.Http1
