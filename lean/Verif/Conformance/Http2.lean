import Verif.Conformance.Http2Base

/-!
# The tests of the HTTP/2 parser, run on the model

Made by conformance/http2.py from /repo/src/http2/test. Nothing here is a proof about the code; the tests
of the repository say what its authors saw the code do, and the model does the same.
-/

namespace Verif.Conformance.Http2

open Verif.Http2

/-- `continuation`, src/http2/test/continuation.rs lines 26-71. -/
example : (let (h, t) := fed [0, 0, 13, 9, 4, 127, 255, 255, 255, 72, 101, 108, 108, 111, 44, 32, 119, 111, 114, 108, 100, 33]
  (Flags.fromU8 h.frame_flags).isEndHeaders &&
  FrameType.fromU8 h.frame_type == .continuation &&
  h.headers_data == [72, 101, 108, 108, 111, 44, 32, 119, 111, 114, 108, 100, 33] &&
  h.headers_data_finished &&
  t == .frameLength1) = true := by
  decide +kernel

/-- `with_padding`, src/http2/test/data.rs lines 26-79. -/
example : (let (h, t) := fed [0, 0, 24, 0, 8, 127, 255, 255, 255, 10, 72, 101, 108, 108, 111, 44, 32, 119, 111, 114, 108, 100, 33, 88, 88, 88, 88, 88, 88, 88, 88, 88, 88]
  (Flags.fromU8 h.frame_flags).isPadded &&
  FrameType.fromU8 h.frame_type == .data &&
  h.data_data == [72, 101, 108, 108, 111, 44, 32, 119, 111, 114, 108, 100, 33] &&
  h.data_data_finished &&
  t == .frameLength1) = true := by
  decide +kernel

/-- `without_padding`, src/http2/test/data.rs lines 81-126. -/
example : (let (h, t) := fed [0, 0, 13, 0, 0, 127, 255, 255, 255, 72, 101, 108, 108, 111, 44, 32, 119, 111, 114, 108, 100, 33]
  (Flags.fromU8 h.frame_flags).isEmpty &&
  FrameType.fromU8 h.frame_type == .data &&
  h.data_data == [72, 101, 108, 108, 111, 44, 32, 119, 111, 114, 108, 100, 33] &&
  h.data_data_finished &&
  t == .frameLength1) = true := by
  decide +kernel

/-- `all_flags`, src/http2/test/frame_format.rs lines 25-68. -/
example : (let (h, t) := fed [0, 0, 255, 0, 255, 127, 255, 255, 255]
  h.frame_payload_length == 255 &&
  FrameType.fromU8 h.frame_type == .data &&
  (Flags.fromU8 h.frame_flags).isEndHeaders &&
  (Flags.fromU8 h.frame_flags).isEndStream &&
  (Flags.fromU8 h.frame_flags).isPadded &&
  (Flags.fromU8 h.frame_flags).isPriority &&
  h.frame_stream_id == 2147483647) = true := by
  decide +kernel

/-- `no_flags`, src/http2/test/frame_format.rs lines 70-110. -/
example : (let (h, t) := fed [0, 0, 255, 0, 0, 127, 255, 255, 255]
  h.frame_payload_length == 255 &&
  FrameType.fromU8 h.frame_type == .data &&
  (Flags.fromU8 h.frame_flags).isEmpty &&
  h.frame_stream_id == 2147483647) = true := by
  decide +kernel

/-- `go_away_with_debug_data`, src/http2/test/go_away.rs lines 26-93. -/
example : (let (h, t) := fed [0, 0, 21, 7, 0, 127, 255, 255, 255, 127, 255, 255, 255, 187, 238, 187, 238, 72, 101, 108, 108, 111, 44, 32, 119, 111, 114, 108, 100, 33]
  (Flags.fromU8 h.frame_flags).isEmpty &&
  FrameType.fromU8 h.frame_type == .goAway &&
  h.go_away_stream_id == 2147483647 &&
  h.go_away_error_code == 3152985070 &&
  h.go_away_debug_data == [72, 101, 108, 108, 111, 44, 32, 119, 111, 114, 108, 100, 33] &&
  h.go_away_debug_data_finished &&
  t == .frameLength1) = true := by
  decide +kernel

/-- `go_away_without_debug_data`, src/http2/test/go_away.rs lines 95-149. -/
example : (let (h, t) := fed [0, 0, 8, 7, 0, 127, 255, 255, 255, 127, 255, 255, 255, 187, 238, 187, 238]
  (Flags.fromU8 h.frame_flags).isEmpty &&
  FrameType.fromU8 h.frame_type == .goAway &&
  h.go_away_stream_id == 2147483647 &&
  h.go_away_error_code == 3152985070 &&
  t == .frameLength1) = true := by
  decide +kernel

/-- `with_padding_without_priority`, src/http2/test/headers.rs lines 26-93. -/
example : (let (h, t) := fed [0, 0, 24, 1, 8, 127, 255, 255, 255, 10, 72, 101, 108, 108, 111, 44, 32, 119, 111, 114, 108, 100, 33, 88, 88, 88, 88, 88, 88, 88, 88, 88, 88]
  (Flags.fromU8 h.frame_flags).isPadded &&
  FrameType.fromU8 h.frame_type == .headers &&
  !h.headers_exclusive &&
  h.headers_stream_id == 0 &&
  h.headers_weight == 0 &&
  h.headers_data == [72, 101, 108, 108, 111, 44, 32, 119, 111, 114, 108, 100, 33] &&
  t == .frameLength1) = true := by
  decide +kernel

/-- `with_padding_with_priority`, src/http2/test/headers.rs lines 95-175. -/
example : (let (h, t) := fed [0, 0, 29, 1, 40, 127, 255, 255, 255, 10, 255, 255, 255, 255, 99, 72, 101, 108, 108, 111, 44, 32, 119, 111, 114, 108, 100, 33, 88, 88, 88, 88, 88, 88, 88, 88, 88, 88]
  (Flags.fromU8 h.frame_flags).isPadded &&
  (Flags.fromU8 h.frame_flags).isPriority &&
  FrameType.fromU8 h.frame_type == .headers &&
  h.headers_exclusive &&
  h.headers_stream_id == 2147483647 &&
  h.headers_weight == 99 &&
  h.headers_data == [72, 101, 108, 108, 111, 44, 32, 119, 111, 114, 108, 100, 33] &&
  t == .frameLength1) = true := by
  decide +kernel

/-- `without_padding_without_priority`, src/http2/test/headers.rs lines 177-234. -/
example : (let (h, t) := fed [0, 0, 13, 1, 0, 127, 255, 255, 255, 72, 101, 108, 108, 111, 44, 32, 119, 111, 114, 108, 100, 33]
  (Flags.fromU8 h.frame_flags).isEmpty &&
  FrameType.fromU8 h.frame_type == .headers &&
  !h.headers_exclusive &&
  h.headers_stream_id == 0 &&
  h.headers_weight == 0 &&
  h.headers_data == [72, 101, 108, 108, 111, 44, 32, 119, 111, 114, 108, 100, 33] &&
  h.headers_data_finished &&
  t == .frameLength1) = true := by
  decide +kernel

/-- `without_padding_with_priority`, src/http2/test/headers.rs lines 236-305. -/
example : (let (h, t) := fed [0, 0, 18, 1, 32, 127, 255, 255, 255, 255, 255, 255, 255, 99, 72, 101, 108, 108, 111, 44, 32, 119, 111, 114, 108, 100, 33]
  (Flags.fromU8 h.frame_flags).isPriority &&
  FrameType.fromU8 h.frame_type == .headers &&
  h.headers_exclusive &&
  h.headers_stream_id == 2147483647 &&
  h.headers_weight == 99 &&
  h.headers_data == [72, 101, 108, 108, 111, 44, 32, 119, 111, 114, 108, 100, 33] &&
  h.headers_data_finished &&
  t == .frameLength1) = true := by
  decide +kernel

/-- `ping`, src/http2/test/ping.rs lines 26-73. -/
example : (let (h, t) := fed [0, 0, 8, 6, 1, 127, 255, 255, 255, 255, 170, 221, 170, 255, 170, 221, 170]
  (Flags.fromU8 h.frame_flags).isAck &&
  FrameType.fromU8 h.frame_type == .ping &&
  h.ping_data == [255, 170, 221, 170, 255, 170, 221, 170] &&
  t == .frameLength1) = true := by
  decide +kernel

/-- `is_exclusive`, src/http2/test/priority.rs lines 26-82. -/
example : (let (h, t) := fed [0, 0, 40, 2, 0, 127, 255, 255, 255, 128, 0, 0, 42, 99]
  (Flags.fromU8 h.frame_flags).isEmpty &&
  FrameType.fromU8 h.frame_type == .priority &&
  h.priority_exclusive &&
  h.priority_stream_id == 42 &&
  h.priority_weight == 99 &&
  t == .frameLength1) = true := by
  decide +kernel

/-- `is_not_exclusive`, src/http2/test/priority.rs lines 84-140. -/
example : (let (h, t) := fed [0, 0, 40, 2, 0, 127, 255, 255, 255, 0, 0, 0, 42, 99]
  (Flags.fromU8 h.frame_flags).isEmpty &&
  FrameType.fromU8 h.frame_type == .priority &&
  !h.priority_exclusive &&
  h.priority_stream_id == 42 &&
  h.priority_weight == 99 &&
  t == .frameLength1) = true := by
  decide +kernel

/-- `push_promise_with_padding`, src/http2/test/push_promise.rs lines 26-92. -/
example : (let (h, t) := fed [0, 0, 28, 5, 8, 127, 255, 255, 255, 10, 0, 0, 255, 238, 72, 101, 108, 108, 111, 44, 32, 119, 111, 114, 108, 100, 33, 88, 88, 88, 88, 88, 88, 88, 88, 88, 88]
  (Flags.fromU8 h.frame_flags).isPadded &&
  FrameType.fromU8 h.frame_type == .pushPromise &&
  h.push_promise_stream_id == 65518 &&
  h.headers_data == [72, 101, 108, 108, 111, 44, 32, 119, 111, 114, 108, 100, 33] &&
  t == .frameLength1) = true := by
  decide +kernel

/-- `push_promise_without_padding`, src/http2/test/push_promise.rs lines 94-148. -/
example : (let (h, t) := fed [0, 0, 17, 5, 0, 127, 255, 255, 255, 0, 0, 255, 238, 72, 101, 108, 108, 111, 44, 32, 119, 111, 114, 108, 100, 33]
  (Flags.fromU8 h.frame_flags).isEmpty &&
  FrameType.fromU8 h.frame_type == .pushPromise &&
  h.push_promise_stream_id == 65518 &&
  h.headers_data == [72, 101, 108, 108, 111, 44, 32, 119, 111, 114, 108, 100, 33] &&
  t == .frameLength1) = true := by
  decide +kernel

/-- `rst_stream`, src/http2/test/rst_stream.rs lines 26-69. -/
example : (let (h, t) := fed [0, 0, 40, 3, 0, 127, 255, 255, 255, 255, 255, 255, 255]
  (Flags.fromU8 h.frame_flags).isEmpty &&
  FrameType.fromU8 h.frame_type == .rstStream &&
  h.rst_stream_error_code == 4294967295 &&
  t == .frameLength1) = true := by
  decide +kernel

/-- `settings`, src/http2/test/settings.rs lines 26-80. -/
example : (let (h, t) := fed [0, 0, 48, 4, 0, 127, 255, 255, 255, 255, 255, 255, 255, 255, 255]
  (Flags.fromU8 h.frame_flags).isEmpty &&
  FrameType.fromU8 h.frame_type == .settings &&
  h.settings_id == 65535 &&
  h.settings_value == 4294967295 &&
  t == .frameLength1) = true := by
  decide +kernel

/-- `window_update`, src/http2/test/window_update.rs lines 26-69. -/
example : (let (h, t) := fed [0, 0, 4, 8, 0, 127, 255, 255, 255, 18, 52, 86, 120]
  (Flags.fromU8 h.frame_flags).isEmpty &&
  FrameType.fromU8 h.frame_type == .windowUpdate &&
  h.window_update_size_increment == 305419896 &&
  t == .frameLength1) = true := by
  decide +kernel

end Verif.Conformance.Http2
