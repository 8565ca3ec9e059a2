import Verif.Http2.Model
import Verif.Http2.Consts

/-!
# Running the tests of the HTTP/2 parser on the model

The helpers of /repo/src/http2/test/mod.rs.
-/

namespace Verif.Conformance.Http2

open Verif.Http2

/-- `DebugHandler`, src/http2/test/mod.rs lines 61-143. -/
structure Debug where
  data_data : Bytes := []
  data_data_finished : Bool := false
  frame_flags : UInt8 := 0
  frame_payload_length : UInt32 := 0
  frame_stream_id : UInt32 := 0
  frame_type : UInt8 := 0
  go_away_debug_data : Bytes := []
  go_away_debug_data_finished : Bool := false
  go_away_error_code : UInt32 := 0
  go_away_stream_id : UInt32 := 0
  headers_data : Bytes := []
  headers_data_finished : Bool := false
  headers_exclusive : Bool := false
  headers_stream_id : UInt32 := 0
  headers_weight : UInt8 := 0
  ping_data : Bytes := []
  ping_data_finished : Bool := false
  priority_exclusive : Bool := false
  priority_stream_id : UInt32 := 0
  priority_weight : UInt8 := 0
  push_promise_stream_id : UInt32 := 0
  rst_stream_error_code : UInt32 := 0
  settings_id : UInt16 := 0
  settings_value : UInt32 := 0
  unsupported_data : Bytes := []
  unsupported_data_finished : Bool := false
  window_update_size_increment : UInt32 := 0

/-- What `DebugHandler` does with a callback, src/http2/test/mod.rs lines 178-340. -/
def Debug.on (x : Debug) : Ev → Debug
  | .payload .data d f => { x with data_data := x.data_data ++ d, data_data_finished := f }
  | .payload .goAwayDebugData d f =>
    { x with go_away_debug_data := x.go_away_debug_data ++ d, go_away_debug_data_finished := f }
  | .payload .headersFragment d f => { x with headers_data := x.headers_data ++ d, headers_data_finished := f }
  | .payload .ping d f => { x with ping_data := x.ping_data ++ d, ping_data_finished := f }
  | .payload .unsupported d f =>
    { x with unsupported_data := x.unsupported_data ++ d, unsupported_data_finished := f }
  | .frameFormat n t f s =>
    { x with frame_payload_length := n, frame_type := t, frame_flags := f, frame_stream_id := s }
  | .goAway s e => { x with go_away_stream_id := s, go_away_error_code := e }
  | .headers e s w => { x with headers_exclusive := e, headers_stream_id := s, headers_weight := w }
  | .priority e s w => { x with priority_exclusive := e, priority_stream_id := s, priority_weight := w }
  | .pushPromise s => { x with push_promise_stream_id := s }
  | .rstStream e => { x with rst_stream_error_code := e }
  | .settings i v => { x with settings_id := i, settings_value := v }
  | .windowUpdate n => { x with window_update_size_increment := n }

/-- A new parser is resumed with `v`; what the handler has stored, and the state. -/
def fed (v : Bytes) : Debug × St :=
  let w := (resume ⟨fun _ => true⟩ ⟨.new, []⟩ v).2
  (w.log.foldl Debug.on {}, w.p.st)

end Verif.Conformance.Http2
