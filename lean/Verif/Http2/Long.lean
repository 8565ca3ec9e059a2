import Verif.Http2.Steps

/-!
# Where the long fields are entered (helper lemmas)

No state function enters the last stream id of a GOAWAY frame or the value of a setting, beyond their first byte,
except those that read the first byte.
-/

set_option linter.unusedSimpArgs false
set_option linter.unusedVariables false

namespace Verif.Http2

variable {h : Handler} {c : Cfg}

/-- The next state function is not within a long field. -/
def NL : Out → Prop
  | .cont c' => inLongField c'.p.st = false
  | _ => True

theorem nl_eos {k : Out} (hk : NL k) : NL (exitIfEos c k) := by
  unfold exitIfEos
  split
  · trivial
  · exact hk

theorem nl_u8 {k : UInt8 → Cfg → Out} (hk : ∀ b c', NL (k b c')) : NL (getU8 c k) := by
  unfold getU8
  split
  · exact hk _ _
  · trivial

theorem nl_u16 {k : UInt16 → Cfg → Out} {i : UInt16} (hk : ∀ b c', NL (k b c')) : NL (readU16 c i k) := by
  unfold readU16
  split
  · exact hk _ _
  · trivial

theorem nl_u32 {k : UInt32 → Cfg → Out} {i : UInt32} (hk : ∀ b c', NL (k b c')) : NL (readU32 c i k) := by
  unfold readU32
  split
  · exact hk _ _
  · trivial

theorem nl_dec {k : Cfg → Out} {n : UInt32} (hk : ∀ c', NL (k c')) : NL (decPayload c n k) := by
  unfold decPayload
  split
  · exact hk _
  · trivial

theorem nl_transition {st : St} (hs : inLongField st = false) : NL (transition c st) := hs

theorem nl_callback {e : Ev} (hs : inLongField c.p.st = false) : NL (callback h c e) := by
  unfold callback
  dsimp only
  split
  · exact hs
  · trivial

theorem nl_ite {P : Prop} [Decidable P] {a b : Out} (ha : NL a) (hb : NL b) : NL (if P then a else b) := by
  split <;> assumption

theorem nl_ite_st {P : Prop} [Decidable P] {a b : St} (ha : inLongField a = false) (hb : inLongField b = false) :
    inLongField (if P then a else b) = false := by
  split <;> assumption

theorem nl_payload {k : Kind} : NL (parsePayloadData h c k) := by
  unfold parsePayloadData
  split
  · trivial
  · refine nl_ite (nl_dec fun c' => nl_ite trivial (nl_callback ?_)) (nl_dec fun c' => nl_ite trivial ?_)
    · exact nl_ite_st rfl rfl
    · dsimp only
      split <;> trivial

theorem nl_frameState (p : Core) : inLongField (frameState p) = false := by
  unfold frameState
  dsimp only
  split <;> repeat' (first | rfl | apply nl_ite_st)

/-- Go through a state function. -/
macro "nl_tac" : tactic => `(tactic| repeat' first
  | exact nl_transition rfl
  | apply nl_eos | apply nl_u8 | apply nl_u16 | apply nl_u32 | apply nl_dec | apply nl_callback | apply nl_ite
  | exact nl_payload
  | exact nl_frameState _
  | exact nl_ite_st rfl rfl
  | exact trivial
  | rfl
  | (intro _))

theorem nl_frame_padding : NL (frame_padding c) := by
  unfold frame_padding
  exact nl_eos (nl_ite (nl_transition rfl) (nl_dec fun _ => trivial))

theorem nl_frame_length1 : NL (frame_length1 c) := by
  unfold frame_length1
  nl_tac

theorem nl_frame_length2 : NL (frame_length2 c) := by
  unfold frame_length2
  nl_tac

theorem nl_frame_length3 : NL (frame_length3 c) := by
  unfold frame_length3
  nl_tac

theorem nl_frame_type : NL (frame_type c) := by
  unfold frame_type
  nl_tac

theorem nl_frame_flags : NL (frame_flags c) := by
  unfold frame_flags
  nl_tac

theorem nl_frame_stream_id1 : NL (frame_stream_id1 c) := by
  unfold frame_stream_id1
  nl_tac

theorem nl_frame_stream_id2 : NL (frame_stream_id2 c) := by
  unfold frame_stream_id2
  nl_tac

theorem nl_frame_stream_id3 : NL (frame_stream_id3 c) := by
  unfold frame_stream_id3
  nl_tac

theorem nl_frame_stream_id4 : NL (frame_stream_id4 c) := by
  unfold frame_stream_id4
  nl_tac

theorem nl_frame_format_end : NL (frame_format_end h c) := by
  unfold frame_format_end
  nl_tac

theorem nl_data_pad_length : NL (data_pad_length c) := by
  unfold data_pad_length
  nl_tac

theorem nl_data_data : NL (data_data h c) := by
  unfold data_data
  nl_tac

theorem nl_go_away_error_code1 : NL (go_away_error_code1 c) := by
  unfold go_away_error_code1
  nl_tac

theorem nl_go_away_error_code2 : NL (go_away_error_code2 c) := by
  unfold go_away_error_code2
  nl_tac

theorem nl_go_away_error_code3 : NL (go_away_error_code3 c) := by
  unfold go_away_error_code3
  nl_tac

theorem nl_go_away_error_code4 : NL (go_away_error_code4 c) := by
  unfold go_away_error_code4
  nl_tac

theorem nl_go_away_callback : NL (go_away_callback h c) := by
  unfold go_away_callback
  nl_tac

theorem nl_go_away_debug_data : NL (go_away_debug_data h c) := by
  unfold go_away_debug_data
  nl_tac

theorem nl_headers_pad_length_with_priority : NL (headers_pad_length_with_priority c) := by
  unfold headers_pad_length_with_priority
  nl_tac

theorem nl_headers_pad_length_without_priority : NL (headers_pad_length_without_priority c) := by
  unfold headers_pad_length_without_priority
  nl_tac

theorem nl_headers_stream_id1 : NL (headers_stream_id1 c) := by
  unfold headers_stream_id1
  nl_tac

theorem nl_headers_stream_id2 : NL (headers_stream_id2 c) := by
  unfold headers_stream_id2
  nl_tac

theorem nl_headers_stream_id3 : NL (headers_stream_id3 c) := by
  unfold headers_stream_id3
  nl_tac

theorem nl_headers_stream_id4 : NL (headers_stream_id4 c) := by
  unfold headers_stream_id4
  nl_tac

theorem nl_headers_weight : NL (headers_weight c) := by
  unfold headers_weight
  nl_tac

theorem nl_headers_callback : NL (headers_callback h c) := by
  unfold headers_callback
  nl_tac

theorem nl_headers_fragment : NL (headers_fragment h c) := by
  unfold headers_fragment
  nl_tac

theorem nl_ping_data : NL (ping_data h c) := by
  unfold ping_data
  nl_tac

theorem nl_priority_stream_id1 : NL (priority_stream_id1 c) := by
  unfold priority_stream_id1
  nl_tac

theorem nl_priority_stream_id2 : NL (priority_stream_id2 c) := by
  unfold priority_stream_id2
  nl_tac

theorem nl_priority_stream_id3 : NL (priority_stream_id3 c) := by
  unfold priority_stream_id3
  nl_tac

theorem nl_priority_stream_id4 : NL (priority_stream_id4 c) := by
  unfold priority_stream_id4
  nl_tac

theorem nl_priority_weight : NL (priority_weight h c) := by
  unfold priority_weight
  nl_tac

theorem nl_push_promise_pad_length : NL (push_promise_pad_length c) := by
  unfold push_promise_pad_length
  nl_tac

theorem nl_push_promise_stream_id1 : NL (push_promise_stream_id1 c) := by
  unfold push_promise_stream_id1
  nl_tac

theorem nl_push_promise_stream_id2 : NL (push_promise_stream_id2 c) := by
  unfold push_promise_stream_id2
  nl_tac

theorem nl_push_promise_stream_id3 : NL (push_promise_stream_id3 c) := by
  unfold push_promise_stream_id3
  nl_tac

theorem nl_push_promise_stream_id4 : NL (push_promise_stream_id4 c) := by
  unfold push_promise_stream_id4
  nl_tac

theorem nl_push_promise_callback : NL (push_promise_callback h c) := by
  unfold push_promise_callback
  nl_tac

theorem nl_rst_stream_error_code1 : NL (rst_stream_error_code1 c) := by
  unfold rst_stream_error_code1
  nl_tac

theorem nl_rst_stream_error_code2 : NL (rst_stream_error_code2 c) := by
  unfold rst_stream_error_code2
  nl_tac

theorem nl_rst_stream_error_code3 : NL (rst_stream_error_code3 c) := by
  unfold rst_stream_error_code3
  nl_tac

theorem nl_rst_stream_error_code4 : NL (rst_stream_error_code4 c) := by
  unfold rst_stream_error_code4
  nl_tac

theorem nl_rst_stream_callback : NL (rst_stream_callback h c) := by
  unfold rst_stream_callback
  nl_tac

theorem nl_settings_id1 : NL (settings_id1 c) := by
  unfold settings_id1
  nl_tac

theorem nl_settings_id2 : NL (settings_id2 c) := by
  unfold settings_id2
  nl_tac

theorem nl_settings_callback : NL (settings_callback h c) := by
  unfold settings_callback
  nl_tac

theorem nl_window_update_increment1 : NL (window_update_increment1 c) := by
  unfold window_update_increment1
  nl_tac

theorem nl_window_update_increment2 : NL (window_update_increment2 c) := by
  unfold window_update_increment2
  nl_tac

theorem nl_window_update_increment3 : NL (window_update_increment3 c) := by
  unfold window_update_increment3
  nl_tac

theorem nl_window_update_increment4 : NL (window_update_increment4 c) := by
  unfold window_update_increment4
  nl_tac

theorem nl_window_update_callback : NL (window_update_callback h c) := by
  unfold window_update_callback
  nl_tac

theorem nl_unsupported_pad_length : NL (unsupported_pad_length c) := by
  unfold unsupported_pad_length
  nl_tac

theorem nl_unsupported_data : NL (unsupported_data h c) := by
  unfold unsupported_data
  nl_tac

theorem nl_step (hl : inLongField c.p.st = false) (h1 : c.p.st ≠ .goAwayStreamId1) (h2 : c.p.st ≠ .settingsValue1) :
    NL (stepFn h c) := by
  unfold stepFn
  split <;> rename_i hs <;> (try (rw [hs] at hl; exact absurd hl (by decide))) <;> (try exact absurd hs h1) <;>
    (try exact absurd hs h2)
  · exact nl_frame_length1
  · exact nl_frame_length2
  · exact nl_frame_length3
  · exact nl_frame_type
  · exact nl_frame_flags
  · exact nl_frame_stream_id1
  · exact nl_frame_stream_id2
  · exact nl_frame_stream_id3
  · exact nl_frame_stream_id4
  · exact nl_frame_format_end
  · exact nl_frame_padding
  · exact nl_data_pad_length
  · exact nl_data_data
  · exact nl_go_away_error_code1
  · exact nl_go_away_error_code2
  · exact nl_go_away_error_code3
  · exact nl_go_away_error_code4
  · exact nl_go_away_callback
  · exact nl_go_away_debug_data
  · exact nl_headers_pad_length_with_priority
  · exact nl_headers_pad_length_without_priority
  · exact nl_headers_stream_id1
  · exact nl_headers_stream_id2
  · exact nl_headers_stream_id3
  · exact nl_headers_stream_id4
  · exact nl_headers_weight
  · exact nl_headers_callback
  · exact nl_headers_fragment
  · exact nl_ping_data
  · exact nl_priority_stream_id1
  · exact nl_priority_stream_id2
  · exact nl_priority_stream_id3
  · exact nl_priority_stream_id4
  · exact nl_priority_weight
  · exact nl_push_promise_pad_length
  · exact nl_push_promise_stream_id1
  · exact nl_push_promise_stream_id2
  · exact nl_push_promise_stream_id3
  · exact nl_push_promise_stream_id4
  · exact nl_push_promise_callback
  · exact nl_rst_stream_error_code1
  · exact nl_rst_stream_error_code2
  · exact nl_rst_stream_error_code3
  · exact nl_rst_stream_error_code4
  · exact nl_rst_stream_callback
  · exact nl_settings_id1
  · exact nl_settings_id2
  · exact nl_settings_callback
  · exact nl_window_update_increment1
  · exact nl_window_update_increment2
  · exact nl_window_update_increment3
  · exact nl_window_update_increment4
  · exact nl_window_update_callback
  · exact nl_unsupported_pad_length
  · exact nl_unsupported_data
  · trivial
  · trivial

end Verif.Http2
