import Verif.Http2.Total

/-!
# Handlers that refuse, and slices that start later (helper lemmas)

Every state function is run twice: with a handler on a slice, and with the handler that always agrees on the slice with
more bytes before it, at the same place.
-/

set_option linter.unusedSimpArgs false
set_option linter.unusedVariables false

namespace Verif.Http2

variable {h : Handler} {c : Cfg} {pre : Bytes} {y : UInt8} {l0 : List Ev}

/-- The same place in a slice with `pre` before it. (The parser never reads `byte`.) -/
def shift (pre : Bytes) (y : UInt8) (c : Cfg) : Cfg :=
  { c with ctx := ⟨pre ++ c.ctx.stream, pre.length + c.ctx.idx, pre.length + c.ctx.mark, y⟩ }

theorem shift_p : (shift pre y c).p = c.p := rfl

theorem shift_available : (shift pre y c).ctx.available = c.ctx.available := by
  simp only [shift, Ctx.available, List.length_append]
  omega

theorem shift_get (i : Nat) : (shift pre y c).ctx.stream[(shift pre y c).ctx.idx + i]? = c.ctx.stream[c.ctx.idx + i]? := by
  simp only [shift]
  rw [List.getElem?_append_right (by omega)]
  congr 1
  omega

theorem shift_slice : (shift pre y c).ctx.slice = c.ctx.slice := by
  simp only [shift, Ctx.slice, List.drop_append, show pre.length + c.ctx.idx - (pre.length + c.ctx.mark) = c.ctx.idx - c.ctx.mark by omega,
    show pre.length + c.ctx.mark - pre.length = c.ctx.mark by omega]
  rw [List.drop_of_length_le (by omega), List.nil_append]

theorem shift_lt : (shift pre y c).ctx.idx < (shift pre y c).ctx.mark ↔ c.ctx.idx < c.ctx.mark := by
  simp only [shift]
  omega

theorem jump_shift (n : Nat) : jump (shift pre y c) n = shift pre y (jump c n) := by
  simp only [jump, shift, Ctx.jump, Nat.add_assoc]

/-- The history grew by nothing, or by a callback to which the handler agreed. -/
def Agreed (h : Handler) (l0 l : List Ev) : Prop := l = l0 ∨ ∃ e, l = l0 ++ [e] ∧ h.ret l = true

/-- The history grew by a callback that the handler refused. -/
def Refused (h : Handler) (l0 l : List Ev) : Prop := ∃ e, l = l0 ++ [e] ∧ h.ret l = false

/-- What the two runs have to do with each other. -/
def Pair (h : Handler) (pre : Bytes) (y : UInt8) (l0 : List Ev) : Out → Out → Prop
  | .cont a, .cont b => b = shift pre y a ∧ Agreed h l0 a.log
  | .exit (.eos n) a, .exit (.eos m) b => b = shift pre y a ∧ n = a.ctx.idx ∧ m = b.ctx.idx ∧ Agreed h l0 a.log
  | .exit (.callback n) a, .cont b => b = shift pre y { a with ctx := a.ctx.setMark } ∧ n = a.ctx.idx ∧ Refused h l0 a.log
  | .exit (.callback n) a, .exit (.eos m) b => b = shift pre y a ∧ n = a.ctx.idx ∧ m = b.ctx.idx ∧
      a.ctx.available = 0 ∧ Refused h l0 a.log
  | .exit (.finished n) a, .exit (.finished m) b => b = shift pre y a ∧ n = a.ctx.idx ∧ m = b.ctx.idx ∧ a.log = l0
  | .err a, .err b => b = shift pre y a ∧ a.log = l0
  | .panic l, .panic l' => l = l' ∧ l = l0
  | _, _ => False

theorem pair_eos {k k' : Out} (hl : c.log = l0) (hk : Pair h pre y l0 k k') :
    Pair h pre y l0 (exitIfEos c k) (exitIfEos (shift pre y c) k') := by
  unfold exitIfEos
  rw [shift_available]
  split
  · exact ⟨rfl, rfl, rfl, .inl hl⟩
  · exact hk

theorem pair_u8 {k k' : UInt8 → Cfg → Out} (hl : c.log = l0)
    (hk : ∀ b c', c'.log = l0 → Pair h pre y l0 (k b c') (k' b (shift pre y c'))) :
    Pair h pre y l0 (getU8 c k) (getU8 (shift pre y c) k') := by
  unfold getU8
  have := shift_get (c := c) (pre := pre) (y := y) 0
  simp only [Nat.add_zero] at this
  rw [this]
  split
  · rw [jump_shift]; exact hk _ _ hl
  · exact ⟨rfl, hl⟩

theorem pair_u16 {k k' : UInt16 → Cfg → Out} {i : UInt16} (hl : c.log = l0)
    (hk : ∀ b c', c'.log = l0 → Pair h pre y l0 (k b c') (k' b (shift pre y c'))) :
    Pair h pre y l0 (readU16 c i k) (readU16 (shift pre y c) i k') := by
  unfold readU16
  have h0 := shift_get (c := c) (pre := pre) (y := y) 0
  simp only [Nat.add_zero] at h0
  rw [h0, shift_get 1]
  split
  · rw [jump_shift]; exact hk _ _ hl
  · exact ⟨rfl, hl⟩

theorem pair_u32 {k k' : UInt32 → Cfg → Out} {i : UInt32} (hl : c.log = l0)
    (hk : ∀ b c', c'.log = l0 → Pair h pre y l0 (k b c') (k' b (shift pre y c'))) :
    Pair h pre y l0 (readU32 c i k) (readU32 (shift pre y c) i k') := by
  unfold readU32
  have h0 := shift_get (c := c) (pre := pre) (y := y) 0
  simp only [Nat.add_zero] at h0
  rw [h0, shift_get 1, shift_get 2, shift_get 3]
  split
  · rw [jump_shift]; exact hk _ _ hl
  · exact ⟨rfl, hl⟩

theorem pair_dec {k k' : Cfg → Out} {n : UInt32} (hl : c.log = l0)
    (hk : ∀ c', c'.log = l0 → Pair h pre y l0 (k c') (k' (shift pre y c'))) :
    Pair h pre y l0 (decPayload c n k) (decPayload (shift pre y c) n k') := by
  unfold decPayload
  rw [shift_p]
  split
  · exact hk _ hl
  · exact ⟨rfl, hl⟩

theorem pair_transition {st : St} (hl : c.log = l0) :
    Pair h pre y l0 (transition c st) (transition (shift pre y c) st) :=
  ⟨rfl, .inl hl⟩

theorem pair_set32b {st : St} {x : UInt32} (hl : c.log = l0) :
    Pair h pre y l0 (transition (set32b c x) st) (transition (set32b (shift pre y c) x) st) :=
  ⟨rfl, .inl hl⟩

theorem pair_callback {e : Ev} (hl : c.log = l0) :
    Pair h pre y l0 (callback h c e) (callback yes (shift pre y c) e) := by
  unfold callback
  simp only [yes]
  rw [if_pos trivial]
  split
  · rename_i hr
    exact ⟨rfl, .inr ⟨e, by rw [← hl], hr⟩⟩
  · rename_i hr
    exact ⟨rfl, rfl, e, by rw [← hl], by simpa using hr⟩

theorem pair_ite {P Q : Prop} [Decidable P] [Decidable Q] {a b a' b' : Out} (hPQ : Q ↔ P)
    (ha : Pair h pre y l0 a a') (hb : Pair h pre y l0 b b') :
    Pair h pre y l0 (if P then a else b) (if Q then a' else b') := by
  by_cases hP : P
  · rw [if_pos hP, if_pos (hPQ.mpr hP)]; exact ha
  · rw [if_neg hP, if_neg (fun q => hP (hPQ.mp q))]; exact hb

theorem pair_payload {k : Kind} : Pair h pre y c.log (parsePayloadData h c k) (parsePayloadData yes (shift pre y c) k) := by
  unfold parsePayloadData
  rw [shift_p, shift_available]
  split
  · exact ⟨rfl, rfl⟩
  · split
    · rw [jump_shift]
      refine pair_dec rfl fun c' hl => ?_
      simp only
      refine pair_ite shift_lt ⟨rfl, hl⟩ ?_
      show Pair _ _ _ _ _ (callback yes (shift pre y (setState c' _)) (.payload k (shift pre y (setState c' _)).ctx.slice true))
      rw [shift_slice]
      exact pair_callback hl
    · refine pair_dec rfl fun c' hl => ?_
      simp only [shift_available]
      rw [jump_shift]
      refine pair_ite shift_lt ⟨rfl, hl⟩ ?_
      rw [shift_slice]
      simp only [yes]
      rw [if_pos trivial]
      split
      · rename_i hr
        exact ⟨rfl, rfl, rfl, .inr ⟨_, by rw [← hl]; rfl, hr⟩⟩
      · rename_i hr
        refine ⟨rfl, rfl, rfl, ?_, _, by rw [← hl]; rfl, by simpa using hr⟩
        show c'.ctx.stream.length - (c'.ctx.idx + c'.ctx.available) = 0
        unfold Ctx.available
        omega

/-- Go through a state function. -/
macro "pair_tac" : tactic => `(tactic| repeat' first
  | assumption
  | exact pair_transition (by assumption)
  | exact pair_transition rfl
  | apply pair_eos | apply pair_u8 | apply pair_u16 | apply pair_u32 | apply pair_dec | apply pair_callback | apply pair_ite
  | exact pair_payload
  | exact Iff.rfl
  | exact (by rw [shift_available])
  | rfl
  | (intro _))

theorem pair_frame_padding : Pair h pre y c.log (frame_padding c) (frame_padding (shift pre y c)) := by
  unfold frame_padding
  refine pair_eos rfl (pair_ite (by rw [shift_available, shift_p]) ?_ ?_)
  · rw [shift_p, jump_shift]; exact pair_transition rfl
  · rw [shift_available]
    refine pair_dec rfl fun c' hl => ?_
    rw [shift_available, jump_shift]
    exact ⟨rfl, rfl, rfl, .inl hl⟩

theorem pair_frame_length1 : Pair h pre y c.log (frame_length1 c) (frame_length1 (shift pre y c)) := by
  unfold frame_length1
  pair_tac

theorem pair_frame_length2 : Pair h pre y c.log (frame_length2 c) (frame_length2 (shift pre y c)) := by
  unfold frame_length2
  pair_tac

theorem pair_frame_length3 : Pair h pre y c.log (frame_length3 c) (frame_length3 (shift pre y c)) := by
  unfold frame_length3
  pair_tac

theorem pair_frame_type : Pair h pre y c.log (frame_type c) (frame_type (shift pre y c)) := by
  unfold frame_type
  pair_tac

theorem pair_frame_flags : Pair h pre y c.log (frame_flags c) (frame_flags (shift pre y c)) := by
  unfold frame_flags
  pair_tac

theorem pair_frame_stream_id1 : Pair h pre y c.log (frame_stream_id1 c) (frame_stream_id1 (shift pre y c)) := by
  unfold frame_stream_id1
  refine pair_eos rfl (pair_ite (by rw [shift_available]) (pair_u32 rfl fun _ _ hl => pair_transition hl)
    (pair_u8 rfl fun b c' hl => ?_))
  exact pair_set32b hl

theorem pair_frame_stream_id2 : Pair h pre y c.log (frame_stream_id2 c) (frame_stream_id2 (shift pre y c)) := by
  unfold frame_stream_id2
  pair_tac

theorem pair_frame_stream_id3 : Pair h pre y c.log (frame_stream_id3 c) (frame_stream_id3 (shift pre y c)) := by
  unfold frame_stream_id3
  pair_tac

theorem pair_frame_stream_id4 : Pair h pre y c.log (frame_stream_id4 c) (frame_stream_id4 (shift pre y c)) := by
  unfold frame_stream_id4
  pair_tac

theorem pair_frame_format_end : Pair h pre y c.log (frame_format_end h c) (frame_format_end yes (shift pre y c)) := by
  unfold frame_format_end
  pair_tac

theorem pair_data_pad_length : Pair h pre y c.log (data_pad_length c) (data_pad_length (shift pre y c)) := by
  unfold data_pad_length
  pair_tac

theorem pair_data_data : Pair h pre y c.log (data_data h c) (data_data yes (shift pre y c)) := by
  unfold data_data
  pair_tac

theorem pair_go_away_stream_id1 : Pair h pre y c.log (go_away_stream_id1 c) (go_away_stream_id1 (shift pre y c)) := by
  unfold go_away_stream_id1
  pair_tac

theorem pair_go_away_stream_id2 : Pair h pre y c.log (go_away_stream_id2 c) (go_away_stream_id2 (shift pre y c)) := by
  unfold go_away_stream_id2
  pair_tac

theorem pair_go_away_stream_id3 : Pair h pre y c.log (go_away_stream_id3 c) (go_away_stream_id3 (shift pre y c)) := by
  unfold go_away_stream_id3
  pair_tac

theorem pair_go_away_stream_id4 : Pair h pre y c.log (go_away_stream_id4 c) (go_away_stream_id4 (shift pre y c)) := by
  unfold go_away_stream_id4
  pair_tac

theorem pair_go_away_error_code1 : Pair h pre y c.log (go_away_error_code1 c) (go_away_error_code1 (shift pre y c)) := by
  unfold go_away_error_code1
  pair_tac

theorem pair_go_away_error_code2 : Pair h pre y c.log (go_away_error_code2 c) (go_away_error_code2 (shift pre y c)) := by
  unfold go_away_error_code2
  pair_tac

theorem pair_go_away_error_code3 : Pair h pre y c.log (go_away_error_code3 c) (go_away_error_code3 (shift pre y c)) := by
  unfold go_away_error_code3
  pair_tac

theorem pair_go_away_error_code4 : Pair h pre y c.log (go_away_error_code4 c) (go_away_error_code4 (shift pre y c)) := by
  unfold go_away_error_code4
  pair_tac

theorem pair_go_away_callback : Pair h pre y c.log (go_away_callback h c) (go_away_callback yes (shift pre y c)) := by
  unfold go_away_callback
  pair_tac

theorem pair_go_away_debug_data : Pair h pre y c.log (go_away_debug_data h c) (go_away_debug_data yes (shift pre y c)) := by
  unfold go_away_debug_data
  pair_tac

theorem pair_headers_pad_length_with_priority : Pair h pre y c.log (headers_pad_length_with_priority c) (headers_pad_length_with_priority (shift pre y c)) := by
  unfold headers_pad_length_with_priority
  pair_tac

theorem pair_headers_pad_length_without_priority : Pair h pre y c.log (headers_pad_length_without_priority c) (headers_pad_length_without_priority (shift pre y c)) := by
  unfold headers_pad_length_without_priority
  pair_tac

theorem pair_headers_stream_id1 : Pair h pre y c.log (headers_stream_id1 c) (headers_stream_id1 (shift pre y c)) := by
  unfold headers_stream_id1
  pair_tac

theorem pair_headers_stream_id2 : Pair h pre y c.log (headers_stream_id2 c) (headers_stream_id2 (shift pre y c)) := by
  unfold headers_stream_id2
  pair_tac

theorem pair_headers_stream_id3 : Pair h pre y c.log (headers_stream_id3 c) (headers_stream_id3 (shift pre y c)) := by
  unfold headers_stream_id3
  pair_tac

theorem pair_headers_stream_id4 : Pair h pre y c.log (headers_stream_id4 c) (headers_stream_id4 (shift pre y c)) := by
  unfold headers_stream_id4
  pair_tac

theorem pair_headers_weight : Pair h pre y c.log (headers_weight c) (headers_weight (shift pre y c)) := by
  unfold headers_weight
  pair_tac

theorem pair_headers_callback : Pair h pre y c.log (headers_callback h c) (headers_callback yes (shift pre y c)) := by
  unfold headers_callback
  pair_tac

theorem pair_headers_fragment : Pair h pre y c.log (headers_fragment h c) (headers_fragment yes (shift pre y c)) := by
  unfold headers_fragment
  pair_tac

theorem pair_ping_data : Pair h pre y c.log (ping_data h c) (ping_data yes (shift pre y c)) := by
  unfold ping_data
  pair_tac

theorem pair_priority_stream_id1 : Pair h pre y c.log (priority_stream_id1 c) (priority_stream_id1 (shift pre y c)) := by
  unfold priority_stream_id1
  pair_tac

theorem pair_priority_stream_id2 : Pair h pre y c.log (priority_stream_id2 c) (priority_stream_id2 (shift pre y c)) := by
  unfold priority_stream_id2
  pair_tac

theorem pair_priority_stream_id3 : Pair h pre y c.log (priority_stream_id3 c) (priority_stream_id3 (shift pre y c)) := by
  unfold priority_stream_id3
  pair_tac

theorem pair_priority_stream_id4 : Pair h pre y c.log (priority_stream_id4 c) (priority_stream_id4 (shift pre y c)) := by
  unfold priority_stream_id4
  pair_tac

theorem pair_priority_weight : Pair h pre y c.log (priority_weight h c) (priority_weight yes (shift pre y c)) := by
  unfold priority_weight
  pair_tac

theorem pair_push_promise_pad_length : Pair h pre y c.log (push_promise_pad_length c) (push_promise_pad_length (shift pre y c)) := by
  unfold push_promise_pad_length
  pair_tac

theorem pair_push_promise_stream_id1 : Pair h pre y c.log (push_promise_stream_id1 c) (push_promise_stream_id1 (shift pre y c)) := by
  unfold push_promise_stream_id1
  pair_tac

theorem pair_push_promise_stream_id2 : Pair h pre y c.log (push_promise_stream_id2 c) (push_promise_stream_id2 (shift pre y c)) := by
  unfold push_promise_stream_id2
  pair_tac

theorem pair_push_promise_stream_id3 : Pair h pre y c.log (push_promise_stream_id3 c) (push_promise_stream_id3 (shift pre y c)) := by
  unfold push_promise_stream_id3
  pair_tac

theorem pair_push_promise_stream_id4 : Pair h pre y c.log (push_promise_stream_id4 c) (push_promise_stream_id4 (shift pre y c)) := by
  unfold push_promise_stream_id4
  pair_tac

theorem pair_push_promise_callback : Pair h pre y c.log (push_promise_callback h c) (push_promise_callback yes (shift pre y c)) := by
  unfold push_promise_callback
  pair_tac

theorem pair_rst_stream_error_code1 : Pair h pre y c.log (rst_stream_error_code1 c) (rst_stream_error_code1 (shift pre y c)) := by
  unfold rst_stream_error_code1
  pair_tac

theorem pair_rst_stream_error_code2 : Pair h pre y c.log (rst_stream_error_code2 c) (rst_stream_error_code2 (shift pre y c)) := by
  unfold rst_stream_error_code2
  pair_tac

theorem pair_rst_stream_error_code3 : Pair h pre y c.log (rst_stream_error_code3 c) (rst_stream_error_code3 (shift pre y c)) := by
  unfold rst_stream_error_code3
  pair_tac

theorem pair_rst_stream_error_code4 : Pair h pre y c.log (rst_stream_error_code4 c) (rst_stream_error_code4 (shift pre y c)) := by
  unfold rst_stream_error_code4
  pair_tac

theorem pair_rst_stream_callback : Pair h pre y c.log (rst_stream_callback h c) (rst_stream_callback yes (shift pre y c)) := by
  unfold rst_stream_callback
  pair_tac

theorem pair_settings_id1 : Pair h pre y c.log (settings_id1 c) (settings_id1 (shift pre y c)) := by
  unfold settings_id1
  pair_tac

theorem pair_settings_id2 : Pair h pre y c.log (settings_id2 c) (settings_id2 (shift pre y c)) := by
  unfold settings_id2
  pair_tac

theorem pair_settings_value1 : Pair h pre y c.log (settings_value1 c) (settings_value1 (shift pre y c)) := by
  unfold settings_value1
  pair_tac

theorem pair_settings_value2 : Pair h pre y c.log (settings_value2 c) (settings_value2 (shift pre y c)) := by
  unfold settings_value2
  pair_tac

theorem pair_settings_value3 : Pair h pre y c.log (settings_value3 c) (settings_value3 (shift pre y c)) := by
  unfold settings_value3
  pair_tac

theorem pair_settings_value4 : Pair h pre y c.log (settings_value4 c) (settings_value4 (shift pre y c)) := by
  unfold settings_value4
  pair_tac

theorem pair_settings_callback : Pair h pre y c.log (settings_callback h c) (settings_callback yes (shift pre y c)) := by
  unfold settings_callback
  pair_tac

theorem pair_window_update_increment1 : Pair h pre y c.log (window_update_increment1 c) (window_update_increment1 (shift pre y c)) := by
  unfold window_update_increment1
  pair_tac

theorem pair_window_update_increment2 : Pair h pre y c.log (window_update_increment2 c) (window_update_increment2 (shift pre y c)) := by
  unfold window_update_increment2
  pair_tac

theorem pair_window_update_increment3 : Pair h pre y c.log (window_update_increment3 c) (window_update_increment3 (shift pre y c)) := by
  unfold window_update_increment3
  pair_tac

theorem pair_window_update_increment4 : Pair h pre y c.log (window_update_increment4 c) (window_update_increment4 (shift pre y c)) := by
  unfold window_update_increment4
  pair_tac

theorem pair_window_update_callback : Pair h pre y c.log (window_update_callback h c) (window_update_callback yes (shift pre y c)) := by
  unfold window_update_callback
  pair_tac

theorem pair_unsupported_pad_length : Pair h pre y c.log (unsupported_pad_length c) (unsupported_pad_length (shift pre y c)) := by
  unfold unsupported_pad_length
  pair_tac

theorem pair_unsupported_data : Pair h pre y c.log (unsupported_data h c) (unsupported_data yes (shift pre y c)) := by
  unfold unsupported_data
  pair_tac

theorem pair_step : Pair h pre y c.log (stepFn h c) (stepFn yes (shift pre y c)) := by
  unfold stepFn
  simp only [shift_p]
  split
  · exact pair_frame_length1
  · exact pair_frame_length2
  · exact pair_frame_length3
  · exact pair_frame_type
  · exact pair_frame_flags
  · exact pair_frame_stream_id1
  · exact pair_frame_stream_id2
  · exact pair_frame_stream_id3
  · exact pair_frame_stream_id4
  · exact pair_frame_format_end
  · exact pair_frame_padding
  · exact pair_data_pad_length
  · exact pair_data_data
  · exact pair_go_away_stream_id1
  · exact pair_go_away_stream_id2
  · exact pair_go_away_stream_id3
  · exact pair_go_away_stream_id4
  · exact pair_go_away_error_code1
  · exact pair_go_away_error_code2
  · exact pair_go_away_error_code3
  · exact pair_go_away_error_code4
  · exact pair_go_away_callback
  · exact pair_go_away_debug_data
  · exact pair_headers_pad_length_with_priority
  · exact pair_headers_pad_length_without_priority
  · exact pair_headers_stream_id1
  · exact pair_headers_stream_id2
  · exact pair_headers_stream_id3
  · exact pair_headers_stream_id4
  · exact pair_headers_weight
  · exact pair_headers_callback
  · exact pair_headers_fragment
  · exact pair_ping_data
  · exact pair_priority_stream_id1
  · exact pair_priority_stream_id2
  · exact pair_priority_stream_id3
  · exact pair_priority_stream_id4
  · exact pair_priority_weight
  · exact pair_push_promise_pad_length
  · exact pair_push_promise_stream_id1
  · exact pair_push_promise_stream_id2
  · exact pair_push_promise_stream_id3
  · exact pair_push_promise_stream_id4
  · exact pair_push_promise_callback
  · exact pair_rst_stream_error_code1
  · exact pair_rst_stream_error_code2
  · exact pair_rst_stream_error_code3
  · exact pair_rst_stream_error_code4
  · exact pair_rst_stream_callback
  · exact pair_settings_id1
  · exact pair_settings_id2
  · exact pair_settings_value1
  · exact pair_settings_value2
  · exact pair_settings_value3
  · exact pair_settings_value4
  · exact pair_settings_callback
  · exact pair_window_update_increment1
  · exact pair_window_update_increment2
  · exact pair_window_update_increment3
  · exact pair_window_update_increment4
  · exact pair_window_update_callback
  · exact pair_unsupported_pad_length
  · exact pair_unsupported_data
  · exact ⟨rfl, rfl⟩
  · exact ⟨rfl, rfl, rfl, rfl⟩
end Verif.Http2
