import Verif.Http2.Rel

/-!
# What every state function does, on all paths (helper lemmas)

The arguments of callbacks, where a call can stop, and progress; also on the paths that are wrong in the code.
-/

set_option linter.unusedSimpArgs false
set_option linter.unusedVariables false

namespace Verif.Http2

variable {h : Handler} {c : Cfg} {fut : Bytes}

/-- States in which the parser does not wait for a byte. -/
def imm : St → Bool
  | .frameFormatEnd | .goAwayCallback | .headersCallback | .rstStreamCallback | .settingsCallback
  | .windowUpdateCallback => true
  | _ => false

theorem norm_of_imm {s : Core} (hs : imm s.st = false) : norm s = .next [] s := by
  obtain ⟨a, b, x, y, st⟩ := s
  cases st <;> first | rfl | (exact Bool.noConfusion hs)

/-- What is known about the arguments of a callback. -/
def Good : Ev → Prop
  | .payload _ d f => f = false → d ≠ []
  | .frameFormat _ _ _ id | .goAway id _ | .headers _ id _ | .priority _ id _ => id < 0x80000000
  | _ => True

/-- The same for a history. -/
def GoodLog (l : List Ev) : Prop := ∀ e ∈ l, Good e

theorem GoodLog.add {l : List Ev} {e : Ev} (hl : GoodLog l) (he : Good e) : GoodLog (l ++ [e]) := by
  intro x hx
  rcases List.mem_append.mp hx with hx | hx
  · exact hl x hx
  · rw [List.mem_singleton.mp hx]; exact he

/-- One step keeps to that, and a call does not stop where no byte is waited for. -/
def Sat : Out → Prop
  | .cont c => GoodLog c.log
  | .exit _ c => GoodLog c.log ∧ imm c.p.st = false
  | .err c => GoodLog c.log
  | .panic l => GoodLog l

theorem sat_eos {k : Out} (hl : GoodLog c.log) (hs : imm c.p.st = false) (hk : c.ctx.available ≠ 0 → Sat k) :
    Sat (exitIfEos c k) := by
  unfold exitIfEos
  split
  · exact ⟨hl, hs⟩
  · rename_i h0; exact hk h0

theorem sat_u8 {k : UInt8 → Cfg → Out} (hl : GoodLog c.log)
    (hk : ∀ b c', GoodLog c'.log → Sat (k b c')) : Sat (getU8 c k) := by
  unfold getU8
  split
  · exact hk _ _ hl
  · exact hl

theorem sat_u16 {k : UInt16 → Cfg → Out} {i : UInt16} (hl : GoodLog c.log)
    (hk : ∀ x c', GoodLog c'.log → Sat (k x c')) : Sat (readU16 c i k) := by
  unfold readU16
  split
  · exact hk _ _ hl
  · exact hl

theorem sat_u32 {k : UInt32 → Cfg → Out} {i : UInt32} (hl : GoodLog c.log)
    (hk : ∀ x c', GoodLog c'.log → Sat (k x c')) : Sat (readU32 c i k) := by
  unfold readU32
  split
  · exact hk _ _ hl
  · exact hl

theorem sat_dec {k : Cfg → Out} {n : UInt32} (hl : GoodLog c.log)
    (hk : ∀ c', GoodLog c'.log → Sat (k c')) : Sat (decPayload c n k) := by
  unfold decPayload
  split
  · exact hk _ hl
  · exact hl

theorem good_set32b {x : UInt32} (hl : GoodLog c.log) : GoodLog (set32b c x).log := hl

theorem sat_transition {st : St} (hl : GoodLog c.log) : Sat (transition c st) := hl

theorem sat_callback {e : Ev} (hl : GoodLog c.log) (he : Good e) (hs : imm c.p.st = false) : Sat (callback h c e) := by
  unfold callback
  simp only
  split
  · exact hl.add he
  · exact ⟨hl.add he, hs⟩

theorem sat_ite {P : Prop} [Decidable P] {a b : Out} (ha : P → Sat a) (hb : ¬ P → Sat b) : Sat (if P then a else b) := by
  split
  · rename_i hp; exact ha hp
  · rename_i hp; exact hb hp

theorem and_31 (x : UInt32) : x &&& 0x7FFFFFFF < 0x80000000 := by
  rw [UInt32.lt_iff_toNat_lt, UInt32.toNat_and]
  have : x.toNat &&& (0x7FFFFFFF : UInt32).toNat = x.toNat % 2 ^ 31 := Nat.and_two_pow_sub_one_eq_mod _ 31
  rw [this]
  exact Nat.mod_lt _ (by decide)

theorem frameState_imm (s : Core) : imm (frameState s) = false := by
  unfold frameState
  simp only
  split <;> (repeat' split) <;> rfl

theorem sat_payload {k : Kind} (hok : Ok c) (hl : GoodLog c.log) (hs : imm c.p.st = false)
    (h0 : c.ctx.available ≠ 0) : Sat (parsePayloadData h c k) := by
  unfold parsePayloadData
  split
  · exact hl
  · rename_i n hn
    split
    · unfold decPayload
      split
      · refine sat_ite (fun _ => hl) fun _ => sat_callback hl (fun hf => Bool.noConfusion hf) ?_
        show imm (if _ then _ else _) = false
        split <;> rfl
      · exact hl
    · unfold decPayload Core.decPayloadLength
      split
      · rename_i p hp
        simp only
        have hp' : imm p.st = false := by
          split at hp
          · cases hp
          · cases hp; exact hs
        split
        · exact hl
        · have hg : GoodLog (c.log ++ [.payload k (c.ctx.jump c.ctx.available).slice false]) := by
            refine hl.add fun _ hnil => ?_
            have h1 : (c.ctx.jump c.ctx.available).slice.length = c.ctx.available := by
              have := hok.mark
              have := hok.le
              simp only [Ctx.slice, Ctx.jump, List.length_drop, List.length_take, Ctx.available]
              omega
            rw [hnil] at h1
            exact h0 h1.symm
          unfold exitEos exitCallback
          split
          · exact ⟨hg, hp'⟩
          · exact ⟨hg, hp'⟩
      · exact hl

/-- Go through a state function. -/
macro "sat_tac" : tactic => `(tactic| repeat' first
  | assumption
  | exact sat_transition (by assumption)
  | apply sat_eos | apply sat_u8 | apply sat_u16 | apply sat_u32 | apply sat_dec | apply sat_callback | apply sat_ite
  | exact and_31 _
  | rfl
  | exact trivial
  | (intro h0))

theorem sat_frame_length1 (hok : Ok c) (hl : GoodLog c.log) (hs : c.p.st = .frameLength1) : Sat (frame_length1 c) := by
  have hi : imm c.p.st = false := by rw [hs]; rfl
  unfold frame_length1
  sat_tac

theorem sat_frame_length2 (hok : Ok c) (hl : GoodLog c.log) (hs : c.p.st = .frameLength2) : Sat (frame_length2 c) := by
  have hi : imm c.p.st = false := by rw [hs]; rfl
  unfold frame_length2
  sat_tac

theorem sat_frame_length3 (hok : Ok c) (hl : GoodLog c.log) (hs : c.p.st = .frameLength3) : Sat (frame_length3 c) := by
  have hi : imm c.p.st = false := by rw [hs]; rfl
  unfold frame_length3
  sat_tac

theorem sat_frame_type (hok : Ok c) (hl : GoodLog c.log) (hs : c.p.st = .frameType) : Sat (frame_type c) := by
  have hi : imm c.p.st = false := by rw [hs]; rfl
  unfold frame_type
  sat_tac

theorem sat_frame_flags (hok : Ok c) (hl : GoodLog c.log) (hs : c.p.st = .frameFlags) : Sat (frame_flags c) := by
  have hi : imm c.p.st = false := by rw [hs]; rfl
  unfold frame_flags
  sat_tac

theorem sat_frame_stream_id1 (hok : Ok c) (hl : GoodLog c.log) (hs : c.p.st = .frameStreamId1) : Sat (frame_stream_id1 c) := by
  have hi : imm c.p.st = false := by rw [hs]; rfl
  unfold frame_stream_id1
  exact sat_eos hl hi fun _ => sat_ite (fun _ => sat_u32 hl fun _ _ hl => sat_transition hl) fun _ =>
    sat_u8 hl fun _ _ hl => sat_transition (good_set32b hl)

theorem sat_frame_stream_id2 (hok : Ok c) (hl : GoodLog c.log) (hs : c.p.st = .frameStreamId2) : Sat (frame_stream_id2 c) := by
  have hi : imm c.p.st = false := by rw [hs]; rfl
  unfold frame_stream_id2
  sat_tac

theorem sat_frame_stream_id3 (hok : Ok c) (hl : GoodLog c.log) (hs : c.p.st = .frameStreamId3) : Sat (frame_stream_id3 c) := by
  have hi : imm c.p.st = false := by rw [hs]; rfl
  unfold frame_stream_id3
  sat_tac

theorem sat_frame_stream_id4 (hok : Ok c) (hl : GoodLog c.log) (hs : c.p.st = .frameStreamId4) : Sat (frame_stream_id4 c) := by
  have hi : imm c.p.st = false := by rw [hs]; rfl
  unfold frame_stream_id4
  sat_tac

theorem sat_frame_format_end (hok : Ok c) (hl : GoodLog c.log) (hs : c.p.st = .frameFormatEnd) : Sat (frame_format_end h c) := by
  unfold frame_format_end
  exact sat_callback hl (and_31 _) (frameState_imm _)

theorem sat_frame_padding (hok : Ok c) (hl : GoodLog c.log) (hs : c.p.st = .framePadding) : Sat (frame_padding c) := by
  have hi : imm c.p.st = false := by rw [hs]; rfl
  unfold frame_padding
  refine sat_eos hl hi fun h0 => sat_ite (fun _ => sat_transition hl) fun _ => ?_
  unfold decPayload Core.decPayloadLength
  split
  · rename_i p hp
    refine ⟨hl, ?_⟩
    split at hp
    · cases hp
    · cases hp; exact hi
  · exact hl

theorem sat_data_pad_length (hok : Ok c) (hl : GoodLog c.log) (hs : c.p.st = .dataPadLength) : Sat (data_pad_length c) := by
  have hi : imm c.p.st = false := by rw [hs]; rfl
  unfold data_pad_length
  sat_tac

theorem sat_data_data (hok : Ok c) (hl : GoodLog c.log) (hs : c.p.st = .dataData) : Sat (data_data h c) := by
  have hi : imm c.p.st = false := by rw [hs]; rfl
  unfold data_data
  exact sat_eos hl hi fun h0 => sat_payload hok hl hi h0

theorem sat_go_away_stream_id1 (hok : Ok c) (hl : GoodLog c.log) (hs : c.p.st = .goAwayStreamId1) : Sat (go_away_stream_id1 c) := by
  have hi : imm c.p.st = false := by rw [hs]; rfl
  unfold go_away_stream_id1
  sat_tac

theorem sat_go_away_stream_id2 (hok : Ok c) (hl : GoodLog c.log) (hs : c.p.st = .goAwayStreamId2) : Sat (go_away_stream_id2 c) := by
  have hi : imm c.p.st = false := by rw [hs]; rfl
  unfold go_away_stream_id2
  sat_tac

theorem sat_go_away_stream_id3 (hok : Ok c) (hl : GoodLog c.log) (hs : c.p.st = .goAwayStreamId3) : Sat (go_away_stream_id3 c) := by
  have hi : imm c.p.st = false := by rw [hs]; rfl
  unfold go_away_stream_id3
  sat_tac

theorem sat_go_away_stream_id4 (hok : Ok c) (hl : GoodLog c.log) (hs : c.p.st = .goAwayStreamId4) : Sat (go_away_stream_id4 c) := by
  have hi : imm c.p.st = false := by rw [hs]; rfl
  unfold go_away_stream_id4
  sat_tac

theorem sat_go_away_error_code1 (hok : Ok c) (hl : GoodLog c.log) (hs : c.p.st = .goAwayErrorCode1) : Sat (go_away_error_code1 c) := by
  have hi : imm c.p.st = false := by rw [hs]; rfl
  unfold go_away_error_code1
  sat_tac

theorem sat_go_away_error_code2 (hok : Ok c) (hl : GoodLog c.log) (hs : c.p.st = .goAwayErrorCode2) : Sat (go_away_error_code2 c) := by
  have hi : imm c.p.st = false := by rw [hs]; rfl
  unfold go_away_error_code2
  sat_tac

theorem sat_go_away_error_code3 (hok : Ok c) (hl : GoodLog c.log) (hs : c.p.st = .goAwayErrorCode3) : Sat (go_away_error_code3 c) := by
  have hi : imm c.p.st = false := by rw [hs]; rfl
  unfold go_away_error_code3
  sat_tac

theorem sat_go_away_error_code4 (hok : Ok c) (hl : GoodLog c.log) (hs : c.p.st = .goAwayErrorCode4) : Sat (go_away_error_code4 c) := by
  have hi : imm c.p.st = false := by rw [hs]; rfl
  unfold go_away_error_code4
  sat_tac

theorem sat_go_away_callback (hok : Ok c) (hl : GoodLog c.log) (hs : c.p.st = .goAwayCallback) : Sat (go_away_callback h c) := by
  unfold go_away_callback
  refine sat_dec hl fun c' hl' => sat_callback hl' (and_31 _) ?_
  show imm (if _ then _ else _) = false
  split <;> rfl

theorem sat_go_away_debug_data (hok : Ok c) (hl : GoodLog c.log) (hs : c.p.st = .goAwayDebugData) : Sat (go_away_debug_data h c) := by
  have hi : imm c.p.st = false := by rw [hs]; rfl
  unfold go_away_debug_data
  exact sat_eos hl hi fun h0 => sat_payload hok hl hi h0

theorem sat_headers_pad_length_with_priority (hok : Ok c) (hl : GoodLog c.log) (hs : c.p.st = .headersPadLengthWithPriority) : Sat (headers_pad_length_with_priority c) := by
  have hi : imm c.p.st = false := by rw [hs]; rfl
  unfold headers_pad_length_with_priority
  sat_tac

theorem sat_headers_pad_length_without_priority (hok : Ok c) (hl : GoodLog c.log) (hs : c.p.st = .headersPadLengthWithoutPriority) : Sat (headers_pad_length_without_priority c) := by
  have hi : imm c.p.st = false := by rw [hs]; rfl
  unfold headers_pad_length_without_priority
  sat_tac

theorem sat_headers_stream_id1 (hok : Ok c) (hl : GoodLog c.log) (hs : c.p.st = .headersStreamId1) : Sat (headers_stream_id1 c) := by
  have hi : imm c.p.st = false := by rw [hs]; rfl
  unfold headers_stream_id1
  sat_tac

theorem sat_headers_stream_id2 (hok : Ok c) (hl : GoodLog c.log) (hs : c.p.st = .headersStreamId2) : Sat (headers_stream_id2 c) := by
  have hi : imm c.p.st = false := by rw [hs]; rfl
  unfold headers_stream_id2
  sat_tac

theorem sat_headers_stream_id3 (hok : Ok c) (hl : GoodLog c.log) (hs : c.p.st = .headersStreamId3) : Sat (headers_stream_id3 c) := by
  have hi : imm c.p.st = false := by rw [hs]; rfl
  unfold headers_stream_id3
  sat_tac

theorem sat_headers_stream_id4 (hok : Ok c) (hl : GoodLog c.log) (hs : c.p.st = .headersStreamId4) : Sat (headers_stream_id4 c) := by
  have hi : imm c.p.st = false := by rw [hs]; rfl
  unfold headers_stream_id4
  sat_tac

theorem sat_headers_weight (hok : Ok c) (hl : GoodLog c.log) (hs : c.p.st = .headersWeight) : Sat (headers_weight c) := by
  have hi : imm c.p.st = false := by rw [hs]; rfl
  unfold headers_weight
  sat_tac

theorem sat_headers_callback (hok : Ok c) (hl : GoodLog c.log) (hs : c.p.st = .headersCallback) : Sat (headers_callback h c) := by
  unfold headers_callback
  sat_tac

theorem sat_headers_fragment (hok : Ok c) (hl : GoodLog c.log) (hs : c.p.st = .headersFragment) : Sat (headers_fragment h c) := by
  have hi : imm c.p.st = false := by rw [hs]; rfl
  unfold headers_fragment
  exact sat_eos hl hi fun h0 => sat_payload hok hl hi h0

theorem sat_ping_data (hok : Ok c) (hl : GoodLog c.log) (hs : c.p.st = .pingData) : Sat (ping_data h c) := by
  have hi : imm c.p.st = false := by rw [hs]; rfl
  unfold ping_data
  exact sat_eos hl hi fun h0 => sat_payload hok hl hi h0

theorem sat_priority_stream_id1 (hok : Ok c) (hl : GoodLog c.log) (hs : c.p.st = .priorityStreamId1) : Sat (priority_stream_id1 c) := by
  have hi : imm c.p.st = false := by rw [hs]; rfl
  unfold priority_stream_id1
  sat_tac

theorem sat_priority_stream_id2 (hok : Ok c) (hl : GoodLog c.log) (hs : c.p.st = .priorityStreamId2) : Sat (priority_stream_id2 c) := by
  have hi : imm c.p.st = false := by rw [hs]; rfl
  unfold priority_stream_id2
  sat_tac

theorem sat_priority_stream_id3 (hok : Ok c) (hl : GoodLog c.log) (hs : c.p.st = .priorityStreamId3) : Sat (priority_stream_id3 c) := by
  have hi : imm c.p.st = false := by rw [hs]; rfl
  unfold priority_stream_id3
  sat_tac

theorem sat_priority_stream_id4 (hok : Ok c) (hl : GoodLog c.log) (hs : c.p.st = .priorityStreamId4) : Sat (priority_stream_id4 c) := by
  have hi : imm c.p.st = false := by rw [hs]; rfl
  unfold priority_stream_id4
  sat_tac

theorem sat_priority_weight (hok : Ok c) (hl : GoodLog c.log) (hs : c.p.st = .priorityWeight) : Sat (priority_weight h c) := by
  have hi : imm c.p.st = false := by rw [hs]; rfl
  unfold priority_weight
  sat_tac

theorem sat_push_promise_pad_length (hok : Ok c) (hl : GoodLog c.log) (hs : c.p.st = .pushPromisePadLength) : Sat (push_promise_pad_length c) := by
  have hi : imm c.p.st = false := by rw [hs]; rfl
  unfold push_promise_pad_length
  sat_tac

theorem sat_push_promise_stream_id1 (hok : Ok c) (hl : GoodLog c.log) (hs : c.p.st = .pushPromiseStreamId1) : Sat (push_promise_stream_id1 c) := by
  have hi : imm c.p.st = false := by rw [hs]; rfl
  unfold push_promise_stream_id1
  sat_tac

theorem sat_push_promise_stream_id2 (hok : Ok c) (hl : GoodLog c.log) (hs : c.p.st = .pushPromiseStreamId2) : Sat (push_promise_stream_id2 c) := by
  have hi : imm c.p.st = false := by rw [hs]; rfl
  unfold push_promise_stream_id2
  sat_tac

theorem sat_push_promise_stream_id3 (hok : Ok c) (hl : GoodLog c.log) (hs : c.p.st = .pushPromiseStreamId3) : Sat (push_promise_stream_id3 c) := by
  have hi : imm c.p.st = false := by rw [hs]; rfl
  unfold push_promise_stream_id3
  sat_tac

theorem sat_push_promise_stream_id4 (hok : Ok c) (hl : GoodLog c.log) (hs : c.p.st = .pushPromiseStreamId4) : Sat (push_promise_stream_id4 c) := by
  have hi : imm c.p.st = false := by rw [hs]; rfl
  unfold push_promise_stream_id4
  sat_tac

theorem sat_push_promise_callback (hok : Ok c) (hl : GoodLog c.log) (hs : c.p.st = .pushPromiseCallback) : Sat (push_promise_callback h c) := by
  have hi : imm c.p.st = false := by rw [hs]; rfl
  unfold push_promise_callback
  sat_tac

theorem sat_rst_stream_error_code1 (hok : Ok c) (hl : GoodLog c.log) (hs : c.p.st = .rstStreamErrorCode1) : Sat (rst_stream_error_code1 c) := by
  have hi : imm c.p.st = false := by rw [hs]; rfl
  unfold rst_stream_error_code1
  sat_tac

theorem sat_rst_stream_error_code2 (hok : Ok c) (hl : GoodLog c.log) (hs : c.p.st = .rstStreamErrorCode2) : Sat (rst_stream_error_code2 c) := by
  have hi : imm c.p.st = false := by rw [hs]; rfl
  unfold rst_stream_error_code2
  sat_tac

theorem sat_rst_stream_error_code3 (hok : Ok c) (hl : GoodLog c.log) (hs : c.p.st = .rstStreamErrorCode3) : Sat (rst_stream_error_code3 c) := by
  have hi : imm c.p.st = false := by rw [hs]; rfl
  unfold rst_stream_error_code3
  sat_tac

theorem sat_rst_stream_error_code4 (hok : Ok c) (hl : GoodLog c.log) (hs : c.p.st = .rstStreamErrorCode4) : Sat (rst_stream_error_code4 c) := by
  have hi : imm c.p.st = false := by rw [hs]; rfl
  unfold rst_stream_error_code4
  sat_tac

theorem sat_rst_stream_callback (hok : Ok c) (hl : GoodLog c.log) (hs : c.p.st = .rstStreamCallback) : Sat (rst_stream_callback h c) := by
  unfold rst_stream_callback
  sat_tac

theorem sat_settings_id1 (hok : Ok c) (hl : GoodLog c.log) (hs : c.p.st = .settingsId1) : Sat (settings_id1 c) := by
  have hi : imm c.p.st = false := by rw [hs]; rfl
  unfold settings_id1
  sat_tac

theorem sat_settings_id2 (hok : Ok c) (hl : GoodLog c.log) (hs : c.p.st = .settingsId2) : Sat (settings_id2 c) := by
  have hi : imm c.p.st = false := by rw [hs]; rfl
  unfold settings_id2
  sat_tac

theorem sat_settings_value1 (hok : Ok c) (hl : GoodLog c.log) (hs : c.p.st = .settingsValue1) : Sat (settings_value1 c) := by
  have hi : imm c.p.st = false := by rw [hs]; rfl
  unfold settings_value1
  sat_tac

theorem sat_settings_value2 (hok : Ok c) (hl : GoodLog c.log) (hs : c.p.st = .settingsValue2) : Sat (settings_value2 c) := by
  have hi : imm c.p.st = false := by rw [hs]; rfl
  unfold settings_value2
  sat_tac

theorem sat_settings_value3 (hok : Ok c) (hl : GoodLog c.log) (hs : c.p.st = .settingsValue3) : Sat (settings_value3 c) := by
  have hi : imm c.p.st = false := by rw [hs]; rfl
  unfold settings_value3
  sat_tac

theorem sat_settings_value4 (hok : Ok c) (hl : GoodLog c.log) (hs : c.p.st = .settingsValue4) : Sat (settings_value4 c) := by
  have hi : imm c.p.st = false := by rw [hs]; rfl
  unfold settings_value4
  sat_tac

theorem sat_settings_callback (hok : Ok c) (hl : GoodLog c.log) (hs : c.p.st = .settingsCallback) : Sat (settings_callback h c) := by
  unfold settings_callback
  sat_tac

theorem sat_window_update_increment1 (hok : Ok c) (hl : GoodLog c.log) (hs : c.p.st = .windowUpdateIncrement1) : Sat (window_update_increment1 c) := by
  have hi : imm c.p.st = false := by rw [hs]; rfl
  unfold window_update_increment1
  sat_tac

theorem sat_window_update_increment2 (hok : Ok c) (hl : GoodLog c.log) (hs : c.p.st = .windowUpdateIncrement2) : Sat (window_update_increment2 c) := by
  have hi : imm c.p.st = false := by rw [hs]; rfl
  unfold window_update_increment2
  sat_tac

theorem sat_window_update_increment3 (hok : Ok c) (hl : GoodLog c.log) (hs : c.p.st = .windowUpdateIncrement3) : Sat (window_update_increment3 c) := by
  have hi : imm c.p.st = false := by rw [hs]; rfl
  unfold window_update_increment3
  sat_tac

theorem sat_window_update_increment4 (hok : Ok c) (hl : GoodLog c.log) (hs : c.p.st = .windowUpdateIncrement4) : Sat (window_update_increment4 c) := by
  have hi : imm c.p.st = false := by rw [hs]; rfl
  unfold window_update_increment4
  sat_tac

theorem sat_window_update_callback (hok : Ok c) (hl : GoodLog c.log) (hs : c.p.st = .windowUpdateCallback) : Sat (window_update_callback h c) := by
  unfold window_update_callback
  sat_tac

theorem sat_unsupported_pad_length (hok : Ok c) (hl : GoodLog c.log) (hs : c.p.st = .unsupportedPadLength) : Sat (unsupported_pad_length c) := by
  have hi : imm c.p.st = false := by rw [hs]; rfl
  unfold unsupported_pad_length
  sat_tac

theorem sat_unsupported_data (hok : Ok c) (hl : GoodLog c.log) (hs : c.p.st = .unsupportedData) : Sat (unsupported_data h c) := by
  have hi : imm c.p.st = false := by rw [hs]; rfl
  unfold unsupported_data
  exact sat_eos hl hi fun h0 => sat_payload hok hl hi h0

theorem sat_step (hok : Ok c) (hl : GoodLog c.log) : Sat (stepFn h c) := by
  unfold stepFn
  split <;> rename_i hs
  · exact sat_frame_length1 hok hl hs
  · exact sat_frame_length2 hok hl hs
  · exact sat_frame_length3 hok hl hs
  · exact sat_frame_type hok hl hs
  · exact sat_frame_flags hok hl hs
  · exact sat_frame_stream_id1 hok hl hs
  · exact sat_frame_stream_id2 hok hl hs
  · exact sat_frame_stream_id3 hok hl hs
  · exact sat_frame_stream_id4 hok hl hs
  · exact sat_frame_format_end hok hl hs
  · exact sat_frame_padding hok hl hs
  · exact sat_data_pad_length hok hl hs
  · exact sat_data_data hok hl hs
  · exact sat_go_away_stream_id1 hok hl hs
  · exact sat_go_away_stream_id2 hok hl hs
  · exact sat_go_away_stream_id3 hok hl hs
  · exact sat_go_away_stream_id4 hok hl hs
  · exact sat_go_away_error_code1 hok hl hs
  · exact sat_go_away_error_code2 hok hl hs
  · exact sat_go_away_error_code3 hok hl hs
  · exact sat_go_away_error_code4 hok hl hs
  · exact sat_go_away_callback hok hl hs
  · exact sat_go_away_debug_data hok hl hs
  · exact sat_headers_pad_length_with_priority hok hl hs
  · exact sat_headers_pad_length_without_priority hok hl hs
  · exact sat_headers_stream_id1 hok hl hs
  · exact sat_headers_stream_id2 hok hl hs
  · exact sat_headers_stream_id3 hok hl hs
  · exact sat_headers_stream_id4 hok hl hs
  · exact sat_headers_weight hok hl hs
  · exact sat_headers_callback hok hl hs
  · exact sat_headers_fragment hok hl hs
  · exact sat_ping_data hok hl hs
  · exact sat_priority_stream_id1 hok hl hs
  · exact sat_priority_stream_id2 hok hl hs
  · exact sat_priority_stream_id3 hok hl hs
  · exact sat_priority_stream_id4 hok hl hs
  · exact sat_priority_weight hok hl hs
  · exact sat_push_promise_pad_length hok hl hs
  · exact sat_push_promise_stream_id1 hok hl hs
  · exact sat_push_promise_stream_id2 hok hl hs
  · exact sat_push_promise_stream_id3 hok hl hs
  · exact sat_push_promise_stream_id4 hok hl hs
  · exact sat_push_promise_callback hok hl hs
  · exact sat_rst_stream_error_code1 hok hl hs
  · exact sat_rst_stream_error_code2 hok hl hs
  · exact sat_rst_stream_error_code3 hok hl hs
  · exact sat_rst_stream_error_code4 hok hl hs
  · exact sat_rst_stream_callback hok hl hs
  · exact sat_settings_id1 hok hl hs
  · exact sat_settings_id2 hok hl hs
  · exact sat_settings_value1 hok hl hs
  · exact sat_settings_value2 hok hl hs
  · exact sat_settings_value3 hok hl hs
  · exact sat_settings_value4 hok hl hs
  · exact sat_settings_callback hok hl hs
  · exact sat_window_update_increment1 hok hl hs
  · exact sat_window_update_increment2 hok hl hs
  · exact sat_window_update_increment3 hok hl hs
  · exact sat_window_update_increment4 hok hl hs
  · exact sat_window_update_callback hok hl hs
  · exact sat_unsupported_pad_length hok hl hs
  · exact sat_unsupported_data hok hl hs
  · exact hl
  · exact ⟨hl, by rw [hs]; rfl⟩

/-! ## Progress -/

/-- One step makes progress and stays in the slice. -/
def StepT (c : Cfg) : Out → Prop
  | .cont c' => Ok c' ∧ c'.ctx.stream = c.ctx.stream ∧ mu c' < mu c ∧ c'.p.st ≠ .dead ∧ c'.p.st ≠ .finished
  | .exit (.eos n) c' => c'.ctx.stream = c.ctx.stream ∧ n = c'.ctx.idx ∧ n = c.ctx.stream.length ∧
      c'.p.st ≠ .dead ∧ c'.p.st ≠ .finished
  | .exit (.callback n) c' => c'.ctx.stream = c.ctx.stream ∧ n = c'.ctx.idx ∧ n ≤ c.ctx.stream.length ∧
      c'.p.st ≠ .dead ∧ c'.p.st ≠ .finished
  | .panic _ => True
  | _ => False

theorem relSelf_alive {s : Core} (hr : RelSelf s) : s.st ≠ .dead ∧ s.st ≠ .finished := by
  constructor <;> intro he <;> rw [RelSelf, he] at hr <;> exact hr

theorem stepT_of_ok {o : Out} (ho : StepOK Uncut c o) : StepT c o := by
  cases o with
  | cont c' =>
    obtain ⟨h1, h2, h3, h4, h5⟩ := ho
    exact ⟨h1, h2, h3, relSelf_alive h5⟩
  | exit s c' =>
    cases s with
    | eos n =>
      obtain ⟨h1, h2, h3, h4, h5⟩ := ho
      exact ⟨h1, h2, h3, relSelf_alive h5.1⟩
    | callback n =>
      obtain ⟨h1, h2, h3, h4, h5⟩ := ho
      exact ⟨h1, h2, h3, relSelf_alive h5.1⟩
    | finished n => exact ho
  | err c' => exact ho
  | panic log => trivial

/-- A state in which one byte is read. -/
theorem byteT (hok : Ok c) (f : UInt8 → Core → Core) {o : Out}
    (ho : o = (exitIfEos c <| getU8 c fun b c => remark { c with p := f b c.p }))
    (h0 : c.p.st ≠ .dead ∧ c.p.st ≠ .finished) (h1 : ∀ b, (f b c.p).st ≠ .dead ∧ (f b c.p).st ≠ .finished) :
    StepT c o := by
  subst ho
  unfold exitIfEos
  split
  · rename_i ha
    refine ⟨rfl, rfl, ?_, h0⟩
    have := hok.le
    unfold Ctx.available at ha
    omega
  · rename_i ha
    obtain ⟨b, g1, g2, g3⟩ := rest_cons ha
    simp only [getU8, g1]
    refine ⟨⟨rfl, ?_⟩, rfl, ?_, h1 b⟩
    · have := hok.le
      simp only [remark, jump, Ctx.jump, Ctx.setMark]
      unfold Ctx.available at ha
      omega
    · show 4 * (c.ctx.jump 1).available + rank _ < 4 * c.ctx.available + rank _
      have := rank_le (f b c.p).st
      simp only [jump]
      omega

theorem id1_T (hok : Ok c) (hs : c.p.st = .frameStreamId1) : StepT c (frame_stream_id1 c) := by
  by_cases h4 : c.ctx.available ≥ 4
  · unfold frame_stream_id1 exitIfEos
    rw [if_neg (by omega), if_pos h4]
    obtain ⟨b1, b2, b3, b4, g1, g2, g3, g4, hr, ha⟩ := rest_four h4
    simp only [readU32, g1, g2, g3, g4]
    refine ⟨⟨rfl, ?_⟩, rfl, ?_, nofun, nofun⟩
    · have := hok.le
      simp only [set32b, setState, jump, Ctx.jump, Ctx.setMark]
      unfold Ctx.available at h4
      omega
    · show 4 * (c.ctx.jump 4).available + rank _ < 4 * c.ctx.available + rank _
      have : rank St.frameFormatEnd = 3 := rfl
      simp only [set32b, setState, jump]
      omega
  · refine byteT hok (fun b s => { s with bit32b := b.toUInt32 <<< 24, st := .frameStreamId2 }) (id1_slow h4) ?_ ?_
    · rw [hs]; exact ⟨nofun, nofun⟩
    · intro b; exact ⟨nofun, nofun⟩

theorem T_frame_length2 (hok : Ok c) (hs : c.p.st = .frameLength2) : StepT c (frame_length2 c) := by
  refine byteT hok (fun b s => { s with bit32a := s.bit32a ||| (b.toUInt32 <<< 16), st := .frameLength3 }) (by rfl) ?_ ?_
  · rw [hs]; exact ⟨nofun, nofun⟩
  · intro b; exact ⟨nofun, nofun⟩

theorem T_frame_length3 (hok : Ok c) (hs : c.p.st = .frameLength3) : StepT c (frame_length3 c) := by
  refine byteT hok (fun b s => { s with bit32a := s.bit32a ||| (b.toUInt32 <<< 8), st := .frameType }) (by rfl) ?_ ?_
  · rw [hs]; exact ⟨nofun, nofun⟩
  · intro b; exact ⟨nofun, nofun⟩

theorem T_frame_type (hok : Ok c) (hs : c.p.st = .frameType) : StepT c (frame_type c) := by
  refine byteT hok (fun b s => { s with bit32a := s.bit32a ||| b.toUInt32, st := .frameFlags }) (by rfl) ?_ ?_
  · rw [hs]; exact ⟨nofun, nofun⟩
  · intro b; exact ⟨nofun, nofun⟩

theorem T_frame_flags (hok : Ok c) (hs : c.p.st = .frameFlags) : StepT c (frame_flags c) := by
  refine byteT hok (fun b s => { s with bit16a := b.toUInt16, st := .frameStreamId1 }) (by rfl) ?_ ?_
  · rw [hs]; exact ⟨nofun, nofun⟩
  · intro b; exact ⟨nofun, nofun⟩

theorem T_frame_stream_id2 (hok : Ok c) (hs : c.p.st = .frameStreamId2) : StepT c (frame_stream_id2 c) := by
  refine byteT hok (fun b s => { s with bit32b := (b.toUInt32 <<< 16), st := .frameStreamId3 }) (by rfl) ?_ ?_
  · rw [hs]; exact ⟨nofun, nofun⟩
  · intro b; exact ⟨nofun, nofun⟩

theorem T_frame_stream_id3 (hok : Ok c) (hs : c.p.st = .frameStreamId3) : StepT c (frame_stream_id3 c) := by
  refine byteT hok (fun b s => { s with bit32b := (b.toUInt32 <<< 8), st := .frameStreamId4 }) (by rfl) ?_ ?_
  · rw [hs]; exact ⟨nofun, nofun⟩
  · intro b; exact ⟨nofun, nofun⟩

theorem T_frame_stream_id4 (hok : Ok c) (hs : c.p.st = .frameStreamId4) : StepT c (frame_stream_id4 c) := by
  refine byteT hok (fun b s => { s with bit32b := s.bit32b ||| b.toUInt32, st := .frameFormatEnd }) (by rfl) ?_ ?_
  · rw [hs]; exact ⟨nofun, nofun⟩
  · intro b; exact ⟨nofun, nofun⟩

theorem T_go_away_stream_id2 (hok : Ok c) (hs : c.p.st = .goAwayStreamId2) : StepT c (go_away_stream_id2 c) := by
  refine byteT hok (fun b s => { s with bit32b := s.bit32b ||| (b.toUInt32 <<< 16), st := .goAwayStreamId3 }) (by rfl) ?_ ?_
  · rw [hs]; exact ⟨nofun, nofun⟩
  · intro b; exact ⟨nofun, nofun⟩

theorem T_go_away_stream_id3 (hok : Ok c) (hs : c.p.st = .goAwayStreamId3) : StepT c (go_away_stream_id3 c) := by
  refine byteT hok (fun b s => { s with bit32b := s.bit32b ||| (b.toUInt32 <<< 8), st := .goAwayStreamId3 }) (by rfl) ?_ ?_
  · rw [hs]; exact ⟨nofun, nofun⟩
  · intro b; exact ⟨nofun, nofun⟩

theorem T_go_away_stream_id4 (hok : Ok c) (hs : c.p.st = .goAwayStreamId4) : StepT c (go_away_stream_id4 c) := by
  refine byteT hok (fun b s => { s with bit32b := s.bit32b ||| b.toUInt32, st := .goAwayErrorCode1 }) (by rfl) ?_ ?_
  · rw [hs]; exact ⟨nofun, nofun⟩
  · intro b; exact ⟨nofun, nofun⟩

theorem T_settings_value2 (hok : Ok c) (hs : c.p.st = .settingsValue2) : StepT c (settings_value2 c) := by
  refine byteT hok (fun b s => { s with bit32b := s.bit32b ||| (b.toUInt32 <<< 16), st := .settingsValue3 }) (by rfl) ?_ ?_
  · rw [hs]; exact ⟨nofun, nofun⟩
  · intro b; exact ⟨nofun, nofun⟩

theorem T_settings_value3 (hok : Ok c) (hs : c.p.st = .settingsValue3) : StepT c (settings_value3 c) := by
  refine byteT hok (fun b s => { s with bit32b := s.bit32b ||| (b.toUInt32 <<< 8), st := .settingsValue3 }) (by rfl) ?_ ?_
  · rw [hs]; exact ⟨nofun, nofun⟩
  · intro b; exact ⟨nofun, nofun⟩

theorem T_settings_value4 (hok : Ok c) (hs : c.p.st = .settingsValue4) : StepT c (settings_value4 c) := by
  refine byteT hok (fun b s => { s with bit32b := s.bit32b ||| b.toUInt32, st := .settingsCallback }) (by rfl) ?_ ?_
  · rw [hs]; exact ⟨nofun, nofun⟩
  · intro b; exact ⟨nofun, nofun⟩

theorem step_T (hok : Ok c) (h1 : c.p.st ≠ .dead) (h2 : c.p.st ≠ .finished) : StepT c (stepFn h c) := by
  by_cases hr : RelSelf c.p ∧ Plain c.p.st = true
  · exact stepT_of_ok (step_plain hok hr.2 (fun _ => uncut_clear) hr.1)
  · have key : c.p.st ∈ [St.frameLength2, .frameLength3, .frameType, .frameFlags, .frameStreamId1, .frameStreamId2,
        .frameStreamId3, .frameStreamId4, .goAwayStreamId2, .goAwayStreamId3, .goAwayStreamId4, .settingsValue2,
        .settingsValue3, .settingsValue4] := by
      revert h1 h2 hr
      generalize c.p = s
      obtain ⟨a, b, x, y, st⟩ := s
      cases st <;> simp [RelSelf, Plain]
    simp only [List.mem_cons, List.not_mem_nil, or_false] at key
    rcases key with hs | hs | hs | hs | hs | hs | hs | hs | hs | hs | hs | hs | hs | hs <;> unfold stepFn <;> rw [hs]
    · exact T_frame_length2 hok hs
    · exact T_frame_length3 hok hs
    · exact T_frame_type hok hs
    · exact T_frame_flags hok hs
    · exact id1_T hok hs
    · exact T_frame_stream_id2 hok hs
    · exact T_frame_stream_id3 hok hs
    · exact T_frame_stream_id4 hok hs
    · exact T_go_away_stream_id2 hok hs
    · exact T_go_away_stream_id3 hok hs
    · exact T_go_away_stream_id4 hok hs
    · exact T_settings_value2 hok hs
    · exact T_settings_value3 hok hs
    · exact T_settings_value4 hok hs

/-! ## Calls -/

/-- What every call of `resume` returns. -/
def CallT (w : World) (s : Bytes) : Res × World → Prop
  | (.ok (.callback n), w') => n ≤ s.length ∧ w'.p.byteCount = w.p.byteCount + n ∧ GoodLog w'.log ∧
      imm w'.p.st = false ∧ w'.p.st ≠ .dead ∧ w'.p.st ≠ .finished
  | (.ok (.eos n), w') => n = s.length ∧ w'.p.byteCount = w.p.byteCount + n ∧ GoodLog w'.log ∧
      imm w'.p.st = false ∧ w'.p.st ≠ .dead ∧ w'.p.st ≠ .finished
  | (.panic, w') => GoodLog w'.log
  | _ => False

theorem parse_T (s : Bytes) (w : World) : ∀ (n : Nat) (c : Cfg), mu c < n → Ok c → c.ctx.stream = s →
    c.p.st ≠ .dead → c.p.st ≠ .finished → GoodLog c.log →
    CallT w s (match parse h n c with
      | (.ok (.finished n), c) => (.ok (.finished n), ⟨⟨{ c.p with st := .finished }, w.p.byteCount + c.ctx.idx⟩, c.log⟩)
      | (.ok su, c) => (.ok su, ⟨⟨c.p, w.p.byteCount + c.ctx.idx⟩, c.log⟩)
      | (.err, c) => (.err, ⟨⟨{ c.p with st := .dead }, w.p.byteCount + c.ctx.idx⟩, c.log⟩)
      | (r, c) => (r, ⟨w.p, c.log⟩))
  | 0, c, hm, _, _, _, _, _ => absurd hm (by omega)
  | n + 1, c, hm, hok, hs, hd, hf, hl => by
    have hx := step_T (h := h) hok hd hf
    have hy := sat_step (h := h) hok hl
    rw [parse]
    generalize stepFn h c = o at hx hy
    cases o with
    | cont c' =>
      obtain ⟨h1, h2, h3, h4, h5⟩ := hx
      exact parse_T s w n c' (by omega) h1 (h2.trans hs) h4 h5 hy
    | exit su c' =>
      cases su with
      | eos n =>
        obtain ⟨h1, h2, h3, h4⟩ := hx
        exact ⟨by rw [h3, hs], by rw [h2], hy.1, hy.2, h4⟩
      | callback n =>
        obtain ⟨h1, h2, h3, h4⟩ := hx
        exact ⟨by rw [← hs]; exact h3, by rw [h2], hy.1, hy.2, h4⟩
      | finished n => exact hx
    | err c' => exact hx
    | panic log => exact hy

theorem call_T {w : World} {s : Bytes} (hd : w.p.st ≠ .dead) (hf : w.p.st ≠ .finished) (hl : GoodLog w.log) :
    CallT w s (resume h w s) := by
  have := parse_T (h := h) s w (fuel s.length) ⟨w.p.toCore, Ctx.new s, w.log⟩ ?_ ⟨rfl, Nat.zero_le _⟩ rfl hd hf hl
  · unfold resume
    revert this
    generalize parse h (fuel s.length) ⟨w.p.toCore, Ctx.new s, w.log⟩ = o
    obtain ⟨r, c⟩ := o
    intro this
    cases r with
    | ok su => cases su <;> exact this
    | err => exact this
    | panic => exact this
    | diverge => exact this
  · have := rank_le w.p.st
    simp only [mu, fuel, Ctx.available, Ctx.new]
    omega

/-! ## Client runs -/

theorem drive_T : ∀ (ks : List Nat) (last : End) (sts : List Stop) (w : World) (rem : Bytes),
    last = .idle ∨ last = .callback ∨ last = .eos → w.p.st ≠ .dead → w.p.st ≠ .finished → GoodLog w.log →
    imm w.p.st = false →
    let o := drive h last sts ks w rem
    (o.last = .idle ∨ o.last = .callback ∨ o.last = .eos ∨ o.last = .panic) ∧ GoodLog o.world.log ∧
      imm o.world.p.st = false
  | [], last, sts, w, rem, hl, hd, hf, hg, hi => by
    rcases hl with rfl | rfl | rfl <;> exact ⟨by simp [drive], hg, hi⟩
  | k :: ks, last, sts, w, rem, hl, hd, hf, hg, hi => by
    have hc := call_T (h := h) (s := rem.take k) hd hf hg
    have hp : ∀ w', resume h w (rem.take k) = (.panic, w') → w'.p = w.p := by
      intro w'
      unfold resume
      generalize parse h (fuel (rem.take k).length) ⟨w.p.toCore, Ctx.new (rem.take k), w.log⟩ = o
      obtain ⟨r, c⟩ := o
      intro this
      cases r with
      | ok su => cases su <;> simp at this
      | err => simp at this
      | panic => simp only [Prod.mk.injEq] at this; rw [← this.2]
      | diverge => simp at this
    simp only [drive]
    generalize hr : resume h w (rem.take k) = o at hc hp
    obtain ⟨r, w'⟩ := o
    cases r with
    | ok su =>
      cases su with
      | eos n => exact drive_T ks _ _ _ _ (.inr (.inr rfl)) hc.2.2.2.2.1 hc.2.2.2.2.2 hc.2.2.1 hc.2.2.2.1
      | callback n => exact drive_T ks _ _ _ _ (.inr (.inl rfl)) hc.2.2.2.2.1 hc.2.2.2.2.2 hc.2.2.1 hc.2.2.2.1
      | finished n => exact hc.elim
    | err => exact hc.elim
    | panic => exact ⟨by simp, hc, by rw [hp w' rfl]; exact hi⟩
    | diverge => exact hc.elim

theorem run_T (ks : List Nat) (m : Bytes) : let o := run h ks m
    (o.last = .idle ∨ o.last = .callback ∨ o.last = .eos ∨ o.last = .panic) ∧ GoodLog o.world.log ∧
      imm o.world.p.st = false :=
  drive_T ks .idle [] ⟨.new, []⟩ m (.inl rfl) nofun nofun (by simp [GoodLog]) rfl

end Verif.Http2
