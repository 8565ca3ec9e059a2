import Verif.Http2.Sim

/-!
# Every state function agrees with the reference machine (helper lemmas)
-/

set_option linter.unusedSimpArgs false
set_option linter.unusedVariables false

namespace Verif.Http2

variable {h : Handler} {c : Cfg} {P : Slices → Bytes → Prop}

theorem core_eta {s : Core} {st : St} (hs : s.st = st) : s = ⟨s.bit32a, s.bit32b, s.bit16a, s.bit16b, st⟩ := by
  subst hs; rfl

/-- The first four bytes of a frame. -/
theorem frame_length1_ok (hok : Ok c) (hs : c.p.st = .frameLength1) : StepOK P c (frame_length1 c) := by
  obtain ⟨⟨a, b, x, y, st⟩, ctx, log⟩ := c
  subst hs
  have hb := byte_ok (P := P) (c := ⟨⟨a, b, x, y, .frameLength1⟩, ctx, log⟩) hok trivial rfl rfl (fun b s => bStart b)
    (fun _ => rfl) (fun _ => rfl)
  unfold frame_length1
  by_cases h4 : ctx.available ≥ 4
  · refine eos_ok hok trivial fun _ => ?_
    simp only [if_pos h4]
    refine four_ok hok h4 ⟨0, 0, 0, 0, .frameLength1⟩ trivial (x := fun b1 b2 b3 b4 =>
      ⟨((((0 : UInt32) ||| (b1.toUInt32 <<< 24)) ||| (b2.toUInt32 <<< 16)) ||| (b3.toUInt32 <<< 8)) ||| b4.toUInt32,
        0, 0, 0, .frameFlags⟩) (fun _ _ _ _ => rfl) (fun _ _ _ _ _ _ _ _ => by simp [predC, Slices.lost, Slices.byte, norm, bstep, or32a, bStart]) ?_
    intro b1 b2 b3 b4 g1 g2 g3 g4
    simp only [readU32, g1, g2, g3, g4]
    rfl
  · simp only [if_neg h4]
    exact hb

theorem frame_length2_ok (hok : Ok c) (hs : c.p.st = .frameLength2) (hr : RelSelf c.p) : StepOK P c (frame_length2 c) := by
  obtain ⟨⟨a, b, x, y, st⟩, ctx, log⟩ := c
  subst hs
  exact byte_ok hok hr rfl rfl (fun b s => { s with bit32a := s.bit32a ||| (b.toUInt32 <<< 16), st := .frameLength3 }) (fun _ => rfl) (fun _ => hr)

theorem frame_length3_ok (hok : Ok c) (hs : c.p.st = .frameLength3) (hr : RelSelf c.p) : StepOK P c (frame_length3 c) := by
  obtain ⟨⟨a, b, x, y, st⟩, ctx, log⟩ := c
  subst hs
  exact byte_ok hok hr rfl rfl (fun b s => { s with bit32a := s.bit32a ||| (b.toUInt32 <<< 8), st := .frameType }) (fun _ => rfl) (fun _ => hr)

theorem frame_type_ok (hok : Ok c) (hs : c.p.st = .frameType) (hr : RelSelf c.p) : StepOK P c (frame_type c) := by
  obtain ⟨⟨a, b, x, y, st⟩, ctx, log⟩ := c
  subst hs
  exact byte_ok hok hr rfl rfl (fun b s => { s with bit32a := s.bit32a ||| b.toUInt32, st := .frameFlags }) (fun _ => rfl) (fun _ => hr)

theorem frame_flags_ok (hok : Ok c) (hs : c.p.st = .frameFlags) (hr : RelSelf c.p) : StepOK P c (frame_flags c) := by
  obtain ⟨⟨a, b, x, y, st⟩, ctx, log⟩ := c
  subst hs
  exact byte_ok hok hr rfl rfl (fun b s => { s with bit16a := b.toUInt16, st := .frameStreamId1 }) (fun _ => rfl) (fun _ => hr)

theorem frameState_facts (s : Core) : rank (frameState s) < 3 ∧
    norm { s with bit16a := 0, bit32a := s.bit32a &&& 0xFFFFFF00, bit32b := 0, st := frameState s } =
      .next [] { s with bit16a := 0, bit32a := s.bit32a &&& 0xFFFFFF00, bit32b := 0, st := frameState s } ∧
    RelSelf { s with bit16a := 0, bit32a := s.bit32a &&& 0xFFFFFF00, bit32b := 0, st := frameState s } ∧
    inLongField (frameState s) = false := by
  have key : frameState s ∈ [St.dataPadLength, .dataData, .headersPadLengthWithPriority,
      .headersPadLengthWithoutPriority, .headersStreamId1, .headersFragment, .priorityStreamId1, .rstStreamErrorCode1,
      .settingsId1, .pushPromisePadLength, .pushPromiseStreamId1, .pingData, .goAwayStreamId1, .windowUpdateIncrement1,
      .unsupportedPadLength, .unsupportedData] := by
    unfold frameState
    simp only
    split <;> (repeat' split) <;> simp
  generalize frameState s = st at key ⊢
  simp only [List.mem_cons, List.not_mem_nil, or_false] at key
  rcases key with rfl | rfl | rfl | rfl | rfl | rfl | rfl | rfl | rfl | rfl | rfl | rfl | rfl | rfl | rfl | rfl <;>
    exact ⟨by decide, rfl, trivial, rfl⟩

theorem frame_format_end_ok (hok : Ok c) (hs : c.p.st = .frameFormatEnd) : StepOK P c (frame_format_end h c) := by
  obtain ⟨⟨a, b, x, y, st⟩, ctx, log⟩ := c
  subst hs
  obtain ⟨h1, h2, h3, h4⟩ := frameState_facts ⟨a, b, x, y, .frameFormatEnd⟩
  refine callback_ok rfl hok.le ?_ ⟨h3, h4⟩ ⟨[], rfl, fun _ _ _ _ => predC_imm rfl h2 _ _⟩
  show 4 * ctx.available + rank (frameState _) < 4 * ctx.available + 3
  exact Nat.add_lt_add_left h1 _

theorem frame_padding_ok (hok : Ok c) (hs : c.p.st = .framePadding) : StepOK P c (frame_padding c) :=
  padding_ok hok hs

theorem data_pad_length_ok (hok : Ok c) (hs : c.p.st = .dataPadLength) : StepOK P c (data_pad_length c) := by
  obtain ⟨⟨a, b, x, y, st⟩, ctx, log⟩ := c
  subst hs
  exact dec_ok hok trivial rfl rfl (fun b s => { s with bit32a := s.bit32a ||| b.toUInt32 }) 1 .dataData (fun _ => rfl)
    (fun _ => trivial)

theorem data_data_ok (hok : Ok c) (hs : c.p.st = .dataData) : StepOK P c (data_data h c) := by
  exact payload_ok hok (k := .data) (by rw [hs]; rfl)

theorem go_away_stream_id1_ok (hP : ∀ K r, P K r → Clear K r) (hok : Ok c) (hs : c.p.st = .goAwayStreamId1) : StepOK P c (go_away_stream_id1 c) := by
  obtain ⟨⟨a, b, x, y, st⟩, ctx, log⟩ := c
  subst hs
  exact first_ok' hok trivial b (fun x s => { s with bit32b := x, st := .goAwayErrorCode1 })
    (fun b s => { s with bit32b := s.bit32b ||| (b.toUInt32 <<< 24), st := .goAwayStreamId2 }) (fun K b tr r hK => by
      have := hP _ _ hK
      simp only [Clear, List.length_cons] at this
      simp [predC, Slices.lost, Slices.byte, norm, bstep, or32b, this])
    (fun K b1 b2 b3 b4 tr r hK => by
      have := hP _ _ hK
      simp only [Clear, List.length_cons] at this
      simp [predC, Slices.lost, Slices.byte, norm, bstep, or32b, this]) (fun _ => trivial) (fun _ => trivial)

theorem go_away_error_code1_ok (hok : Ok c) (hs : c.p.st = .goAwayErrorCode1) : StepOK P c (go_away_error_code1 c) := by
  obtain ⟨⟨a, b, x, y, st⟩, ctx, log⟩ := c
  subst hs
  unfold go_away_error_code1
  by_cases h4 : ctx.available ≥ 4
  · refine eos_ok hok trivial fun _ => ?_
    simp only [if_pos h4]
    refine four_ok hok h4 ⟨a, b, x, y, .goAwayErrorCode1⟩ trivial (x := fun b1 b2 b3 b4 =>
      ⟨a, b, (x ||| (b1.toUInt16 <<< 8)) ||| b2.toUInt16, (y ||| (b3.toUInt16 <<< 8)) ||| b4.toUInt16, .goAwayCallback⟩)
      (fun _ _ _ _ => trivial) (fun _ _ _ _ _ _ _ _ => by simp [predC, Slices.lost, Slices.byte, norm, bstep, or16a, or16b]) ?_
    intro b1 b2 b3 b4 g1 g2 g3 g4
    simp only [readU16, g1, g2, set16a, jump, Ctx.jump, Nat.add_assoc]
    simp only at g3 g4
    simp only [g3, g4, Nat.reduceAdd]
    rfl
  · have hb := byte_ok (P := P) (c := ⟨⟨a, b, x, y, .goAwayErrorCode1⟩, ctx, log⟩) hok trivial rfl rfl
      (fun b s => { s with bit16a := s.bit16a ||| (b.toUInt16 <<< 8), st := .goAwayErrorCode2 }) (fun _ => rfl)
      (fun _ => trivial)
    simp only [if_neg h4]
    exact hb

theorem go_away_error_code2_ok (hok : Ok c) (hs : c.p.st = .goAwayErrorCode2) : StepOK P c (go_away_error_code2 c) := by
  obtain ⟨⟨a, b, x, y, st⟩, ctx, log⟩ := c
  subst hs
  exact byte_ok hok trivial rfl rfl (fun b s => { s with bit16a := s.bit16a ||| b.toUInt16, st := .goAwayErrorCode3 }) (fun _ => rfl) (fun _ => trivial)

theorem go_away_error_code3_ok (hok : Ok c) (hs : c.p.st = .goAwayErrorCode3) : StepOK P c (go_away_error_code3 c) := by
  obtain ⟨⟨a, b, x, y, st⟩, ctx, log⟩ := c
  subst hs
  exact byte_ok hok trivial rfl rfl (fun b s => { s with bit16b := s.bit16b ||| (b.toUInt16 <<< 8), st := .goAwayErrorCode4 }) (fun _ => rfl) (fun _ => trivial)

theorem go_away_error_code4_ok (hok : Ok c) (hs : c.p.st = .goAwayErrorCode4) : StepOK P c (go_away_error_code4 c) := by
  obtain ⟨⟨a, b, x, y, st⟩, ctx, log⟩ := c
  subst hs
  exact byte_ok hok trivial rfl rfl (fun b s => { s with bit16b := s.bit16b ||| b.toUInt16, st := .goAwayCallback }) (fun _ => rfl) (fun _ => trivial)

theorem go_away_callback_ok (hok : Ok c) (hs : c.p.st = .goAwayCallback) : StepOK P c (go_away_callback h c) := by
  obtain ⟨⟨a, b, x, y, st⟩, ctx, log⟩ := c
  subst hs
  unfold go_away_callback decPayload
  simp only
  cases hd : Core.decPayloadLength ⟨a, b, x, y, .goAwayCallback⟩ 8 with
  | none =>
    intro K fut _
    simp only
    generalize ctx.rest ++ fut = m
    cases m <;> simp [predC, Slices.lost, Slices.byte, norm, hd]
  | some s =>
    have h2 : ∀ st : St, st = .goAwayDebugData ∨ st = .frameLength1 →
        norm { s with st := st } = .next [] { s with st := st } ∧ RelSelf { s with st := st } ∧ rank st < 3 ∧ inLongField st = false := by
      rintro st (rfl | rfl) <;> exact ⟨rfl, trivial, by decide, rfl⟩
    have h3 := h2 (if s.payloadLength > 0 then .goAwayDebugData else .frameLength1) (by split <;> simp)
    refine callback_ok rfl hok.le ?_ ⟨h3.2.1, h3.2.2.2⟩ ⟨[], rfl, fun _ _ _ _ => predC_imm ?_ h3.1 _ _⟩
    · show 4 * ctx.available + rank _ < 4 * ctx.available + 3
      exact Nat.add_lt_add_left h3.2.2.1 _
    · simp only [norm, hd]
      rfl

theorem go_away_debug_data_ok (hok : Ok c) (hs : c.p.st = .goAwayDebugData) : StepOK P c (go_away_debug_data h c) := by
  exact payload_ok hok (k := .goAwayDebugData) (by rw [hs]; rfl)

theorem headers_pad_length_with_priority_ok (hok : Ok c) (hs : c.p.st = .headersPadLengthWithPriority) : StepOK P c (headers_pad_length_with_priority c) := by
  obtain ⟨⟨a, b, x, y, st⟩, ctx, log⟩ := c
  subst hs
  exact dec_ok hok trivial rfl rfl (fun b s => { s with bit32a := s.bit32a ||| b.toUInt32 }) 1 .headersStreamId1 (fun _ => rfl)
    (fun _ => trivial)

theorem headers_pad_length_without_priority_ok (hok : Ok c) (hs : c.p.st = .headersPadLengthWithoutPriority) : StepOK P c (headers_pad_length_without_priority c) := by
  obtain ⟨⟨a, b, x, y, st⟩, ctx, log⟩ := c
  subst hs
  exact dec_ok hok trivial rfl rfl (fun b s => { s with bit32a := s.bit32a ||| b.toUInt32 }) 1 .headersCallback (fun _ => rfl)
    (fun _ => trivial)

theorem headers_stream_id1_ok (hok : Ok c) (hs : c.p.st = .headersStreamId1) : StepOK P c (headers_stream_id1 c) := by
  obtain ⟨⟨a, b, x, y, st⟩, ctx, log⟩ := c
  subst hs
  exact first_ok hok trivial rfl rfl b (fun x s => { s with bit32b := x, st := .headersWeight })
    (fun b s => { s with bit32b := s.bit32b ||| (b.toUInt32 <<< 24), st := .headersStreamId2 }) (fun _ => rfl)
    (fun _ _ _ _ _ _ _ _ => by simp [predC, Slices.lost, Slices.byte, norm, bstep, or32b]) (fun _ => trivial) (fun _ => trivial)

theorem headers_stream_id2_ok (hok : Ok c) (hs : c.p.st = .headersStreamId2) : StepOK P c (headers_stream_id2 c) := by
  obtain ⟨⟨a, b, x, y, st⟩, ctx, log⟩ := c
  subst hs
  exact byte_ok hok trivial rfl rfl (fun b s => { s with bit32b := s.bit32b ||| (b.toUInt32 <<< 16), st := .headersStreamId3 }) (fun _ => rfl) (fun _ => trivial)

theorem headers_stream_id3_ok (hok : Ok c) (hs : c.p.st = .headersStreamId3) : StepOK P c (headers_stream_id3 c) := by
  obtain ⟨⟨a, b, x, y, st⟩, ctx, log⟩ := c
  subst hs
  exact byte_ok hok trivial rfl rfl (fun b s => { s with bit32b := s.bit32b ||| (b.toUInt32 <<< 8), st := .headersStreamId4 }) (fun _ => rfl) (fun _ => trivial)

theorem headers_stream_id4_ok (hok : Ok c) (hs : c.p.st = .headersStreamId4) : StepOK P c (headers_stream_id4 c) := by
  obtain ⟨⟨a, b, x, y, st⟩, ctx, log⟩ := c
  subst hs
  exact byte_ok hok trivial rfl rfl (fun b s => { s with bit32b := s.bit32b ||| b.toUInt32, st := .headersWeight }) (fun _ => rfl) (fun _ => trivial)

theorem headers_weight_ok (hok : Ok c) (hs : c.p.st = .headersWeight) : StepOK P c (headers_weight c) := by
  obtain ⟨⟨a, b, x, y, st⟩, ctx, log⟩ := c
  subst hs
  exact dec_ok hok trivial rfl rfl (fun b s => { s with bit16a := b.toUInt16 <<< 8 }) 5 .headersCallback (fun _ => rfl)
    (fun _ => trivial)

theorem headers_callback_ok (hok : Ok c) (hs : c.p.st = .headersCallback) : StepOK P c (headers_callback h c) := by
  obtain ⟨⟨a, b, x, y, st⟩, ctx, log⟩ := c
  subst hs
  exact callback_ok rfl hok.le (by simp [mu, rank, setState]) ⟨trivial, rfl⟩ ⟨[], rfl, fun _ _ _ _ => predC_imm rfl rfl _ _⟩

theorem headers_fragment_ok (hok : Ok c) (hs : c.p.st = .headersFragment) : StepOK P c (headers_fragment h c) := by
  exact payload_ok hok (k := .headersFragment) (by rw [hs]; rfl)

theorem ping_data_ok (hok : Ok c) (hs : c.p.st = .pingData) : StepOK P c (ping_data h c) := by
  exact payload_ok hok (k := .ping) (by rw [hs]; rfl)

theorem priority_stream_id1_ok (hok : Ok c) (hs : c.p.st = .priorityStreamId1) : StepOK P c (priority_stream_id1 c) := by
  obtain ⟨⟨a, b, x, y, st⟩, ctx, log⟩ := c
  subst hs
  exact first_ok hok trivial rfl rfl b (fun x s => { s with bit32b := x, st := .priorityWeight })
    (fun b s => { s with bit32b := s.bit32b ||| (b.toUInt32 <<< 24), st := .priorityStreamId2 }) (fun _ => rfl)
    (fun _ _ _ _ _ _ _ _ => by simp [predC, Slices.lost, Slices.byte, norm, bstep, or32b]) (fun _ => trivial) (fun _ => trivial)

theorem priority_stream_id2_ok (hok : Ok c) (hs : c.p.st = .priorityStreamId2) : StepOK P c (priority_stream_id2 c) := by
  obtain ⟨⟨a, b, x, y, st⟩, ctx, log⟩ := c
  subst hs
  exact byte_ok hok trivial rfl rfl (fun b s => { s with bit32b := s.bit32b ||| (b.toUInt32 <<< 16), st := .priorityStreamId3 }) (fun _ => rfl) (fun _ => trivial)

theorem priority_stream_id3_ok (hok : Ok c) (hs : c.p.st = .priorityStreamId3) : StepOK P c (priority_stream_id3 c) := by
  obtain ⟨⟨a, b, x, y, st⟩, ctx, log⟩ := c
  subst hs
  exact byte_ok hok trivial rfl rfl (fun b s => { s with bit32b := s.bit32b ||| (b.toUInt32 <<< 8), st := .priorityStreamId4 }) (fun _ => rfl) (fun _ => trivial)

theorem priority_stream_id4_ok (hok : Ok c) (hs : c.p.st = .priorityStreamId4) : StepOK P c (priority_stream_id4 c) := by
  obtain ⟨⟨a, b, x, y, st⟩, ctx, log⟩ := c
  subst hs
  exact byte_ok hok trivial rfl rfl (fun b s => { s with bit32b := s.bit32b ||| b.toUInt32, st := .priorityWeight }) (fun _ => rfl) (fun _ => trivial)

theorem priority_weight_ok (hok : Ok c) (hs : c.p.st = .priorityWeight) : StepOK P c (priority_weight h c) := by
  obtain ⟨⟨a, b, x, y, st⟩, ctx, log⟩ := c
  subst hs
  refine eos_ok hok trivial fun h0 => ?_
  obtain ⟨b1, h1, h2, h3⟩ := rest_cons h0
  simp only [getU8, h1]
  refine callback_ok rfl ?_ ?_ ⟨trivial, rfl⟩ ?_
  · have := hok.le
    show ctx.idx + 1 ≤ ctx.stream.length
    unfold Ctx.available at h0
    simp only at *
    omega
  · show 4 * (ctx.jump 1).available + 0 < 4 * ctx.available + 0
    simp only at h3
    omega
  · exact ⟨[b1], h2, fun _ _ _ _ => predC_byte rfl rfl rfl _ _⟩

theorem push_promise_pad_length_ok (hok : Ok c) (hs : c.p.st = .pushPromisePadLength) : StepOK P c (push_promise_pad_length c) := by
  obtain ⟨⟨a, b, x, y, st⟩, ctx, log⟩ := c
  subst hs
  exact dec_ok hok trivial rfl rfl (fun b s => { s with bit32a := s.bit32a ||| b.toUInt32 }) 1 .pushPromiseStreamId1 (fun _ => rfl)
    (fun _ => trivial)

theorem push_promise_stream_id1_ok (hok : Ok c) (hs : c.p.st = .pushPromiseStreamId1) : StepOK P c (push_promise_stream_id1 c) := by
  obtain ⟨⟨a, b, x, y, st⟩, ctx, log⟩ := c
  subst hs
  exact first_ok hok trivial rfl rfl b (fun x s => { s with bit32b := x, st := .pushPromiseCallback })
    (fun b s => { s with bit32b := s.bit32b ||| (b.toUInt32 <<< 24), st := .pushPromiseStreamId2 }) (fun _ => rfl)
    (fun _ _ _ _ _ _ _ _ => by simp [predC, Slices.lost, Slices.byte, norm, bstep, or32b]) (fun _ => trivial) (fun _ => trivial)

theorem push_promise_stream_id2_ok (hok : Ok c) (hs : c.p.st = .pushPromiseStreamId2) : StepOK P c (push_promise_stream_id2 c) := by
  obtain ⟨⟨a, b, x, y, st⟩, ctx, log⟩ := c
  subst hs
  exact byte_ok hok trivial rfl rfl (fun b s => { s with bit32b := s.bit32b ||| (b.toUInt32 <<< 16), st := .pushPromiseStreamId3 }) (fun _ => rfl) (fun _ => trivial)

theorem push_promise_stream_id3_ok (hok : Ok c) (hs : c.p.st = .pushPromiseStreamId3) : StepOK P c (push_promise_stream_id3 c) := by
  obtain ⟨⟨a, b, x, y, st⟩, ctx, log⟩ := c
  subst hs
  exact byte_ok hok trivial rfl rfl (fun b s => { s with bit32b := s.bit32b ||| (b.toUInt32 <<< 8), st := .pushPromiseStreamId4 }) (fun _ => rfl) (fun _ => trivial)

theorem push_promise_stream_id4_ok (hok : Ok c) (hs : c.p.st = .pushPromiseStreamId4) : StepOK P c (push_promise_stream_id4 c) := by
  obtain ⟨⟨a, b, x, y, st⟩, ctx, log⟩ := c
  subst hs
  exact byte_ok hok trivial rfl rfl (fun b s => { s with bit32b := s.bit32b ||| b.toUInt32, st := .pushPromiseCallback }) (fun _ => rfl) (fun _ => trivial)

theorem push_promise_callback_ok (hok : Ok c) (hs : c.p.st = .pushPromiseCallback) : StepOK P c (push_promise_callback h c) := by
  obtain ⟨⟨a, b, x, y, st⟩, ctx, log⟩ := c
  subst hs
  refine eos_ok hok trivial fun h0 => ?_
  obtain ⟨b1, h1, h2, h3⟩ := rest_cons h0
  simp only at h2
  simp only [decPayload]
  cases hd : Core.decPayloadLength ⟨a, b, x, y, .pushPromiseCallback⟩ 4 with
  | none =>
    intro K fut _
    simp only
    rw [h2]
    refine (predC_panic rfl rfl (es := []) (by simp [bstep, hd]) _ _).trans ?_
    rw [List.append_nil]
  | some s =>
    refine callback_ok rfl hok.le ?_ ⟨trivial, rfl⟩ ?_
    · simp [mu, setState, rank]
    · refine ⟨[], rfl, fun K y hK hy => ?_⟩
      show predC K _ _ y = predC K _ { s with st := .headersFragment } y
      have hy : y = [] → ctx.rest = [] := hy
      cases y with
      | nil => rw [h2] at hy; cases hy rfl
      | cons b1 y =>
      simp only [List.cons_append, predC, norm, lost_quiet (show quiet .pushPromiseCallback = true from rfl), byte_quiet (show quiet .pushPromiseCallback = true from rfl), lost_quiet (show quiet .headersFragment = true from rfl), byte_quiet (show quiet .headersFragment = true from rfl), bstep, hd, flatEv]
      cases bPayload .headersFragment { s with st := .headersFragment } b1 <;> simp [BRes.pre, setState]

theorem rst_stream_error_code1_ok (hok : Ok c) (hs : c.p.st = .rstStreamErrorCode1) : StepOK P c (rst_stream_error_code1 c) := by
  obtain ⟨⟨a, b, x, y, st⟩, ctx, log⟩ := c
  subst hs
  exact first_ok hok trivial rfl rfl b (fun x s => { s with bit32b := x, st := .rstStreamCallback })
    (fun b s => { s with bit32b := s.bit32b ||| (b.toUInt32 <<< 24), st := .rstStreamErrorCode2 }) (fun _ => rfl)
    (fun _ _ _ _ _ _ _ _ => by simp [predC, Slices.lost, Slices.byte, norm, bstep, or32b]) (fun _ => trivial) (fun _ => trivial)

theorem rst_stream_error_code2_ok (hok : Ok c) (hs : c.p.st = .rstStreamErrorCode2) : StepOK P c (rst_stream_error_code2 c) := by
  obtain ⟨⟨a, b, x, y, st⟩, ctx, log⟩ := c
  subst hs
  exact byte_ok hok trivial rfl rfl (fun b s => { s with bit32b := s.bit32b ||| (b.toUInt32 <<< 16), st := .rstStreamErrorCode3 }) (fun _ => rfl) (fun _ => trivial)

theorem rst_stream_error_code3_ok (hok : Ok c) (hs : c.p.st = .rstStreamErrorCode3) : StepOK P c (rst_stream_error_code3 c) := by
  obtain ⟨⟨a, b, x, y, st⟩, ctx, log⟩ := c
  subst hs
  exact byte_ok hok trivial rfl rfl (fun b s => { s with bit32b := s.bit32b ||| (b.toUInt32 <<< 8), st := .rstStreamErrorCode4 }) (fun _ => rfl) (fun _ => trivial)

theorem rst_stream_error_code4_ok (hok : Ok c) (hs : c.p.st = .rstStreamErrorCode4) : StepOK P c (rst_stream_error_code4 c) := by
  obtain ⟨⟨a, b, x, y, st⟩, ctx, log⟩ := c
  subst hs
  exact byte_ok hok trivial rfl rfl (fun b s => { s with bit32b := s.bit32b ||| b.toUInt32, st := .rstStreamCallback }) (fun _ => rfl) (fun _ => trivial)

theorem rst_stream_callback_ok (hok : Ok c) (hs : c.p.st = .rstStreamCallback) : StepOK P c (rst_stream_callback h c) := by
  obtain ⟨⟨a, b, x, y, st⟩, ctx, log⟩ := c
  subst hs
  exact callback_ok rfl hok.le (by simp [mu, rank, setState]) ⟨trivial, rfl⟩ ⟨[], rfl, fun _ _ _ _ => predC_imm rfl rfl _ _⟩

theorem settings_id1_ok (hok : Ok c) (hs : c.p.st = .settingsId1) : StepOK P c (settings_id1 c) := by
  obtain ⟨⟨a, b, x, y, st⟩, ctx, log⟩ := c
  subst hs
  unfold settings_id1
  by_cases h4 : ctx.available ≥ 2
  · refine eos_ok hok trivial fun _ => ?_
    simp only [if_pos h4]
    obtain ⟨b1, b2, g1, g2, hr, ha⟩ := rest_two h4
    simp only [readU16, g1, g2]
    refine ⟨⟨rfl, ?_⟩, rfl, ?_, ?_, trivial⟩
    · show ctx.idx + 2 ≤ ctx.stream.length
      unfold Ctx.available at h4
      omega
    · show 4 * (ctx.jump 2).available + 0 < 4 * ctx.available + 0
      omega
    · refine ⟨[b1, b2], hr, fun K y hK _ => ?_⟩
      simp [predC, Slices.lost, Slices.byte, norm, bstep, or16a, setState, set16a, jump]
  · have hb := byte_ok (P := P) (c := ⟨⟨a, b, x, y, .settingsId1⟩, ctx, log⟩) hok trivial rfl rfl
      (fun b s => { s with bit16a := s.bit16a ||| (b.toUInt16 <<< 8), st := .settingsId2 }) (fun _ => rfl)
      (fun _ => trivial)
    simp only [if_neg h4]
    exact hb

theorem settings_id2_ok (hok : Ok c) (hs : c.p.st = .settingsId2) : StepOK P c (settings_id2 c) := by
  obtain ⟨⟨a, b, x, y, st⟩, ctx, log⟩ := c
  subst hs
  exact byte_ok hok trivial rfl rfl (fun b s => { s with bit16a := s.bit16a ||| b.toUInt16, st := .settingsValue1 }) (fun _ => rfl) (fun _ => trivial)

theorem settings_value1_ok (hP : ∀ K r, P K r → Clear K r) (hok : Ok c) (hs : c.p.st = .settingsValue1) : StepOK P c (settings_value1 c) := by
  obtain ⟨⟨a, b, x, y, st⟩, ctx, log⟩ := c
  subst hs
  exact first_ok' hok trivial b (fun x s => { s with bit32b := x, st := .settingsCallback })
    (fun b s => { s with bit32b := s.bit32b ||| (b.toUInt32 <<< 24), st := .settingsValue2 }) (fun K b tr r hK => by
      have := hP _ _ hK
      simp only [Clear, List.length_cons] at this
      simp [predC, Slices.lost, Slices.byte, norm, bstep, or32b, this])
    (fun K b1 b2 b3 b4 tr r hK => by
      have := hP _ _ hK
      simp only [Clear, List.length_cons] at this
      simp [predC, Slices.lost, Slices.byte, norm, bstep, or32b, this]) (fun _ => trivial) (fun _ => trivial)

theorem settings_callback_ok (hok : Ok c) (hs : c.p.st = .settingsCallback) : StepOK P c (settings_callback h c) := by
  obtain ⟨⟨a, b, x, y, st⟩, ctx, log⟩ := c
  subst hs
  exact callback_ok rfl hok.le (by simp [mu, rank, setState]) ⟨trivial, rfl⟩ ⟨[], rfl, fun _ _ _ _ => predC_imm rfl rfl _ _⟩

theorem window_update_increment1_ok (hok : Ok c) (hs : c.p.st = .windowUpdateIncrement1) : StepOK P c (window_update_increment1 c) := by
  obtain ⟨⟨a, b, x, y, st⟩, ctx, log⟩ := c
  subst hs
  exact first_ok hok trivial rfl rfl b (fun x s => { s with bit32b := x, st := .windowUpdateCallback })
    (fun b s => { s with bit32b := s.bit32b ||| (b.toUInt32 <<< 24), st := .windowUpdateIncrement2 }) (fun _ => rfl)
    (fun _ _ _ _ _ _ _ _ => by simp [predC, Slices.lost, Slices.byte, norm, bstep, or32b]) (fun _ => trivial) (fun _ => trivial)

theorem window_update_increment2_ok (hok : Ok c) (hs : c.p.st = .windowUpdateIncrement2) : StepOK P c (window_update_increment2 c) := by
  obtain ⟨⟨a, b, x, y, st⟩, ctx, log⟩ := c
  subst hs
  exact byte_ok hok trivial rfl rfl (fun b s => { s with bit32b := s.bit32b ||| (b.toUInt32 <<< 16), st := .windowUpdateIncrement3 }) (fun _ => rfl) (fun _ => trivial)

theorem window_update_increment3_ok (hok : Ok c) (hs : c.p.st = .windowUpdateIncrement3) : StepOK P c (window_update_increment3 c) := by
  obtain ⟨⟨a, b, x, y, st⟩, ctx, log⟩ := c
  subst hs
  exact byte_ok hok trivial rfl rfl (fun b s => { s with bit32b := s.bit32b ||| (b.toUInt32 <<< 8), st := .windowUpdateIncrement4 }) (fun _ => rfl) (fun _ => trivial)

theorem window_update_increment4_ok (hok : Ok c) (hs : c.p.st = .windowUpdateIncrement4) : StepOK P c (window_update_increment4 c) := by
  obtain ⟨⟨a, b, x, y, st⟩, ctx, log⟩ := c
  subst hs
  exact byte_ok hok trivial rfl rfl (fun b s => { s with bit32b := s.bit32b ||| b.toUInt32, st := .windowUpdateCallback }) (fun _ => rfl) (fun _ => trivial)

theorem window_update_callback_ok (hok : Ok c) (hs : c.p.st = .windowUpdateCallback) : StepOK P c (window_update_callback h c) := by
  obtain ⟨⟨a, b, x, y, st⟩, ctx, log⟩ := c
  subst hs
  exact callback_ok rfl hok.le (by simp [mu, rank, setState]) ⟨trivial, rfl⟩ ⟨[], rfl, fun _ _ _ _ => predC_imm rfl rfl _ _⟩

theorem unsupported_pad_length_ok (hok : Ok c) (hs : c.p.st = .unsupportedPadLength) : StepOK P c (unsupported_pad_length c) := by
  obtain ⟨⟨a, b, x, y, st⟩, ctx, log⟩ := c
  subst hs
  exact dec_ok hok trivial rfl rfl (fun b s => { s with bit32a := s.bit32a ||| b.toUInt32 }) 1 .unsupportedData (fun _ => rfl)
    (fun _ => trivial)

theorem unsupported_data_ok (hok : Ok c) (hs : c.p.st = .unsupportedData) : StepOK P c (unsupported_data h c) := by
  exact payload_ok hok (k := .unsupported) (by rw [hs]; rfl)

/-- The states whose functions agree with the reference machine. -/
def Plain : St → Bool
  | .dead | .finished | .frameStreamId1 | .frameStreamId2 | .frameStreamId3 | .frameStreamId4
  | .goAwayStreamId2 | .goAwayStreamId3 | .goAwayStreamId4
  | .settingsValue2 | .settingsValue3 | .settingsValue4 => false
  | _ => true

theorem step_plain (hok : Ok c) (hp : Plain c.p.st = true)
    (hP : c.p.st = .goAwayStreamId1 ∨ c.p.st = .settingsValue1 → ∀ K r, P K r → Clear K r) (hr : RelSelf c.p) : StepOK P c (stepFn h c) := by
  unfold stepFn
  split <;> rename_i hs <;> (try (rw [hs] at hp; exact absurd hp (by decide)))
  · exact frame_length1_ok hok hs
  · exact frame_length2_ok hok hs hr
  · exact frame_length3_ok hok hs hr
  · exact frame_type_ok hok hs hr
  · exact frame_flags_ok hok hs hr
  · exact frame_format_end_ok hok hs
  · exact frame_padding_ok hok hs
  · exact data_pad_length_ok hok hs
  · exact data_data_ok hok hs
  · exact go_away_stream_id1_ok (hP (.inl hs)) hok hs
  · exact go_away_error_code1_ok hok hs
  · exact go_away_error_code2_ok hok hs
  · exact go_away_error_code3_ok hok hs
  · exact go_away_error_code4_ok hok hs
  · exact go_away_callback_ok hok hs
  · exact go_away_debug_data_ok hok hs
  · exact headers_pad_length_with_priority_ok hok hs
  · exact headers_pad_length_without_priority_ok hok hs
  · exact headers_stream_id1_ok hok hs
  · exact headers_stream_id2_ok hok hs
  · exact headers_stream_id3_ok hok hs
  · exact headers_stream_id4_ok hok hs
  · exact headers_weight_ok hok hs
  · exact headers_callback_ok hok hs
  · exact headers_fragment_ok hok hs
  · exact ping_data_ok hok hs
  · exact priority_stream_id1_ok hok hs
  · exact priority_stream_id2_ok hok hs
  · exact priority_stream_id3_ok hok hs
  · exact priority_stream_id4_ok hok hs
  · exact priority_weight_ok hok hs
  · exact push_promise_pad_length_ok hok hs
  · exact push_promise_stream_id1_ok hok hs
  · exact push_promise_stream_id2_ok hok hs
  · exact push_promise_stream_id3_ok hok hs
  · exact push_promise_stream_id4_ok hok hs
  · exact push_promise_callback_ok hok hs
  · exact rst_stream_error_code1_ok hok hs
  · exact rst_stream_error_code2_ok hok hs
  · exact rst_stream_error_code3_ok hok hs
  · exact rst_stream_error_code4_ok hok hs
  · exact rst_stream_callback_ok hok hs
  · exact settings_id1_ok hok hs
  · exact settings_id2_ok hok hs
  · exact settings_value1_ok (hP (.inr hs)) hok hs
  · exact settings_callback_ok hok hs
  · exact window_update_increment1_ok hok hs
  · exact window_update_increment2_ok hok hs
  · exact window_update_increment3_ok hok hs
  · exact window_update_increment4_ok hok hs
  · exact window_update_callback_ok hok hs
  · exact unsupported_pad_length_ok hok hs
  · exact unsupported_data_ok hok hs

end Verif.Http2
