import Verif.Http2.Consts
import Verif.Util.ByteLemmas

/-!
# HTTP/2 constants

C48 (frame types, error codes, settings, flags) and C49 (`FrameFormat`). The tables are those of RFC 7540,
sections 11.2-11.4, 6.5.2 and 7.
-/

namespace Verif.Http2

/-! ## C48 -/

/-- The frame types of RFC 7540 section 11.2. -/
def frameTypes : List (UInt8 × FrameType) := [
  (0x0, .data), (0x1, .headers), (0x2, .priority), (0x3, .rstStream), (0x4, .settings), (0x5, .pushPromise),
  (0x6, .ping), (0x7, .goAway), (0x8, .windowUpdate), (0x9, .continuation)]

/-- **C48**, frame types: the byte of every known type is recognised as that type and written back; every other byte
is `Unsupported`; distinct types have distinct bytes. -/
theorem C48_frame_types :
    (∀ b t, (b, t) ∈ frameTypes → FrameType.fromU8 b = t ∧ t.asByte = b) ∧
    (∀ b, (∀ t, (b, t) ∉ frameTypes) → FrameType.fromU8 b = .unsupported) ∧
    (∀ b, FrameType.fromU8 b = .unsupported → ∀ t, (b, t) ∉ frameTypes) ∧
    (∀ t t' : FrameType, t.asByte = t'.asByte → t = t') ∧
    (∀ t : FrameType, FrameType.fromU8 t.asByte = t) := by
  refine ⟨?_, ?_, ?_, ?_, ?_⟩
  · have : ∀ p ∈ frameTypes, FrameType.fromU8 p.1 = p.2 ∧ p.2.asByte = p.1 := by decide
    exact fun b t h => this (b, t) h
  · have : ∀ b : UInt8, b ∉ frameTypes.map Prod.fst → FrameType.fromU8 b = .unsupported :=
      Util.forall_u8 (by decide +kernel)
    exact fun b h => this b fun hb => by
      obtain ⟨⟨x, t⟩, hp, rfl⟩ := List.mem_map.mp hb
      exact h t hp
  · have : ∀ b : UInt8, FrameType.fromU8 b = .unsupported → b ∉ frameTypes.map Prod.fst :=
      Util.forall_u8 (by decide +kernel)
    exact fun b h t hp => this b h (List.mem_map.mpr ⟨(b, t), hp, rfl⟩)
  · intro t t'
    cases t <;> cases t' <;> first | (intro; rfl) | (intro h; revert h; decide)
  · intro t
    cases t <;> decide

/-- **C48**, queries of frame types. (The query for PING is called `is_push_ping`.) -/
theorem C48_frame_type_queries (t : FrameType) :
    (t.isContinuation = true ↔ t = .continuation) ∧
    (t.isData = true ↔ t = .data) ∧
    (t.isGoAway = true ↔ t = .goAway) ∧
    (t.isHeaders = true ↔ t = .headers) ∧
    (t.isPushPing = true ↔ t = .ping) ∧
    (t.isPriority = true ↔ t = .priority) ∧
    (t.isPushPromise = true ↔ t = .pushPromise) ∧
    (t.isRstStream = true ↔ t = .rstStream) ∧
    (t.isSettings = true ↔ t = .settings) ∧
    (t.isWindowUpdate = true ↔ t = .windowUpdate) ∧
    (t.isUnsupported = true ↔ t = .unsupported) := by
  cases t <;> decide

/-- The error codes of RFC 7540 section 7. -/
def errorCodes : List (UInt8 × ErrorCode) := [
  (0x0, .noError), (0x1, .protocol), (0x2, .internal), (0x3, .flowControl), (0x4, .settingsTimeout),
  (0x5, .streamClosed), (0x6, .frameSize), (0x7, .refusedStream), (0x8, .cancel), (0x9, .compression),
  (0xa, .connect), (0xb, .enhanceYourCalm), (0xc, .inadequateSecurity), (0xd, .http11Required)]

/-- **C48**, error codes, as far as they fit into the `u8` that `ErrorCode::from_u8` takes. (On the wire, and in
`on_rst_stream` and `on_go_away`, they have 32 bits; there is no conversion for these.) -/
theorem C48_error_codes_partial :
    (∀ b t, (b, t) ∈ errorCodes → ErrorCode.fromU8 b = t ∧ t.asByte = b) ∧
    (∀ b, (∀ t, (b, t) ∉ errorCodes) → ErrorCode.fromU8 b = .unsupported) ∧
    (∀ b, ErrorCode.fromU8 b = .unsupported → ∀ t, (b, t) ∉ errorCodes) ∧
    (∀ t t' : ErrorCode, t.asByte = t'.asByte → t = t') ∧
    (∀ t : ErrorCode, ErrorCode.fromU8 t.asByte = t) := by
  refine ⟨?_, ?_, ?_, ?_, ?_⟩
  · have : ∀ p ∈ errorCodes, ErrorCode.fromU8 p.1 = p.2 ∧ p.2.asByte = p.1 := by decide
    exact fun b t h => this (b, t) h
  · have : ∀ b : UInt8, b ∉ errorCodes.map Prod.fst → ErrorCode.fromU8 b = .unsupported :=
      Util.forall_u8 (by decide +kernel)
    exact fun b h => this b fun hb => by
      obtain ⟨⟨x, t⟩, hp, rfl⟩ := List.mem_map.mp hb
      exact h t hp
  · have : ∀ b : UInt8, ErrorCode.fromU8 b = .unsupported → b ∉ errorCodes.map Prod.fst :=
      Util.forall_u8 (by decide +kernel)
    exact fun b h t hp => this b h (List.mem_map.mpr ⟨(b, t), hp, rfl⟩)
  · intro t t'
    cases t <;> cases t' <;> first | (intro; rfl) | (intro h; revert h; decide)
  · intro t
    cases t <;> decide

/-- **C48**, queries of error codes. (There is none for `Unsupported`.) -/
theorem C48_error_code_queries (t : ErrorCode) :
    (t.isCancel = true ↔ t = .cancel) ∧
    (t.isCompression = true ↔ t = .compression) ∧
    (t.isConnect = true ↔ t = .connect) ∧
    (t.isEnhanceYourCalm = true ↔ t = .enhanceYourCalm) ∧
    (t.isFlowControl = true ↔ t = .flowControl) ∧
    (t.isFrameSize = true ↔ t = .frameSize) ∧
    (t.isHttp11Required = true ↔ t = .http11Required) ∧
    (t.isInadequateSecurity = true ↔ t = .inadequateSecurity) ∧
    (t.isInternal = true ↔ t = .internal) ∧
    (t.isNoError = true ↔ t = .noError) ∧
    (t.isProtocol = true ↔ t = .protocol) ∧
    (t.isRefusedStream = true ↔ t = .refusedStream) ∧
    (t.isSettingsTimeout = true ↔ t = .settingsTimeout) ∧
    (t.isStreamClosed = true ↔ t = .streamClosed) := by
  cases t <;> decide

/-- The settings of RFC 7540 section 6.5.2. -/
def settingIds : List (UInt16 × (UInt32 → Setting)) := [
  (0x1, .headerTableSize), (0x2, .enablePush), (0x3, .maxConcurrentStreams), (0x4, .initialWindowSize),
  (0x5, .maxFrameSize), (0x6, .maxHeaderListSize)]

/-- **C48**, settings: every known identifier is recognised, every other one is `Unsupported`, and the value is kept.
(There is no conversion back, and the identifier of an unsupported setting is dropped.) -/
theorem C48_settings (id : UInt16) (v : UInt32) :
    (∀ f, (id, f) ∈ settingIds → Setting.new id v = f v) ∧
    ((∀ f, (id, f) ∉ settingIds) → Setting.new id v = .unsupported v) ∧
    ((Setting.new id v).isUnsupported = true → ∀ f, (id, f) ∉ settingIds) ∧
    (Setting.new id v).value = v := by
  have key : ∀ f, (id, f) ∈ settingIds → Setting.new id v = f v ∧ (f v).isUnsupported = false := by
    intro f hf
    simp only [settingIds, List.mem_cons, Prod.mk.injEq, List.not_mem_nil, or_false] at hf
    rcases hf with ⟨rfl, rfl⟩ | ⟨rfl, rfl⟩ | ⟨rfl, rfl⟩ | ⟨rfl, rfl⟩ | ⟨rfl, rfl⟩ | ⟨rfl, rfl⟩ <;> exact ⟨rfl, rfl⟩
  refine ⟨fun f hf => (key f hf).1, fun h => ?_, fun h f hf => ?_, ?_⟩
  · unfold Setting.new
    have hn : ∀ k f, (k, f) ∈ settingIds → id ≠ k := fun k f hk he => h f (he ▸ hk)
    rw [if_neg (hn 1 _ (by simp [settingIds]; rfl)), if_neg (hn 2 _ (by simp [settingIds]; rfl)),
      if_neg (hn 3 _ (by simp [settingIds]; rfl)), if_neg (hn 4 _ (by simp [settingIds]; rfl)),
      if_neg (hn 5 _ (by simp [settingIds]; rfl)), if_neg (hn 6 _ (by simp [settingIds]; rfl))]
  · obtain ⟨h1, h2⟩ := key f hf
    rw [h1, h2] at h; cases h
  · unfold Setting.new
    repeat' split
    all_goals rfl

/-- **C48**, queries of settings. -/
theorem C48_setting_queries (s : Setting) :
    (s.isEnablePush = true ↔ ∃ x, s = .enablePush x) ∧
    (s.isHeaderTableSize = true ↔ ∃ x, s = .headerTableSize x) ∧
    (s.isInitialWindowSize = true ↔ ∃ x, s = .initialWindowSize x) ∧
    (s.isMaxConcurrentStreams = true ↔ ∃ x, s = .maxConcurrentStreams x) ∧
    (s.isMaxFrameSize = true ↔ ∃ x, s = .maxFrameSize x) ∧
    (s.isMaxHeaderListSize = true ↔ ∃ x, s = .maxHeaderListSize x) ∧
    (s.isUnsupported = true ↔ ∃ x, s = .unsupported x) := by
  cases s <;> simp [Setting.isEnablePush, Setting.isHeaderTableSize, Setting.isInitialWindowSize, Setting.isMaxConcurrentStreams, Setting.isMaxFrameSize, Setting.isMaxHeaderListSize, Setting.isUnsupported]

/-- **C48**, flags: every query answers for its bit (RFC 7540 section 6), and the byte is kept. -/
theorem C48_flags (b : UInt8) :
    (Flags.fromU8 b).asByte = b ∧
    ((Flags.fromU8 b).isEmpty = true ↔ b.toNat = 0) ∧
    ((Flags.fromU8 b).isAck = b.toNat.testBit 0) ∧
    ((Flags.fromU8 b).isEndStream = b.toNat.testBit 0) ∧
    ((Flags.fromU8 b).isEndHeaders = b.toNat.testBit 2) ∧
    ((Flags.fromU8 b).isPadded = b.toNat.testBit 3) ∧
    ((Flags.fromU8 b).isPriority = b.toNat.testBit 5) := by
  revert b
  exact Util.forall_u8 (by decide +kernel)

example : (0x7, FrameType.goAway) ∈ frameTypes ∧ (∀ t, ((0x0a : UInt8), t) ∉ frameTypes) ∧
    ((0xd : UInt8), ErrorCode.http11Required) ∈ errorCodes ∧ (∀ t, ((0x0e : UInt8), t) ∉ errorCodes) ∧
    (∀ f, ((0x7 : UInt16), f) ∉ settingIds) := by
  refine ⟨by decide, ?_, by decide, ?_, ?_⟩ <;> intro t <;> simp [frameTypes, errorCodes, settingIds]

/-! ## C49 -/

/-- **C49.** A `FrameFormat` reports what it was built from: the payload length if it has at most 24 bits (as on the
wire), the type, the flags and the stream id. -/
theorem C49_frame_format (n : UInt32) (t fl : UInt8) (id : UInt32) (hn : n.toNat < 2 ^ 24) :
    let f := FrameFormat.new n t fl id
    f.payloadLength = n ∧ f.frameType = FrameType.fromU8 t ∧ f.flags.asByte = fl ∧ f.streamId = id := by
  have ht := t.toNat_lt
  have h1 : ((n <<< 8) ||| t.toUInt32).toNat = n.toNat * 256 + t.toNat := by
    rw [UInt32.toNat_or, UInt32.toNat_shiftLeft, UInt8.toNat_toUInt32]
    show ((n.toNat <<< 8) % 2 ^ 32) ||| _ = _
    rw [Nat.shiftLeft_eq, Nat.mod_eq_of_lt (by omega), ← Nat.shiftLeft_eq, ← Nat.shiftLeft_add_eq_or_of_lt ht,
      Nat.shiftLeft_eq]
  refine ⟨?_, ?_, rfl, rfl⟩
  · apply UInt32.toNat_inj.mp
    show (((n <<< 8) ||| t.toUInt32) >>> 8).toNat = _
    rw [UInt32.toNat_shiftRight, h1]
    show (n.toNat * 256 + t.toNat) >>> 8 = _
    rw [Nat.shiftRight_eq_div_pow]
    omega
  · show FrameType.fromU8 ((((n <<< 8) ||| t.toUInt32) &&& 0xFF).toUInt8) = _
    congr 1
    apply UInt8.toNat_inj.mp
    rw [UInt32.toNat_toUInt8, UInt32.toNat_and, h1]
    show ((n.toNat * 256 + t.toNat) &&& (2 ^ 8 - 1)) % 2 ^ 8 = _
    rw [Nat.and_two_pow_sub_one_eq_mod]
    omega

example : let f := FrameFormat.new 0xfffefd 9 0x25 0x7fffffff
    (0xfffefd : UInt32).toNat < 2 ^ 24 ∧ f.payloadLength = 0xfffefd ∧ f.frameType = .continuation := by decide

/-- Larger lengths are cut (they do not occur on the wire). -/
example : (FrameFormat.new 0x1000005 0 0 0).payloadLength = 5 := by decide

end Verif.Http2
