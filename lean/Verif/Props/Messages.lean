import Verif.FormatLemmas

/-!
# C90: messages

Errors, results, settings and frames are written to logs; whoever reads the log wants to know from
the text which value it was.
-/

namespace Verif

open Http1 Util Http2

/-- C90, errors: two errors of the parser or of a helper have the same text (`Debug` and `Display`) only if they are
the same error, and the text of an error that names a byte has its value, in decimal, as last word. -/
theorem C90_errors (e e' : PErr) (d d' : DecodeError) (q q' : QueryError) (f f' : FieldError) :
    (e.format = e'.format → e = e') ∧ (∀ b, e.byte = some b → Names e.format b.toNat) ∧
    (d.format = d'.format → d = d') ∧ (∀ b, d = .byte b ∨ d = .hexSequence b → Names d.format b.toNat) ∧
    (q.format = q'.format → q = q') ∧ (∀ b, q = .name b ∨ q = .value b → Names q.format b.toNat) ∧
    (f.format = f'.format → f = f') ∧ (∀ b, f = .name b ∨ f = .value b → Names f.format b.toNat) := by
  refine ⟨PErr.format_inj, fun b h => ?_, DecodeError.format_inj, ?_, QueryError.format_inj, ?_,
    FieldError.format_inj, ?_⟩
  · refine ⟨b!"ParserError::" ++ e.tag ++ b!":", _, ?_, numeral_decimal _⟩
    rw [e.format_eq, h]
    simp [tagged]
  · rintro b (rfl | rfl)
    · exact ⟨b!"DecodeError::Byte:", _, rfl, numeral_decimal _⟩
    · exact ⟨b!"DecodeError::HexSequence:", _, rfl, numeral_decimal _⟩
  · rintro b (rfl | rfl)
    · exact ⟨b!"QueryError::Name:", _, rfl, numeral_decimal _⟩
    · exact ⟨b!"QueryError::Value:", _, rfl, numeral_decimal _⟩
  · rintro b (rfl | rfl)
    · exact ⟨b!"FieldError::Name: Invalid field name on byte", _, rfl, numeral_decimal _⟩
    · exact ⟨b!"FieldError::Value: Invalid field value on byte", _, rfl, numeral_decimal _⟩

/-- The text of an error, and two errors that differ in the byte only. -/
example : PErr.format (.headerName 123) = b!"<ParserError::HeaderName: 123>" ∧
    PErr.format (.headerName 12) ≠ PErr.format (.headerName 123) ∧
    Names (PErr.format (.headerName 123)) 123 :=
  ⟨by decide +kernel, by decide +kernel, (C90_errors (.headerName 123) .dead (.byte 0) (.byte 0) (.name 0) (.name 0) (.name 0)
    (.name 0)).2.1 123 rfl⟩

/-- C90, results, settings, codes and frames: two results have the same `Debug` text only if they are the same, and
likewise two HTTP/2 frame types, error codes and settings; two frame formats have the same text only if they have the
same named flags, the same type, length and stream.

Missing from the full claim (see `C90_fails`): the `Display` text of a result is only its number; the text of flags
leaves out the bits without a name, and a frame format shows a type that is not known without its number. -/
theorem C90_values_partial (r r' : Success) (t t' : FrameType) (c c' : ErrorCode) (s s' : Setting) (g g' : Flags)
    (m m' : FrameFormat) :
    (r.debug = r'.debug → r = r') ∧ (t.format = t'.format → t = t') ∧ (c.format = c'.format → c = c') ∧
    (s.format = s'.format → s = s') ∧
    (g.format = g'.format → g.isAck = g'.isAck ∧ g.isEndHeaders = g'.isEndHeaders ∧ g.isEndStream = g'.isEndStream ∧
      g.isPadded = g'.isPadded ∧ g.isPriority = g'.isPriority) ∧
    (m.format = m'.format → m.flags.format = m'.flags.format ∧ m.frameType = m'.frameType ∧
      m.payloadLength = m'.payloadLength ∧ m.streamId = m'.streamId) := by
  refine ⟨Success.debug_inj, FrameType.format_inj, ErrorCode.format_inj, Setting.format_inj, fun h => ?_,
    fun h => ?_⟩
  · obtain ⟨⟨a, b, c, d⟩, _⟩ := Flags.format_split (r := []) (r' := []) (by simpa using h)
    exact ⟨a, b, a, c, d⟩
  · obtain ⟨⟨a, b, c, d⟩, e, l, i⟩ := FrameFormat.format_split h
    exact ⟨by rw [Flags.format_eq, Flags.format_eq, a, b, c, d], e, l, i⟩

/-- A result and a setting with their texts. -/
example : Success.debug (.eos 17) = b!"Success::Eos(17)" ∧ Success.debug (.eos 17) ≠ Success.debug (.finished 17) ∧
    Setting.format (.maxFrameSize 4294967295) = b!"<Setting::MaxFrameSize: 4294967295>" := by decide +kernel

/-- The text of a frame format. -/
example : (FrameFormat.new 16383 0 0x9 2147483647).format = b!"<FrameFormat: flags: <Flags: ack: true, " ++
    b!"end_headers: false, end_stream: true, padded: true, priority: false>, frame_type: <FrameType::Data>, " ++
    b!"payload_length: 16383, stream_id: 2147483647>" := by decide +kernel

/-- C90 fails: results that differ have the same `Display` text; flags that differ have the same text; frames of
different types have the same text. -/
theorem C90_fails :
    (∃ r r' : Success, r ≠ r' ∧ r.display = r'.display) ∧
    (∃ g g' : Flags, g ≠ g' ∧ g.format = g'.format) ∧
    (∃ m m' : FrameFormat, m.flags = m'.flags ∧ m.streamId = m'.streamId ∧ m ≠ m' ∧ m.format = m'.format) :=
  ⟨⟨.eos 17, .finished 17, by decide +kernel, by decide +kernel⟩, ⟨⟨0⟩, ⟨2⟩, by decide +kernel, by decide +kernel⟩,
    ⟨.new 5 0x20 0 1, .new 5 0x21 0 1, by decide +kernel, by decide +kernel, by decide +kernel, by decide +kernel⟩⟩

end Verif
