import Verif.Http1.Model
import Verif.Http2.Consts
import Verif.Util.Decode
import Verif.Util.Field
import Verif.Util.Query

/-!
# How values are written

Models the implementations of `Debug` and `Display`: the text of every error, result, frame type,
error code, setting, set of flags and frame format. The bytes written are the ASCII bytes of the
text. `write!` with `{}` writes an unsigned integer in decimal and a `bool` as `true` or `false`
(the standard library).
-/

namespace Verif

/-- What `{}` writes for an unsigned integer (the standard library; used e.g. in
src/http1/parser_error.rs line 82): its decimal digits, without sign and without leading zeros. -/
def decimal (n : Nat) : Bytes :=
  if n < 10 then [UInt8.ofNat (48 + n)] else decimal (n / 10) ++ [UInt8.ofNat (48 + n % 10)]

/-- What `{}` writes for a `bool` (the standard library; used in src/http2/flags.rs lines 59-63). -/
def word (b : Bool) : Bytes := if b then b!"true" else b!"false"

end Verif

namespace Verif.Http1

/-- `ParserError::format`, src/http1/parser_error.rs lines 76-196, which is also `Debug` and `Display` (lines
199-209). -/
def PErr.format : PErr → Bytes
  | .chunkExtensionName b => b!"<ParserError::ChunkExtensionName: " ++ decimal b.toNat ++ b!">"
  | .chunkExtensionValue b => b!"<ParserError::ChunkExtensionValue: " ++ decimal b.toNat ++ b!">"
  | .chunkLength b => b!"<ParserError::ChunkLength: " ++ decimal b.toNat ++ b!">"
  | .chunkLengthOverflow => b!"<ParserError::ChunkLengthOverflow>"
  | .crlfSequence b => b!"<ParserError::CrlfSequence: " ++ decimal b.toNat ++ b!">"
  | .dead => b!"<ParserError::Dead>"
  | .headerName b => b!"<ParserError::HeaderName: " ++ decimal b.toNat ++ b!">"
  | .headerValue b => b!"<ParserError::HeaderValue: " ++ decimal b.toNat ++ b!">"
  | .method b => b!"<ParserError::Method: " ++ decimal b.toNat ++ b!">"
  | .multipart b => b!"<ParserError::Multipart: " ++ decimal b.toNat ++ b!">"
  | .multipartBoundary b => b!"<ParserError::MultipartBoundary: " ++ decimal b.toNat ++ b!">"
  | .status b => b!"<ParserError::Status: " ++ decimal b.toNat ++ b!">"
  | .statusCode b => b!"<ParserError::StatusCode: " ++ decimal b.toNat ++ b!">"
  | .url b => b!"<ParserError::Url: " ++ decimal b.toNat ++ b!">"
  | .urlEncodedName b => b!"<ParserError::UrlEncodedName: " ++ decimal b.toNat ++ b!">"
  | .urlEncodedValue b => b!"<ParserError::UrlEncodedValue: " ++ decimal b.toNat ++ b!">"
  | .version b => b!"<ParserError::Version: " ++ decimal b.toNat ++ b!">"

/-- `Debug for Success`, src/fsm.rs lines 235-249. -/
def Success.debug : Success → Bytes
  | .callback n => b!"Success::Callback(" ++ decimal n ++ b!")"
  | .eos n => b!"Success::Eos(" ++ decimal n ++ b!")"
  | .finished n => b!"Success::Finished(" ++ decimal n ++ b!")"

/-- `Display for Success`, src/fsm.rs lines 251-265. -/
def Success.display : Success → Bytes
  | .callback n => decimal n
  | .eos n => decimal n
  | .finished n => decimal n

end Verif.Http1

namespace Verif.Util

/-- `DecodeError::format`, src/util/decode.rs lines 32-49, which is also `Debug` and `Display` (lines 52-62). -/
def DecodeError.format : DecodeError → Bytes
  | .byte b => b!"<DecodeError::Byte: " ++ decimal b.toNat ++ b!">"
  | .hexSequence b => b!"<DecodeError::HexSequence: " ++ decimal b.toNat ++ b!">"

/-- `QueryError::format`, src/util/query.rs lines 31-48, which is also `Debug` and `Display` (lines 51-61). -/
def QueryError.format : QueryError → Bytes
  | .name b => b!"<QueryError::Name: " ++ decimal b.toNat ++ b!">"
  | .value b => b!"<QueryError::Value: " ++ decimal b.toNat ++ b!">"

/-- `FieldError::format`, src/util/field.rs lines 33-50, which is also `Debug` and `Display` (lines 53-63). -/
def FieldError.format : FieldError → Bytes
  | .name b => b!"<FieldError::Name: Invalid field name on byte " ++ decimal b.toNat ++ b!">"
  | .value b => b!"<FieldError::Value: Invalid field value on byte " ++ decimal b.toNat ++ b!">"

end Verif.Util

namespace Verif.Http2

/-- `ErrorCode::format`, src/http2/error_code.rs lines 158-251, which is also `Debug` and `Display` (lines
324-334). -/
def ErrorCode.format : ErrorCode → Bytes
  | .cancel => b!"<ErrorCode::Cancel>"
  | .compression => b!"<ErrorCode::Compression>"
  | .connect => b!"<ErrorCode::Connect>"
  | .enhanceYourCalm => b!"<ErrorCode::EnhanceYourCalm>"
  | .flowControl => b!"<ErrorCode::FlowControl>"
  | .frameSize => b!"<ErrorCode::FrameSize>"
  | .http11Required => b!"<ErrorCode::Http11Required>"
  | .inadequateSecurity => b!"<ErrorCode::InadequateSecurity>"
  | .internal => b!"<ErrorCode::Internal>"
  | .noError => b!"<ErrorCode::NoError>"
  | .protocol => b!"<ErrorCode::Protocol>"
  | .refusedStream => b!"<ErrorCode::RefusedStream>"
  | .settingsTimeout => b!"<ErrorCode::SettingsTimeout>"
  | .streamClosed => b!"<ErrorCode::StreamClosed>"
  | .unsupported => b!"<ErrorCode::Unsupported>"

/-- `FrameType::format`, src/http2/frame_type.rs lines 126-162, which is also `Debug` and `Display` (lines
253-263). -/
def FrameType.format : FrameType → Bytes
  | .continuation => b!"<FrameType::Continuation>"
  | .data => b!"<FrameType::Data>"
  | .goAway => b!"<FrameType::GoAway>"
  | .headers => b!"<FrameType::Headers>"
  | .ping => b!"<FrameType::Ping>"
  | .priority => b!"<FrameType::Priority>"
  | .pushPromise => b!"<FrameType::PushPromise>"
  | .rstStream => b!"<FrameType::RstStream>"
  | .settings => b!"<FrameType::Settings>"
  | .windowUpdate => b!"<FrameType::WindowUpdate>"
  | .unsupported => b!"<FrameType::Unsupported>"

/-- `Setting::format`, src/http2/setting.rs lines 76-128, which is also `Debug` and `Display` (lines 202-212). -/
def Setting.format : Setting → Bytes
  | .enablePush x => b!"<Setting::EnablePush: " ++ decimal x.toNat ++ b!">"
  | .headerTableSize x => b!"<Setting::HeaderTableSize: " ++ decimal x.toNat ++ b!">"
  | .initialWindowSize x => b!"<Setting::InitialWindowSize: " ++ decimal x.toNat ++ b!">"
  | .maxConcurrentStreams x => b!"<Setting::MaxConcurrentStreams: " ++ decimal x.toNat ++ b!">"
  | .maxFrameSize x => b!"<Setting::MaxFrameSize: " ++ decimal x.toNat ++ b!">"
  | .maxHeaderListSize x => b!"<Setting::MaxHeaderListSize: " ++ decimal x.toNat ++ b!">"
  | .unsupported x => b!"<Setting::Unsupported: " ++ decimal x.toNat ++ b!">"

/-- `Flags::format`, src/http2/flags.rs lines 55-65, which is also `Debug` and `Display` (lines 98-108). -/
def Flags.format (f : Flags) : Bytes :=
  b!"<Flags: ack: " ++ word ((f.flags &&& 0x1) == 0x1) ++ b!", end_headers: " ++ word ((f.flags &&& 0x4) == 0x4) ++
    b!", end_stream: " ++ word ((f.flags &&& 0x1) == 0x1) ++ b!", padded: " ++ word ((f.flags &&& 0x8) == 0x8) ++
    b!", priority: " ++ word ((f.flags &&& 0x20) == 0x20) ++ b!">"

/-- `FrameFormat::format`, src/http2/frame_format.rs lines 47-56, which is also `Debug` and `Display` (lines
74-84). -/
def FrameFormat.format (f : FrameFormat) : Bytes :=
  b!"<FrameFormat: flags: " ++ f.flags.format ++ b!", frame_type: " ++ f.frameType.format ++ b!", payload_length: " ++
    decimal f.payloadLength.toNat ++ b!", stream_id: " ++ decimal f.streamIdField.toNat ++ b!">"

end Verif.Http2
