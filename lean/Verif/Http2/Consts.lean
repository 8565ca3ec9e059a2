import Verif.Bytes

/-!
# Model of the HTTP/2 constants

`src/http2/frame_type.rs`, `src/http2/error_code.rs`, `src/http2/setting.rs`, `src/http2/flags.rs` and
`src/http2/frame_format.rs`: conversions and queries. Not modelled: the text that `Debug` and `Display` write.
-/

namespace Verif.Http2

/-- `FrameType`, src/http2/frame_type.rs lines 52-88. -/
inductive FrameType
  | continuation | data | goAway | headers | ping | priority | pushPromise | rstStream | settings | windowUpdate | unsupported
deriving Repr, DecidableEq

/-- `FrameType::from_u8`, src/http2/frame_type.rs lines 91-106, with the constants of lines 19-50. -/
def FrameType.fromU8 (byte : UInt8) : FrameType :=
  if byte = 0x0 then .data
  else if byte = 0x1 then .headers
  else if byte = 0x2 then .priority
  else if byte = 0x3 then .rstStream
  else if byte = 0x4 then .settings
  else if byte = 0x5 then .pushPromise
  else if byte = 0x6 then .ping
  else if byte = 0x7 then .goAway
  else if byte = 0x8 then .windowUpdate
  else if byte = 0x9 then .continuation
  else .unsupported

/-- `FrameType::as_byte`, src/http2/frame_type.rs lines 108-123, with the constants of lines 19-50. -/
def FrameType.asByte : FrameType → UInt8
  | .continuation => 0x9
  | .data => 0x0
  | .goAway => 0x7
  | .headers => 0x1
  | .ping => 0x6
  | .priority => 0x2
  | .pushPromise => 0x5
  | .rstStream => 0x3
  | .settings => 0x4
  | .windowUpdate => 0x8
  | .unsupported => 0xff

/-- `FrameType::is_continuation`, src/http2/frame_type.rs lines 165-170. -/
def FrameType.isContinuation : FrameType → Bool
  | .continuation => true
  | _ => false

/-- `FrameType::is_data`, src/http2/frame_type.rs lines 173-178. -/
def FrameType.isData : FrameType → Bool
  | .data => true
  | _ => false

/-- `FrameType::is_go_away`, src/http2/frame_type.rs lines 181-186. -/
def FrameType.isGoAway : FrameType → Bool
  | .goAway => true
  | _ => false

/-- `FrameType::is_headers`, src/http2/frame_type.rs lines 189-194. -/
def FrameType.isHeaders : FrameType → Bool
  | .headers => true
  | _ => false

/-- `FrameType::is_push_ping`, src/http2/frame_type.rs lines 197-202. -/
def FrameType.isPushPing : FrameType → Bool
  | .ping => true
  | _ => false

/-- `FrameType::is_priority`, src/http2/frame_type.rs lines 205-210. -/
def FrameType.isPriority : FrameType → Bool
  | .priority => true
  | _ => false

/-- `FrameType::is_push_promise`, src/http2/frame_type.rs lines 213-218. -/
def FrameType.isPushPromise : FrameType → Bool
  | .pushPromise => true
  | _ => false

/-- `FrameType::is_rst_stream`, src/http2/frame_type.rs lines 221-226. -/
def FrameType.isRstStream : FrameType → Bool
  | .rstStream => true
  | _ => false

/-- `FrameType::is_settings`, src/http2/frame_type.rs lines 229-234. -/
def FrameType.isSettings : FrameType → Bool
  | .settings => true
  | _ => false

/-- `FrameType::is_window_update`, src/http2/frame_type.rs lines 245-250. -/
def FrameType.isWindowUpdate : FrameType → Bool
  | .windowUpdate => true
  | _ => false

/-- `FrameType::is_unsupported`, src/http2/frame_type.rs lines 237-242. -/
def FrameType.isUnsupported : FrameType → Bool
  | .unsupported => true
  | _ => false

/-- `ErrorCode`, src/http2/error_code.rs lines 64-112. -/
inductive ErrorCode
  | cancel | compression | connect | enhanceYourCalm | flowControl | frameSize | http11Required | inadequateSecurity
  | internal | noError | protocol | refusedStream | settingsTimeout | streamClosed | unsupported
deriving Repr, DecidableEq

/-- `ErrorCode::from_u8`, src/http2/error_code.rs lines 115-134, with the constants of lines 19-62. -/
def ErrorCode.fromU8 (byte : UInt8) : ErrorCode :=
  if byte = 0x8 then .cancel
  else if byte = 0x9 then .compression
  else if byte = 0xa then .connect
  else if byte = 0xb then .enhanceYourCalm
  else if byte = 0x3 then .flowControl
  else if byte = 0x6 then .frameSize
  else if byte = 0xd then .http11Required
  else if byte = 0xc then .inadequateSecurity
  else if byte = 0x2 then .internal
  else if byte = 0x0 then .noError
  else if byte = 0x1 then .protocol
  else if byte = 0x7 then .refusedStream
  else if byte = 0x4 then .settingsTimeout
  else if byte = 0x5 then .streamClosed
  else .unsupported

/-- `ErrorCode::as_byte`, src/http2/error_code.rs lines 136-155, with the constants of lines 19-62. -/
def ErrorCode.asByte : ErrorCode → UInt8
  | .cancel => 0x8
  | .compression => 0x9
  | .connect => 0xa
  | .enhanceYourCalm => 0xb
  | .flowControl => 0x3
  | .frameSize => 0x6
  | .http11Required => 0xd
  | .inadequateSecurity => 0xc
  | .internal => 0x2
  | .noError => 0x0
  | .protocol => 0x1
  | .refusedStream => 0x7
  | .settingsTimeout => 0x4
  | .streamClosed => 0x5
  | .unsupported => 0xff

/-- `ErrorCode::is_cancel`, src/http2/error_code.rs lines 254-256. -/
def ErrorCode.isCancel (e : ErrorCode) : Bool := e == .cancel

/-- `ErrorCode::is_compression`, src/http2/error_code.rs lines 259-261. -/
def ErrorCode.isCompression (e : ErrorCode) : Bool := e == .compression

/-- `ErrorCode::is_connect`, src/http2/error_code.rs lines 264-266. -/
def ErrorCode.isConnect (e : ErrorCode) : Bool := e == .connect

/-- `ErrorCode::is_enhance_your_calm`, src/http2/error_code.rs lines 269-271. -/
def ErrorCode.isEnhanceYourCalm (e : ErrorCode) : Bool := e == .enhanceYourCalm

/-- `ErrorCode::is_flow_control`, src/http2/error_code.rs lines 274-276. -/
def ErrorCode.isFlowControl (e : ErrorCode) : Bool := e == .flowControl

/-- `ErrorCode::is_frame_size`, src/http2/error_code.rs lines 279-281. -/
def ErrorCode.isFrameSize (e : ErrorCode) : Bool := e == .frameSize

/-- `ErrorCode::is_http_1_1_required`, src/http2/error_code.rs lines 284-286. -/
def ErrorCode.isHttp11Required (e : ErrorCode) : Bool := e == .http11Required

/-- `ErrorCode::is_inadequate_security`, src/http2/error_code.rs lines 289-291. -/
def ErrorCode.isInadequateSecurity (e : ErrorCode) : Bool := e == .inadequateSecurity

/-- `ErrorCode::is_internal`, src/http2/error_code.rs lines 294-296. -/
def ErrorCode.isInternal (e : ErrorCode) : Bool := e == .internal

/-- `ErrorCode::is_no_error`, src/http2/error_code.rs lines 299-301. -/
def ErrorCode.isNoError (e : ErrorCode) : Bool := e == .noError

/-- `ErrorCode::is_protocol`, src/http2/error_code.rs lines 304-306. -/
def ErrorCode.isProtocol (e : ErrorCode) : Bool := e == .protocol

/-- `ErrorCode::is_refused_stream`, src/http2/error_code.rs lines 309-311. -/
def ErrorCode.isRefusedStream (e : ErrorCode) : Bool := e == .refusedStream

/-- `ErrorCode::is_settings_timeout`, src/http2/error_code.rs lines 314-316. -/
def ErrorCode.isSettingsTimeout (e : ErrorCode) : Bool := e == .settingsTimeout

/-- `ErrorCode::is_stream_closed`, src/http2/error_code.rs lines 319-321. -/
def ErrorCode.isStreamClosed (e : ErrorCode) : Bool := e == .streamClosed

/-- `Setting`, src/http2/setting.rs lines 37-59. -/
inductive Setting
  | enablePush (x : UInt32)
  | headerTableSize (x : UInt32)
  | initialWindowSize (x : UInt32)
  | maxConcurrentStreams (x : UInt32)
  | maxFrameSize (x : UInt32)
  | maxHeaderListSize (x : UInt32)
  | unsupported (x : UInt32)
deriving Repr, DecidableEq

/-- `Setting::new`, src/http2/setting.rs lines 62-73, with the constants of lines 19-35. The function has a
receiver (`&mut self`) that it does not use. -/
def Setting.new (id : UInt16) (value : UInt32) : Setting :=
  if id = 0x1 then .headerTableSize value
  else if id = 0x2 then .enablePush value
  else if id = 0x3 then .maxConcurrentStreams value
  else if id = 0x4 then .initialWindowSize value
  else if id = 0x5 then .maxFrameSize value
  else if id = 0x6 then .maxHeaderListSize value
  else .unsupported value

/-- `Setting::value`, src/http2/setting.rs lines 186-199. -/
def Setting.value : Setting → UInt32
  | .enablePush x | .headerTableSize x | .initialWindowSize x | .maxConcurrentStreams x | .maxFrameSize x
  | .maxHeaderListSize x | .unsupported x => x

/-- `Setting::is_enable_push`, src/http2/setting.rs lines 131-136. -/
def Setting.isEnablePush : Setting → Bool
  | .enablePush _ => true
  | _ => false

/-- `Setting::is_header_table_size`, src/http2/setting.rs lines 139-144. -/
def Setting.isHeaderTableSize : Setting → Bool
  | .headerTableSize _ => true
  | _ => false

/-- `Setting::is_initial_window_size`, src/http2/setting.rs lines 147-152. -/
def Setting.isInitialWindowSize : Setting → Bool
  | .initialWindowSize _ => true
  | _ => false

/-- `Setting::is_max_concurrent_streams`, src/http2/setting.rs lines 155-160. -/
def Setting.isMaxConcurrentStreams : Setting → Bool
  | .maxConcurrentStreams _ => true
  | _ => false

/-- `Setting::is_max_frame_size`, src/http2/setting.rs lines 163-168. -/
def Setting.isMaxFrameSize : Setting → Bool
  | .maxFrameSize _ => true
  | _ => false

/-- `Setting::is_max_header_list_size`, src/http2/setting.rs lines 171-176. -/
def Setting.isMaxHeaderListSize : Setting → Bool
  | .maxHeaderListSize _ => true
  | _ => false

/-- `Setting::is_unsupported`, src/http2/setting.rs lines 179-184. -/
def Setting.isUnsupported : Setting → Bool
  | .unsupported _ => true
  | _ => false

/-- `Flags`, src/http2/flags.rs lines 34-38. -/
structure Flags where
  flags : UInt8
deriving Repr, DecidableEq

/-- `Flags::from_u8`, src/http2/flags.rs lines 42-47. -/
def Flags.fromU8 (byte : UInt8) : Flags := ⟨byte⟩

/-- `Flags::as_byte`, src/http2/flags.rs lines 49-52. -/
def Flags.asByte (f : Flags) : UInt8 := f.flags

/-- `Flags::is_ack`, src/http2/flags.rs lines 67-70, with the constant of line 20. -/
def Flags.isAck (f : Flags) : Bool := (f.flags &&& 0x1) == 0x1

/-- `Flags::is_empty`, src/http2/flags.rs lines 72-75. -/
def Flags.isEmpty (f : Flags) : Bool := f.flags == 0

/-- `Flags::is_end_headers`, src/http2/flags.rs lines 77-80, with the constant of line 23. -/
def Flags.isEndHeaders (f : Flags) : Bool := (f.flags &&& 0x4) == 0x4

/-- `Flags::is_end_stream`, src/http2/flags.rs lines 82-85, with the constant of line 26. -/
def Flags.isEndStream (f : Flags) : Bool := (f.flags &&& 0x1) == 0x1

/-- `Flags::is_padded`, src/http2/flags.rs lines 87-90, with the constant of line 29. -/
def Flags.isPadded (f : Flags) : Bool := (f.flags &&& 0x8) == 0x8

/-- `Flags::is_priority`, src/http2/flags.rs lines 92-95, with the constant of line 32. -/
def Flags.isPriority (f : Flags) : Bool := (f.flags &&& 0x20) == 0x20

/-- `FrameFormat`, src/http2/frame_format.rs lines 22-28. -/
structure FrameFormat where
  flagsByte : UInt8
  payloadLengthFrameType : UInt32
  streamIdField : UInt32
deriving Repr, DecidableEq

/-- `FrameFormat::new`, src/http2/frame_format.rs lines 31-39. The function has a receiver (`&mut self`) that it does
not use. -/
def FrameFormat.new (payloadLength : UInt32) (frameType flags : UInt8) (streamId : UInt32) : FrameFormat :=
  ⟨flags, (payloadLength <<< 8) ||| frameType.toUInt32, streamId⟩

/-- `FrameFormat::flags`, src/http2/frame_format.rs lines 41-44. -/
def FrameFormat.flags (f : FrameFormat) : Flags := .fromU8 f.flagsByte

/-- `FrameFormat::frame_type`, src/http2/frame_format.rs lines 58-61. -/
def FrameFormat.frameType (f : FrameFormat) : FrameType := .fromU8 (f.payloadLengthFrameType &&& 0xFF).toUInt8

/-- `FrameFormat::payload_length`, src/http2/frame_format.rs lines 63-66. -/
def FrameFormat.payloadLength (f : FrameFormat) : UInt32 := f.payloadLengthFrameType >>> 8

/-- `FrameFormat::stream_id`, src/http2/frame_format.rs lines 68-71. -/
def FrameFormat.streamId (f : FrameFormat) : UInt32 := f.streamIdField

end Verif.Http2
