import Verif.Stream

/-!
# Model of the HTTP/2 parser

`src/http2/parser.rs`: all state functions, the parser loop and the public functions. Every definition
cites the lines it models.

`Out.panic` stands for a Rust panic (index out of bounds, or arithmetic underflow with overflow checks).
-/

namespace Verif.Http2

/-- `ParserState`, src/http2/parser_state.rs lines 22-265. The same enumeration names the state functions
(`state_function`). Here the two fields of the parser are one: `set_state!` (src/fsm.rs lines 150-155), through
which all state functions change them, sets both to the same name, and so does `resume` after an error. (Only
after `Success::Finished` `resume` sets one of them alone, but no function that returns it is ever the state
function.) -/
inductive St
  | dead
  | frameLength1 | frameLength2 | frameLength3 | frameType | frameFlags
  | frameStreamId1 | frameStreamId2 | frameStreamId3 | frameStreamId4 | frameFormatEnd | framePadding
  | dataPadLength | dataData
  | goAwayStreamId1 | goAwayStreamId2 | goAwayStreamId3 | goAwayStreamId4
  | goAwayErrorCode1 | goAwayErrorCode2 | goAwayErrorCode3 | goAwayErrorCode4
  | goAwayCallback | goAwayDebugData
  | headersPadLengthWithPriority | headersPadLengthWithoutPriority
  | headersStreamId1 | headersStreamId2 | headersStreamId3 | headersStreamId4
  | headersWeight | headersCallback | headersFragment
  | pingData
  | priorityStreamId1 | priorityStreamId2 | priorityStreamId3 | priorityStreamId4 | priorityWeight
  | pushPromisePadLength | pushPromiseStreamId1 | pushPromiseStreamId2 | pushPromiseStreamId3
  | pushPromiseStreamId4 | pushPromiseCallback
  | rstStreamErrorCode1 | rstStreamErrorCode2 | rstStreamErrorCode3 | rstStreamErrorCode4 | rstStreamCallback
  | settingsId1 | settingsId2 | settingsValue1 | settingsValue2 | settingsValue3 | settingsValue4
  | settingsCallback
  | unsupportedPadLength | unsupportedData
  | windowUpdateIncrement1 | windowUpdateIncrement2 | windowUpdateIncrement3 | windowUpdateIncrement4
  | windowUpdateCallback
  | finished
deriving Repr, DecidableEq

/-- The callbacks that deliver a payload in pieces: `on_data`, `on_go_away_debug_data`, `on_headers_fragment`,
`on_ping`, `on_unsupported`; src/http2/http_handler.rs lines 24-296. -/
inductive Kind | data | goAwayDebugData | headersFragment | ping | unsupported
deriving Repr, DecidableEq

/-- One execution of a callback of `HttpHandler`, src/http2/http_handler.rs lines 22-296, with its
arguments. -/
inductive Ev
  | payload (k : Kind) (d : Bytes) (finished : Bool)
  | frameFormat (payloadLength : UInt32) (frameType flags : UInt8) (streamId : UInt32)
  | goAway (streamId errorCode : UInt32)
  | headers (exclusive : Bool) (streamId : UInt32) (weight : UInt8)
  | priority (exclusive : Bool) (streamId : UInt32) (weight : UInt8)
  | pushPromise (streamId : UInt32)
  | rstStream (errorCode : UInt32)
  | settings (id : UInt16) (value : UInt32)
  | windowUpdate (sizeIncrement : UInt32)
deriving Repr, DecidableEq

/-- A handler: what the callback just executed returns, as an arbitrary function of the whole history of
callbacks (oldest first, the present one last). src/http2/http_handler.rs 22-296. -/
structure Handler where
  ret : List Ev → Bool

/-- `Parser` without `byte_count`, src/http2/parser.rs lines 180-201: the bit data and the state. -/
structure Core where
  bit32a : UInt32
  bit32b : UInt32
  bit16a : UInt16
  bit16b : UInt16
  st : St
deriving Repr, DecidableEq

/-- `Parser`, src/http2/parser.rs lines 180-201. -/
structure Parser extends Core where
  byteCount : Nat
deriving Repr, DecidableEq

/-- Everything a state function can read and change (none touches `byte_count`): the parser, the stream
context and (as ghost state) the history of callbacks. Arguments of a state function: src/http2/parser.rs 200-201. -/
structure Cfg where
  p : Core
  ctx : Ctx
  log : List Ev
deriving Repr, DecidableEq

/-- `Success`, src/fsm.rs lines 199-233. -/
inductive Success | callback (n : Nat) | eos (n : Nat) | finished (n : Nat)
deriving Repr, DecidableEq

/-- What a state function returns: `Result<ParserValue, ParserError>` (src/fsm.rs lines 188-195), or a panic
(with the callbacks executed before it). `ParserError` has the one value `Dead` (src/http2/parser.rs lines
147-150). -/
inductive Out
  | cont (c : Cfg)
  | exit (s : Success) (c : Cfg)
  | err (c : Cfg)
  | panic (log : List Ev)
deriving Repr, DecidableEq

/-! ## Bit data, src/http2/parser.rs lines 43-143 -/

/-- `pad_length!`, lines 75-79. -/
def Core.padLength (p : Core) : UInt32 := p.bit32a &&& 0xFF

/-- `payload_length!`, lines 82-86. -/
def Core.payloadLength (p : Core) : UInt32 := p.bit32a >>> 8

/-- `actual_length!`, lines 44-48; `none` is the underflow. -/
def Core.actualLength (p : Core) : Option UInt32 :=
  if p.payloadLength < p.padLength then none else some (p.payloadLength - p.padLength)

/-- `dec_payload_length!`, lines 51-56; `none` is the underflow. -/
def Core.decPayloadLength (p : Core) (n : UInt32) : Option Core :=
  if p.payloadLength < n then none
  else some { p with bit32a := p.padLength ||| ((p.payloadLength - n) <<< 8) }

/-- `has_flag!`, lines 68-72. -/
def Core.hasFlag (p : Core) (flag : UInt8) : Bool := (p.bit16a.toUInt8 &&& flag) == flag

/-! ## Macros of src/fsm.rs and of byte-slice, on configurations -/

/-- `exit_eos!`, src/fsm.rs lines 111-115. -/
def exitEos (c : Cfg) : Out := .exit (.eos c.ctx.idx) c

/-- `exit_callback!(parser, context)`, src/fsm.rs lines 105-107. -/
def exitCallback (c : Cfg) : Out := .exit (.callback c.ctx.idx) c

/-- `exit_if_eos!`, src/fsm.rs lines 136-140. -/
def exitIfEos (c : Cfg) (k : Out) : Out := if c.ctx.available = 0 then exitEos c else k

/-- `bs_jump!(context, n)`. Uses: src/http2/parser.rs 61, 93, 113, 129, 141, 552, 565. -/
def jump (c : Cfg) (n : Nat) : Cfg := { c with ctx := c.ctx.jump n }

/-- `set_state!`, src/fsm.rs lines 150-155. -/
def setState (c : Cfg) (s : St) : Cfg := { c with p := { c.p with st := s } }

/-- `transition!(parser, context)`, src/fsm.rs lines 167-171. -/
def remark (c : Cfg) : Out := .cont { c with ctx := c.ctx.setMark }

/-- `transition!(parser, context, state, state_function)`, src/fsm.rs lines 158-166. -/
def transition (c : Cfg) (s : St) : Out := remark (setState c s)

/-- `if handler.on_x(..) { transition!(..) } else { exit_callback!(..) }`, after `set_state!` or with the same
state in both branches. Uses: src/http2/parser.rs 525, 766, 921, 1054, 1177. -/
def callback (h : Handler) (c : Cfg) (e : Ev) : Out :=
  let c := { c with log := c.log ++ [e] }
  if h.ret c.log then remark c else exitCallback c

/-- `get_u8!`, src/http2/parser.rs lines 59-65. -/
def getU8 (c : Cfg) (k : UInt8 → Cfg → Out) : Out :=
  match c.ctx.stream[c.ctx.idx]? with
  | some b => k b (jump c 1)
  | none => .panic c.log

/-- `read_u16!`, src/http2/parser.rs lines 124-131: the value or-ed to `into`. -/
def readU16 (c : Cfg) (into : UInt16) (k : UInt16 → Cfg → Out) : Out :=
  match c.ctx.stream[c.ctx.idx]?, c.ctx.stream[c.ctx.idx + 1]? with
  | some b1, some b2 => k ((into ||| (b1.toUInt16 <<< 8)) ||| b2.toUInt16) (jump c 2)
  | _, _ => .panic c.log

/-- `read_u32!`, src/http2/parser.rs lines 134-143: the value or-ed to `into`. -/
def readU32 (c : Cfg) (into : UInt32) (k : UInt32 → Cfg → Out) : Out :=
  match c.ctx.stream[c.ctx.idx]?, c.ctx.stream[c.ctx.idx + 1]?, c.ctx.stream[c.ctx.idx + 2]?,
    c.ctx.stream[c.ctx.idx + 3]? with
  | some b1, some b2, some b3, some b4 =>
    k ((((into ||| (b1.toUInt32 <<< 24)) ||| (b2.toUInt32 <<< 16)) ||| (b3.toUInt32 <<< 8)) ||| b4.toUInt32)
      (jump c 4)
  | _, _, _, _ => .panic c.log

/-- Replace a field of the parser. The fields: src/http2/parser.rs 180-190. -/
def set32a (c : Cfg) (x : UInt32) : Cfg := { c with p := { c.p with bit32a := x } }
@[inherit_doc set32a] def set32b (c : Cfg) (x : UInt32) : Cfg := { c with p := { c.p with bit32b := x } }
@[inherit_doc set32a] def set16a (c : Cfg) (x : UInt16) : Cfg := { c with p := { c.p with bit16a := x } }
@[inherit_doc set32a] def set16b (c : Cfg) (x : UInt16) : Cfg := { c with p := { c.p with bit16b := x } }

/-- `dec_payload_length!` as a statement. src/http2/parser.rs 51-56. -/
def decPayload (c : Cfg) (n : UInt32) (k : Cfg → Out) : Out :=
  match c.p.decPayloadLength n with
  | some p => k { c with p := p }
  | none => .panic c.log

/-- `parse_payload_data!`, src/http2/parser.rs lines 89-121. A mark beyond the index would panic in
`bs_slice!`. -/
def parsePayloadData (h : Handler) (c : Cfg) (kind : Kind) : Out :=
  match c.p.actualLength with
  | none => .panic c.log
  | some n =>
    if c.ctx.available ≥ n.toNat then
      decPayload (jump c n.toNat) n fun c =>
      let c := setState c (if c.p.bit32a &&& 0xFF > 0 then .framePadding else .frameLength1)
      if c.ctx.idx < c.ctx.mark then .panic c.log
      else callback h c (.payload kind c.ctx.slice true)
    else
      decPayload c (UInt32.ofNat c.ctx.available) fun c =>
      let c := jump c c.ctx.available
      if c.ctx.idx < c.ctx.mark then .panic c.log
      else
        let c := { c with log := c.log ++ [.payload kind c.ctx.slice false] }
        if h.ret c.log then exitEos c else exitCallback c

/-! ## Frame states -/

/-- `frame_length1`, src/http2/parser.rs lines 292-319. With `reset_bit_data`, lines 236-241. -/
def frame_length1 (c : Cfg) : Out :=
  exitIfEos c <|
  let c := { c with p := { c.p with bit32a := 0, bit32b := 0, bit16a := 0, bit16b := 0 } }
  if c.ctx.available ≥ 4 then
    readU32 c c.p.bit32a fun x c => transition (set32a c x) .frameFlags
  else
    getU8 c fun b c => transition (set32a c (c.p.bit32a ||| (b.toUInt32 <<< 24))) .frameLength2

/-- `frame_length2`, src/http2/parser.rs lines 322-334. -/
def frame_length2 (c : Cfg) : Out :=
  exitIfEos c <| getU8 c fun b c => transition (set32a c (c.p.bit32a ||| (b.toUInt32 <<< 16))) .frameLength3

/-- `frame_length3`, src/http2/parser.rs lines 337-349. -/
def frame_length3 (c : Cfg) : Out :=
  exitIfEos c <| getU8 c fun b c => transition (set32a c (c.p.bit32a ||| (b.toUInt32 <<< 8))) .frameType

/-- `frame_type`, src/http2/parser.rs lines 352-364. -/
def frame_type (c : Cfg) : Out :=
  exitIfEos c <| getU8 c fun b c => transition (set32a c (c.p.bit32a ||| b.toUInt32)) .frameFlags

/-- `frame_flags`, src/http2/parser.rs lines 367-379. -/
def frame_flags (c : Cfg) : Out :=
  exitIfEos c <| getU8 c fun b c => transition (set16a c b.toUInt16) .frameStreamId1

/-- `frame_stream_id1`, src/http2/parser.rs lines 382-407. -/
def frame_stream_id1 (c : Cfg) : Out :=
  exitIfEos c <|
  if c.ctx.available ≥ 4 then
    readU32 c c.p.bit32b fun x c => transition (set32b c x) .frameFormatEnd
  else
    getU8 c fun b c => transition (set32b c (b.toUInt32 <<< 24)) .frameStreamId2

/-- `frame_stream_id2`, src/http2/parser.rs lines 410-422. -/
def frame_stream_id2 (c : Cfg) : Out :=
  exitIfEos c <| getU8 c fun b c => transition (set32b c (b.toUInt32 <<< 16)) .frameStreamId3

/-- `frame_stream_id3`, src/http2/parser.rs lines 425-437. -/
def frame_stream_id3 (c : Cfg) : Out :=
  exitIfEos c <| getU8 c fun b c => transition (set32b c (b.toUInt32 <<< 8)) .frameStreamId4

/-- `frame_stream_id4`, src/http2/parser.rs lines 440-452. -/
def frame_stream_id4 (c : Cfg) : Out :=
  exitIfEos c <| getU8 c fun b c => transition (set32b c (c.p.bit32b ||| b.toUInt32)) .frameFormatEnd

/-- The state chosen by the frame type and flags in `frame_format_end`, src/http2/parser.rs lines 458-519. The
frame types are FR_DATA .. FR_CONTINUATION of src/http2/frame_type.rs lines 24-54, the flags FL_PADDED and
FL_PRIORITY of src/http2/flags.rs lines 32-36. -/
def frameState (p : Core) : St :=
  let padded := p.hasFlag 0x8
  let priority := p.hasFlag 0x20
  match (p.bit32a &&& 0xFF).toUInt8 with
  | 0x0 => if padded then .dataPadLength else .dataData
  | 0x1 =>
    if padded then
      if priority then .headersPadLengthWithPriority else .headersPadLengthWithoutPriority
    else if priority then .headersStreamId1
    else .headersFragment
  | 0x2 => .priorityStreamId1
  | 0x3 => .rstStreamErrorCode1
  | 0x4 => .settingsId1
  | 0x5 => if padded then .pushPromisePadLength else .pushPromiseStreamId1
  | 0x6 => .pingData
  | 0x7 => .goAwayStreamId1
  | 0x8 => .windowUpdateIncrement1
  | 0x9 => .headersFragment
  | _ => if padded then .unsupportedPadLength else .unsupportedData

/-- `frame_format_end`, src/http2/parser.rs lines 455-543. Both branches clear the bit data after the callback; here it is cleared before it, which the callback cannot see. -/
def frame_format_end (h : Handler) (c : Cfg) : Out :=
  let e := Ev.frameFormat c.p.payloadLength (c.p.bit32a &&& 0xFF).toUInt8 c.p.bit16a.toUInt8
    (c.p.bit32b &&& 0x7FFFFFFF)
  let c := setState c (frameState c.p)
  callback h { c with p := { c.p with bit16a := 0, bit32a := c.p.bit32a &&& 0xFFFFFF00, bit32b := 0 } } e

/-- `frame_padding`, src/http2/parser.rs lines 546-568. -/
def frame_padding (c : Cfg) : Out :=
  exitIfEos c <|
  if c.ctx.available ≥ c.p.payloadLength.toNat then
    transition (jump c c.p.payloadLength.toNat) .frameLength1
  else
    decPayload c (UInt32.ofNat c.ctx.available) fun c => exitEos (jump c c.ctx.available)

/-! ## Data states -/

/-- `data_pad_length`, src/http2/parser.rs lines 575-589. -/
def data_pad_length (c : Cfg) : Out :=
  exitIfEos c <| getU8 c fun b c =>
  decPayload (set32a c (c.p.bit32a ||| b.toUInt32)) 1 fun c => transition c .dataData

/-- `data_data`, src/http2/parser.rs lines 592-602. -/
def data_data (h : Handler) (c : Cfg) : Out :=
  exitIfEos c <| parsePayloadData h c .data

/-! ## Go away states -/

/-- `go_away_stream_id1`, src/http2/parser.rs lines 609-634. -/
def go_away_stream_id1 (c : Cfg) : Out :=
  exitIfEos c <|
  if c.ctx.available ≥ 4 then
    readU32 c c.p.bit32b fun x c => transition (set32b c x) .goAwayErrorCode1
  else
    getU8 c fun b c => transition (set32b c (c.p.bit32b ||| (b.toUInt32 <<< 24))) .goAwayStreamId2

/-- `go_away_stream_id2`, src/http2/parser.rs lines 637-649. -/
def go_away_stream_id2 (c : Cfg) : Out :=
  exitIfEos c <| getU8 c fun b c => transition (set32b c (c.p.bit32b ||| (b.toUInt32 <<< 16))) .goAwayStreamId3

/-- `go_away_stream_id3`, src/http2/parser.rs lines 652-664. -/
def go_away_stream_id3 (c : Cfg) : Out :=
  exitIfEos c <| getU8 c fun b c => transition (set32b c (c.p.bit32b ||| (b.toUInt32 <<< 8))) .goAwayStreamId3

/-- `go_away_stream_id4`, src/http2/parser.rs lines 667-679. -/
def go_away_stream_id4 (c : Cfg) : Out :=
  exitIfEos c <| getU8 c fun b c => transition (set32b c (c.p.bit32b ||| b.toUInt32)) .goAwayErrorCode1

/-- `go_away_error_code1`, src/http2/parser.rs lines 682-708. -/
def go_away_error_code1 (c : Cfg) : Out :=
  exitIfEos c <|
  if c.ctx.available ≥ 4 then
    readU16 c c.p.bit16a fun x c => readU16 (set16a c x) c.p.bit16b fun y c =>
    transition (set16b c y) .goAwayCallback
  else
    getU8 c fun b c => transition (set16a c (c.p.bit16a ||| (b.toUInt16 <<< 8))) .goAwayErrorCode2

/-- `go_away_error_code2`, src/http2/parser.rs lines 711-723. -/
def go_away_error_code2 (c : Cfg) : Out :=
  exitIfEos c <| getU8 c fun b c => transition (set16a c (c.p.bit16a ||| b.toUInt16)) .goAwayErrorCode3

/-- `go_away_error_code3`, src/http2/parser.rs lines 726-738. -/
def go_away_error_code3 (c : Cfg) : Out :=
  exitIfEos c <| getU8 c fun b c => transition (set16b c (c.p.bit16b ||| (b.toUInt16 <<< 8))) .goAwayErrorCode4

/-- `go_away_error_code4`, src/http2/parser.rs lines 741-753. -/
def go_away_error_code4 (c : Cfg) : Out :=
  exitIfEos c <| getU8 c fun b c => transition (set16b c (c.p.bit16b ||| b.toUInt16)) .goAwayCallback

/-- `go_away_callback`, src/http2/parser.rs lines 756-774. -/
def go_away_callback (h : Handler) (c : Cfg) : Out :=
  decPayload c 8 fun c =>
  let c := setState c (if c.p.payloadLength > 0 then .goAwayDebugData else .frameLength1)
  callback h c (.goAway (c.p.bit32b &&& 0x7FFFFFFF) ((c.p.bit16a.toUInt32 <<< 16) ||| c.p.bit16b.toUInt32))

/-- `go_away_debug_data`, src/http2/parser.rs lines 777-787. -/
def go_away_debug_data (h : Handler) (c : Cfg) : Out :=
  exitIfEos c <| parsePayloadData h c .goAwayDebugData

/-! ## Headers states -/

/-- `headers_pad_length_with_priority`, src/http2/parser.rs lines 794-808. -/
def headers_pad_length_with_priority (c : Cfg) : Out :=
  exitIfEos c <| getU8 c fun b c =>
  decPayload (set32a c (c.p.bit32a ||| b.toUInt32)) 1 fun c => transition c .headersStreamId1

/-- `headers_pad_length_without_priority`, src/http2/parser.rs lines 811-825. -/
def headers_pad_length_without_priority (c : Cfg) : Out :=
  exitIfEos c <| getU8 c fun b c =>
  decPayload (set32a c (c.p.bit32a ||| b.toUInt32)) 1 fun c => transition c .headersCallback

/-- `headers_stream_id1`, src/http2/parser.rs lines 828-853. -/
def headers_stream_id1 (c : Cfg) : Out :=
  exitIfEos c <|
  if c.ctx.available ≥ 4 then
    readU32 c c.p.bit32b fun x c => transition (set32b c x) .headersWeight
  else
    getU8 c fun b c => transition (set32b c (c.p.bit32b ||| (b.toUInt32 <<< 24))) .headersStreamId2

/-- `headers_stream_id2`, src/http2/parser.rs lines 856-868. -/
def headers_stream_id2 (c : Cfg) : Out :=
  exitIfEos c <| getU8 c fun b c => transition (set32b c (c.p.bit32b ||| (b.toUInt32 <<< 16))) .headersStreamId3

/-- `headers_stream_id3`, src/http2/parser.rs lines 871-883. -/
def headers_stream_id3 (c : Cfg) : Out :=
  exitIfEos c <| getU8 c fun b c => transition (set32b c (c.p.bit32b ||| (b.toUInt32 <<< 8))) .headersStreamId4

/-- `headers_stream_id4`, src/http2/parser.rs lines 886-898. -/
def headers_stream_id4 (c : Cfg) : Out :=
  exitIfEos c <| getU8 c fun b c => transition (set32b c (c.p.bit32b ||| b.toUInt32)) .headersWeight

/-- `headers_weight`, src/http2/parser.rs lines 901-916. -/
def headers_weight (c : Cfg) : Out :=
  exitIfEos c <| getU8 c fun b c =>
  decPayload (set16a c (b.toUInt16 <<< 8)) 5 fun c => transition c .headersCallback

/-- `headers_callback`, src/http2/parser.rs lines 919-940. -/
def headers_callback (h : Handler) (c : Cfg) : Out :=
  callback h (setState c .headersFragment)
    (.headers (c.p.bit32b >>> 31 == 1) (c.p.bit32b &&& 0x7FFFFFFF) (c.p.bit16a >>> 8).toUInt8)

/-- `headers_fragment`, src/http2/parser.rs lines 943-953. -/
def headers_fragment (h : Handler) (c : Cfg) : Out :=
  exitIfEos c <| parsePayloadData h c .headersFragment

/-! ## Ping states -/

/-- `ping_data`, src/http2/parser.rs lines 960-970. -/
def ping_data (h : Handler) (c : Cfg) : Out :=
  exitIfEos c <| parsePayloadData h c .ping

/-! ## Priority states -/

/-- `priority_stream_id1`, src/http2/parser.rs lines 977-1002. -/
def priority_stream_id1 (c : Cfg) : Out :=
  exitIfEos c <|
  if c.ctx.available ≥ 4 then
    readU32 c c.p.bit32b fun x c => transition (set32b c x) .priorityWeight
  else
    getU8 c fun b c => transition (set32b c (c.p.bit32b ||| (b.toUInt32 <<< 24))) .priorityStreamId2

/-- `priority_stream_id2`, src/http2/parser.rs lines 1005-1017. -/
def priority_stream_id2 (c : Cfg) : Out :=
  exitIfEos c <| getU8 c fun b c => transition (set32b c (c.p.bit32b ||| (b.toUInt32 <<< 16))) .priorityStreamId3

/-- `priority_stream_id3`, src/http2/parser.rs lines 1020-1032. -/
def priority_stream_id3 (c : Cfg) : Out :=
  exitIfEos c <| getU8 c fun b c => transition (set32b c (c.p.bit32b ||| (b.toUInt32 <<< 8))) .priorityStreamId4

/-- `priority_stream_id4`, src/http2/parser.rs lines 1035-1047. -/
def priority_stream_id4 (c : Cfg) : Out :=
  exitIfEos c <| getU8 c fun b c => transition (set32b c (c.p.bit32b ||| b.toUInt32)) .priorityWeight

/-- `priority_weight`, src/http2/parser.rs lines 1050-1073. -/
def priority_weight (h : Handler) (c : Cfg) : Out :=
  exitIfEos c <| getU8 c fun b c =>
  callback h (setState c .frameLength1) (.priority (c.p.bit32b >>> 31 == 1) (c.p.bit32b &&& 0x7FFFFFFF) b)

/-! ## Push promise states -/

/-- `push_promise_pad_length`, src/http2/parser.rs lines 1080-1094. -/
def push_promise_pad_length (c : Cfg) : Out :=
  exitIfEos c <| getU8 c fun b c =>
  decPayload (set32a c (c.p.bit32a ||| b.toUInt32)) 1 fun c => transition c .pushPromiseStreamId1

/-- `push_promise_stream_id1`, src/http2/parser.rs lines 1097-1122. -/
def push_promise_stream_id1 (c : Cfg) : Out :=
  exitIfEos c <|
  if c.ctx.available ≥ 4 then
    readU32 c c.p.bit32b fun x c => transition (set32b c x) .pushPromiseCallback
  else
    getU8 c fun b c => transition (set32b c (c.p.bit32b ||| (b.toUInt32 <<< 24))) .pushPromiseStreamId2

/-- `push_promise_stream_id2`, src/http2/parser.rs lines 1125-1137. -/
def push_promise_stream_id2 (c : Cfg) : Out :=
  exitIfEos c <| getU8 c fun b c => transition (set32b c (c.p.bit32b ||| (b.toUInt32 <<< 16))) .pushPromiseStreamId3

/-- `push_promise_stream_id3`, src/http2/parser.rs lines 1140-1152. -/
def push_promise_stream_id3 (c : Cfg) : Out :=
  exitIfEos c <| getU8 c fun b c => transition (set32b c (c.p.bit32b ||| (b.toUInt32 <<< 8))) .pushPromiseStreamId4

/-- `push_promise_stream_id4`, src/http2/parser.rs lines 1155-1167. -/
def push_promise_stream_id4 (c : Cfg) : Out :=
  exitIfEos c <| getU8 c fun b c => transition (set32b c (c.p.bit32b ||| b.toUInt32)) .pushPromiseCallback

/-- `push_promise_callback`, src/http2/parser.rs lines 1170-1192. -/
def push_promise_callback (h : Handler) (c : Cfg) : Out :=
  exitIfEos c <| decPayload c 4 fun c =>
  callback h (setState c .headersFragment) (.pushPromise c.p.bit32b)

/-! ## Rst stream states -/

/-- `rst_stream_error_code1`, src/http2/parser.rs lines 1199-1224. -/
def rst_stream_error_code1 (c : Cfg) : Out :=
  exitIfEos c <|
  if c.ctx.available ≥ 4 then
    readU32 c c.p.bit32b fun x c => transition (set32b c x) .rstStreamCallback
  else
    getU8 c fun b c => transition (set32b c (c.p.bit32b ||| (b.toUInt32 <<< 24))) .rstStreamErrorCode2

/-- `rst_stream_error_code2`, src/http2/parser.rs lines 1227-1239. -/
def rst_stream_error_code2 (c : Cfg) : Out :=
  exitIfEos c <| getU8 c fun b c => transition (set32b c (c.p.bit32b ||| (b.toUInt32 <<< 16))) .rstStreamErrorCode3

/-- `rst_stream_error_code3`, src/http2/parser.rs lines 1242-1254. -/
def rst_stream_error_code3 (c : Cfg) : Out :=
  exitIfEos c <| getU8 c fun b c => transition (set32b c (c.p.bit32b ||| (b.toUInt32 <<< 8))) .rstStreamErrorCode4

/-- `rst_stream_error_code4`, src/http2/parser.rs lines 1257-1269. -/
def rst_stream_error_code4 (c : Cfg) : Out :=
  exitIfEos c <| getU8 c fun b c => transition (set32b c (c.p.bit32b ||| b.toUInt32)) .rstStreamCallback

/-- `rst_stream_callback`, src/http2/parser.rs lines 1272-1289. -/
def rst_stream_callback (h : Handler) (c : Cfg) : Out :=
  callback h (setState c .frameLength1) (.rstStream c.p.bit32b)

/-! ## Settings states -/

/-- `settings_id1`, src/http2/parser.rs lines 1296-1321. -/
def settings_id1 (c : Cfg) : Out :=
  exitIfEos c <|
  if c.ctx.available ≥ 2 then
    readU16 c c.p.bit16a fun x c => transition (set16a c x) .settingsValue1
  else
    getU8 c fun b c => transition (set16a c (c.p.bit16a ||| (b.toUInt16 <<< 8))) .settingsId2

/-- `settings_id2`, src/http2/parser.rs lines 1324-1336. -/
def settings_id2 (c : Cfg) : Out :=
  exitIfEos c <| getU8 c fun b c => transition (set16a c (c.p.bit16a ||| b.toUInt16)) .settingsValue1

/-- `settings_value1`, src/http2/parser.rs lines 1339-1364. -/
def settings_value1 (c : Cfg) : Out :=
  exitIfEos c <|
  if c.ctx.available ≥ 4 then
    readU32 c c.p.bit32b fun x c => transition (set32b c x) .settingsCallback
  else
    getU8 c fun b c => transition (set32b c (c.p.bit32b ||| (b.toUInt32 <<< 24))) .settingsValue2

/-- `settings_value2`, src/http2/parser.rs lines 1367-1379. -/
def settings_value2 (c : Cfg) : Out :=
  exitIfEos c <| getU8 c fun b c => transition (set32b c (c.p.bit32b ||| (b.toUInt32 <<< 16))) .settingsValue3

/-- `settings_value3`, src/http2/parser.rs lines 1382-1394. -/
def settings_value3 (c : Cfg) : Out :=
  exitIfEos c <| getU8 c fun b c => transition (set32b c (c.p.bit32b ||| (b.toUInt32 <<< 8))) .settingsValue3

/-- `settings_value4`, src/http2/parser.rs lines 1397-1409. -/
def settings_value4 (c : Cfg) : Out :=
  exitIfEos c <| getU8 c fun b c => transition (set32b c (c.p.bit32b ||| b.toUInt32)) .settingsCallback

/-- `settings_callback`, src/http2/parser.rs lines 1412-1429. -/
def settings_callback (h : Handler) (c : Cfg) : Out :=
  callback h (setState c .frameLength1) (.settings c.p.bit16a c.p.bit32b)

/-! ## Window update states -/

/-- `window_update_increment1`, src/http2/parser.rs lines 1436-1461. -/
def window_update_increment1 (c : Cfg) : Out :=
  exitIfEos c <|
  if c.ctx.available ≥ 4 then
    readU32 c c.p.bit32b fun x c => transition (set32b c x) .windowUpdateCallback
  else
    getU8 c fun b c => transition (set32b c (c.p.bit32b ||| (b.toUInt32 <<< 24))) .windowUpdateIncrement2

/-- `window_update_increment2`, src/http2/parser.rs lines 1464-1476. -/
def window_update_increment2 (c : Cfg) : Out :=
  exitIfEos c <| getU8 c fun b c => transition (set32b c (c.p.bit32b ||| (b.toUInt32 <<< 16))) .windowUpdateIncrement3

/-- `window_update_increment3`, src/http2/parser.rs lines 1479-1491. -/
def window_update_increment3 (c : Cfg) : Out :=
  exitIfEos c <| getU8 c fun b c => transition (set32b c (c.p.bit32b ||| (b.toUInt32 <<< 8))) .windowUpdateIncrement4

/-- `window_update_increment4`, src/http2/parser.rs lines 1494-1506. -/
def window_update_increment4 (c : Cfg) : Out :=
  exitIfEos c <| getU8 c fun b c => transition (set32b c (c.p.bit32b ||| b.toUInt32)) .windowUpdateCallback

/-- `window_update_callback`, src/http2/parser.rs lines 1509-1526. -/
def window_update_callback (h : Handler) (c : Cfg) : Out :=
  callback h (setState c .frameLength1) (.windowUpdate c.p.bit32b)

/-! ## Unsupported states -/

/-- `unsupported_pad_length`, src/http2/parser.rs lines 1533-1547. -/
def unsupported_pad_length (c : Cfg) : Out :=
  exitIfEos c <| getU8 c fun b c =>
  decPayload (set32a c (c.p.bit32a ||| b.toUInt32)) 1 fun c => transition c .unsupportedData

/-- `unsupported_data`, src/http2/parser.rs lines 1550-1560. -/
def unsupported_data (h : Handler) (c : Cfg) : Out :=
  exitIfEos c <| parsePayloadData h c .unsupported

/-! ## Dead and finished states -/

/-- `dead`, src/http2/parser.rs lines 1567-1570. -/
def dead (c : Cfg) : Out :=
  .err c

/-- `finished`, src/http2/parser.rs lines 1573-1576. -/
def finished (c : Cfg) : Out :=
  .exit (.finished c.ctx.idx) c

/-! ## The parser loop -/

/-- `(self.state_function)(self, handler, context)`, src/http2/parser.rs line 259. -/
def stepFn (h : Handler) (c : Cfg) : Out :=
  match c.p.st with
  | .frameLength1 => frame_length1 c
  | .frameLength2 => frame_length2 c
  | .frameLength3 => frame_length3 c
  | .frameType => frame_type c
  | .frameFlags => frame_flags c
  | .frameStreamId1 => frame_stream_id1 c
  | .frameStreamId2 => frame_stream_id2 c
  | .frameStreamId3 => frame_stream_id3 c
  | .frameStreamId4 => frame_stream_id4 c
  | .frameFormatEnd => frame_format_end h c
  | .framePadding => frame_padding c
  | .dataPadLength => data_pad_length c
  | .dataData => data_data h c
  | .goAwayStreamId1 => go_away_stream_id1 c
  | .goAwayStreamId2 => go_away_stream_id2 c
  | .goAwayStreamId3 => go_away_stream_id3 c
  | .goAwayStreamId4 => go_away_stream_id4 c
  | .goAwayErrorCode1 => go_away_error_code1 c
  | .goAwayErrorCode2 => go_away_error_code2 c
  | .goAwayErrorCode3 => go_away_error_code3 c
  | .goAwayErrorCode4 => go_away_error_code4 c
  | .goAwayCallback => go_away_callback h c
  | .goAwayDebugData => go_away_debug_data h c
  | .headersPadLengthWithPriority => headers_pad_length_with_priority c
  | .headersPadLengthWithoutPriority => headers_pad_length_without_priority c
  | .headersStreamId1 => headers_stream_id1 c
  | .headersStreamId2 => headers_stream_id2 c
  | .headersStreamId3 => headers_stream_id3 c
  | .headersStreamId4 => headers_stream_id4 c
  | .headersWeight => headers_weight c
  | .headersCallback => headers_callback h c
  | .headersFragment => headers_fragment h c
  | .pingData => ping_data h c
  | .priorityStreamId1 => priority_stream_id1 c
  | .priorityStreamId2 => priority_stream_id2 c
  | .priorityStreamId3 => priority_stream_id3 c
  | .priorityStreamId4 => priority_stream_id4 c
  | .priorityWeight => priority_weight h c
  | .pushPromisePadLength => push_promise_pad_length c
  | .pushPromiseStreamId1 => push_promise_stream_id1 c
  | .pushPromiseStreamId2 => push_promise_stream_id2 c
  | .pushPromiseStreamId3 => push_promise_stream_id3 c
  | .pushPromiseStreamId4 => push_promise_stream_id4 c
  | .pushPromiseCallback => push_promise_callback h c
  | .rstStreamErrorCode1 => rst_stream_error_code1 c
  | .rstStreamErrorCode2 => rst_stream_error_code2 c
  | .rstStreamErrorCode3 => rst_stream_error_code3 c
  | .rstStreamErrorCode4 => rst_stream_error_code4 c
  | .rstStreamCallback => rst_stream_callback h c
  | .settingsId1 => settings_id1 c
  | .settingsId2 => settings_id2 c
  | .settingsValue1 => settings_value1 c
  | .settingsValue2 => settings_value2 c
  | .settingsValue3 => settings_value3 c
  | .settingsValue4 => settings_value4 c
  | .settingsCallback => settings_callback h c
  | .windowUpdateIncrement1 => window_update_increment1 c
  | .windowUpdateIncrement2 => window_update_increment2 c
  | .windowUpdateIncrement3 => window_update_increment3 c
  | .windowUpdateIncrement4 => window_update_increment4 c
  | .windowUpdateCallback => window_update_callback h c
  | .unsupportedPadLength => unsupported_pad_length c
  | .unsupportedData => unsupported_data h c
  | .dead => dead c
  | .finished => finished c

/-- What `resume` returns; `panic` when it panics; `diverge` when the fuel of the model is used up.
src/http2/parser.rs 255-280. -/
inductive Res
  | ok (s : Success)
  | err
  | panic
  | diverge
deriving Repr, DecidableEq

/-- The loop of `resume`, src/http2/parser.rs lines 258-279, at most `n` state functions. -/
def parse (h : Handler) : Nat → Cfg → Res × Cfg
  | 0, c => (.diverge, c)
  | n + 1, c =>
    match stepFn h c with
    | .cont c => parse h n c
    | .exit s c => (.ok s, c)
    | .err c => (.err, c)
    | .panic log => (.panic, { c with log := log })

/-- Enough fuel for every slice of `n` bytes (C45). Model only, for the loop of src/http2/parser.rs 258-278. -/
def fuel (n : Nat) : Nat := 4 * n + 8

/-- A parser with the history of callbacks. Parser: src/http2/parser.rs 178-202. -/
structure World where
  p : Parser
  log : List Ev
deriving Repr, DecidableEq

/-- `Parser::new`, src/http2/parser.rs lines 206-214. -/
def Parser.new : Parser := ⟨⟨0, 0, 0, 0, .frameLength1⟩, 0⟩

/-- `Parser::reset`, src/http2/parser.rs lines 227-233, with `reset_bit_data`, lines 236-241. -/
def Parser.reset (_ : Parser) : Parser := ⟨⟨0, 0, 0, 0, .frameLength1⟩, 0⟩

/-- `Parser::resume`, src/http2/parser.rs lines 255-280. -/
def resume (h : Handler) (w : World) (s : Bytes) : Res × World :=
  let (r, c) := parse h (fuel s.length) ⟨w.p.toCore, Ctx.new s, w.log⟩
  match r with
  | .ok (.finished n) => (.ok (.finished n), ⟨⟨{ c.p with st := .finished }, w.p.byteCount + c.ctx.idx⟩, c.log⟩)
  | .ok su => (.ok su, ⟨⟨c.p, w.p.byteCount + c.ctx.idx⟩, c.log⟩)
  | .err => (.err, ⟨⟨{ c.p with st := .dead }, w.p.byteCount + c.ctx.idx⟩, c.log⟩)
  | r => (r, ⟨w.p, c.log⟩)

end Verif.Http2
