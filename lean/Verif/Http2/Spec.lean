import Verif.Http2.Client

/-!
# A byte-at-a-time reference machine for HTTP/2 frames

Not part of the code: the same frames, read one byte at a time, without fast paths, slices, pauses and
accumulation of data, and with stream ids, settings values and last stream ids put together from all of their
bytes. The simulation proof (`Verif.Http2.Sim`) relates the model of the parser to it.
-/

namespace Verif.Http2

/-- What one byte does: events and the next state, or events and a panic. -/
inductive BRes
  | next (es : List Ev) (s : Core)
  | panic (es : List Ev)
deriving Repr, DecidableEq

/-- The result, with more callbacks before it. -/
def BRes.pre (es : List Ev) : BRes → BRes
  | .next es' s => .next (es ++ es') s
  | .panic es' => .panic (es ++ es')

/-- States in which the parser never waits for a byte execute their callback. -/
def norm (s : Core) : BRes :=
  match s.st with
  | .frameFormatEnd =>
    .next [.frameFormat s.payloadLength (s.bit32a &&& 0xFF).toUInt8 s.bit16a.toUInt8 (s.bit32b &&& 0x7FFFFFFF)]
      { s with bit16a := 0, bit32a := s.bit32a &&& 0xFFFFFF00, bit32b := 0, st := frameState s }
  | .goAwayCallback =>
    match s.decPayloadLength 8 with
    | none => .panic []
    | some s =>
      .next [.goAway (s.bit32b &&& 0x7FFFFFFF) ((s.bit16a.toUInt32 <<< 16) ||| s.bit16b.toUInt32)]
        { s with st := if s.payloadLength > 0 then .goAwayDebugData else .frameLength1 }
  | .headersCallback =>
    .next [.headers (s.bit32b >>> 31 == 1) (s.bit32b &&& 0x7FFFFFFF) (s.bit16a >>> 8).toUInt8]
      { s with st := .headersFragment }
  | .rstStreamCallback => .next [.rstStream s.bit32b] { s with st := .frameLength1 }
  | .settingsCallback => .next [.settings s.bit16a s.bit32b] { s with st := .frameLength1 }
  | .windowUpdateCallback => .next [.windowUpdate s.bit32b] { s with st := .frameLength1 }
  | _ => .next [] s

/-- The first byte of a frame. -/
def bStart (b : UInt8) : Core := ⟨(0 : UInt32) ||| (b.toUInt32 <<< 24), 0, 0, 0, .frameLength2⟩

/-- The next byte of a field, at its place. -/
def or32a (s : Core) (x : UInt32) (st : St) : BRes := .next [] { s with bit32a := s.bit32a ||| x, st := st }
@[inherit_doc or32a] def or32b (s : Core) (x : UInt32) (st : St) : BRes := .next [] { s with bit32b := s.bit32b ||| x, st := st }
@[inherit_doc or32a] def or16a (s : Core) (x : UInt16) (st : St) : BRes := .next [] { s with bit16a := s.bit16a ||| x, st := st }
@[inherit_doc or32a] def or16b (s : Core) (x : UInt16) (st : St) : BRes := .next [] { s with bit16b := s.bit16b ||| x, st := st }

/-- A pad length. -/
def bPad (s : Core) (b : UInt8) (st : St) : BRes :=
  match { s with bit32a := s.bit32a ||| b.toUInt32 }.decPayloadLength 1 with
  | none => .panic []
  | some s => .next [] { s with st := st }

/-- A byte of padding. -/
def bPadding (s : Core) (b : UInt8) : BRes :=
  if s.payloadLength = 0 then .next [] (bStart b)
  else if s.payloadLength = 1 then .next [] { s with st := .frameLength1 }
  else
    match s.decPayloadLength 1 with
    | none => .panic []
    | some s => .next [] s

/-- After the last byte of a payload. -/
def endState (s : Core) : Core := { s with st := if s.bit32a &&& 0xFF > 0 then .framePadding else .frameLength1 }

/-- A byte of payload, or (when there is none) the first byte after it. -/
def bPayload (k : Kind) (s : Core) (b : UInt8) : BRes :=
  match s.actualLength with
  | none => .panic []
  | some n =>
    if n = 0 then
      (if s.bit32a &&& 0xFF > 0 then bPadding { s with st := .framePadding } b else .next [] (bStart b)).pre
        [.payload k [] true]
    else
      match s.decPayloadLength 1 with
      | none => .panic []
      | some s' =>
        if n = 1 then .next [.payload k [b] false, .payload k [] true] (endState s')
        else .next [.payload k [b] false] s'

/-- Read one byte. -/
def bstep (s : Core) (b : UInt8) : BRes :=
  match s.st with
  | .frameLength1 => .next [] (bStart b)
  | .frameLength2 => or32a s (b.toUInt32 <<< 16) .frameLength3
  | .frameLength3 => or32a s (b.toUInt32 <<< 8) .frameType
  | .frameType => or32a s b.toUInt32 .frameFlags
  | .frameFlags => .next [] { s with bit16a := b.toUInt16, st := .frameStreamId1 }
  | .frameStreamId1 => or32b s (b.toUInt32 <<< 24) .frameStreamId2
  | .frameStreamId2 => or32b s (b.toUInt32 <<< 16) .frameStreamId3
  | .frameStreamId3 => or32b s (b.toUInt32 <<< 8) .frameStreamId4
  | .frameStreamId4 => or32b s b.toUInt32 .frameFormatEnd
  | .framePadding => bPadding s b
  | .dataPadLength => bPad s b .dataData
  | .dataData => bPayload .data s b
  | .goAwayStreamId1 => or32b s (b.toUInt32 <<< 24) .goAwayStreamId2
  | .goAwayStreamId2 => or32b s (b.toUInt32 <<< 16) .goAwayStreamId3
  | .goAwayStreamId3 => or32b s (b.toUInt32 <<< 8) .goAwayStreamId4
  | .goAwayStreamId4 => or32b s b.toUInt32 .goAwayErrorCode1
  | .goAwayErrorCode1 => or16a s (b.toUInt16 <<< 8) .goAwayErrorCode2
  | .goAwayErrorCode2 => or16a s b.toUInt16 .goAwayErrorCode3
  | .goAwayErrorCode3 => or16b s (b.toUInt16 <<< 8) .goAwayErrorCode4
  | .goAwayErrorCode4 => or16b s b.toUInt16 .goAwayCallback
  | .goAwayDebugData => bPayload .goAwayDebugData s b
  | .headersPadLengthWithPriority => bPad s b .headersStreamId1
  | .headersPadLengthWithoutPriority => bPad s b .headersCallback
  | .headersStreamId1 => or32b s (b.toUInt32 <<< 24) .headersStreamId2
  | .headersStreamId2 => or32b s (b.toUInt32 <<< 16) .headersStreamId3
  | .headersStreamId3 => or32b s (b.toUInt32 <<< 8) .headersStreamId4
  | .headersStreamId4 => or32b s b.toUInt32 .headersWeight
  | .headersWeight =>
    match { s with bit16a := b.toUInt16 <<< 8 }.decPayloadLength 5 with
    | none => .panic []
    | some s => .next [] { s with st := .headersCallback }
  | .headersFragment => bPayload .headersFragment s b
  | .pingData => bPayload .ping s b
  | .priorityStreamId1 => or32b s (b.toUInt32 <<< 24) .priorityStreamId2
  | .priorityStreamId2 => or32b s (b.toUInt32 <<< 16) .priorityStreamId3
  | .priorityStreamId3 => or32b s (b.toUInt32 <<< 8) .priorityStreamId4
  | .priorityStreamId4 => or32b s b.toUInt32 .priorityWeight
  | .priorityWeight =>
    .next [.priority (s.bit32b >>> 31 == 1) (s.bit32b &&& 0x7FFFFFFF) b] { s with st := .frameLength1 }
  | .pushPromisePadLength => bPad s b .pushPromiseStreamId1
  | .pushPromiseStreamId1 => or32b s (b.toUInt32 <<< 24) .pushPromiseStreamId2
  | .pushPromiseStreamId2 => or32b s (b.toUInt32 <<< 16) .pushPromiseStreamId3
  | .pushPromiseStreamId3 => or32b s (b.toUInt32 <<< 8) .pushPromiseStreamId4
  | .pushPromiseStreamId4 => or32b s b.toUInt32 .pushPromiseCallback
  | .pushPromiseCallback =>
    match s.decPayloadLength 4 with
    | none => .panic []
    | some s => (bPayload .headersFragment { s with st := .headersFragment } b).pre [.pushPromise s.bit32b]
  | .rstStreamErrorCode1 => or32b s (b.toUInt32 <<< 24) .rstStreamErrorCode2
  | .rstStreamErrorCode2 => or32b s (b.toUInt32 <<< 16) .rstStreamErrorCode3
  | .rstStreamErrorCode3 => or32b s (b.toUInt32 <<< 8) .rstStreamErrorCode4
  | .rstStreamErrorCode4 => or32b s b.toUInt32 .rstStreamCallback
  | .settingsId1 => or16a s (b.toUInt16 <<< 8) .settingsId2
  | .settingsId2 => or16a s b.toUInt16 .settingsValue1
  | .settingsValue1 => or32b s (b.toUInt32 <<< 24) .settingsValue2
  | .settingsValue2 => or32b s (b.toUInt32 <<< 16) .settingsValue3
  | .settingsValue3 => or32b s (b.toUInt32 <<< 8) .settingsValue4
  | .settingsValue4 => or32b s b.toUInt32 .settingsCallback
  | .windowUpdateIncrement1 => or32b s (b.toUInt32 <<< 24) .windowUpdateIncrement2
  | .windowUpdateIncrement2 => or32b s (b.toUInt32 <<< 16) .windowUpdateIncrement3
  | .windowUpdateIncrement3 => or32b s (b.toUInt32 <<< 8) .windowUpdateIncrement4
  | .windowUpdateIncrement4 => or32b s b.toUInt32 .windowUpdateCallback
  | .unsupportedPadLength => bPad s b .unsupportedData
  | .unsupportedData => bPayload .unsupported s b
  | .dead | .frameFormatEnd | .goAwayCallback | .headersCallback | .rstStreamCallback | .settingsCallback
  | .windowUpdateCallback | .finished => .panic []

/-- How a run ends. -/
inductive Fin | eos | panic
deriving Repr, DecidableEq

/-- Run over `m` from state `s`, after the events `tr`. -/
def pred (tr : List Ev) (s : Core) : Bytes → List Ev × Fin
  | [] =>
    match norm s with
    | .panic es => (tr ++ es, .panic)
    | .next es _ => (tr ++ es, .eos)
  | b :: r =>
    match norm s with
    | .panic es => (tr ++ es, .panic)
    | .next es s =>
      match bstep s b with
      | .panic es' => (tr ++ es ++ es', .panic)
      | .next es' s => pred (tr ++ es ++ es') s r

end Verif.Http2
