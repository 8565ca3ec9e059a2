import Verif.Http2.Model

/-!
# Specification: the order of the HTTP/2 callbacks

Not part of the code. Which callback may follow which, as documented in src/http2/http_handler.rs lines 22-296 and in
RFC 7540 section 6, and how much payload a frame may have. Used by C100.
-/

namespace Verif.Http2

/-- Where we are in a frame: its type and flags, how many bytes of its payload may still be handed over, whether the
callback with its fields is still due, and whether the frame is over. -/
structure Spot where
  type : UInt8
  flags : UInt8
  left : Nat
  due : Bool
  over : Bool
deriving DecidableEq, Repr

/-- The PADDED flag (0x8) of DATA, HEADERS, PUSH_PROMISE and unknown frames; for other types it has no meaning. -/
def Spot.padded (type flags : UInt8) : Bool :=
  (type == 0 || type == 1 || type == 5 || 9 < type) && flags &&& 0x8 == 0x8

/-- The PRIORITY flag (0x20) of HEADERS. -/
def Spot.prio (flags : UInt8) : Bool := flags &&& 0x20 == 0x20

/-- Which callback gets the payload of which frame type: DATA, HEADERS, PUSH_PROMISE, PING, GOAWAY, CONTINUATION. -/
def Spot.kind (type : UInt8) : Kind :=
  if type = 0 then .data
  else if type = 1 ∨ type = 5 ∨ type = 9 then .headersFragment
  else if type = 6 then .ping
  else if type = 7 then .goAwayDebugData
  else .unsupported

/-- How many bytes of the payload are fields (RFC 7540 section 6): the pad length, the priority, the promised stream,
the last stream with the error code. -/
def Spot.overhead (type flags : UInt8) : Nat :=
  (if padded type flags then 1 else 0) +
    if type = 1 then (if prio flags then 5 else 0) else if type = 5 then 4 else if type = 7 then 8 else 0

/-- Whether a callback with fields comes before the payload. For HEADERS only if there is a priority or padding. -/
def Spot.hasFields (type flags : UInt8) : Bool :=
  type == 2 || type == 3 || type == 4 || type == 5 || type == 7 || type == 8 ||
    (type == 1 && (padded type flags || prio flags))

/-- After the header of a frame. -/
def Spot.enter (length : Nat) (type flags : UInt8) : Spot :=
  ⟨type, flags, length - overhead type flags, hasFields type flags, false⟩

/-- After the callback with the fields of a frame of type `t`: PRIORITY, RST_STREAM, SETTINGS and WINDOW_UPDATE have no
other payload, GOAWAY may have none. -/
def Spot.fields (s : Spot) (t : UInt8) : Option Spot :=
  if s.over = false ∧ s.due = true ∧ s.type = t then
    some { s with due := false, over := t == 2 || t == 3 || t == 4 || t == 8 || (t == 7 && s.left == 0) }
  else none

/-- Which callback may come next. Payload goes to the callback for the type of the frame, and is no longer than
announced; without padding the last piece completes the announced length. Without priority the fields of HEADERS are 0. -/
def Spot.next (s : Spot) : Ev → Option Spot
  | .frameFormat n t f _ => if s.over = true then some (enter n.toNat t f) else none
  | .headers e d w => if prio s.flags = true ∨ (e, d, w) = (false, 0, 0) then s.fields 1 else none
  | .priority .. => s.fields 2
  | .rstStream .. => s.fields 3
  | .settings .. => s.fields 4
  | .pushPromise .. => s.fields 5
  | .goAway .. => s.fields 7
  | .windowUpdate .. => s.fields 8
  | .payload k d fin =>
    if s.over = false ∧ s.due = false ∧ k = kind s.type ∧ d.length ≤ s.left ∧
        (fin = true → padded s.type s.flags = true ∨ d.length = s.left) then
      some { s with left := s.left - d.length, over := fin }
    else none

/-- Before the first frame. -/
def Spot.start : Spot := ⟨0, 0, 0, false, true⟩

/-- Where we are after a history; `none` if some callback came out of order. -/
def spot (l : List Ev) : Option Spot := l.foldlM Spot.next .start

end Verif.Http2
