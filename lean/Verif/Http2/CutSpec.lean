import Verif.Http2.AnySpec

/-!
# What the HTTP/2 parser tells about any bytes that are passed in slices

Not part of the code: a description of how any byte string is read when slices end at some positions in it. It is the
description in `Verif.Http2.AnySpec`, except for three fields of four bytes that are read wrongly when a slice ends
within them: a stream id in a frame header loses its upper half, and the last stream id of a GOAWAY frame and the value
of a setting are never completed, so that nothing is reported any more.
-/

namespace Verif.Http2

/-- One of the positions is within the four bytes at `a`. -/
def cutIn (marks : List Nat) (a : Nat) : Bool :=
  marks.contains (a + 1) || marks.contains (a + 2) || marks.contains (a + 3)

/-- A frame at position `pos`: length, type, flags, stream id, payload. Types 4 and 7 are SETTINGS and GOAWAY. -/
def readFrameC (marks : List Nat) (pos : Nat) (r : Bytes) : Tale :=
  readField 3 r fun n r => readField 1 r fun t r => readField 1 r fun f r => readField 4 r fun id r =>
  tell [.frameFormat (UInt32.ofNat n) (UInt8.ofNat t) (UInt8.ofNat f)
      (UInt32.ofNat (id % if cutIn marks (pos + 5) then 2 ^ 16 else 2 ^ 31))]
    (if t = 4 ∧ cutIn marks (pos + 11) ∨ t = 7 ∧ cutIn marks (pos + 9) then ([], .stop)
      else readBody n (UInt8.ofNat t) (UInt8.ofNat f) r)

/-- At most `k` frames, the first at position `pos`. -/
def readFramesC (marks : List Nat) : Nat → Nat → Bytes → List Ev × Bool
  | 0, _, _ => ([], false)
  | k + 1, pos, m =>
    match readFrameC marks pos m with
    | (es, .stop) => (es, false)
    | (es, .panic) => (es, true)
    | (es, .go r) =>
      let rest := readFramesC marks k (pos + (m.length - r.length)) r
      (es ++ rest.1, rest.2)

/-- All callbacks for `m` when slices end at `marks`, and whether the parser panics. -/
def toldC (marks : List Nat) (m : Bytes) : List Ev × Bool := readFramesC marks m.length 0 m

end Verif.Http2
