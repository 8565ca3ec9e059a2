import Verif.Http2.OrderSpec
import Verif.Http2.FrameSpec

/-!
# Specification: a handler that passes frames on

Not part of the code: a handler that collects the callbacks of a frame and writes the frame when it is complete. It keeps
type, flags and stream id. A frame with the PADDED flag gets a pad length of 0. Used by C104.
-/

namespace Verif.Http2

/-- The frame that is being collected: what the frame header said, and the payload that will be written. -/
structure Draft where
  length : Nat
  type : UInt8
  flags : UInt8
  id : UInt32
  text : Bytes
deriving DecidableEq, Repr

/-- After a frame header. -/
def Draft.start (n : UInt32) (t f : UInt8) (id : UInt32) : Draft :=
  ⟨n.toNat, t, f, id, if Spot.padded t f then [0] else []⟩

/-- What a callback adds to the payload. (The callback for a HEADERS frame without priority only stands for the
padding.) -/
def Draft.part (d : Draft) : Ev → Bytes
  | .headers e x w => if Spot.prio d.flags then word e x ++ [w] else []
  | .priority e x w => word e x ++ [w]
  | .rstStream c => be 4 c.toNat
  | .settings i v => be 2 i.toNat ++ be 4 v.toNat
  | .pushPromise s => be 4 s.toNat
  | .goAway l c => word false l ++ be 4 c.toNat
  | .windowUpdate i => be 4 i.toNat
  | .payload _ x _ => x
  | .frameFormat .. => []

/-- With this callback the frame is complete: the only one of some types, GOAWAY without debug data, the last piece of
a payload. -/
def Draft.ends (d : Draft) : Ev → Bool
  | .priority .. | .rstStream _ | .settings .. | .windowUpdate _ => true
  | .goAway .. => d.length ≤ 8
  | .payload _ _ finished => finished
  | _ => false

/-- The bytes of the frame. -/
def Draft.write (d : Draft) : Bytes := be 3 d.text.length ++ [d.type, d.flags] ++ word false d.id ++ d.text

/-- What is written for a history. -/
def forwardFrom (d : Draft) : List Ev → Bytes
  | [] => []
  | .frameFormat n t f id :: l => forwardFrom (.start n t f id) l
  | e :: l =>
    let d' := { d with text := d.text ++ d.part e }
    (if d.ends e then d'.write else []) ++ forwardFrom d' l

@[inherit_doc forwardFrom]
def forward (l : List Ev) : Bytes := forwardFrom ⟨0, 0, 0, 0, []⟩ l

/-- All frames of the history are complete. -/
def Between (l : List Ev) : Prop := ∃ s, spot l = some s ∧ s.over = true

/-- A callback without the length in a frame header, which counts the padding. -/
def Ev.bare : Ev → Ev
  | .frameFormat _ t f id => .frameFormat 0 t f id
  | e => e

end Verif.Http2
