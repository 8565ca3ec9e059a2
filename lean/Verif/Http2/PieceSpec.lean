import Verif.Http2.Model

/-!
# Pieces of a slice

Not part of the code: what it means that data was taken from a slice.
-/

namespace Verif.Http2

/-- `ds` are pieces of `s`, in this order and without overlap. -/
inductive Pieces : Bytes → List Bytes → Prop
  | nil (s : Bytes) : Pieces s []
  | cons (skip d : Bytes) {r : Bytes} {ds : List Bytes} (h : Pieces r ds) : Pieces (skip ++ d ++ r) (d :: ds)

/-- The payload data of a callback: `on_data`, `on_headers_fragment`, `on_go_away_debug_data`, `on_ping` and
`on_unsupported`. -/
def Ev.data : Ev → Option Bytes
  | .payload _ d _ => some d
  | _ => none

/-- The payload data of a history of callbacks, callback by callback. -/
def dataOf (l : List Ev) : List Bytes := l.filterMap Ev.data

end Verif.Http2
