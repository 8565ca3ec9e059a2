import Verif.Http2.Model

/-!
# Specification: how much is handed to the HTTP/2 handler

Used by C98. The measures do not look at the parser.
-/

namespace Verif.Http2

/-- How many bytes of payload a callback carries (src/http2/http_handler.rs; only these callbacks carry bytes). -/
def Ev.size : Ev → Nat
  | .payload _ d _ => d.length
  | _ => 0

/-- How many bytes of payload the callbacks carry together. -/
def handed (l : List Ev) : Nat := (l.map Ev.size).sum

/-- A callback for a frame header. -/
def Ev.isFrame : Ev → Bool
  | .frameFormat .. => true
  | _ => false

/-- How many frame headers were reported. -/
def frames (l : List Ev) : Nat := l.countP Ev.isFrame

end Verif.Http2
