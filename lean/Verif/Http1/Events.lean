import Verif.Http1.Model

/-!
# Histories of callbacks

How two histories of callbacks are compared. The data of a token (a method, a header name, ...) may
be delivered in several pieces (src/http1/http_handler.rs lines 49-60), so that histories are
compared byte by byte. This file is part of the specification: the property theorems use it.
-/

namespace Verif.Http1

/-- Split the data of one callback into single bytes, so that two histories can be compared
regardless of how the data was cut into pieces. -/
def flatEv : Ev → List Ev
  | .method d => d.map fun b => .method [b]
  | .url d => d.map fun b => .url [b]
  | .status d => d.map fun b => .status [b]
  | .headerName d => d.map fun b => .headerName [b]
  | .headerValue d => d.map fun b => .headerValue [b]
  | .chunkData d => d.map fun b => .chunkData [b]
  | .chunkExtensionName d => d.map fun b => .chunkExtensionName [b]
  | .chunkExtensionValue d => d.map fun b => .chunkExtensionValue [b]
  | .multipartData d => d.map fun b => .multipartData [b]
  | .urlEncodedName d => d.map fun b => .urlEncodedName [b]
  | .urlEncodedValue d => d.map fun b => .urlEncodedValue [b]
  | e => [e]

/-- Split the data of all callbacks of a history into single bytes. -/
def flat (l : List Ev) : List Ev := l.flatMap flatEv

/-- Callbacks that carry data. -/
def isData : Ev → Bool
  | .method _ | .url _ | .status _ | .headerName _ | .headerValue _ | .chunkData _
  | .chunkExtensionName _ | .chunkExtensionValue _ | .multipartData _ | .urlEncodedName _
  | .urlEncodedValue _ => true
  | _ => false

end Verif.Http1
