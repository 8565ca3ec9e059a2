import Verif.Http1.Model

/-!
# Specification: the order of the callbacks of bodies

Not part of the code. Which callback may follow which, as documented in src/http1/http_handler.rs lines 29-275: for
chunked, multipart and URL-encoded bodies. Data callbacks may be repeated. Used by C92.
-/

namespace Verif.Http1

/-! ## Chunked bodies -/

/-- `chunk`: a chunk is due. `begun`: after `on_chunk_begin`. `last`, `sized`: after `on_chunk_length` with zero or
another number. `extName`, `extValue`, `extEnd`: in or after an extension. `data`: the chunk data. `name`, `value`:
trailers. `closing`: after `on_headers_finished`. `done`: after `on_body_finished`. -/
inductive ChunkPhase
  | chunk | begun | last | sized | extName | extValue | extEnd | data | name | value | closing | done
deriving DecidableEq, Repr

/-- Which callback may follow in which phase. -/
def ChunkPhase.next : ChunkPhase → Ev → Option ChunkPhase
  | .chunk, .chunkBegin => some .begun
  | .begun, .chunkLength n => some (if n = 0 then .last else .sized)
  | .last, .chunkExtensionName _ | .sized, .chunkExtensionName _ | .extEnd, .chunkExtensionName _
  | .extName, .chunkExtensionName _ => some .extName
  | .last, .chunkExtensionValue _ | .sized, .chunkExtensionValue _ | .extEnd, .chunkExtensionValue _
  | .extName, .chunkExtensionValue _ | .extValue, .chunkExtensionValue _ => some .extValue
  | .last, .chunkExtensionFinished | .sized, .chunkExtensionFinished | .extEnd, .chunkExtensionFinished
  | .extName, .chunkExtensionFinished | .extValue, .chunkExtensionFinished => some .extEnd
  | .sized, .chunkExtensionsFinished | .extEnd, .chunkExtensionsFinished => some .data
  | .data, .chunkData _ => some .data
  | .data, .chunkBegin => some .begun
  | .last, .headerName _ | .name, .headerName _ | .value, .headerName _ => some .name
  | .last, .headerValue _ | .name, .headerValue _ | .value, .headerValue _ => some .value
  | .last, .headersFinished | .value, .headersFinished => some .closing
  | .closing, .bodyFinished => some .done
  | _, _ => none

/-- The phase after a history, `none` when some callback came out of order. -/
def chunkPhase (l : List Ev) : Option ChunkPhase := l.foldlM ChunkPhase.next .chunk

/-! ## Multipart bodies -/

/-- `start`: nothing yet. `part`: after `on_multipart_begin`. `name`, `value`: headers of a part. `data`: its data,
after `on_headers_finished`. `done`: after `on_body_finished`. -/
inductive PartPhase
  | start | part | name | value | data | done
deriving DecidableEq, Repr

@[inherit_doc ChunkPhase.next]
def PartPhase.next : PartPhase → Ev → Option PartPhase
  | .start, .multipartBegin | .data, .multipartBegin => some .part
  | .part, .headerName _ | .name, .headerName _ | .value, .headerName _ => some .name
  | .part, .headerValue _ | .name, .headerValue _ | .value, .headerValue _ => some .value
  | .part, .headersFinished | .value, .headersFinished => some .data
  | .data, .multipartData _ => some .data
  | .start, .bodyFinished | .data, .bodyFinished => some .done
  | _, _ => none

@[inherit_doc chunkPhase]
def partPhase (l : List Ev) : Option PartPhase := l.foldlM PartPhase.next .start

/-! ## URL-encoded bodies -/

/-- `start`: nothing yet. `begun`: after `on_url_encoded_begin`. `name`, `value`: in a name or in a value. `done`: after
`on_body_finished`. -/
inductive FormPhase
  | start | begun | name | value | done
deriving DecidableEq, Repr

@[inherit_doc ChunkPhase.next]
def FormPhase.next : FormPhase → Ev → Option FormPhase
  | .start, .urlEncodedBegin | .begun, .urlEncodedBegin | .name, .urlEncodedBegin | .value, .urlEncodedBegin =>
    some .begun
  | .begun, .urlEncodedName _ | .name, .urlEncodedName _ => some .name
  | .begun, .urlEncodedValue _ | .name, .urlEncodedValue _ | .value, .urlEncodedValue _ => some .value
  | .start, .bodyFinished | .begun, .bodyFinished | .name, .bodyFinished | .value, .bodyFinished => some .done
  | _, _ => none

@[inherit_doc chunkPhase]
def formPhase (l : List Ev) : Option FormPhase := l.foldlM FormPhase.next .start

end Verif.Http1
