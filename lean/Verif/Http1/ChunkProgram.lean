import Verif.Http1.MultipartProgram

/-!
# The program that reads a chunk-encoded body

tests/http1_chunk_encoded.rs: read a head, then read the body chunk by chunk. The test makes three calls of `resume` for
the three chunks of its file; here this is a loop.
-/

namespace Verif.Http1.Chunks

open Form (Collect)

/-- `ChunkEncodedHandler`, tests/http1_chunk_encoded.rs lines 18-27. `name_buf`, `state`, `trailers` and `value_buf`, and the
callbacks about header fields (lines 38-58 and 107-129), are those of the multipart handler. -/
structure State where
  count : Nat
  data : Bytes
  extensions : Bytes
  length : Nat
  fields : Collect
deriving DecidableEq, Repr

/-- The handler that the test starts with, tests/http1_chunk_encoded.rs lines 162-171. -/
def State.new : State := ⟨0, [], [], 0, .new⟩

/-- `ChunkEncodedHandler::clear`, tests/http1_chunk_encoded.rs lines 30-36. -/
def State.clear (s : State) : State :=
  { s with length := 0, data := [], extensions := [], fields := { s.fields with headers := [] } }

/-- What the callbacks of `ChunkEncodedHandler` store, tests/http1_chunk_encoded.rs lines 61-130. -/
def State.on (s : State) : Ev → State
  | .chunkBegin => { s with count := s.count + 1 }
  | .chunkData d => { s with data := s.data ++ d }
  | .chunkExtensionName d | .chunkExtensionValue d => { s with extensions := s.extensions ++ d }
  | .chunkLength n => { s with length := n }
  | e => { s with fields := s.fields.on e }

/-- What `ChunkEncodedHandler` has stored after these callbacks. -/
def State.onAll (s : State) (l : List Ev) : State := l.foldl State.on s

/-- What the callbacks of `ChunkEncodedHandler` return: true, but `on_chunk_begin` (tests/http1_chunk_encoded.rs lines
62-73) returns false from the second time on. -/
def handler : Handler :=
  ⟨fun l => if l.getLast? = some .chunkBegin then ¬ (State.new.onAll l).count > 1 else true, fun _ => none⟩

/-- The calls of `resume` at tests/http1_chunk_encoded.rs lines 173-238, as a loop of at most `n` calls: what the handler has
stored after each call. Another result than `Callback` and `Finished` is a panic, `none`. -/
def entries : Nat → World → Bytes → State → Option (List State)
  | 0, _, _, _ => none
  | n + 1, w, s, st =>
    match resume handler w s with
    | (.ok (.callback k), w') =>
      let st := st.onAll (w'.log.drop w.log.length)
      (entries n w' (s.drop k) st.clear).map (st :: ·)
    | (.ok (.finished _), w') => some [st.onAll (w'.log.drop w.log.length)]
    | _ => none

/-- `chunk_encoded_body`, tests/http1_chunk_encoded.rs lines 133-238, on a request `d`: what the handler has stored after
each call; `none` is a panic. -/
def program (d : Bytes) : Option (List State) :=
  match resume goOn ⟨.new, []⟩ d with
  | (.ok (.finished k), _) => entries (d.length + 1) ⟨Parser.new.init .chunked, []⟩ (d.drop k) .new
  | _ => none

end Verif.Http1.Chunks
