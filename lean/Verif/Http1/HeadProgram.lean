import Verif.Http1.Client
import Verif.Util.DecodeSpec

/-!
# The documented program that reads a head

examples/http1_head_parsing.md lines 53-257: a handler that collects the method, the URL, the status, the version and
the header fields of a head. Its callbacks always return true (so that what is executed does not depend on what it has
stored) and change nothing but the fields below; what it has stored after a run is a function of the callbacks executed.
-/

namespace Verif.Util

/-- Whether bytes are UTF-8, as a computation: what `String::from_utf8` checks. -/
instance (s : Bytes) : Decidable (UTF8 s) :=
  decidable_of_iff (s.toByteArray.validateUTF8 = true) <| by
    rw [ByteArray.validateUTF8_eq_true_iff]
    constructor
    · rintro ⟨m, h⟩
      exact ⟨m, List.toByteArray_inj.1 h⟩
    · rintro ⟨m, h⟩
      exact ⟨m, by rw [List.utf8Encode, h]⟩

end Verif.Util

namespace Verif.Http1.Doc

/-- `HashMap<String,String>`: each key at most once. -/
abbrev Map := List (Bytes × Bytes)

/-- `HashMap::insert`. -/
def Map.insert (m : Map) (k v : Bytes) : Map := (k, v) :: m.filter fun e => e.1 ≠ k

/-- `HashMap::get`. -/
def Map.get (m : Map) (k : Bytes) : Option Bytes := m.lookup k

/-- The states of the parser that the handler stores, examples/http1_head_parsing.md line 108, 149 and 158. -/
inductive HState | none | headerName | headerValue
deriving DecidableEq, Repr

/-- `Handler`, examples/http1_head_parsing.md lines 60-96. -/
structure Handler where
  headerName : Bytes
  headerValue : Bytes
  headers : Map
  headersFinished : Bool
  initialFinished : Bool
  method : Bytes
  state : HState
  status : Bytes
  statusCode : Nat
  url : Bytes
  versionMajor : Nat
  versionMinor : Nat
deriving DecidableEq, Repr

/-- `Handler::new`, examples/http1_head_parsing.md lines 100-115. -/
def Handler.new : Handler := ⟨[], [], [], false, false, [], .none, [], 0, [], 0, 0⟩

/-- `Handler::flush_header`, examples/http1_head_parsing.md lines 117-127. The result `none` is the panic of `unwrap`. -/
def Handler.flush (s : Handler) : Option Handler :=
  if s.headerName.length > 0 ∧ s.headerValue.length > 0 then
    if Util.UTF8 s.headerName ∧ Util.UTF8 s.headerValue then
      some { s with headers := s.headers.insert s.headerName s.headerValue, headerName := [], headerValue := [] }
    else none
  else some { s with headerName := [], headerValue := [] }

/-- The callbacks, examples/http1_head_parsing.md lines 143-206; those that the example does not define do nothing
(src/http1/http_handler.rs). -/
def Handler.on (s : Handler) : Ev → Option Handler
  | .headerName d =>
    if s.state = .headerValue then
      match s.flush with
      | some t => some { t with state := .headerName, headerName := t.headerName ++ d }
      | none => none
    else some { s with headerName := s.headerName ++ d }
  | .headerValue d => some { s with state := .headerValue, headerValue := s.headerValue ++ d }
  | .headersFinished => Handler.flush { s with headersFinished := true }
  | .initialFinished => some { s with initialFinished := true }
  | .method d => some { s with method := s.method ++ d }
  | .status d => some { s with status := s.status ++ d }
  | .statusCode n => some { s with statusCode := n }
  | .url d => some { s with url := s.url ++ d }
  | .version a b => some { s with versionMajor := a, versionMinor := b }
  | _ => some s

/-- What the handler has stored after these callbacks; `none` is a panic in one of them. -/
def Handler.onAll (s : Handler) : List Ev → Option Handler
  | [] => some s
  | e :: l =>
    match s.on e with
    | some t => t.onAll l
    | none => none

/-- `Handler::is_request`, examples/http1_head_parsing.md lines 129-131. -/
def Handler.isRequest (s : Handler) : Bool := s.method.length > 0

end Verif.Http1.Doc
