import Verif.Http1.MultipartProgram
import Verif.Http1.UrlSpec

/-!
# The program that reads a URL-encoded form

tests/http1_url_encoded.rs: read a head, then read the rest, except for its last two bytes, as a URL-encoded body.
-/

namespace Verif.Http1.UrlForm

open Doc (Map)
open Doc.Map (insert)

/-- The states that `UrlEncodedHandler` distinguishes. -/
inductive UState where
  | none | name | value
deriving DecidableEq, Repr

/-- `UrlEncodedHandler`, tests/http1_url_encoded.rs lines 17-22. -/
structure State where
  nameBuf : Bytes
  parameters : Map
  state : UState
  valueBuf : Bytes
deriving DecidableEq, Repr

/-- `UrlEncodedHandler::new`, tests/http1_url_encoded.rs lines 25-32. -/
def State.new : State := ⟨[], [], .none, []⟩

/-- `UrlEncodedHandler::flush_parameter`, tests/http1_url_encoded.rs lines 34-54. -/
def State.flush (s : State) : State :=
  { s with
    parameters := if s.nameBuf.length > 0 ∧ s.valueBuf.length > 0 then insert s.parameters s.nameBuf s.valueBuf else s.parameters
    nameBuf := [], valueBuf := [] }

/-- What the callbacks of `UrlEncodedHandler` store, tests/http1_url_encoded.rs lines 57-81. All of them return true. -/
def State.on (s : State) : Ev → State
  | .bodyFinished => s.flush
  | .urlEncodedName d =>
    let s := if s.state = .value then s.flush else s
    { s with nameBuf := s.nameBuf ++ d, state := .name }
  | .urlEncodedValue d => { s with valueBuf := s.valueBuf ++ d, state := .value }
  | _ => s

/-- What `UrlEncodedHandler` has stored after these callbacks. -/
def State.onAll (s : State) (l : List Ev) : State := l.foldl State.on s

/-- `url_encoded`, tests/http1_url_encoded.rs lines 84-115, on a request `d`: the parameters; `none` is a panic (a failed
`match`, or the subtraction `s.len() - 2`). -/
def program (d : Bytes) : Option Map :=
  match resume goOn ⟨.new, []⟩ d with
  | (.ok (.finished k), _) =>
    if (d.drop k).length < 2 then none
    else
      match resume goOn ⟨(Parser.new.init .urlEncoded).setLength ((d.drop k).length - 2), []⟩ (d.drop k) with
      | (.ok (.finished _), w) => some (State.new.onAll w.log).parameters
      | _ => none
  | _ => none

end Verif.Http1.UrlForm

namespace Verif.Http1

/-- Specification: the fields of a URL-encoded body. -/
def UrlBody.pairs (x : UrlBody) : List Pair := x.first :: x.more.map Prod.snd

/-- Specification: the value that the last field with this name gives. -/
def lastValue (ps : List Pair) (n : Bytes) : Option Bytes :=
  (ps.reverse.find? fun p => p.nameMeaning = n).bind fun p => p.value.map Prod.snd

end Verif.Http1
