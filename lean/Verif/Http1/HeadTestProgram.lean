import Verif.Http1.MultipartProgram

/-!
# The test program that reads a head

tests/http1_head.rs: one call of `resume` with the whole input, whose result is not looked at. What the handler has
stored is a function of the callbacks that were executed. The strings are built with `as_mut_vec`, that is, without
looking at the bytes.
-/

namespace Verif.Http1.HeadTest

open Form (Collect)

/-- `Handler`, tests/http1_head.rs lines 11-20. `headers`, `name_buf`, `state` and `value_buf`, and the callbacks about
header fields (lines 36-82), are those of the multipart program. -/
structure State where
  fields : Collect
  method : Bytes
  url : Bytes
  versionMajor : Nat
  versionMinor : Nat
deriving DecidableEq, Repr

/-- `Handler::new`, tests/http1_head.rs lines 23-34. -/
def State.new : State := ⟨.new, [], [], 0, 0⟩

/-- What the callbacks store, tests/http1_head.rs lines 59-101. -/
def State.on (s : State) : Ev → State
  | .method d => { s with method := s.method ++ d }
  | .url d => { s with url := s.url ++ d }
  | .version a b => { s with versionMajor := a, versionMinor := b }
  | e => { s with fields := s.fields.on e }

/-- What the handler has stored after these callbacks. -/
def State.onAll (s : State) (l : List Ev) : State := l.foldl State.on s

/-- `head`, tests/http1_head.rs lines 104-113, on any input `d`: what the handler has stored when `resume` is back; `none`
is a panic (or worse). All callbacks return true. -/
def program (d : Bytes) : Option State :=
  match resume goOn ⟨.new, []⟩ d with
  | (.ok _, w) | (.err _, w) => some (State.new.onAll w.log)
  | _ => none

end Verif.Http1.HeadTest
