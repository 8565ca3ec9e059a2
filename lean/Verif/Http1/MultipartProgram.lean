import Verif.Http1.HeadProgram
import Verif.Http1.PauseSpec
import Verif.Props.Http1Calls
import Verif.Util.Field

/-!
# The program that reads a multipart form

tests/http1_multipart.rs: read a head, find the boundary in its content type, read the body part by part. The test makes
four calls of `resume` for the four parts of its file; here this is a loop. What the handlers have stored is a function of
the callbacks that were executed. The strings are built with `as_mut_vec`, that is, without looking at the bytes.
-/

namespace Verif.Http1.Form

open Doc (Map HState)
open Doc.Map (insert get)

/-- `HeadHandler`, tests/http1_multipart.rs lines 14-19, and the same fields of `MultipartHandler`, lines 83-86. -/
structure Collect where
  headers : Map
  nameBuf : Bytes
  state : HState
  valueBuf : Bytes
deriving DecidableEq, Repr

/-- `HeadHandler::new`, tests/http1_multipart.rs lines 22-29. -/
def Collect.new : Collect := ⟨[], [], .none, []⟩

/-- `flush_header`, tests/http1_multipart.rs lines 31-51 and 106-126. -/
def Collect.flush (s : Collect) : Collect :=
  { s with
    headers := if s.nameBuf.length > 0 ∧ s.valueBuf.length > 0 then insert s.headers s.nameBuf s.valueBuf else s.headers
    nameBuf := [], valueBuf := [] }

/-- The callbacks about header fields, tests/http1_multipart.rs lines 55-77 and 130-152. -/
def Collect.on (s : Collect) : Ev → Collect
  | .headerName d =>
    let s := if s.state = .headerValue then s.flush else s
    { s with nameBuf := s.nameBuf ++ d, state := .headerName }
  | .headerValue d => { s with valueBuf := s.valueBuf ++ d, state := .headerValue }
  | .headersFinished => s.flush
  | _ => s

/-- What `HeadHandler` has stored after these callbacks. -/
def Collect.onAll (s : Collect) (l : List Ev) : Collect := l.foldl Collect.on s

/-- `MultipartHandler`, tests/http1_multipart.rs lines 80-87. -/
structure Parts where
  count : Nat
  data : Bytes
  fields : Collect
deriving DecidableEq, Repr

/-- `MultipartHandler::new`, tests/http1_multipart.rs lines 90-99. -/
def Parts.new : Parts := ⟨0, [], .new⟩

/-- `MultipartHandler::clear`, tests/http1_multipart.rs lines 101-104. -/
def Parts.clear (s : Parts) : Parts := { s with data := [], fields := { s.fields with headers := [] } }

/-- What the callbacks of `MultipartHandler` store, tests/http1_multipart.rs lines 129-172. -/
def Parts.on (s : Parts) : Ev → Parts
  | .multipartBegin => { s with count := s.count + 1 }
  | .multipartData d => { s with data := s.data ++ d }
  | e => { s with fields := s.fields.on e }

/-- What `MultipartHandler` has stored after these callbacks. -/
def Parts.onAll (s : Parts) (l : List Ev) : Parts := l.foldl Parts.on s

/-- What the callbacks of `MultipartHandler` return: true, but `on_multipart_begin` (tests/http1_multipart.rs lines
154-165) returns false from the second time on. `clear` does not change the count. `content_length` is not defined, that
is, it returns `None`. -/
def handler : Handler :=
  ⟨fun l => if l.getLast? = some .multipartBegin then ¬ (Parts.new.onAll l).count > 1 else true, fun _ => none⟩

/-- The items that a `for` loop over a field iterator sees, in at most `n` steps; `none` is a panic. -/
def items : Nat → Util.FieldIter → Option (List Util.Item)
  | 0, _ => none
  | n + 1, it =>
    match it.next with
    | .item i it' => (items n it').map (i :: ·)
    | .none _ => some []
    | .panic | .diverge => none

/-- The `for` loop at tests/http1_multipart.rs lines 196-204: the value of the last item named `boundary`. -/
def boundary (l : List Util.Item) : Option Bytes :=
  l.foldl (fun b i => if i.1 = b!"boundary" then i.2 else b) none

/-- The calls of `resume` at tests/http1_multipart.rs lines 213-307, as a loop of at most `n` calls: what the handler has
stored for each part. Another result than `Callback` and `Finished` is a panic, `none`. -/
def entries : Nat → World → Bytes → Parts → Option (List (Map × Bytes))
  | 0, _, _, _ => none
  | n + 1, w, s, st =>
    match resume handler w s with
    | (.ok (.callback k), w') =>
      let st := st.onAll (w'.log.drop w.log.length)
      (entries n w' (s.drop k) st.clear).map ((st.fields.headers, st.data) :: ·)
    | (.ok (.finished _), w') =>
      let st := st.onAll (w'.log.drop w.log.length)
      some [(st.fields.headers, st.data)]
    | _ => none

/-- `multipart`, tests/http1_multipart.rs lines 175-307, on a request `d`: the header fields and the data of each part;
`none` is a panic (a failed `match`, or `unwrap`). -/
def program (d : Bytes) : Option (List (Map × Bytes)) :=
  match resume goOn ⟨.new, []⟩ d with
  | (.ok (.finished k), w) =>
    match get (Collect.new.onAll w.log).headers b!"content-type" with
    | some ct =>
      match (items (ct.length + 1) (Util.FieldIter.new ct (c! ';') true)).bind boundary with
      | some b => entries (d.length + 1) ⟨(Parser.new.init .multipart).setBoundary b, []⟩ (d.drop k) .new
      | none => none
    | none => none
  | _ => none

end Verif.Http1.Form
