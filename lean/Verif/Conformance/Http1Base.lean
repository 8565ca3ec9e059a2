import Verif.Http1.Model

/-!
# Running the tests of the HTTP/1 parser on the model

The helpers of /repo/src/http1/test/mod.rs and /repo/src/test.rs.
-/

namespace Verif.Conformance.Http1

open Verif.Http1

/-- The kinds of callbacks. -/
inductive Kind
  | bodyFinished | chunkBegin | chunkData | chunkExtensionFinished | chunkExtensionName | chunkExtensionValue
  | chunkExtensionsFinished | chunkLength | headerName | headerValue | headersFinished | initialFinished | method
  | multipartBegin | multipartData | status | statusCode | url | urlEncodedBegin | urlEncodedName | urlEncodedValue
  | version
deriving DecidableEq

/-- The kind of a callback, without its data: tells which of the `on_*` functions of src/http1/http_handler.rs is called. -/
def kind : Ev → Kind
  | .bodyFinished => .bodyFinished | .chunkBegin => .chunkBegin | .chunkData _ => .chunkData
  | .chunkExtensionFinished => .chunkExtensionFinished | .chunkExtensionName _ => .chunkExtensionName
  | .chunkExtensionValue _ => .chunkExtensionValue | .chunkExtensionsFinished => .chunkExtensionsFinished
  | .chunkLength _ => .chunkLength | .headerName _ => .headerName | .headerValue _ => .headerValue
  | .headersFinished => .headersFinished | .initialFinished => .initialFinished | .method _ => .method
  | .multipartBegin => .multipartBegin | .multipartData _ => .multipartData | .status _ => .status
  | .statusCode _ => .statusCode | .url _ => .url | .urlEncodedBegin => .urlEncodedBegin
  | .urlEncodedName _ => .urlEncodedName | .urlEncodedValue _ => .urlEncodedValue | .version _ _ => .version

/-- `DebugHandler`, src/http1/test/mod.rs lines 115-376. What it has stored is computed from the history. -/
def debug : Handler := ⟨fun _ => true, fun _ => none⟩

/-- A handler some of whose callbacks return `false`. -/
def refuse (l : List Kind) : Handler :=
  ⟨fun log => match log.getLast? with | some e => !l.contains (kind e) | none => true, fun _ => none⟩

/-- The bytes of the callbacks of a kind. -/
def bytesOf (k : Kind) (log : List Ev) : Bytes :=
  log.flatMap fun e => if kind e = k then
    match e with
    | .chunkData d | .chunkExtensionName d | .chunkExtensionValue d | .headerName d | .headerValue d | .method d
    | .multipartData d | .status d | .url d | .urlEncodedName d | .urlEncodedValue d => d
    | _ => []
    else []

/-- The numbers that `DebugHandler` stores. -/
inductive Num | chunkLength | statusCode | major | minor

/-- The number that was stored last, or 0. -/
def numOf (k : Num) (log : List Ev) : Nat :=
  (log.filterMap fun e =>
    match k, e with
    | .chunkLength, .chunkLength n => some n
    | .statusCode, .statusCode n => some n
    | .major, .version n _ => some n
    | .minor, .version _ n => some n
    | _, _ => none).getLast?.getD 0

/-- A step of a test. -/
inductive Act
  | init (t : PType) | setLength (n : Nat) | setBoundary (b : Bytes)
  /-- `assert_callback`, src/http1/test/mod.rs lines 28-42 -/
  | callback (s : Bytes) (st : St) (n : Nat)
  /-- `assert_eos`, src/http1/test/mod.rs lines 44-58 -/
  | eos (s : Bytes) (st : St) (n : Nat)
  /-- `assert_error`, src/http1/test/mod.rs lines 60-73 -/
  | error (s : Bytes) (e : PErr)
  /-- `assert_finished`, src/http1/test/mod.rs lines 96-110 -/
  | finished (s : Bytes) (n : Nat)
  /-- `iter_assert_eos`, src/http1/test/mod.rs lines 75-95 (which does not check the states) -/
  | each (l : Bytes)
  /-- `assert_eq!` of stored bytes, of one of them, or of their number -/
  | data (k : Kind) (d : Bytes) | at (k : Kind) (i : Nat) (b : UInt8) | size (k : Kind) (n : Nat)
  /-- `assert_eq!` of a stored number -/
  | num (k : Num) (n : Nat)

/-- Does every step go as the test expects? -/
def run (h : Handler) : World → List Act → Bool
  | _, [] => true
  | w, a :: as =>
    match a with
    | .init t => run h { w with p := w.p.init t } as
    | .setLength n => run h { w with p := w.p.setLength n } as
    | .setBoundary b => run h { w with p := w.p.setBoundary b } as
    | .callback s st n =>
      match resume h w s with
      | (.ok (.callback m), w') => m == n && w'.p.state == st && run h w' as
      | _ => false
    | .eos s st n =>
      match resume h w s with
      | (.ok (.eos m), w') => m == n && w'.p.state == st && run h w' as
      | _ => false
    | .error s e =>
      match resume h w s with
      | (.err e', w') => e' == e && w'.p.state == .dead && run h w' as
      | _ => false
    | .finished s n =>
      match resume h w s with
      | (.ok (.finished m), w') => m == n && w'.p.state == .finished && run h w' as
      | _ => false
    | .each l =>
      let r := l.foldl (fun (o : Option World) b => o.bind fun w =>
        match resume h w [b] with
        | (.ok (.eos 1), w') => some w'
        | _ => none) (some w)
      match r with
      | some w' => run h w' as
      | none => false
    | .data k d => bytesOf k w.log == d && run h w as
    | .at k i b => (bytesOf k w.log)[i]? == some b && run h w as
    | .size k n => (bytesOf k w.log).length == n && run h w as
    | .num k n => numOf k w.log == n && run h w as

/-- A test, from a new parser. -/
def check (h : Handler) (l : List Act) : Bool := run h ⟨.new, []⟩ l

/-- The bytes from `a` below `b`. -/
def range (a b : Nat) : Bytes := ((List.range b).drop a).map UInt8.ofNat

/-- `is_token` of src/byte.rs for the bytes below 255, on which it does not panic. -/
def tIsToken (b : UInt8) : Bool := isToken b == some true
/-- `is_header_field` of src/byte.rs, likewise. -/
def tIsHeaderField (b : UInt8) : Bool := isHeaderField b == some true
/-- `is_quoted_header_field` of src/byte.rs, likewise. -/
def tIsQuotedHeaderField (b : UInt8) : Bool := isQuotedHeaderField b == some true

/-- `is_alpha!`, a macro of the crate `byte-slice` (as its name says). -/
def isAlpha (b : UInt8) : Bool := (65 ≤ b && b ≤ 90) || (97 ≤ b && b ≤ 122)

/-! src/test.rs lines 19-67 -/

/-- `alpha_lower_vec`. src/test.rs 19-21. -/
def vec_alpha_lower : Bytes := range 0x61 0x7B
/-- `alpha_upper_vec`. src/test.rs 23-25. -/
def vec_alpha_upper : Bytes := range 0x41 0x5B
/-- `control_vec`. src/test.rs 27-29. -/
def vec_control : Bytes := (range 0 128).filter fun x => decide (x < 0x20) || x == 0x7F
/-- `digit_vec`. src/test.rs 31-33. -/
def vec_digit : Bytes := range 0x30 0x3A
/-- `header_field_vec`. src/test.rs 35-37. -/
def vec_header_field : Bytes := (range 0 128).filter tIsHeaderField
/-- `non_control_vec`. src/test.rs 39-41. -/
def vec_non_control : Bytes := (range 0 255).filter fun x => decide (x > 0x1F) && x != 0x7F
/-- `non_digit_vec`. src/test.rs 43-45. -/
def vec_non_digit : Bytes := (range 0 255).filter fun x => !isDigit x
/-- `non_token_vec`. src/test.rs 47-50. -/
def vec_non_token : Bytes := (range 0 255).filter fun x => !tIsToken x
/-- `non_visible_7bit_vec`. src/test.rs 52-54. -/
def vec_non_visible_7bit : Bytes := (range 0 255).filter fun x => !isVisible7bit x
/-- `quoted_header_field_vec`. src/test.rs 56-58. -/
def vec_quoted_header_field : Bytes := (range 0 255).filter tIsQuotedHeaderField
/-- `token_vec`. src/test.rs 60-63. -/
def vec_token : Bytes := (range 0 128).filter tIsToken
/-- `visible_7bit_vec`. src/test.rs 65-67. -/
def vec_visible_7bit : Bytes := (range 0 128).filter isVisible7bit

end Verif.Conformance.Http1
