import Verif.Http1.HeadSpec
import Verif.Util.HexSpec

/-!
# Specification of well-formed messages

How a peer writes requests, responses and bodies, and which callbacks they stand for. Written without
reference to the parser; the round-trip theorems use it. Restrictions that come from the parser and not
from HTTP are marked.
-/

namespace Verif.Http1

/-! ## Header fields -/

/-- The inside of a quoted string. Restriction of the parser: no byte 255, and an escaped byte must be
in the range 0x20 to 0x7A. -/
inductive QuotedText : Bytes → Prop
  | nil : QuotedText []
  | byte {b q} : QuotedByte b → b ≠ 255 → QuotedText q → QuotedText (b :: q)
  | esc {b q} : 0x20 ≤ b → b ≤ 0x7A → QuotedText q → QuotedText (c! '\\' :: b :: q)

/-- A piece of a field value: field bytes (restriction of the parser: not 255) and quoted strings. -/
inductive FieldText : Bytes → Prop
  | nil : FieldText []
  | byte {b v} : FieldByte b → b ≠ 255 → FieldText v → FieldText (b :: v)
  | quoted {q v} : QuotedText q → FieldText v → FieldText (c! '"' :: q ++ c! '"' :: v)

/-- A header field as it is written: name, blanks after the colon, value, and folded lines (each a
blank and more of the value). -/
structure Header where
  name : Bytes
  blanks : Bytes
  value : Bytes
  folds : List (UInt8 × Bytes)
deriving DecidableEq, Repr

/-- Well-formed header fields. Restriction of the parser: the value is not empty and starts with a
visible 7-bit byte. -/
structure Header.OK (x : Header) : Prop where
  name : x.name ≠ [] ∧ ∀ b ∈ x.name, TokenByte b
  blanks : ∀ b ∈ x.blanks, Blank b
  value : FieldText x.value
  first : ∃ b v, x.value = b :: v ∧ VisibleByte b
  folds : ∀ f ∈ x.folds, Blank f.1 ∧ FieldText f.2

/-- The bytes of a header field. -/
def Header.write (x : Header) : Bytes :=
  x.name ++ b!":" ++ x.blanks ++ x.value ++ b!"\r\n" ++
    x.folds.flatMap fun f => f.1 :: f.2 ++ b!"\r\n"

/-- What it means. -/
def Header.events (x : Header) : List Ev :=
  [.headerName (Verif.lower x.name), .headerValue (x.value ++ x.folds.flatMap Prod.snd)]

/-! ## Heads -/

/-- A request head; the version is given by its digits. -/
structure Request where
  method : Bytes
  url : Bytes
  major : Bytes
  minor : Bytes
  headers : List Header
deriving DecidableEq, Repr

/-- Well-formed request heads. -/
structure Request.OK (x : Request) : Prop where
  method : x.method ≠ [] ∧ ∀ b ∈ x.method, UpperByte b
  url : x.url ≠ [] ∧ ∀ b ∈ x.url, VisibleByte b
  major : ∃ n, Digits x.major n
  minor : ∃ n, Digits x.minor n
  headers : ∀ y ∈ x.headers, y.OK

/-- The bytes of a request head. -/
def Request.write (x : Request) : Bytes :=
  x.method ++ b!" " ++ x.url ++ b!" HTTP/" ++ x.major ++ b!"." ++ x.minor ++ b!"\r\n" ++
    x.headers.flatMap Header.write ++ b!"\r\n"

/-- What it means. -/
def Request.events (x : Request) : List Ev :=
  [.method x.method, .url x.url, .version (decVal x.major) (decVal x.minor), .initialFinished] ++
    x.headers.flatMap Header.events ++ [.headersFinished]

/-- A response head; the version and the status code are given by their digits. -/
structure Response where
  major : Bytes
  minor : Bytes
  code : Bytes
  reason : Bytes
  headers : List Header
deriving DecidableEq, Repr

/-- Well-formed response heads. Restriction of the parser: the reason is not empty. -/
structure Response.OK (x : Response) : Prop where
  major : ∃ n, Digits x.major n
  minor : ∃ n, Digits x.minor n
  code : x.code.length = 3 ∧ ∃ n, Digits x.code n
  reason : x.reason ≠ [] ∧ ∀ b ∈ x.reason, NonControlByte b
  headers : ∀ y ∈ x.headers, y.OK

/-- The bytes of a response head. -/
def Response.write (x : Response) : Bytes :=
  b!"HTTP/" ++ x.major ++ b!"." ++ x.minor ++ b!" " ++ x.code ++ b!" " ++ x.reason ++ b!"\r\n" ++
    x.headers.flatMap Header.write ++ b!"\r\n"

/-- What it means. -/
def Response.events (x : Response) : List Ev :=
  [.version (decVal x.major) (decVal x.minor), .statusCode (decVal x.code), .status x.reason,
    .initialFinished] ++ x.headers.flatMap Header.events ++ [.headersFinished]

end Verif.Http1
