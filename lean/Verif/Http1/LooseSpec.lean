import Verif.Http1.ChunkSpec

/-!
# Specification of what is accepted

The parser accepts somewhat more than well-formed messages. This file says what, without reference to
the parser: every line that is not a folded one starts with a name, which may be empty; folded lines
may come before the first header field; chunk extensions may lack their names and values.
-/

namespace Verif.Http1

/-! ## Header lines -/

/-- A line of a header block: a field (name, blanks after the colon, first line of the value), or more
of the value on a line that starts with a blank. -/
inductive Line
  | field (name blanks value : Bytes)
  | fold (blank : UInt8) (value : Bytes)
deriving DecidableEq, Repr

/-- Lines that are accepted. -/
def Line.OK : Line → Prop
  | .field n bl v => (∀ b ∈ n, TokenByte b) ∧ (∀ b ∈ bl, Blank b) ∧ FieldText v ∧
      ∃ b w, v = b :: w ∧ VisibleByte b
  | .fold b v => Blank b ∧ FieldText v

/-- The bytes of a line. -/
def Line.write : Line → Bytes
  | .field n bl v => n ++ b!":" ++ bl ++ v ++ b!"\r\n"
  | .fold b v => b :: v ++ b!"\r\n"

/-- What it means. -/
def Line.events : Line → List Ev
  | .field n _ v => [.headerName (Verif.lower n), .headerValue v]
  | .fold _ v => [.headerValue v]

/-! ## Heads -/

/-- The first line of a head: of a request (method, URL, version) or of a response (version, status
code, reason). Numbers are given by their digits. -/
inductive StartLine
  | request (method url major minor : Bytes)
  | response (major minor code reason : Bytes)
deriving DecidableEq, Repr

/-- Start lines that are accepted. -/
def StartLine.OK : StartLine → Prop
  | .request m u ma mi => (m ≠ [] ∧ ∀ b ∈ m, UpperByte b) ∧ (u ≠ [] ∧ ∀ b ∈ u, VisibleByte b) ∧
      (∃ n, Digits ma n) ∧ ∃ n, Digits mi n
  | .response ma mi c re => (∃ n, Digits ma n) ∧ (∃ n, Digits mi n) ∧ (c.length = 3 ∧ ∃ n, Digits c n) ∧
      (re ≠ [] ∧ ∀ b ∈ re, NonControlByte b)

/-- The bytes of a start line. -/
def StartLine.write : StartLine → Bytes
  | .request m u ma mi => m ++ b!" " ++ u ++ b!" HTTP/" ++ ma ++ b!"." ++ mi ++ b!"\r\n"
  | .response ma mi c re => b!"HTTP/" ++ ma ++ b!"." ++ mi ++ b!" " ++ c ++ b!" " ++ re ++ b!"\r\n"

/-- What it means. -/
def StartLine.events : StartLine → List Ev
  | .request m u ma mi => [.method m, .url u, .version (decVal ma) (decVal mi), .initialFinished]
  | .response ma mi c re => [.version (decVal ma) (decVal mi), .statusCode (decVal c), .status re, .initialFinished]

/-- A head: the start line and the lines of the header block. -/
structure Head where
  start : StartLine
  lines : List Line
deriving DecidableEq, Repr

/-- Heads that are accepted. -/
structure Head.OK (x : Head) : Prop where
  start : x.start.OK
  lines : ∀ y ∈ x.lines, y.OK

/-- The bytes of a head. -/
def Head.write (x : Head) : Bytes := x.start.write ++ x.lines.flatMap Line.write ++ b!"\r\n"

/-- What it means. -/
def Head.events (x : Head) : List Ev := x.start.events ++ x.lines.flatMap Line.events ++ [.headersFinished]

/-! ## Chunked bodies -/

/-- Extensions that are accepted. Name and value may be empty, but not directly before the end of the
line (`last`). -/
structure Extension.Loose (last : Bool) (x : Extension) : Prop where
  blanks : ∀ b ∈ x.blanks, Blank b
  name : ∀ b ∈ x.name, TokenByte b
  none : x.value = none → last = true → x.name ≠ []
  value : ∀ v, x.value = some v → (∀ b ∈ v.blanks, Blank b) ∧ ExtText v.text v.meaning ∧
    ((v.text = [] ∧ last = false) ∨ ∃ b t, v.text = b :: t ∧ VisibleByte b)

/-- Lists of extensions that are accepted. -/
def looseExtensions : List Extension → Prop
  | [] => True
  | [x] => x.Loose true
  | x :: l => x.Loose false ∧ looseExtensions l

/-- Chunks that are accepted without ending the body. A size of zero is among them if extensions follow
it. -/
structure Chunk.Loose (x : Chunk) : Prop where
  size : HexVal x.size x.data.length
  first : (∃ b t, x.size = b :: t ∧ b ≠ c! '0') ∨ (x.size = b!"0" ∧ x.extensions ≠ [])
  short : x.size.length ≤ 8
  extensions : looseExtensions x.extensions

/-- A chunked body with the lines of its trailer. -/
structure LooseBody where
  chunks : List Chunk
  trailer : List Line
deriving DecidableEq, Repr

/-- Chunked bodies that are accepted. -/
structure LooseBody.OK (x : LooseBody) : Prop where
  chunks : ∀ y ∈ x.chunks, y.Loose
  trailer : ∀ y ∈ x.trailer, y.OK

/-- The bytes of a chunked body. -/
def LooseBody.write (x : LooseBody) : Bytes :=
  x.chunks.flatMap Chunk.write ++ b!"0\r\n" ++ x.trailer.flatMap Line.write ++ b!"\r\n"

/-- What it means. -/
def LooseBody.events (x : LooseBody) : List Ev :=
  x.chunks.flatMap Chunk.events ++ [.chunkBegin, .chunkLength 0] ++ x.trailer.flatMap Line.events ++
    [.headersFinished, .bodyFinished]

/-! ## Errors -/

/-- The byte that an error names. -/
def PErr.byte : PErr → Option UInt8
  | .chunkExtensionName b | .chunkExtensionValue b | .chunkLength b | .crlfSequence b | .headerName b
  | .headerValue b | .method b | .multipart b | .multipartBoundary b | .status b | .statusCode b | .url b
  | .urlEncodedName b | .urlEncodedValue b | .version b => some b
  | .dead | .chunkLengthOverflow => none

end Verif.Http1
