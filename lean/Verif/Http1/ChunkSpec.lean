import Verif.Http1.MessageSpec

/-!
# Specification of chunked bodies

How a peer writes a chunked body, and which callbacks it stands for. Written without reference to the
parser. Restrictions that come from the parser and not from HTTP are marked.
-/

namespace Verif.Http1

/-- `HexVal ds n`: the hexadecimal digits `ds`, in either case, have the value `n`. -/
inductive HexVal : Bytes → Nat → Prop
  | nil : HexVal [] 0
  | snoc {ds v b n} : HexVal ds v → Util.HexDigit b n → HexVal (ds ++ [b]) (16 * v + n)

/-- The number of bytes of chunk data in a list of callbacks. -/
def dataBytes : List Ev → Nat
  | [] => 0
  | .chunkData d :: l => d.length + dataBytes l
  | _ :: l => dataBytes l

/-- `SizeIn x n`: somewhere in `x` there is a chunk-size line (at the beginning, or after a CR LF) of
one to eight hexadecimal digits with value `n`, followed by CR or by an extension. -/
def SizeIn (x : Bytes) (n : Nat) : Prop :=
  ∃ y ds t post, x = y ++ ds ++ t :: post ∧ (y = [] ∨ b!"\r\n" <:+ y) ∧ HexVal ds n ∧
    ds ≠ [] ∧ ds.length ≤ 8 ∧ (t = c! '\r' ∨ t = c! ';')

/-- Callbacks that belong to the trailers. -/
def TrailerEv : Ev → Prop
  | .headerName _ | .headerValue _ | .headersFinished | .bodyFinished => True
  | _ => False

/-- Callbacks about chunk extensions. -/
def ExtensionEv : Ev → Prop
  | .chunkExtensionName _ | .chunkExtensionValue _ | .chunkExtensionFinished | .chunkExtensionsFinished => True
  | _ => False

/-! ## Extensions -/

/-- `ExtQuoted q m`: the inside `q` of a quoted string means `m`: backslashes are removed. Restriction of
the parser: no byte 255, and an escaped byte must be in the range 0x20 to 0x7A. -/
inductive ExtQuoted : Bytes → Bytes → Prop
  | nil : ExtQuoted [] []
  | byte {b q m} : QuotedByte b → b ≠ 255 → ExtQuoted q m → ExtQuoted (b :: q) (b :: m)
  | esc {b q m} : 0x20 ≤ b → b ≤ 0x7A → ExtQuoted q m → ExtQuoted (c! '\\' :: b :: q) (b :: m)

/-- `ExtText x m`: the extension value `x` means `m`: quoted strings are delivered without quotes.
Restriction of the parser: no byte 255. -/
inductive ExtText : Bytes → Bytes → Prop
  | nil : ExtText [] []
  | byte {b x m} : FieldByte b → b ≠ 255 → b ≠ c! ';' → ExtText x m → ExtText (b :: x) (b :: m)
  | quoted {q n x m} : ExtQuoted q n → ExtText x m → ExtText (c! '"' :: q ++ c! '"' :: x) (n ++ m)

/-- The value of an extension: blanks after the equals sign, the text, and what the text means. -/
structure ExtValue where
  blanks : Bytes
  text : Bytes
  meaning : Bytes
deriving DecidableEq, Repr

/-- A chunk extension: blanks after the semicolon, the name, and maybe a value. -/
structure Extension where
  blanks : Bytes
  name : Bytes
  value : Option ExtValue
deriving DecidableEq, Repr

/-- Well-formed extensions. Restriction of the parser: a value starts with a visible 7-bit byte. -/
structure Extension.OK (x : Extension) : Prop where
  blanks : ∀ b ∈ x.blanks, Blank b
  name : x.name ≠ [] ∧ ∀ b ∈ x.name, TokenByte b
  value : ∀ v, x.value = some v → (∀ b ∈ v.blanks, Blank b) ∧ ExtText v.text v.meaning ∧
    ∃ b t, v.text = b :: t ∧ VisibleByte b

/-- The bytes of an extension. -/
def Extension.write (x : Extension) : Bytes :=
  b!";" ++ x.blanks ++ x.name ++
    match x.value with
    | none => []
    | some v => b!"=" ++ v.blanks ++ v.text

/-- What it means. -/
def Extension.events (x : Extension) : List Ev :=
  [.chunkExtensionName (Verif.lower x.name)] ++
    (match x.value with
    | none => []
    | some v => [.chunkExtensionValue v.meaning]) ++ [.chunkExtensionFinished]

/-! ## Chunks and bodies -/

/-- A chunk: the digits of its size, its extensions and its data. -/
structure Chunk where
  size : Bytes
  extensions : List Extension
  data : Bytes
deriving DecidableEq, Repr

/-- Well-formed chunks that are not the last one. Restriction of the parser: at most eight digits,
the first of which is not zero. -/
structure Chunk.OK (x : Chunk) : Prop where
  size : HexVal x.size x.data.length
  first : ∃ b t, x.size = b :: t ∧ b ≠ c! '0'
  short : x.size.length ≤ 8
  extensions : ∀ e ∈ x.extensions, e.OK

/-- The bytes of a chunk. -/
def Chunk.write (x : Chunk) : Bytes :=
  x.size ++ x.extensions.flatMap Extension.write ++ b!"\r\n" ++ x.data ++ b!"\r\n"

/-- What it means. -/
def Chunk.events (x : Chunk) : List Ev :=
  [.chunkBegin, .chunkLength x.data.length] ++ x.extensions.flatMap Extension.events ++
    [.chunkExtensionsFinished, .chunkData x.data]

/-- A chunked body. Restriction of the parser: the last chunk has no extensions (and exactly one zero). -/
structure ChunkedBody where
  chunks : List Chunk
  trailers : List Header
deriving DecidableEq, Repr

/-- All chunks and trailers of the body are well-formed. -/
structure ChunkedBody.OK (x : ChunkedBody) : Prop where
  chunks : ∀ y ∈ x.chunks, y.OK
  trailers : ∀ y ∈ x.trailers, y.OK

/-- The bytes of a chunked body. -/
def ChunkedBody.write (x : ChunkedBody) : Bytes :=
  x.chunks.flatMap Chunk.write ++ b!"0\r\n" ++ x.trailers.flatMap Header.write ++ b!"\r\n"

/-- What it means. -/
def ChunkedBody.events (x : ChunkedBody) : List Ev :=
  x.chunks.flatMap Chunk.events ++ [.chunkBegin, .chunkLength 0] ++ x.trailers.flatMap Header.events ++
    [.headersFinished, .bodyFinished]

end Verif.Http1
