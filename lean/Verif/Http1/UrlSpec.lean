import Verif.Util.HexSpec
import Verif.Http1.Events

/-!
# Specification of URL-encoded bodies

How a peer writes a URL-encoded body, and which callbacks it stands for. Written without reference to the
parser.
-/

namespace Verif.Http1

/-- A field as it is written: its name, maybe a value, and what these mean. -/
structure Pair where
  name : Bytes
  nameMeaning : Bytes
  value : Option (Bytes × Bytes)
deriving DecidableEq, Repr

/-- Well-formed fields: name and value are URL encodings of their meanings, without the separators as
literal bytes; at least one byte is written. -/
structure Pair.OK (x : Pair) : Prop where
  name : Util.Decodes x.name x.nameMeaning ∧ ∀ b ∈ x.name, b ∉ b!"=&;"
  value : ∀ v, x.value = some v → Util.Decodes v.1 v.2 ∧ ∀ b ∈ v.1, b ∉ b!"&;"
  some : x.name ≠ [] ∨ x.value ≠ none

/-- The bytes of a field. -/
def Pair.write (x : Pair) : Bytes :=
  x.name ++
    match x.value with
    | none => []
    | some v => b!"=" ++ v.1

/-- What it means. -/
def Pair.events (x : Pair) : List Ev :=
  [.urlEncodedBegin, .urlEncodedName x.nameMeaning] ++
    match x.value with
    | none => []
    | some v => [.urlEncodedValue v.2]

/-- A body: fields, each but the first with the separator before it. -/
structure UrlBody where
  first : Pair
  more : List (UInt8 × Pair)
deriving DecidableEq, Repr

/-- Well-formed bodies: `&` or `;` between the fields. -/
structure UrlBody.OK (x : UrlBody) : Prop where
  first : x.first.OK
  more : ∀ y ∈ x.more, (y.1 = c! '&' ∨ y.1 = c! ';') ∧ y.2.OK

/-- The bytes of a body. -/
def UrlBody.write (x : UrlBody) : Bytes :=
  x.first.write ++ x.more.flatMap fun y => y.1 :: y.2.write

/-- What it means. -/
def UrlBody.events (x : UrlBody) : List Ev :=
  x.first.events ++ x.more.flatMap fun y => y.2.events

/-- The last field. -/
def UrlBody.last (x : UrlBody) : Pair := ((x.more.map Prod.snd).getLast?).getD x.first

/-- Text that starts like an escape but cannot become one; `b` is the byte that is to blame. -/
def BadEscape (y : Bytes) (b : UInt8) : Prop :=
  (∀ n, ¬ Util.HexDigit b n) ∧ (y = [c! '%', b] ∨ ∃ a m, Util.HexDigit a m ∧ y = [c! '%', a, b])

/-- A proper beginning of an escape. -/
def CutEscape (y : Bytes) : Prop :=
  y = b!"%" ∨ ∃ a m, Util.HexDigit a m ∧ y = [c! '%', a]

end Verif.Http1
