import Verif.Http1.UrlSpec

/-!
# Specification of the URL-encoded bodies that are accepted

The parser accepts more than well-formed bodies: fields may be empty, a separator may come last, and the
body may end inside an escape. This file says so without reference to the parser.
-/

namespace Verif.Http1

/-- Fields that are accepted: as `Pair.OK`, but there may be nothing at all. -/
structure Pair.Loose (x : Pair) : Prop where
  name : Util.Decodes x.name x.nameMeaning ∧ ∀ b ∈ x.name, b ∉ b!"=&;"
  value : ∀ v, x.value = some v → Util.Decodes v.1 v.2 ∧ ∀ b ∈ v.1, b ∉ b!"&;"

/-- A body: fields with the separators that end them, a last field without a separator, and the beginning
of an escape that is cut off. -/
structure LooseUrl where
  fields : List (Pair × UInt8)
  last : Pair
  cut : Bytes
deriving DecidableEq, Repr

/-- Bodies that are accepted. -/
structure LooseUrl.OK (x : LooseUrl) : Prop where
  fields : ∀ y ∈ x.fields, y.1.Loose ∧ (y.2 = c! '&' ∨ y.2 = c! ';')
  last : x.last.Loose
  cut : x.cut = [] ∨ CutEscape x.cut

/-- The bytes of a body. -/
def LooseUrl.write (x : LooseUrl) : Bytes :=
  x.fields.flatMap (fun y => y.1.write ++ [y.2]) ++ x.last.write ++ x.cut

/-- What the fields mean, if there is at least one byte after the last separator. -/
def LooseUrl.allEvents (x : LooseUrl) : List Ev :=
  x.fields.flatMap (fun y => y.1.events) ++ x.last.events

/-- What it means: nothing is reported for an empty last field. -/
def LooseUrl.events (x : LooseUrl) : List Ev :=
  if x.last.write ++ x.cut = [] then x.fields.flatMap (fun y => y.1.events) else x.allEvents

/-- Text that has no place in a URL-encoded body; `b` is the byte that is to blame: a byte that is not
visible 7-bit, or an escape that is no escape. -/
def UrlOffence (y : Bytes) (b : UInt8) : Prop := (y = [b] ∧ (b < 0x21 ∨ 0x7E < b)) ∨ BadEscape y b

end Verif.Http1
