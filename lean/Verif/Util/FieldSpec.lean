import Verif.ByteSpec
import Verif.Util.QuerySpec

/-!
# What header fields mean

Specification, independent of the model of `FieldIterator::next`.
-/

namespace Verif.Util

/-- A field name: token bytes and slashes, none of them the delimiter. -/
def IsName (d : UInt8) (w : Bytes) : Prop := w ≠ [] ∧ ∀ b ∈ w, (TokenByte b ∨ b = c! '/') ∧ b ≠ d

/-- An unquoted value: field bytes, none of them the delimiter, the first one not a blank. Byte 255
is left out (the code panics on it, see C10). -/
def IsValue (d : UInt8) (v : Bytes) : Prop :=
  v ≠ [] ∧ (∀ b ∈ v, FieldByte b ∧ b ≠ d ∧ b ≠ 255) ∧ ∀ b ∈ v.head?, ¬ Blank b

/-- `Quoted q v`: between quotes, `q` writes the value `v`. -/
inductive Quoted : Bytes → Bytes → Prop
  | nil : Quoted [] []
  | plain {b q v} : QuotedByte b → b ≠ 255 → Quoted q v → Quoted (b :: q) (b :: v)
  | escaped {b q v} : Quoted q v → Quoted (c! '\\' :: b :: q) (b :: v)

/-- Blanks only. -/
def Blanks (s : Bytes) : Prop := ∀ b ∈ s, Blank b

/-- `ItemText d quoted t i`: the text `t` writes the item `i` (its name verbatim); `quoted` tells
whether the value is quoted. Blanks may follow the equals sign. -/
inductive ItemText (d : UInt8) : Bool → Bytes → Item → Prop
  | name {w} : IsName d w → ItemText d false w (w, none)
  | value {w s v} : IsName d w → Blanks s → IsValue d v →
      ItemText d false (w ++ c! '=' :: (s ++ v)) (w, some v)
  | quoted {w s q v} : IsName d w → Blanks s → Quoted q v →
      ItemText d true (w ++ c! '=' :: (s ++ c! '"' :: (q ++ [c! '"']))) (w, some v)

/-- `Fields anywhere d x l`: the field `x` writes the items `l`, joined by the delimiter `d` with
optional blanks after it. With `anywhere = false` only the last value may be quoted. -/
inductive Fields (anywhere : Bool) (d : UInt8) : Bytes → List Item → Prop
  | last {q t i} : ItemText d q t i → Fields anywhere d t [i]
  | cons {q t i s x l} : ItemText d q t i → (q = true → anywhere = true) → Blanks s →
      Fields anywhere d x l → Fields anywhere d (t ++ d :: (s ++ x)) (i :: l)

/-- The item with its name in lower case if `normalize` is on. -/
def norm (normalize : Bool) (i : Item) : Item := if normalize then (lower i.1, i.2) else i

end Verif.Util
