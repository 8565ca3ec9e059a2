import Verif.Util.QuerySpec

/-!
# Exactly which queries are rejected

Specification, independent of the model of `QueryIterator::next`.
-/

namespace Verif.Util

/-- The byte that a decoding error names. -/
def DecodeError.at : DecodeError → UInt8
  | .byte b => b
  | .hexSequence b => b

/-- `QOffending first x e`: the query `x` is broken in its first name or value, and `e` is the error that says so. `first`
tells that `x` is the whole query. -/
inductive QOffending (first : Bool) : Bytes → QueryError → Prop
  /-- the query starts with an equals sign or a separator -/
  | start {b r} : first = true → b ∈ b!"=&;" → QOffending first (b :: r) (.name b)
  /-- what follows is no URL encoding -/
  | name {w n x e} : WritesName false w n → Offends x e → QOffending first (w ++ x) (.name e.at)
  /-- an escape in a name (see C05) -/
  | escape {w n h l i j r} : WritesName false w n → HexDigit h i → HexDigit l j →
      QOffending first (w ++ c! '%' :: h :: l :: r) (.name l)
  /-- what follows is no URL encoding -/
  | value {w n u v x e} : WritesName false w n → (first = true → w ≠ []) → WritesValue u v → Offends x e →
      QOffending first (w ++ c! '=' :: (u ++ x)) (.value e.at)

/-- `QRejected first x l e`: the query `x` starts with the pairs `l`; what follows is broken with the error `e`. -/
inductive QRejected : Bool → Bytes → List Item → QueryError → Prop
  | here {f x e} : QOffending f x e → QRejected f x [] e
  | name {f w n s x l e} : WritesName false w n → (f = true → w ≠ []) → s = c! '&' ∨ s = c! ';' →
      QRejected false x l e → QRejected f (w ++ s :: x) ((n, none) :: l) e
  | pair {f w n u v s x l e} : WritesName false w n → (f = true → w ≠ []) → WritesValue u v →
      s = c! '&' ∨ s = c! ';' → QRejected false x l e →
      QRejected f (w ++ c! '=' :: u ++ s :: x) ((n, some v) :: l) e

end Verif.Util
