import Verif.Util.DecodeSpec
import Verif.Util.Query

/-!
# What query strings mean, and what iterating means

Specification, independent of the model of `QueryIterator::next`.
-/

namespace Verif.Util

/-- `Yields next it l it'`: a `for` loop over the iterator `it` sees exactly the items `l` and then
`None`, which leaves the iterator `it'`. -/
inductive Yields {ι : Type} (next : ι → Step ι) : ι → List Item → ι → Prop
  | stop {it it'} : next it = .none it' → Yields next it [] it'
  | item {it x it₁ l it'} : next it = .item x it₁ → Yields next it₁ l it' →
      Yields next it (x :: l) it'

/-- `After next it n l it'`: `n` calls of `next`, whatever they return, go through, yield the items
`l` and leave `it'`. -/
inductive After {ι : Type} (next : ι → Step ι) : ι → Nat → List Item → ι → Prop
  | zero {it} : After next it 0 [] it
  | none {it it₁ n l it'} : next it = .none it₁ → After next it₁ n l it' →
      After next it (n + 1) l it'
  | item {it x it₁ n l it'} : next it = .item x it₁ → After next it₁ n l it' →
      After next it (n + 1) (x :: l) it'

/-- `w` is a way to write the name `n` in a query: URL-encoded, without the bytes `=`, `&` and `;`.
With `esc = false` the name may not be written with `%XY` escapes. -/
def WritesName (esc : Bool) (w n : Bytes) : Prop :=
  Decodes w n ∧ (∀ b ∈ w, b ∉ b!"=&;") ∧ (esc = false → c! '%' ∉ w)

/-- `w` is a way to write the value `v`: URL-encoded, without the bytes `&` and `;`. -/
def WritesValue (w v : Bytes) : Prop := Decodes w v ∧ ∀ b ∈ w, b ∉ b!"&;"

/-- `Pairs esc x l`: `x` is a sequence of names, and of names followed by `=` and a value, which are
separated by `&` or `;` (a separator at the very end is allowed); these are the items `l`. -/
inductive Pairs (esc : Bool) : Bytes → List Item → Prop
  | nil : Pairs esc [] []
  | lastName {w n} : WritesName esc w n → w ≠ [] → Pairs esc w [(n, none)]
  | lastPair {w n u v} : WritesName esc w n → WritesValue u v →
      Pairs esc (w ++ c! '=' :: u) [(n, some v)]
  | name {w n s x l} : WritesName esc w n → s = c! '&' ∨ s = c! ';' → Pairs esc x l →
      Pairs esc (w ++ s :: x) ((n, none) :: l)
  | pair {w n u v s x l} : WritesName esc w n → WritesValue u v → s = c! '&' ∨ s = c! ';' →
      Pairs esc x l → Pairs esc (w ++ c! '=' :: u ++ s :: x) ((n, some v) :: l)

/-- A query: such a sequence whose first name is not empty. -/
def IsQuery (esc : Bool) (x : Bytes) (l : List Item) : Prop :=
  Pairs esc x l ∧ ∀ b ∈ x.head?, b ∉ b!"=&;"

/-- Every escape that is not cut off is made of two hex digits. -/
def EscapesOK (x : Bytes) : Prop :=
  ∀ p h l r, x = p ++ c! '%' :: h :: l :: r → (∃ m, HexDigit h m) ∧ ∃ n, HexDigit l n

end Verif.Util
