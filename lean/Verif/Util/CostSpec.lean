import Verif.Util.ReadSpec

/-!
# Specification: how much an iterator produces

Used by C99. The measures look only at what the calls of `next` return.
-/

namespace Verif.Util

/-- How many bytes an item has: its name, and its value if there is one. -/
def itemSize (i : Item) : Nat := i.1.length + (i.2.getD []).length

/-- How many items the calls return. -/
def itemCount {E : Type} : List (Said E) → Nat
  | [] => 0
  | .returns (some _) _ :: l => itemCount l + 1
  | _ :: l => itemCount l

/-- How many bytes the items have together. -/
def itemBytes {E : Type} : List (Said E) → Nat
  | [] => 0
  | .returns (some i) _ :: l => itemSize i + itemBytes l
  | _ :: l => itemBytes l

/-- How many errors are reported. -/
def errorCount {E : Type} : List (Said E) → Nat
  | [] => 0
  | .returns _ es :: l => es.length + errorCount l
  | _ :: l => errorCount l

end Verif.Util
