import Verif.Util.QuerySpec

/-!
# Specification: writing the items of a query

Not part of the code: how a program may write down what it got from a query. Used by C105.
-/

namespace Verif.Util

/-- A name. (The code does not accept escapes in names, so only a space is replaced.) -/
def passName (n : Bytes) : Bytes := n.map fun b => if b = c! ' ' then c! '+' else b

/-- A byte of a value: digits and letters as they are, all others as `%xy`. -/
def passByte (b : UInt8) : Bytes :=
  if (c! '0' ≤ b ∧ b ≤ c! '9') ∨ (c! 'A' ≤ b ∧ b ≤ c! 'Z') ∨ (c! 'a' ≤ b ∧ b ≤ c! 'z') then [b]
  else Way.write b (.escape false false)

/-- An item, with a separator after it. -/
def passItem : Item → Bytes
  | (n, none) => passName n ++ b!"&"
  | (n, some v) => passName n ++ b!"=" ++ v.flatMap passByte ++ b!"&"

/-- A query with these items. -/
def passQuery (l : List Item) : Bytes := l.flatMap passItem

end Verif.Util
