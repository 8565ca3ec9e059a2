import Verif.Util.FieldSpec

/-!
# Specification: writing the items of a header field

Not part of the code: how a program may write down what it got from a field. Used by C107.
-/

namespace Verif.Util

/-- A name. The delimiter is in a name only if it is a lower-case letter that was written in upper case. -/
def passFieldName (d : UInt8) (n : Bytes) : Bytes := n.map fun b => if b = d then b - 0x20 else b

/-- A byte between quotes: as it is or, if it may not stand there, after a backslash. -/
def passQuotedByte (b : UInt8) : Bytes := if QuotedByte b ∧ b ≠ 255 then [b] else [c! '\\', b]

/-- An item, with the delimiter after it. After a quoted value the delimiter is written twice, since the code ignores
one byte there. -/
def passFieldItem (d : UInt8) : Item → Bytes
  | (n, none) => passFieldName d n ++ [d]
  | (n, some v) => passFieldName d n ++ b!"=\"" ++ v.flatMap passQuotedByte ++ b!"\"" ++ [d, d]

/-- A field with these items. -/
def passField (d : UInt8) (l : List Item) : Bytes := l.flatMap (passFieldItem d)

end Verif.Util
