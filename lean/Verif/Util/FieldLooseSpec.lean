import Verif.Util.FieldSpec
import Verif.Util.Field

/-!
# Exactly which header fields are accepted

Specification, independent of the model of `FieldIterator::next`. The grammar is larger than the one of
`Verif.Util.FieldSpec`; the differences are pointed out at the rules.
-/

namespace Verif.Util

/-- `NameText d z open w n`: the text `w`, with the blanks around it, writes the name `n`. `open = true` says that the
text does not end with a byte that is a name on its own: nothing was written yet, or the last byte is a slash or (with
normalisation) an upper-case letter. There blanks are skipped, in the middle of a name, too. -/
inductive NameText (d : UInt8) (z : Bool) : Bool → Bytes → Bytes → Prop
  | start {s} : Blanks s → NameText d z true s []
  | token {g w n b} : NameText d z g w n → TokenByte b → b ≠ d → (z = true → ¬ UpperByte b) →
      NameText d z false (w ++ [b]) (n ++ [b])
  | slash {g w n s} : NameText d z g w n → Blanks s → NameText d z true (w ++ c! '/' :: s) (n ++ [c! '/'])
  | upper {g w n b s} : z = true → NameText d z g w n → UpperByte b → b ≠ d → Blanks s →
      NameText d z true (w ++ b :: s) (n ++ lower [b])

/-- An unquoted value, possibly empty. -/
def PlainValue (d : UInt8) (v : Bytes) : Prop :=
  (∀ b ∈ v, FieldByte b ∧ b ≠ d ∧ b ≠ 255) ∧ ∀ b ∈ v.head?, ¬ Blank b

/-- `ClosedItem d z t i`: the text `t` writes the item `i` and ends with the delimiter. The name may be empty, and so may
be the value. Between the closing quote of a value and the delimiter stands one byte, whatever it is, and blanks before
it. -/
inductive ClosedItem (d : UInt8) (z : Bool) : Bytes → Item → Prop
  | name {g w n} : NameText d z g w n → (g = true → ¬ Blank d) → ClosedItem d z (w ++ [d]) (n, none)
  | value {g w n s v} : NameText d z g w n → Blanks s → PlainValue d v →
      ClosedItem d z (w ++ c! '=' :: (s ++ (v ++ [d]))) (n, some v)
  | quoted {g w n s q v s' b} : NameText d z g w n → Blanks s → Quoted q v → Blanks s' → ¬ Blank b →
      ClosedItem d z (w ++ c! '=' :: (s ++ c! '"' :: (q ++ c! '"' :: (s' ++ [b, d])))) (n, some v)

/-- `LastItem d z t i`: the text `t` writes the item `i` and is the end of the field. A name that is followed by `=` and
blanks has no value; after the closing quote of a value and blanks one more byte is ignored, whatever it is. -/
inductive LastItem (d : UInt8) (z : Bool) : Bytes → Item → Prop
  | name {w n} : NameText d z false w n → LastItem d z w (n, none)
  | noValue {g w n s} : NameText d z g w n → Blanks s → LastItem d z (w ++ c! '=' :: s) (n, none)
  | value {g w n s v} : NameText d z g w n → Blanks s → PlainValue d v → v ≠ [] →
      LastItem d z (w ++ c! '=' :: (s ++ v)) (n, some v)
  | quoted {g w n s q v s' t} : NameText d z g w n → Blanks s → Quoted q v → Blanks s' → t.length ≤ 1 →
      LastItem d z (w ++ c! '=' :: (s ++ c! '"' :: (q ++ c! '"' :: (s' ++ t)))) (n, some v)

/-- `Accepted d z x l`: the field `x` writes the items `l`. A last name that ends with a slash or (with normalisation) an
upper-case letter is dropped. -/
inductive Accepted (d : UInt8) (z : Bool) : Bytes → List Item → Prop
  | nothing {w n} : NameText d z true w n → Accepted d z w []
  | last {t i} : LastItem d z t i → Accepted d z t [i]
  | cons {t i x l} : ClosedItem d z t i → Accepted d z x l → Accepted d z (t ++ x) (i :: l)

/-- `Offending d z x e`: the first item of the field `x` is broken, and `e` is the error that says so. -/
inductive Offending (d : UInt8) (z : Bool) : Bytes → FieldError → Prop
  /-- the byte `b` within a name -/
  | name {g w n b r} : NameText d z g w n → ¬ TokenByte b → b ≠ c! '=' → b ≠ c! '/' → b ≠ d → b ≠ 255 →
      (g = true → ¬ Blank b) → Offending d z (w ++ b :: r) (.name b)
  /-- the byte `b` within an unquoted value -/
  | value {g w n s v b r} : NameText d z g w n → Blanks s → PlainValue d v → ¬ FieldByte b → b ≠ d →
      (v = [] → b ≠ c! '"') → Offending d z (w ++ c! '=' :: (s ++ (v ++ b :: r))) (.value b)
  /-- the byte `b` within a quoted value -/
  | quoted {g w n s q v b r} : NameText d z g w n → Blanks s → Quoted q v → ¬ FieldByte b → b ≠ c! '"' →
      Offending d z (w ++ c! '=' :: (s ++ c! '"' :: (q ++ b :: r))) (.value b)
  /-- the closing quote is missing; the error names the last byte -/
  | open {g w n s q v} : NameText d z g w n → Blanks s → Quoted q v →
      Offending d z (w ++ c! '=' :: (s ++ c! '"' :: q)) (.value (q.getLast?.getD (c! '"')))
  /-- the field ends after a backslash -/
  | escape {g w n s q v} : NameText d z g w n → Blanks s → Quoted q v →
      Offending d z (w ++ c! '=' :: (s ++ c! '"' :: (q ++ b!"\\"))) (.name (c! '\\'))
  /-- the second byte after a quoted value and blanks is not the delimiter -/
  | after {g w n s q v s' t b r} : NameText d z g w n → Blanks s → Quoted q v → Blanks s' → ¬ Blank t → b ≠ d →
      Offending d z (w ++ c! '=' :: (s ++ c! '"' :: (q ++ c! '"' :: (s' ++ t :: b :: r)))) (.value b)

/-- `Rejected d z x l e`: the field `x` starts with the items `l`; what follows is broken with the error `e`. -/
inductive Rejected (d : UInt8) (z : Bool) : Bytes → List Item → FieldError → Prop
  | here {x e} : Offending d z x e → Rejected d z x [] e
  | cons {t i x l e} : ClosedItem d z t i → Rejected d z x l e → Rejected d z (t ++ x) (i :: l) e

end Verif.Util
