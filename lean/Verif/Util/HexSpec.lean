import Verif.Bytes

/-!
# Hexadecimal digits and URL encoding

Specification, independent of the model of the code.
-/

namespace Verif.Util

/-- `b` is the hexadecimal digit with value `n`, in either case. -/
def HexDigit (b : UInt8) (n : Nat) : Prop :=
  b!"0123456789ABCDEF"[n]? = some b ∨ b!"0123456789abcdef"[n]? = some b

instance (b : UInt8) (n : Nat) : Decidable (HexDigit b n) := by unfold HexDigit; infer_instance

/-- A byte that stands for itself: visible 7-bit, other than `+` and `%`. -/
def Literal (b : UInt8) : Prop := 0x21 ≤ b ∧ b ≤ 0x7E ∧ b ≠ c! '+' ∧ b ≠ c! '%'

instance (b : UInt8) : Decidable (Literal b) := by unfold Literal; infer_instance

/-- `Decodes x s`: the text `x` is a URL encoding of the bytes `s`. -/
inductive Decodes : Bytes → Bytes → Prop
  | nil : Decodes [] []
  | literal {b x s} : Literal b → Decodes x s → Decodes (b :: x) (b :: s)
  | plus {x s} : Decodes x s → Decodes (c! '+' :: x) (c! ' ' :: s)
  | escape {h l m n x s} : HexDigit h m → HexDigit l n → Decodes x s →
      Decodes (c! '%' :: h :: l :: x) (UInt8.ofNat (16 * m + n) :: s)

end Verif.Util
