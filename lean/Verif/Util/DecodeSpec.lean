import Verif.Util.Decode
import Verif.Util.HexSpec

/-!
# What URL encoding means

Specification, independent of the model of the code.
-/

namespace Verif.Util

/-- `Offends x e`: decoding must stop at the very beginning of `x`, with error `e`. -/
inductive Offends : Bytes → DecodeError → Prop
  | byte {b x} : b < 0x21 ∨ 0x7E < b → Offends (b :: x) (.byte b)
  | cut0 : Offends b!"%" (.hexSequence (c! '%'))
  | cut1 {h} : Offends [c! '%', h] (.hexSequence h)
  | high {h l x} : (∀ m, ¬ HexDigit h m) → Offends (c! '%' :: h :: l :: x) (.hexSequence h)
  | low {h l m x} : HexDigit h m → (∀ n, ¬ HexDigit l n) →
      Offends (c! '%' :: h :: l :: x) (.hexSequence l)

/-- How an encoder may write a byte. -/
inductive Way
  /-- as it is -/
  | literal
  /-- a space as `+` -/
  | plus
  /-- as `%XY`; the flags choose upper-case letters for the two digits -/
  | escape (up1 up2 : Bool)
deriving Repr, DecidableEq

/-- The digit `n` (below 16) in the chosen case. -/
def digit (up : Bool) (n : Nat) : UInt8 :=
  (if up then b!"0123456789ABCDEF" else b!"0123456789abcdef").getD n 0

/-- The bytes an encoder writes for `b`. -/
def Way.write (b : UInt8) : Way → Bytes
  | .literal => [b]
  | .plus => b!"+"
  | .escape u v => [c! '%', digit u (b.toNat / 16), digit v (b.toNat % 16)]

/-- Is the encoder allowed to write `b` in this way? -/
def Way.allowed (b : UInt8) : Way → Prop
  | .literal => Literal b
  | .plus => b = c! ' '
  | .escape _ _ => True

instance (b : UInt8) (w : Way) : Decidable (w.allowed b) := by
  cases w <;> unfold Way.allowed <;> infer_instance

/-- The text written for a list of bytes, each with its own way of writing it. -/
def encode : List (UInt8 × Way) → Bytes
  | [] => []
  | (b, w) :: l => w.write b ++ encode l

/-- The bytes of a well-formed `String`: the UTF-8 encoding of some characters. -/
def UTF8 (s : Bytes) : Prop := ∃ m : List Char, s = m.flatMap String.utf8EncodeChar

end Verif.Util
