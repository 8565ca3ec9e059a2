import Verif.Bytes

/-!
# What the byte classes mean

Specification, independent of the tables of `src/byte.rs`.
-/

namespace Verif

/-- RFC 2616 section 2.2: a token byte is a visible 7-bit byte that is not a separator. -/
def TokenByte (b : UInt8) : Prop :=
  0x21 ≤ b ∧ b ≤ 0x7E ∧ b ∉ b!"()<>@,;:\\\"/[]?={}"

/-- A byte of an unquoted header field: TAB, 0x20-0x7E except `"`, and 0x80-0xFF. -/
def FieldByte (b : UInt8) : Prop :=
  b = 9 ∨ (0x20 ≤ b ∧ b ≤ 0x7E ∧ b ≠ c! '"') ∨ 0x80 ≤ b

/-- A byte of a quoted header field: the same without the backslash. -/
def QuotedByte (b : UInt8) : Prop := FieldByte b ∧ b ≠ c! '\\'

instance (b : UInt8) : Decidable (TokenByte b) := by unfold TokenByte; infer_instance
instance (b : UInt8) : Decidable (FieldByte b) := by unfold FieldByte; infer_instance
instance (b : UInt8) : Decidable (QuotedByte b) := by unfold QuotedByte; infer_instance

/-- A blank: space or TAB. -/
def Blank (b : UInt8) : Prop := b = c! ' ' ∨ b = 9

instance (b : UInt8) : Decidable (Blank b) := by unfold Blank; infer_instance

/-- An upper-case letter. -/
def UpperByte (b : UInt8) : Prop := c! 'A' ≤ b ∧ b ≤ c! 'Z'

instance (b : UInt8) : Decidable (UpperByte b) := by unfold UpperByte; infer_instance

/-- The text in lower case. -/
def lower (s : Bytes) : Bytes := s.map fun b => if UpperByte b then b + 32 else b

end Verif
