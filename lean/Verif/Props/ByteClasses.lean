import Verif.ByteSpec
import Verif.Util.ByteLemmas

/-!
# C10: the byte classes of `src/byte.rs`
-/

namespace Verif

/-- C10 for every byte but 255: the three functions return, and return `true` exactly on their
class. Missing: byte 255, see `C10_fails`. -/
theorem C10_byte_classes_partial (b : UInt8) (hb : b ≠ 255) :
    isToken b = some (decide (TokenByte b)) ∧
    isHeaderField b = some (decide (FieldByte b)) ∧
    isQuotedHeaderField b = some (decide (QuotedByte b)) := by
  have key : ∀ b : UInt8, b ≠ 255 → isToken b = some (decide (TokenByte b)) ∧
      isHeaderField b = some (decide (FieldByte b)) ∧
      isQuotedHeaderField b = some (decide (QuotedByte b)) := by
    apply Util.forall_u8
    decide +kernel
  exact key b hb

/-- A concrete case of C10: a letter, a separator, and byte 254. -/
example : isToken (c! 'a') = some true ∧ isToken (c! '/') = some false ∧
    isHeaderField 254 = some true ∧ isQuotedHeaderField (c! '\\') = some false := by decide +kernel

/-- C10 is false for byte 255: the tables have 255 entries, so each of the three functions panics
(index out of bounds) on it. -/
theorem C10_fails : isToken 255 = none ∧ isHeaderField 255 = none ∧ isQuotedHeaderField 255 = none := by
  decide +kernel

end Verif
