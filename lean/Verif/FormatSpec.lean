import Verif.Bytes

/-!
# Specification of messages

What a numeral is, and what it means that a text names a number. Written without reference to the
code that writes messages.
-/

namespace Verif

/-- `Numeral ds n`: the bytes `ds` are the number `n` in decimal, without leading zeros. -/
inductive Numeral : Bytes → Nat → Prop
  | digit {b : UInt8} : c! '0' ≤ b → b ≤ c! '9' → Numeral [b] (b.toNat - 48)
  | more {ds : Bytes} {n : Nat} {b : UInt8} : Numeral ds n → n ≠ 0 → c! '0' ≤ b → b ≤ c! '9' →
      Numeral (ds ++ [b]) (10 * n + (b.toNat - 48))

/-- `Names t n`: the text `t` is a message in angle brackets whose last word is the number `n`. -/
def Names (t : Bytes) (n : Nat) : Prop :=
  ∃ s ds : Bytes, t = b!"<" ++ s ++ b!" " ++ ds ++ b!">" ∧ Numeral ds n

end Verif
