import Verif.Util.HexSpec

/-!
# Facts about all bytes (helper lemmas)
-/

namespace Verif.Util

theorem forall_u8 {P : UInt8 → Prop} (h : ∀ n : Fin 256, P (UInt8.ofFin n)) : ∀ b, P b := by
  intro b
  have := h b.toFin
  simpa using this

theorem hexDigit_lt {b : UInt8} {n : Nat} (h : HexDigit b n) : n < 16 := by
  rcases h with h | h <;> exact (List.getElem?_eq_some_iff.1 h).1

end Verif.Util
