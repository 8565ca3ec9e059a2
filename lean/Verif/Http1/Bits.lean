import Verif.Http1.Model

/-!
# The two 14-bit fields of `bit_data` (helper lemmas)
-/

namespace Verif.Http1

theorem bit_lit (k : Nat) (hk : k = 4 ∨ k = 18) (i : Nat) (hi : i < 32) :
    ((0x3FFF#32 : BitVec 32) <<< k).getLsbD i = (decide (k ≤ i) && decide (i < k + 14)) := by
  rcases hk with rfl | rfl
  · revert i; decide +kernel
  · revert i; decide +kernel

theorem bit_low (i : Nat) (hi : i < 32) :
    (0x3FFF#32 : BitVec 32).getLsbD i = decide (i < 14) := by
  revert i; decide +kernel

theorem u32_ext {a b : UInt32} (h : ∀ i < 32, a.toBitVec.getLsbD i = b.toBitVec.getLsbD i) :
    a = b := by
  apply UInt32.toBitVec_inj.1
  exact BitVec.eq_of_getLsbD_eq h

theorem small_bits {v : UInt32} (hv : v.toNat < 16384) (i : Nat) (hi : 14 ≤ i) :
    v.toBitVec.getLsbD i = false := by
  rw [BitVec.getLsbD]
  apply Nat.testBit_lt_two_pow
  calc v.toNat < 2 ^ 14 := hv
    _ ≤ 2 ^ i := Nat.pow_le_pow_right (by omega) hi

theorem getLower14_bit (p : Parser) (i : Nat) (hi : i < 32) :
    (getLower14 p).toBitVec.getLsbD i = (decide (i < 14) && p.bitData.toBitVec.getLsbD (i + 4)) := by
  simp only [getLower14, UInt32.toBitVec_and, UInt32.toBitVec_shiftRight, BitVec.getLsbD_and]
  have h4 : (UInt32.toBitVec 4 % 32).toNat = 4 := by decide
  simp only [BitVec.ushiftRight_eq', h4, BitVec.getLsbD_ushiftRight]
  rw [show UInt32.toBitVec 0x3FFF = 0x3FFF#32 from rfl, bit_low i hi, Bool.and_comm, Nat.add_comm]

theorem getUpper14_bit (p : Parser) (i : Nat) (hi : i < 32) :
    (getUpper14 p).toBitVec.getLsbD i = (decide (i < 14) && p.bitData.toBitVec.getLsbD (i + 18)) := by
  simp only [getUpper14, UInt32.toBitVec_and, UInt32.toBitVec_shiftRight, BitVec.getLsbD_and]
  have h4 : (UInt32.toBitVec 18 % 32).toNat = 18 := by decide
  simp only [BitVec.ushiftRight_eq', h4, BitVec.getLsbD_ushiftRight]
  rw [show UInt32.toBitVec 0x3FFF = 0x3FFF#32 from rfl, bit_low i hi, Bool.and_comm, Nat.add_comm]

theorem setLower14_bit (p : Parser) (v : UInt32) (i : Nat) (hi : i < 32) :
    (setLower14 p v).bitData.toBitVec.getLsbD i =
      ((p.bitData.toBitVec.getLsbD i && !(decide (4 ≤ i) && decide (i < 18))) ||
        (decide (4 ≤ i) && v.toBitVec.getLsbD (i - 4))) := by
  have h4 : (UInt32.toBitVec 4 % 32).toNat = 4 := by decide
  simp only [setLower14, UInt32.toBitVec_or, UInt32.toBitVec_and, UInt32.toBitVec_not,
    UInt32.toBitVec_shiftLeft, BitVec.getLsbD_or, BitVec.getLsbD_and, BitVec.getLsbD_not,
    BitVec.shiftLeft_eq', h4]
  rw [show UInt32.toBitVec 0x3FFF = 0x3FFF#32 from rfl, bit_lit 4 (.inl rfl) i hi]
  simp only [BitVec.getLsbD_shiftLeft, hi, decide_true, Bool.true_and]
  by_cases h : 4 ≤ i
  · have h' : ¬ i < 4 := by omega
    simp [h, h']
  · have h' : i < 4 := by omega
    simp [h, h']

theorem setUpper14_bit (p : Parser) (v : UInt32) (i : Nat) (hi : i < 32) :
    (setUpper14 p v).bitData.toBitVec.getLsbD i =
      ((p.bitData.toBitVec.getLsbD i && !(decide (18 ≤ i) && decide (i < 32))) ||
        (decide (18 ≤ i) && v.toBitVec.getLsbD (i - 18))) := by
  have h4 : (UInt32.toBitVec 18 % 32).toNat = 18 := by decide
  simp only [setUpper14, UInt32.toBitVec_or, UInt32.toBitVec_and, UInt32.toBitVec_not,
    UInt32.toBitVec_shiftLeft, BitVec.getLsbD_or, BitVec.getLsbD_and, BitVec.getLsbD_not,
    BitVec.shiftLeft_eq', h4]
  rw [show UInt32.toBitVec 0x3FFF = 0x3FFF#32 from rfl, bit_lit 18 (.inr rfl) i hi]
  simp only [BitVec.getLsbD_shiftLeft, hi, decide_true, Bool.true_and]
  by_cases h : 18 ≤ i
  · have h' : ¬ i < 18 := by omega
    simp [h, h']
  · have h' : i < 18 := by omega
    simp [h, h']

theorem getLower14_setLower14 (p : Parser) {v : UInt32} (hv : v.toNat < 16384) :
    getLower14 (setLower14 p v) = v := by
  refine u32_ext fun i hi => ?_
  rw [getLower14_bit _ i hi]
  by_cases h : i < 14
  · rw [setLower14_bit _ _ _ (by omega)]
    have h1 : i + 4 < 18 := by omega
    simp [h, h1]
  · rw [small_bits hv i (by omega)]; simp [h]

theorem getUpper14_setLower14 (p : Parser) {v : UInt32} (hv : v.toNat < 16384) :
    getUpper14 (setLower14 p v) = getUpper14 p := by
  refine u32_ext fun i hi => ?_
  rw [getUpper14_bit _ i hi, getUpper14_bit _ i hi]
  by_cases h : i < 14
  · rw [setLower14_bit _ _ _ (by omega)]
    have h2 : ¬ i + 18 < 18 := by omega
    rw [small_bits hv (i + 18 - 4) (by omega)]
    simp [h, h2]
  · simp [h]

theorem getUpper14_setUpper14 (p : Parser) {v : UInt32} (hv : v.toNat < 16384) :
    getUpper14 (setUpper14 p v) = v := by
  refine u32_ext fun i hi => ?_
  rw [getUpper14_bit _ i hi]
  by_cases h : i < 14
  · rw [setUpper14_bit _ _ _ (by omega)]
    have h1 : i + 18 < 32 := by omega
    simp [h, h1]
  · rw [small_bits hv i (by omega)]; simp [h]

theorem getLower14_setUpper14 (p : Parser) (v : UInt32) :
    getLower14 (setUpper14 p v) = getLower14 p := by
  refine u32_ext fun i hi => ?_
  rw [getLower14_bit _ i hi, getLower14_bit _ i hi]
  by_cases h : i < 14
  · rw [setUpper14_bit _ _ _ (by omega)]
    have h2 : ¬ 18 ≤ i + 4 := by omega
    simp [h2]
  · simp [h]

theorem getLower14_lt (p : Parser) : (getLower14 p).toNat < 16384 := by
  have : (getLower14 p).toNat ≤ 16383 := by
    simp only [getLower14, UInt32.toNat_and]
    exact Nat.and_le_right
  omega

theorem getUpper14_lt (p : Parser) : (getUpper14 p).toNat < 16384 := by
  have : (getUpper14 p).toNat ≤ 16383 := by
    simp only [getUpper14, UInt32.toNat_and]
    exact Nat.and_le_right
  omega

end Verif.Http1
