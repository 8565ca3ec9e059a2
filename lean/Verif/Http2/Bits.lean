import Verif.Http2.Spec

/-!
# Lemmas about the packed lengths
-/

set_option linter.unusedSimpArgs false

namespace Verif.Http2

/-- Payload length and pad length as numbers. -/
def Core.hi (s : Core) : Nat := s.bit32a.toNat / 256
/-- The pad length as a number. -/
def Core.lo (s : Core) : Nat := s.bit32a.toNat % 256

theorem payload_toNat (s : Core) : s.payloadLength.toNat = s.hi := by
  simp [Core.payloadLength, Core.hi, Nat.shiftRight_eq_div_pow]

theorem lo_and (a : UInt32) : (a &&& 0xFF).toNat = a.toNat % 256 := by
  rw [UInt32.toNat_and]
  exact Nat.and_two_pow_sub_one_eq_mod a.toNat 8

theorem pad_toNat (s : Core) : s.padLength.toNat = s.lo := lo_and _

theorem hi_lt (s : Core) : s.hi < 2 ^ 24 := by
  have := s.bit32a.toNat_lt
  unfold Core.hi
  omega

theorem lo_lt (s : Core) : s.lo < 256 := Nat.mod_lt _ (by decide)

theorem bit32a_eq (s : Core) : s.bit32a.toNat = s.hi * 256 + s.lo := by
  unfold Core.hi Core.lo
  omega

/-- Take `k` bytes off the payload. -/
def Core.dec (s : Core) (k : Nat) : Core := { s with bit32a := UInt32.ofNat ((s.hi - k) * 256 + s.lo) }

theorem dec_toNat (s : Core) (k : Nat) : (s.dec k).bit32a.toNat = (s.hi - k) * 256 + s.lo := by
  have h1 := hi_lt s
  have h2 := lo_lt s
  simp only [Core.dec, UInt32.toNat_ofNat']
  apply Nat.mod_eq_of_lt
  omega

@[simp] theorem dec_hi (s : Core) (k : Nat) : (s.dec k).hi = s.hi - k := by
  have h2 := lo_lt s
  rw [Core.hi, dec_toNat]
  omega

@[simp] theorem dec_lo (s : Core) (k : Nat) : (s.dec k).lo = s.lo := by
  have h2 := lo_lt s
  rw [Core.lo, dec_toNat]
  omega

theorem dec_zero (s : Core) : s.dec 0 = s := by
  have : UInt32.ofNat (s.hi * 256 + s.lo) = s.bit32a := by
    rw [← bit32a_eq, UInt32.ofNat_toNat]
  simp [Core.dec, this]

theorem dec_dec (s : Core) (j k : Nat) : (s.dec j).dec k = s.dec (j + k) := by
  have : ((s.dec j).hi - k) * 256 + (s.dec j).lo = (s.hi - (j + k)) * 256 + s.lo := by
    rw [dec_hi, dec_lo, Nat.sub_sub]
  show { s.dec j with bit32a := UInt32.ofNat (((s.dec j).hi - k) * 256 + (s.dec j).lo) } = s.dec (j + k)
  rw [this]
  rfl

@[simp] theorem dec_st (s : Core) (k : Nat) : (s.dec k).st = s.st := rfl

theorem dec_eq (s : Core) (n : UInt32) :
    s.decPayloadLength n = if s.hi < n.toNat then none else some (s.dec n.toNat) := by
  have e : (s.payloadLength < n) = (s.hi < n.toNat) := by
    rw [UInt32.lt_iff_toNat_lt, payload_toNat]
  unfold Core.decPayloadLength
  simp only [e]
  split
  · rfl
  · rename_i h
    have e2 : s.padLength ||| ((s.payloadLength - n) <<< 8) = UInt32.ofNat ((s.hi - n.toNat) * 256 + s.lo) := by
      have h1 := hi_lt s
      have h2 := lo_lt s
      apply UInt32.toNat_inj.1
      have h3 : (s.payloadLength - n).toNat = s.hi - n.toNat := by
        rw [UInt32.toNat_sub_of_le _ _ (by rw [UInt32.le_iff_toNat_le, payload_toNat]; omega), payload_toNat]
      have h4 : ((s.payloadLength - n) <<< 8).toNat = (s.hi - n.toNat) <<< 8 := by
        rw [UInt32.toNat_shiftLeft, h3]
        show ((s.hi - n.toNat) <<< 8) % _ = _
        rw [Nat.shiftLeft_eq]
        apply Nat.mod_eq_of_lt
        omega
      rw [UInt32.toNat_or, h4, pad_toNat, Nat.or_comm, ← Nat.shiftLeft_add_eq_or_of_lt (by omega), Nat.shiftLeft_eq,
        UInt32.toNat_ofNat', Nat.mod_eq_of_lt (by omega)]
    rw [e2]
    rfl

theorem actual_eq (s : Core) :
    s.actualLength = if s.hi < s.lo then none else some (UInt32.ofNat (s.hi - s.lo)) := by
  have e : (s.payloadLength < s.padLength) = (s.hi < s.lo) := by
    rw [UInt32.lt_iff_toNat_lt, payload_toNat, pad_toNat]
  unfold Core.actualLength
  simp only [e]
  split
  · rfl
  · congr 1
    have h1 := hi_lt s
    apply UInt32.toNat_inj.1
    rw [UInt32.toNat_sub_of_le _ _ (by rw [UInt32.le_iff_toNat_le, payload_toNat, pad_toNat]; omega), payload_toNat,
      pad_toNat, UInt32.toNat_ofNat', Nat.mod_eq_of_lt (by omega)]

theorem ofNat_toNat {n : Nat} (h : n < 2 ^ 24) : (UInt32.ofNat n).toNat = n := by
  rw [UInt32.toNat_ofNat', Nat.mod_eq_of_lt (by omega)]

theorem ofNat_eq_iff {n m : Nat} (h : n < 2 ^ 24) (hm : m < 2 ^ 24) : UInt32.ofNat n = UInt32.ofNat m ↔ n = m := by
  rw [← UInt32.toNat_inj, ofNat_toNat h, ofNat_toNat hm]

theorem pad_pos (s : Core) : (s.bit32a &&& 0xFF > 0) ↔ 0 < s.lo := by
  show 0 < s.bit32a &&& 0xFF ↔ _
  rw [UInt32.lt_iff_toNat_lt, lo_and]
  rfl

theorem payload_pos (s : Core) : (s.payloadLength > 0) ↔ 0 < s.hi := by
  show 0 < s.payloadLength ↔ _
  rw [UInt32.lt_iff_toNat_lt, payload_toNat]
  rfl

theorem payload_eq_iff (s : Core) (n : UInt32) : s.payloadLength = n ↔ s.hi = n.toNat := by
  rw [← UInt32.toNat_inj, payload_toNat]

end Verif.Http2
