import Verif.Http1.SimMp
import Mathlib.Tactic.Linarith

/-!
# Simulation: URL-encoded bodies (helper lemmas)
-/

set_option linter.unusedSimpArgs false

namespace Verif.Http1

variable {env : Env} {fut : Bytes} {K : List Ev × Fin} {h : Handler} {c : Cfg}

theorem uName_cases : ∀ b : UInt8, bUName b ≠ .errB ∧ bUName b ≠ .panic := by
  apply forall_u8; decide +kernel

theorem pred_uFirst (tr : List Ev) (b : UInt8) (r : Bytes) :
    pred env tr .uFirst (b :: r) = pred env (tr ++ [.urlEncodedBegin]) .uName (b :: r) := by
  have h1 : bstep env .uFirst b = (bUName b).pre [.urlEncodedBegin] := rfl
  have h2 : bstep env .uName b = bUName b := rfl
  have n1 : norm env tr .uFirst = ([], .uFirst) := rfl
  have n2 : norm env (tr ++ [.urlEncodedBegin]) .uName = ([], .uName) := rfl
  simp only [pred, n1, n2, h1, h2, reduceCtorEq, ↓reduceIte, List.append_nil]
  cases hm : bUName b with
  | next es s' => simp [BRes.pre]
  | err es e => simp [BRes.pre]
  | errB => exact absurd hm (uName_cases b).1
  | panic => exact absurd hm (uName_cases b).2

theorem sim_first_url_encoded_name (H : Pre env fut K c .firstUrlEncodedName) :
    SimOK env fut K (flat c.log) (first_url_encoded_name h c) := by
  have hK := H.start rfl
  unfold first_url_encoded_name exitIfEos
  refine sim_ite (fun h0 => ?_) (fun h0 => ?_)
  · refine sim_exitEos (H.goodX (fun _ => trivial) nofun) hK ?_
    simp [Quiet, abs, H.fn, norm]
  · simp only [abs, H.fn] at hK
    obtain ⟨b, r, hr⟩ : ∃ b r, c.ctx.rest = b :: r := by
      cases hr : c.ctx.rest with
      | nil => rw [avail_rest, hr] at h0; simp at h0
      | cons b r => exact ⟨b, r, rfl⟩
    refine sim_callbackData ⟨trivial, trivial, nofun⟩ ?_
    show pred env _ .uName (c.ctx.rest ++ fut) = _
    rw [hr, List.cons_append] at hK ⊢
    rw [pred_uFirst] at hK
    exact hK

theorem sim_url_encoded_name (H : Pre env fut K c .urlEncodedName) :
    SimOK env fut K (flat c.log) (url_encoded_name h c) := by
  unfold url_encoded_name Ctx.collectVisible7bit
  refine H.collect (s := .uName) (mk := .urlEncodedName) (.inr rfl)
    (fun _ => trivial) nofun (by simp [abs, H.fn]) (fun _ => rfl) nofun isMk_urlEncodedName ?_ ?_
  · intro b
    have hb := (forall_u8 (P := fun b =>
      (!isVisible7bit b || (b == c! '%' || b == c! '+' || b == c! '=' || b == c! '&' || b == c! ';'))
        = false → bUName b = .next [.urlEncodedName [b]] .uName) (by decide +kernel)) b
    simp only [bstep]
    by_cases hc : (!isVisible7bit b || (b == c! '%' || b == c! '+' || b == c! '=' || b == c! '&' || b == c! ';')) = true
    · simp only [if_pos hc]
    · simp only [if_neg hc]
      exact hb (Bool.not_eq_true _ ▸ hc)
  · intro x d b post B hb hK
    simp only [pred, norm, bstep, bUName, reduceCtorEq, ↓reduceIte, List.append_nil] at hK
    refine sim_ite (fun h1 => ?_) (fun h1 => ?_) <;> rw [if_byte B] at h1 <;>
      simp only [h1, reduceCtorEq, ↓reduceIte, List.append_nil, Bool.false_eq_true] at hK
    · exact brk_ignore B isMk_urlEncodedName trivial (fun _ => trivial) nofun hK
    refine sim_ite (fun h2 => ?_) (fun h2 => ?_) <;> rw [if_byte B] at h2 <;>
      simp only [h2, reduceCtorEq, ↓reduceIte, List.append_nil, Bool.false_eq_true] at hK
    · exact brk_ignore B isMk_urlEncodedName trivial (fun _ => trivial) nofun hK
    refine sim_ite (fun h3 => ?_) (fun h3 => ?_) <;> rw [if_byte B] at h3 <;>
      simp only [h3, reduceCtorEq, ↓reduceIte, List.append_nil, Bool.false_eq_true] at hK
    · exact brk_ignore B isMk_urlEncodedName trivial (fun _ => trivial) nofun hK
    refine sim_ite (fun h4 => ?_) (fun h4 => ?_) <;> rw [if_byte B] at h4 <;>
      simp only [h4, reduceCtorEq, ↓reduceIte, List.append_nil, Bool.false_eq_true] at hK
    · exact brk_ignore B isMk_urlEncodedName trivial (fun _ => trivial) nofun hK
    · have h5 : isVisible7bit b = false := by
        cases hv : isVisible7bit b
        · rfl
        · simp only [Bool.not_eq_true] at h1 h2 h3 h4
          simp only [Bool.or_eq_false_iff] at h4
          simp [hv, h1, h2, h3, h4] at hb
      simp only [h5, Bool.false_eq_true, ↓reduceIte] at hK
      rw [if_byte B]; exact brk_err B isMk_urlEncodedName (by simpa using hK)

theorem sim_url_encoded_value (H : Pre env fut K c .urlEncodedValue) :
    SimOK env fut K (flat c.log) (url_encoded_value h c) := by
  unfold url_encoded_value Ctx.collectVisible7bit
  refine H.collect (s := .uVal) (mk := .urlEncodedValue) (.inr rfl)
    (fun _ => trivial) nofun (by simp [abs, H.fn]) (fun _ => rfl) nofun isMk_urlEncodedValue ?_ ?_
  · intro b
    have hb := (forall_u8 (P := fun b =>
      (!isVisible7bit b || (b == c! '%' || b == c! '+' || b == c! '&' || b == c! ';'))
        = false → bUVal b = .next [.urlEncodedValue [b]] .uVal) (by decide +kernel)) b
    simp only [bstep]
    by_cases hc : (!isVisible7bit b || (b == c! '%' || b == c! '+' || b == c! '&' || b == c! ';')) = true
    · simp only [if_pos hc]
    · simp only [if_neg hc]
      exact hb (Bool.not_eq_true _ ▸ hc)
  · intro x d b post B hb hK
    simp only [pred, norm, bstep, bUVal, reduceCtorEq, ↓reduceIte, List.append_nil] at hK
    refine sim_ite (fun h1 => ?_) (fun h1 => ?_) <;> rw [if_byte B] at h1 <;>
      simp only [h1, reduceCtorEq, ↓reduceIte, List.append_nil, Bool.false_eq_true] at hK
    · exact brk_ignore B isMk_urlEncodedValue trivial (fun _ => trivial) nofun hK
    refine sim_ite (fun h2 => ?_) (fun h2 => ?_) <;> rw [if_byte B] at h2 <;>
      simp only [h2, reduceCtorEq, ↓reduceIte, List.append_nil, Bool.false_eq_true] at hK
    · exact brk_ignore B isMk_urlEncodedValue trivial (fun _ => trivial) nofun hK
    refine sim_ite (fun h3 => ?_) (fun h3 => ?_) <;> rw [if_byte B] at h3 <;>
      simp only [h3, reduceCtorEq, ↓reduceIte, List.append_nil, Bool.false_eq_true] at hK
    · exact brk_ignore B isMk_urlEncodedValue trivial (fun _ => trivial) nofun hK
    · have h5 : isVisible7bit b = false := by
        cases hv : isVisible7bit b
        · rfl
        · simp only [Bool.not_eq_true] at h1 h2 h3
          simp only [Bool.or_eq_false_iff] at h2
          simp [hv, h1, h2, h3] at hb
      simp only [h5, Bool.false_eq_true, ↓reduceIte] at hK
      rw [if_byte B]; exact brk_err B isMk_urlEncodedValue (by simpa using hK)

theorem hexDigit_lt : ∀ b d : UInt8, hexDigit b = some d → d < 16 := by
  intro b
  have := (forall_u8 (P := fun b => ((hexDigit b).all fun d => d < 16) = true) (by decide +kernel)) b
  intro d hd
  rw [hd] at this
  simpa using this

theorem u8_u32_u8 (x : UInt8) : x.toUInt32.toUInt8 = x := by
  simp

theorem shift_lt : ∀ d : UInt8, (d <<< 4).toUInt32.toNat < 16384 := by
  intro d
  have := (d <<< 4).toNat_lt
  simp only [UInt8.toNat_toUInt32]
  omega

theorem u8_lt14 (d : UInt8) : d.toUInt32.toNat < 16384 := by
  have := d.toNat_lt
  simp only [UInt8.toNat_toUInt32]
  omega

theorem or_u8 (a : UInt32) (d : UInt8) : (a ||| d.toUInt32).toUInt8 = a.toUInt8 ||| d := by
  simp

theorem sim_url_encoded_name_hex1 (H : Pre env fut K c .urlEncodedNameHex1) :
    SimOK env fut K (flat c.log) (url_encoded_name_hex1 c) := by
  unfold url_encoded_name_hex1
  sim_read1
  simp only [adv_byte]
  cases hd : hexDigit b with
  | none =>
    simp only [hd, List.append_nil] at hK ⊢
    exact sim_err hK.symm
  | some d =>
    simp only [hd, List.append_nil] at hK ⊢
    refine sim_transition ⟨trivial, trivial, nofun⟩ ?_
    show pred env _ (.uNameH2 (getUpper14 (setUpper14 c.p (d <<< 4).toUInt32)).toUInt8) _ = _
    rw [getUpper14_setUpper14 _ (shift_lt d), u8_u32_u8]
    exact hK

theorem sim_url_encoded_value_hex1 (H : Pre env fut K c .urlEncodedValueHex1) :
    SimOK env fut K (flat c.log) (url_encoded_value_hex1 c) := by
  unfold url_encoded_value_hex1
  sim_read1
  simp only [adv_byte]
  cases hd : hexDigit b with
  | none =>
    simp only [hd, List.append_nil] at hK ⊢
    exact sim_err hK.symm
  | some d =>
    simp only [hd, List.append_nil] at hK ⊢
    refine sim_transition ⟨trivial, trivial, nofun⟩ ?_
    show pred env _ (.uValH2 (getUpper14 (setUpper14 c.p (d <<< 4).toUInt32)).toUInt8) _ = _
    rw [getUpper14_setUpper14 _ (shift_lt d), u8_u32_u8]
    exact hK

theorem sim_url_encoded_name_hex2 (H : Pre env fut K c .urlEncodedNameHex2) :
    SimOK env fut K (flat c.log) (url_encoded_name_hex2 h c) := by
  unfold url_encoded_name_hex2
  sim_read1
  simp only [adv_byte]
  cases hd : hexDigit b with
  | none =>
    simp only [hd, List.append_nil] at hK ⊢
    exact sim_err hK.symm
  | some d =>
    simp only [hd, List.append_nil] at hK ⊢
    refine sim_callbackTransitionData ⟨trivial, trivial, nofun⟩ ?_
    show pred env (_ ++ flatEv (.urlEncodedName [(getUpper14 (setLower14 c.p d.toUInt32) |||
      getLower14 (setLower14 c.p d.toUInt32)).toUInt8])) _ _ = _
    rw [getUpper14_setLower14 _ (u8_lt14 d), getLower14_setLower14 _ (u8_lt14 d), or_u8]
    exact hK

theorem sim_url_encoded_value_hex2 (H : Pre env fut K c .urlEncodedValueHex2) :
    SimOK env fut K (flat c.log) (url_encoded_value_hex2 h c) := by
  unfold url_encoded_value_hex2
  sim_read1
  simp only [adv_byte]
  cases hd : hexDigit b with
  | none =>
    simp only [hd, List.append_nil] at hK ⊢
    exact sim_err hK.symm
  | some d =>
    simp only [hd, List.append_nil] at hK ⊢
    refine sim_callbackTransitionData ⟨trivial, trivial, nofun⟩ ?_
    show pred env (_ ++ flatEv (.urlEncodedValue [(getUpper14 (setLower14 c.p d.toUInt32) |||
      getLower14 (setLower14 c.p d.toUInt32)).toUInt8])) _ _ = _
    rw [getUpper14_setLower14 _ (u8_lt14 d), getLower14_setLower14 _ (u8_lt14 d), or_u8]
    exact hK

theorem sim_url_encoded_name_plus (H : Pre env fut K c .urlEncodedNamePlus) :
    SimOK env fut K (flat c.log) (url_encoded_name_plus h c) := by
  have hK := H.start rfl
  simp only [abs, H.fn] at hK
  unfold url_encoded_name_plus
  refine sim_callbackTransitionData ⟨trivial, trivial, nofun⟩ ?_
  rw [pred_eps (es := [.urlEncodedName b!" "]) (s1 := .uName) rfl rfl] at hK
  exact hK

theorem sim_url_encoded_value_plus (H : Pre env fut K c .urlEncodedValuePlus) :
    SimOK env fut K (flat c.log) (url_encoded_value_plus h c) := by
  have hK := H.start rfl
  simp only [abs, H.fn] at hK
  unfold url_encoded_value_plus
  refine sim_callbackTransitionData ⟨trivial, trivial, nofun⟩ ?_
  rw [pred_eps (es := [.urlEncodedValue b!" "]) (s1 := .uVal) rfl rfl] at hK
  exact hK

end Verif.Http1
