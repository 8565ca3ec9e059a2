import Verif.Http1.InvMp
import Verif.Http1.Viable

/-!
# Every beginning of a multipart body that is not rejected can be completed (helper lemmas)
-/

set_option linter.unusedSimpArgs false
set_option linter.unusedVariables false

namespace Verif.Http1

variable {env : Env} {bd : Bytes}

/-- States of multipart bodies. -/
def AS.part : AS → Bool
  | .initialLf | .hdrFirst | .hdrName | .hdrStrip | .hdrVal | .hdrQuot | .hdrEsc | .hdrCr1 | .hdrLf1 | .hdrCr2 | .hdrLf2
  | .hdrCheck | .hdrEnd | .hyphen1 _ | .hyphen2 _ | .bound _ _ | .boundCr | .boundLf | .mpDetect | .mpLen _ | .mpLenCr
  | .mpLenLf | .mpByte | .mpByteLf | .mpEnd | .bodyFin | .fin => true
  | _ => false

theorem part_mpLen (n : Nat) : (mpLen' n).part = true := by unfold mpLen'; split <;> rfl

theorem part_mpData (c : Option Nat) : (mpData c).part = true := by
  cases c with
  | none => rfl
  | some n => exact part_mpLen n

theorem part_norm (hb : env.boundary = some bd) {tr : List Ev} {s : AS} (h : s.part = true) :
    (norm env tr s).2.part = true := by
  cases s <;> simp only [AS.part] at h <;> (try cases h) <;> simp only [norm, hb] <;> (try rfl)
  · cases he : env.ptype <;> first | exact part_mpData _ | rfl
  · split <;> rfl
  · exact part_mpData _
  · exact part_mpLen _

theorem part_step (hb : env.boundary = some bd) {s s' : AS} {b : UInt8} {es : List Ev} (h : s.part = true)
    (hs : bstep env s b = .next es s') : s'.part = true := by
  cases s <;> simp only [AS.part] at h <;> (try cases h) <;>
    simp only [bstep, hb, bExpect, bHdrName, bHdrFirst, bHdrCheck, bHdrVal, bHdrQuot, bStrip, bMpByte] at hs <;>
    (repeat' split at hs) <;> first
      | (simp only [BRes.pre, BRes.next.injEq] at hs; rw [← hs.2]; rfl)
      | (simp only [BRes.pre] at hs; cases hs)
      | cases hs

theorem part_err (hb : env.boundary = some bd) {s : AS} {b : UInt8} {es : List Ev} {e : PErr} (h : s.part = true)
    (hs : bstep env s b = .err es e) : e.byte = some b := by
  cases s <;> simp only [AS.part] at h <;> (try cases h) <;>
    simp only [bstep, hb, bExpect, bHdrName, bHdrFirst, bHdrCheck, bHdrVal, bHdrQuot, bStrip, bMpByte] at hs <;>
    (repeat' split at hs) <;> first
      | (simp only [BRes.pre, BRes.err.injEq] at hs; rw [← hs.2]; rfl)
      | (simp only [BRes.pre] at hs; cases hs)
      | cases hs

section
variable (hb : env.boundary = some bd) (hp : env.ptype = .multipart)

include hb hp

theorem viable_bodyFin : Viable env .bodyFin := fun tr => ⟨[], _, by simp [pred, norm]; rfl⟩
theorem viable_mpEnd : Viable env .mpEnd := Viable.byte (c! '-') (fun _ => rfl) nofun rfl (viable_bodyFin hb hp)
theorem viable_boundCr : Viable env .boundCr := Viable.byte (c! '-') (fun _ => rfl) nofun rfl (viable_mpEnd hb hp)
theorem viable_bound (e : Bool) (i : Nat) : Viable env (.bound e i) := by
  have he : ∀ i, bd.length ≤ i → Viable env (.bound e i) := fun i hi =>
    Viable.eps (es := []) (s' := .boundCr) (fun _ => by simp [norm, hb, hi]) (fun _ => rfl) (viable_boundCr hb hp)
  have hl : ∀ n i, bd.length - i ≤ n → Viable env (.bound e i) := by
    intro n
    induction n with
    | zero => intro i hi; exact he i (by omega)
    | succ n ih =>
      intro i hi
      rcases Nat.lt_or_ge i bd.length with h | h
      · refine Viable.byte (es := []) (s' := .bound e (i + 1)) bd[i] (norm_bound hb h) nofun ?_ (ih _ (by omega))
        simp [bstep, hb, List.getElem?_eq_getElem h]
      · exact he i h
  exact hl _ i (Nat.le_refl _)
theorem viable_hyphen2 (e : Bool) : Viable env (.hyphen2 e) := Viable.byte (c! '-') (fun _ => rfl) nofun rfl (viable_bound hb hp e 0)
theorem viable_hyphen1 (e : Bool) : Viable env (.hyphen1 e) := Viable.byte (c! '-') (fun _ => rfl) nofun rfl (viable_hyphen2 hb hp e)
theorem viable_mpLenLf : Viable env .mpLenLf := Viable.byte (c! '\n') (fun _ => rfl) nofun rfl (viable_hyphen1 hb hp true)
theorem viable_mpLenCr : Viable env .mpLenCr := Viable.byte (c! '\r') (fun _ => rfl) nofun rfl (viable_mpLenLf hb hp)
theorem viable_mpLen : ∀ n, Viable env (.mpLen n)
  | 0 => Viable.eps (fun _ => rfl) (fun _ => rfl) (viable_mpLenCr hb hp)
  | n + 1 => Viable.byte (s' := .mpLen n) 0 (fun _ => rfl) nofun rfl (viable_mpLen n)
theorem viable_mpByteLf : Viable env .mpByteLf := Viable.byte (c! '\n') (fun _ => rfl) nofun rfl (viable_hyphen1 hb hp false)
theorem viable_mpByte : Viable env .mpByte := Viable.byte (c! '\r') (fun _ => rfl) nofun rfl (viable_mpByteLf hb hp)
theorem viable_mpData (c : Option Nat) : Viable env (mpData c) := by
  cases c with
  | none => exact viable_mpByte hb hp
  | some n =>
    intro tr
    obtain ⟨z, L, h⟩ := viable_mpLen hb hp n tr
    exact ⟨z, L, by rw [← h, ← pred_mpLen]; rfl⟩
theorem viable_mpDetect : Viable env .mpDetect := by
  intro tr
  obtain ⟨z, L, h⟩ := viable_mpData hb hp (env.cl tr) tr
  refine ⟨z, L, ?_⟩
  have hid := norm_idem env tr .mpDetect
  rw [pred_eps (show norm env tr .mpDetect = ([], mpData (env.cl tr)) from rfl) hid, ← h]
  simp
theorem viable_partEnd : Viable env .hdrEnd := by
  intro tr
  obtain ⟨z, L, h⟩ := viable_mpData hb hp (env.cl (tr ++ [.headersFinished])) (tr ++ [.headersFinished])
  have hn : norm env tr .hdrEnd = ([.headersFinished], mpData (env.cl (tr ++ [.headersFinished]))) := by simp [norm, hp]
  have hid := norm_idem env tr .hdrEnd
  rw [hn] at hid
  exact ⟨z, L, by rw [pred_eps hn hid, h]⟩
theorem viable_partLf2 : Viable env .hdrLf2 := Viable.byte (c! '\n') (fun _ => rfl) nofun rfl (viable_partEnd hb hp)
theorem viable_partCr2 : Viable env .hdrCr2 := Viable.byte (c! '\r') (fun _ => rfl) nofun rfl (viable_partLf2 hb hp)
theorem viable_partLf1 : Viable env .hdrLf1 := Viable.byte (c! '\n') (fun _ => rfl) nofun rfl (viable_partCr2 hb hp)
theorem viable_partCr1 : Viable env .hdrCr1 := Viable.byte (c! '\r') (fun _ => rfl) nofun rfl (viable_partLf1 hb hp)
theorem viable_partVal : Viable env .hdrVal := Viable.byte (c! '\r') (fun _ => rfl) nofun rfl (viable_partLf1 hb hp)
theorem viable_partQuot : Viable env .hdrQuot := Viable.byte (c! '"') (fun _ => rfl) nofun rfl (viable_partVal hb hp)
theorem viable_partEsc : Viable env .hdrEsc := Viable.byte (c! 'a') (fun _ => rfl) nofun rfl (viable_partQuot hb hp)
theorem viable_partStrip : Viable env .hdrStrip := Viable.byte (c! 'a') (fun _ => rfl) nofun rfl (viable_partVal hb hp)
theorem viable_partName : Viable env .hdrName := Viable.byte (c! ':') (fun _ => rfl) nofun rfl (viable_partStrip hb hp)
theorem viable_partFirst : Viable env .hdrFirst := Viable.byte (c! 'a') (fun _ => rfl) nofun rfl (viable_partName hb hp)
theorem viable_partCheck : Viable env .hdrCheck := Viable.byte (c! 'a') (fun _ => rfl) nofun rfl (viable_partName hb hp)
theorem viable_partLf : Viable env .initialLf := Viable.byte (c! '\n') (fun _ => rfl) nofun rfl (viable_partCr2 hb hp)
theorem viable_boundLf : Viable env .boundLf := Viable.byte (c! '\n') (fun _ => rfl) nofun rfl (viable_partCheck hb hp)

theorem viable_part {s : AS} (h : s.part = true) : Viable env s := by
  cases s <;> simp only [AS.part] at h <;> (try cases h)
  all_goals first
    | exact viable_fin
    | exact viable_partEnd hb hp
    | exact viable_partLf2 hb hp
    | exact viable_partCr2 hb hp
    | exact viable_partLf1 hb hp
    | exact viable_partCr1 hb hp
    | exact viable_partVal hb hp
    | exact viable_partQuot hb hp
    | exact viable_partEsc hb hp
    | exact viable_partStrip hb hp
    | exact viable_partName hb hp
    | exact viable_partFirst hb hp
    | exact viable_partCheck hb hp
    | exact viable_partLf hb hp
    | exact viable_boundLf hb hp
    | exact viable_boundCr hb hp
    | exact viable_bound hb hp _ _
    | exact viable_hyphen1 hb hp _
    | exact viable_hyphen2 hb hp _
    | exact viable_mpDetect hb hp
    | exact viable_mpLen hb hp _
    | exact viable_mpLenCr hb hp
    | exact viable_mpLenLf hb hp
    | exact viable_mpByte hb hp
    | exact viable_mpByteLf hb hp
    | exact viable_mpEnd hb hp
    | exact viable_bodyFin hb hp

/-- A beginning that is not rejected can be completed. -/
theorem pred_viable_part : ∀ (m : Bytes) (tr : List Ev) (s : AS), s.part = true → (pred env tr s m).2 = .eos →
    ∃ z L, pred env tr s (m ++ z) = (L, .finished [])
  | [], tr, s, hs, _ => viable_part hb hp hs tr
  | b :: m, tr, s, hs, h => by
    by_cases hf : (norm env tr s).2 = .fin
    · simp [pred, hf] at h
    · simp only [pred, if_neg hf, List.cons_append] at h ⊢
      cases hs' : bstep env (norm env tr s).2 b with
      | next es s' =>
        simp only [hs'] at h ⊢
        exact pred_viable_part m _ s' (part_step hb (part_norm hb hs) hs') h
      | err es e => simp [hs'] at h
      | errB => simp [hs'] at h
      | panic => simp [hs'] at h

/-- An error comes at the first byte with which the body cannot be completed. -/
theorem pred_blame_part : ∀ (m : Bytes) (tr : List Ev) (s : AS) (L : List Ev) (f : Fin), s.part = true →
    pred env tr s m = (L, f) → (∃ e r, f = .err e r) ∨ (∃ r, f = .errB r) → ∃ y b r, m = y ++ b :: r ∧ (pred env tr s y).2 = .eos ∧
      ((∃ e, f = .err e r ∧ e.byte = some b ∧ ∀ z, pred env tr s (y ++ b :: z) = (L, .err e z)) ∨
        f = .errB r ∧ ∀ z, pred env tr s (y ++ b :: z) = (L, .errB z))
  | [], tr, s, L, f, hs, h, hf => by
    simp only [pred] at h
    split at h <;> (simp only [Prod.mk.injEq] at h; obtain ⟨-, rfl⟩ := h; simp at hf)
  | b :: m, tr, s, L, f, hs, h, he => by
    by_cases hf : (norm env tr s).2 = .fin
    · simp only [pred, hf, if_true, Prod.mk.injEq] at h
      obtain ⟨-, rfl⟩ := h
      simp at he
    · simp only [pred, if_neg hf, List.cons_append] at h ⊢
      cases hs' : bstep env (norm env tr s).2 b with
      | next es s' =>
        simp only [hs'] at h ⊢
        obtain ⟨y, b', r, h1, h2, h3⟩ := pred_blame_part m _ s' L f (part_step hb (part_norm hb hs) hs') h he
        refine ⟨b :: y, b', r, by rw [h1]; rfl, ?_, ?_⟩
        · simp only [pred, if_neg hf, hs']; exact h2
        · simpa only [List.cons_append, pred, if_neg hf, hs'] using h3
      | err es e =>
        simp only [hs', Prod.mk.injEq] at h
        obtain ⟨rfl, rfl⟩ := h
        exact ⟨[], b, m, rfl, by simp [pred, hf],
          .inl ⟨e, rfl, part_err hb (part_norm hb hs) hs', fun z => by simp [pred, hf, hs']⟩⟩
      | errB =>
        simp only [hs', Prod.mk.injEq] at h
        obtain ⟨rfl, rfl⟩ := h
        exact ⟨[], b, m, rfl, by simp [pred, hf], .inr ⟨rfl, fun z => by simp [pred, hf, hs']⟩⟩
      | panic =>
        simp only [hs', Prod.mk.injEq] at h
        obtain ⟨-, rfl⟩ := h
        simp at he

end

end Verif.Http1
