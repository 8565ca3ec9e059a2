import Verif.Http1.Start

/-!
# More bytes after the end of a run

What the reference machine predicts for `msg ++ x`, given its prediction for `msg`. Used by C82 and
C83.
-/

namespace Verif.Http1

variable {env : Env}

/-- `K'` is the prediction `K` after `x` was added to the message. -/
def KMore (x : Bytes) (K K' : List Ev × Fin) : Prop :=
  match K.2 with
  | .eos => K.1 <+: K'.1
  | .finished r => K' = (K.1, .finished (r ++ x))
  | .err e r => K' = (K.1, .err e (r ++ x))
  | .errB r => K' = (K.1, .errB (r ++ x))
  | .panic => K' = (K.1, .panic)

theorem pred_more (x : Bytes) : ∀ (r : Bytes) (tr : List Ev) (s : AS),
    KMore x (pred env tr s r) (pred env tr s (r ++ x))
  | [], tr, s => by
    simp only [pred, List.nil_append]
    by_cases hf : (norm env tr s).2 = .fin
    · simp only [hf, if_true, KMore, List.nil_append]
      cases x <;> simp [pred, hf]
    · simp only [hf, if_false, KMore]
      cases x with
      | nil => simp [pred]
      | cons b x =>
        simp only [pred, hf, if_false]
        cases hb : bstep env (norm env tr s).2 b with
        | next es s' => exact (List.prefix_append _ es).trans (pred_prefix _ _ _)
        | err es e => exact List.prefix_append _ _
        | errB => exact List.prefix_refl _
        | panic => exact List.prefix_refl _
  | b :: r, tr, s => by
    rw [List.cons_append]
    simp only [pred]
    by_cases hf : (norm env tr s).2 = .fin
    · simp [hf, KMore]
    · simp only [hf, if_false]
      cases hb : bstep env (norm env tr s).2 b with
      | next es s' => exact pred_more x r _ _
      | err es e => simp [KMore]
      | errB => simp [KMore]
      | panic => simp [KMore]

theorem endU_more {L : Nat} {msg x : Bytes} {K K' : List Ev × Fin}
    (h : KMore (x.take (L - msg.length)) K K') (h' : L ≤ msg.length → K' = K) :
    KMore x (endU L msg K) (endU L (msg ++ x) K') := by
  by_cases hL : L ≤ msg.length
  · have h1 := h' hL
    subst h1
    obtain ⟨tr, f⟩ := K'
    have hd : (msg ++ x).drop L = msg.drop L ++ x := List.drop_append_of_le_length hL
    have hl : L ≤ (msg ++ x).length := by rw [List.length_append]; omega
    cases f <;> simp [endU, hL, hl, hd, KMore] <;> omega
  · have hd : msg.drop L = [] := List.drop_eq_nil_of_le (by omega)
    have hx : (msg ++ x).drop L = x.drop (L - msg.length) := by
      rw [List.drop_append, hd, List.nil_append]
    obtain ⟨tr, f⟩ := K
    cases f
    case eos =>
      have h2 : tr <+: K'.1 := h
      simp only [endU, hL, if_false, KMore]
      exact h2.trans (endU_prefix _ _ _)
    all_goals
      simp only [KMore] at h
      subst h
      simp [endU, hd, hx, KMore, List.append_assoc, List.take_append_drop]

theorem startK_more (env : Env) (w : World) (msg x : Bytes) :
    KMore x (startK env w msg) (startK env w (msg ++ x)) := by
  unfold startK
  split
  · unfold predU
    have e : (msg ++ x).take w.p.length = msg.take w.p.length ++ x.take (w.p.length - msg.length) :=
      List.take_append
    refine endU_more ?_ fun hL => ?_
    · rw [e]; exact pred_more _ _ _ _
    · rw [e, Nat.sub_eq_zero_of_le hL, List.take_zero, List.append_nil]
  · exact pred_more _ _ _ _

end Verif.Http1
