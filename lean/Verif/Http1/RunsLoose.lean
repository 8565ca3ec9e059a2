import Verif.Http1.Inv

/-!
# Runs of the reference machine over everything that is accepted, and over beginnings of messages
(helper lemmas)
-/

set_option linter.unusedSimpArgs false
set_option linter.unusedVariables false

namespace Verif.Http1

variable {env : Env} {tr L : List Ev} {s s1 : AS} {m r : Bytes}

/-! ## More bytes -/

theorem pred_le : ∀ (m : Bytes) (tr : List Ev) (s : AS), tr <+: (pred env tr s m).1
  | [], tr, s => by simp [pred]
  | b :: m, tr, s => by
    simp only [pred]
    split
    · simp
    · cases hb : bstep env (norm env tr s).2 b with
      | next es s' =>
        simp only
        exact List.IsPrefix.trans (by rw [List.append_assoc]; exact List.prefix_append _ _) (pred_le m _ s')
      | err es e => simp
      | errB => simp
      | panic => simp

/-- How a run goes on when `z` follows. -/
theorem pred_append (z : Bytes) : ∀ (m : Bytes) (tr : List Ev) (s : AS),
    match pred env tr s m with
    | (L, .finished r) => pred env tr s (m ++ z) = (L, .finished (r ++ z))
    | (L, .err e r) => pred env tr s (m ++ z) = (L, .err e (r ++ z))
    | (L, .errB r) => pred env tr s (m ++ z) = (L, .errB (r ++ z))
    | (L, .panic) => pred env tr s (m ++ z) = (L, .panic)
    | (L, .eos) => L <+: (pred env tr s (m ++ z)).1
  | [], tr, s => by
    by_cases h : (norm env tr s).2 = .fin
    · simp only [pred, h, if_true, List.nil_append]
      cases z with
      | nil => simp [pred, h]
      | cons b z => simp [pred, h]
    · simp only [pred, h, if_false, List.nil_append]
      cases z with
      | nil => simp [pred]
      | cons b z =>
        simp only [pred, h, if_false]
        cases hb : bstep env (norm env tr s).2 b with
        | next es s' =>
          simp only
          exact List.IsPrefix.trans (List.prefix_append _ _) (pred_le z _ s')
        | err es e => simp
        | errB => simp
        | panic => simp
  | b :: m, tr, s => by
    by_cases h : (norm env tr s).2 = .fin
    · simp [pred, h]
    · simp only [pred, h, if_false, List.cons_append]
      cases hb : bstep env (norm env tr s).2 b with
      | next es s' => exact pred_append z m _ s'
      | err es e => simp
      | errB => simp
      | panic => simp

/-- A beginning of a message that is read to its very end. -/
theorem pred_cutoff {z : Bytes} (hz : z ≠ []) (h : pred env tr s (m ++ z) = (L, .finished [])) :
    ∃ L', pred env tr s m = (L', .eos) ∧ L' <+: L := by
  have := pred_append (env := env) z m tr s
  rcases hp : pred env tr s m with ⟨L', f⟩
  rw [hp] at this
  cases f with
  | eos => simp only [h] at this; exact ⟨L', rfl, this⟩
  | finished r => simp only [h, Prod.mk.injEq, Fin.finished.injEq] at this; simp [hz] at this
  | err e r => simp [h] at this
  | errB r => simp [h] at this
  | panic => simp [h] at this

/-- A complete run over a message that is not complete. -/
theorem complete_eos {I : World → Bytes → Prop} {K : List Ev × Fin} {o : Outcome} (H : DriveSim I K o)
    (hc : o.complete) (hK : K = (tr, .eos)) : o.last = .eos ∧ flat o.world.log = tr ∧ o.rest = [] := by
  obtain ⟨la, wo, re⟩ := o
  subst hK
  cases la <;> simp only [Outcome.complete] at hc <;> simp only [DriveSim] at H
  · have := H.2 hc
    simp only [Prod.mk.injEq] at this
    exact ⟨rfl, this.1.symm, hc⟩
  · simp at H
  · rcases H with ⟨d, _, H⟩ | ⟨H, _⟩ <;> simp at H
  · simp at H

/-! ## Lines and heads -/

theorem runs_line {x : Line} (h : x.OK) : Runs env .hdrCr2 x.write (flat x.events) .hdrCr2 := by
  cases x with
  | field n bl v =>
    obtain ⟨h1, h2, h3, h4⟩ := h
    have hn : Runs env .hdrCr2 (n ++ b!":") ((Verif.lower n).map fun b => .headerName [b]) .hdrStrip := by
      cases n with
      | nil => exact Runs.byte (s := .hdrCr2) (s' := .hdrStrip) (b := c! ':') (fun _ => rfl) nofun (by rfl)
      | cons a n =>
        exact Runs.eq ((runs_name ⟨by simp, h1⟩ (.inl rfl)).trans
          (Runs.byte (s := .hdrName) (s' := .hdrStrip) (b := c! ':') (es := []) (fun _ => rfl) nofun (by rfl)))
          rfl (by simp)
    have hb : Runs env .hdrStrip bl (bl.flatMap fun _ => []) .hdrStrip := by
      refine Runs.loop (s := .hdrStrip) (ev := fun _ => []) (fun _ => rfl) nofun fun b hb => ?_
      rcases h2 b hb with hb | hb <;> subst hb <;> rfl
    refine Runs.eq (((hn.trans hb).trans (runs_value h3 h4)).trans runs_crlf) ?_ ?_
    · simp [Line.write]
    · simp [Line.events, flat, flatEv, hv]
  | fold b v =>
    obtain ⟨h1, h2⟩ := h
    have h3 : Runs env .hdrCr2 [b] [] .hdrVal := by
      refine Runs.byte (fun _ => rfl) nofun ?_
      rcases h1 with h1 | h1 <;> subst h1 <;> rfl
    exact Runs.eq (Runs.cons h3 ((runs_field h2).trans runs_crlf)) (by simp [Line.write])
      (by simp [hv, Line.events, flat, flatEv])

theorem runs_lines : ∀ ls : List Line, (∀ x ∈ ls, x.OK) →
    Runs env .hdrCr2 (ls.flatMap Line.write) (flat (ls.flatMap Line.events)) .hdrCr2
  | [], _ => .refl _
  | x :: l, h => Runs.eq ((runs_line (h x (by simp))).trans (runs_lines l fun y hy => h y (by simp [hy])))
      (by simp) (by simp [flat])

/-- Lines and the empty line. -/
theorem runs_lines_end (ls : List Line) (h : ∀ x ∈ ls, x.OK) :
    Runs env .hdrCr2 (ls.flatMap Line.write ++ b!"\r\n") (flat (ls.flatMap Line.events)) .hdrEnd :=
  Runs.eq ((runs_lines ls h).trans (Runs.cons
    (Runs.byte (s' := .hdrLf2) (b := c! '\r') (es := []) (fun _ => rfl) nofun (by rfl))
    (Runs.byte (s' := .hdrEnd) (b := c! '\n') (es := []) (fun _ => rfl) nofun (by rfl)))) rfl (by simp)

end Verif.Http1
