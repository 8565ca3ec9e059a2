import Verif.Http1.SimCall
import Verif.Http1.Client
import Mathlib.Tactic.Linarith

/-!
# Client runs (helper lemmas)
-/

set_option linter.unusedSimpArgs false
set_option linter.unusedVariables false

namespace Verif.Http1

variable {env : Env} {fut : Bytes} {K : List Ev × Fin} {h : Handler} {c : Cfg}

/-! ## Client runs -/

/-- What a client run tells about the prediction `K`. -/
def DriveSim (Inv : World → Bytes → Prop) (K : List Ev × Fin) (o : Outcome) : Prop :=
  match o.last with
  | .idle | .callback => Inv o.world o.rest
  | .eos => Inv o.world o.rest ∧ (o.rest = [] → K = (flat o.world.log, .eos))
  | .finished => K = (flat o.world.log, .finished o.rest)
  | .err e =>
    (∃ d, isData d = true ∧ K = (flat o.world.log ++ flatEv d, .err e o.rest)) ∨
      ((∃ r, r <:+ o.rest ∧ K = (flat o.world.log, .errB r)) ∧ ∃ b, e = .multipartBoundary b)
  | .panic => ∃ d, isData d = true ∧ K = (flat o.world.log ++ flatEv d, .panic)
  | .ub | .diverge => False

theorem drive_call {Inv : World → Bytes → Prop}
    (ih : ∀ last w rem, last = .callback ∨ last = .eos → Inv w rem →
      (last = .eos → rem = [] → K = (flat w.log, .eos)) →
      DriveSim Inv K (drive h last ks w rem))
    {last : End} {k : Nat} {w : World} {rem : Bytes}
    (hc : CallSim Inv w (rem.take k) (rem.drop k) K (resume h w (rem.take k))) :
    DriveSim Inv K (drive h last (k :: ks) w rem) := by
  simp only [drive]
  revert hc
  generalize hr : resume h w (rem.take k) = r
  clear hr
  obtain ⟨r, w'⟩ := r
  intro hc
  have hcat : rem.take k ++ rem.drop k = rem := List.take_append_drop k rem
  cases r with
  | ok s =>
    cases s with
    | callback n =>
      have := hc.2
      rw [hcat] at this
      exact ih _ _ _ (.inl rfl) this nofun
    | eos n =>
      obtain ⟨h1, h2, h3⟩ := hc
      have e : rem.drop n = rem.drop k := by
        rw [h1, List.length_take]
        rcases Nat.le_total k rem.length with h | h
        · rw [Nat.min_eq_left h]
        · rw [Nat.min_eq_right h, List.drop_length, List.drop_of_length_le h]
      simp only [e]
      exact ih _ _ _ (.inr rfl) h2 fun _ => h3
    | finished n =>
      have := hc.2
      rw [hcat] at this
      exact this
  | err e => 
    have h1 : (∃ d, isData d = true ∧ K = (flat w'.log ++ flatEv d,
      .err e ((rem.take k ++ rem.drop k).drop (w'.p.byteCount - w.p.byteCount)))) ∨
      ((∃ r, r <:+ (rem.take k ++ rem.drop k).drop (w'.p.byteCount - w.p.byteCount) ∧ K = (flat w'.log, .errB r)) ∧ ∃ b, e = .multipartBoundary b) := hc
    rw [hcat] at h1
    exact h1
  | panic => exact hc
  | ub => exact hc
  | diverge => exact hc

theorem drive_sim {Inv : World → Bytes → Prop}
    (hstep : ∀ w s fut, Inv w (s ++ fut) → CallSim Inv w s fut K (resume h w s)) :
    ∀ (ks : List Nat) (last : End) (w : World) (rem : Bytes),
    last = .idle ∨ last = .callback ∨ last = .eos → Inv w rem →
    (last = .eos → rem = [] → K = (flat w.log, .eos)) →
    DriveSim Inv K (drive h last ks w rem)
  | [], last, w, rem, hl, hi, he => by
    rcases hl with rfl | rfl | rfl
    · exact hi
    · exact hi
    · exact ⟨hi, he rfl⟩
  | k :: ks, last, w, rem, _, hi, _ => by
    refine drive_call (fun last w rem hl => drive_sim hstep ks last w rem (.inr hl)) ?_
    exact hstep _ _ _ (by rw [List.take_append_drop]; exact hi)

/-- The invariant between calls, in every mode. -/
def Inv (env : Env) (K : List Ev × Fin) (w : World) (m : Bytes) : Prop :=
  if env.ptype = .urlEncoded then WOKU env w m K else WOK env w m K

/-- The start of a run in every mode. -/
def Start (env : Env) (K : List Ev × Fin) (w : World) (s fut : Bytes) : Prop :=
  if env.ptype = .urlEncoded then WOKU env w (s ++ fut) K else WStart env w s fut K

theorem Inv.start {w : World} {s : Bytes} (H : Inv env K w (s ++ fut)) : Start env K w s fut := by
  unfold Inv at H
  unfold Start
  split
  · rename_i h; rwa [if_pos h] at H
  · rename_i h; rw [if_neg h] at H; exact H.start

theorem call_sim (hB : BdOK env) (hC : ClOK env h) {w : World} {s : Bytes}
    (H : Start env K w s fut) : CallSim (Inv env K) w s fut K (resume h w s) := by
  unfold Start at H
  have hi : Inv env K = if env.ptype = .urlEncoded then (fun w m => WOKU env w m K)
      else (fun w m => WOK env w m K) := by
    funext w m
    unfold Inv
    split <;> rfl
  rw [hi]
  split
  · rename_i h1
    rw [if_pos h1] at H
    exact call_resumeU hB hC h1 H
  · rename_i h1
    rw [if_neg h1] at H
    exact call_resume hB hC (by rw [H.ptype]; exact h1) H

/-- A client run from the start of a message. -/
theorem run_sim (hB : BdOK env) (hC : ClOK env h) {w : World} {msg : Bytes} (k : Nat)
    (ks : List Nat) (H : Start env K w (msg.take k) (msg.drop k)) :
    DriveSim (Inv env K) K (drive h .idle (k :: ks) w msg) :=
  drive_call (fun last w rem hl => drive_sim (fun _ _ _ hi => call_sim hB hC hi.start) ks last w rem
    (.inr hl)) (call_sim hB hC H)

/-! ## Two runs -/

theorem agree_of_sim {I : World → Bytes → Prop} {a b : Outcome} (ha : DriveSim I K a)
    (hb : DriveSim I K b) (ca : a.complete) (cb : b.complete) : Agree a b := by
  obtain ⟨la, wa, ra⟩ := a
  obtain ⟨lb, wb, rb⟩ := b
  cases la <;> simp only [Outcome.complete] at ca <;> cases lb <;>
    simp only [Outcome.complete] at cb <;> simp only [DriveSim] at ha hb <;> simp only [Agree]
  case eos.eos =>
    have ha := ha.2 ca
    have hb := hb.2 cb
    rw [ha] at hb
    simp only [Prod.mk.injEq] at hb
    exact ⟨hb.1, by rw [ca, cb]⟩
  case finished.finished =>
    rw [ha] at hb
    simp only [Prod.mk.injEq, Fin.finished.injEq] at hb
    exact hb
  case err.err =>
    rcases ha with ⟨d, hd, ha⟩ | ⟨⟨_, -, ha⟩, hx⟩ <;> rcases hb with ⟨d', hd', hb⟩ | ⟨⟨_, -, hb⟩, hx'⟩ <;>
      rw [ha] at hb <;> simp only [Prod.mk.injEq, Fin.err.injEq, reduceCtorEq, and_false] at hb
    · exact .inl ⟨hb.2.1, hb.2.2, d, d', hd, hd', hb.1⟩
    · exact .inr ⟨hb.1, hx, hx'⟩
  case eos.finished => have ha := ha.2 ca; rw [ha] at hb; simp at hb
  case finished.eos => have hb := hb.2 cb; rw [ha] at hb; simp at hb
  case eos.err =>
    have ha := ha.2 ca
    rcases hb with ⟨d', hd', hb⟩ | ⟨⟨_, -, hb⟩, hx'⟩ <;> rw [ha] at hb <;> simp at hb
  case err.eos =>
    have hb := hb.2 cb
    rcases ha with ⟨d', hd', ha⟩ | ⟨⟨_, -, ha⟩, hx'⟩ <;> rw [ha] at hb <;> simp at hb
  case eos.panic => have ha := ha.2 ca; rw [ha] at hb; simp at hb
  case panic.eos => have hb := hb.2 cb; rw [hb] at ha; simp at ha
  case panic.panic =>
    obtain ⟨d, hd, ha⟩ := ha
    obtain ⟨d', hd', hb⟩ := hb
    rw [ha] at hb
    simp only [Prod.mk.injEq, and_true] at hb
    exact ⟨d, d', hd, hd', hb⟩
  case finished.err =>
    rcases hb with ⟨d', hd', hb⟩ | ⟨⟨_, -, hb⟩, hx'⟩ <;> rw [ha] at hb <;> simp at hb
  case err.finished =>
    rcases ha with ⟨d', hd', ha⟩ | ⟨⟨_, -, ha⟩, hx'⟩ <;> rw [ha] at hb <;> simp at hb
  case finished.panic => rw [ha] at hb; simp at hb
  case panic.finished => rw [hb] at ha; simp at ha
  case err.panic =>
    rcases ha with ⟨d', hd', ha⟩ | ⟨⟨_, -, ha⟩, hx'⟩ <;> rw [ha] at hb <;> simp at hb
  case panic.err =>
    rcases hb with ⟨d', hd', hb⟩ | ⟨⟨_, -, hb⟩, hx'⟩ <;> rw [hb] at ha <;> simp at ha

/-! ## Prefixes -/

theorem Inv.prefix {w : World} {m : Bytes} (H : Inv env K w m) : flat w.log <+: K.1 := by
  unfold Inv at H
  split at H
  · rw [← H.K, predU]
    exact (pred_prefix _ _ _).trans (endU_prefix _ _ _)
  · rw [← H.K]
    exact pred_prefix _ _ _

theorem DriveSim.prefix {o : Outcome} (H : DriveSim (Inv env K) K o) :
    flat o.world.log <+: K.1 := by
  obtain ⟨l, w, r⟩ := o
  cases l <;> simp only [DriveSim] at H
  case idle => exact H.prefix
  case callback => exact H.prefix
  case eos => exact H.1.prefix
  case finished => rw [H]; exact List.prefix_refl _
  case err =>
    rcases H with ⟨d, -, H⟩ | ⟨⟨_, -, H⟩, -⟩ <;> rw [H]
    · exact List.prefix_append _ _
    · exact List.prefix_refl _
  case panic =>
    obtain ⟨d, -, H⟩ := H
    rw [H]
    exact List.prefix_append _ _

/-! ## Starting points -/

theorem flat_flat (l : List Ev) : flat (flat l) = flat l := by
  induction l with
  | nil => rfl
  | cons e l ih =>
    have h1 : ∀ e, flat (flatEv e) = flatEv e := by
      intro e
      cases e <;> simp [flat, flatEv, Function.comp_def, List.flatMap_map] <;>
        exact (List.map_eq_flatMap ..).symm
    have h2 : flat (e :: l) = flatEv e ++ flat l := by simp [flat]
    rw [h2]
    have h3 : ∀ a b : List Ev, flat (a ++ b) = flat a ++ flat b := by intro a b; simp [flat]
    rw [h3, h1, ih]

end Verif.Http1
