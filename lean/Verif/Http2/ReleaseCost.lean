import Verif.Http2.Cost
import Verif.Http2.ReleaseSpec

/-!
# Helper lemmas: what a tale costs without overflow checks

The lemmas of `Verif.Http2.Cost` for the reader `Release.told`.
-/

namespace Verif.Http2.Release.Cost

/-- The bytes that are left at the end. -/
def left : Option Bytes → Nat
  | some r => r.length
  | none => 0

/-- What `t` tells and leaves is at most `n`. -/
def B (t : Tale) (n : Nat) : Prop := wt 9 0 t.1 + left t.2 ≤ n

variable {t : Tale} {n m : Nat} {r : Bytes}

theorem b_none : B ([], none) n := by simp [B, left, wt_nil]
theorem b_some (es : List Ev) (h : wt 9 0 es + r.length ≤ n) : B (es, some r) n := h

theorem b_tell {es : List Ev} (h : B t m) (hm : wt 9 0 es + m ≤ n) : B (tell es t) n := by
  simp only [B, tell, wt_append] at h ⊢; omega

theorem b_field {size : Nat} {k : Nat → Bytes → Tale} (h : ∀ v s, s.length + size = r.length → B (k v s) n) :
    B (readField size r k) n := by
  unfold readField
  split_ifs
  · exact b_none
  · exact h _ _ (by simp only [List.length_drop]; omega)

theorem b_pad {padded : Bool} {k : Nat → Nat → Bytes → Tale}
    (h : ∀ v p s, s.length ≤ r.length → B (k v p s) n) : B (readPad padded m r k) n := by
  unfold readPad
  split_ifs
  · exact b_field fun v s hs => h _ _ _ (by omega)
  · exact h _ _ _ (Nat.le_refl _)

theorem b_data {k : Kind} {p : Nat} (hn : r.length ≤ n) : B (readData k m p r) n := by
  unfold readData
  generalize (if p ≤ m then m - p else 2 ^ 32 + m - p) = size
  dsimp only
  by_cases h1 : r = []
  · rw [if_pos h1]; exact b_none
  rw [if_neg h1]
  by_cases h2 : r.length < size
  · rw [if_pos h2]; simp only [B, wt_map, left]; omega
  · rw [if_neg h2]
    simp only [B, wt_append, wt_map, left, wt_cons, wt_nil, wt1, List.length_take, List.length_drop, List.length_nil,
      if_true]
    omega

theorem b_body {v : Nat} {ty fl : UInt8} (hn : r.length ≤ n) : B (readBody v ty fl r) n := by
  unfold readBody
  dsimp only
  split
  · exact b_pad fun _ _ _ hs => b_data (by omega)
  · refine b_pad fun v' _ s hs => ?_
    by_cases hp : (fl &&& 0x20 == 0x20) = true
    · rw [if_pos hp]
      exact b_field fun _ s' hs' => b_field fun _ s'' hs'' =>
        b_tell (b_data (Nat.le_refl _)) (by simp [wt_cons, wt_nil, wt1]; omega)
    · rw [if_neg hp]
      refine b_tell (b_data (Nat.le_refl _)) ?_
      split_ifs
      · simp [wt_cons, wt_nil, wt1]; omega
      · simp only [wt_nil]; omega
  · exact b_field fun _ s hs => b_field fun _ s' hs' => b_some _ (by simp [wt_cons, wt_nil, wt1]; omega)
  · exact b_field fun _ s hs => b_some _ (by simp [wt_cons, wt_nil, wt1]; omega)
  · exact b_field fun _ s hs => b_field fun _ s' hs' => b_some _ (by simp [wt_cons, wt_nil, wt1]; omega)
  · refine b_pad fun _ _ s hs => b_field fun _ s' hs' => ?_
    split_ifs
    · exact b_none
    · exact b_tell (b_data (Nat.le_refl _)) (by simp [wt_cons, wt_nil, wt1]; omega)
  · exact b_data (by omega)
  · refine b_field fun _ s hs => b_field fun _ s' hs' => ?_
    split_ifs
    · exact b_tell (b_some [] (n := s'.length) (by simp [wt_nil])) (by simp [wt_cons, wt_nil, wt1]; omega)
    · exact b_tell (b_data (Nat.le_refl _)) (by simp [wt_cons, wt_nil, wt1]; omega)
  · exact b_field fun _ s hs => b_some _ (by simp [wt_cons, wt_nil, wt1]; omega)
  · exact b_data (by omega)
  · exact b_pad fun _ _ _ hs => b_data (by omega)

theorem b_frame (r : Bytes) : B (readFrame r) r.length := by
  unfold readFrame
  refine b_field fun _ s hs => b_field fun _ s' hs' => b_field fun _ s'' hs'' => b_field fun _ s3 hs3 => ?_
  exact b_tell (m := s3.length) (b_body (Nat.le_refl _)) (by simp [wt_cons, wt_nil, wt1]; omega)

theorem wt_frames : ∀ (k : Nat) (m : Bytes), wt 9 0 (readFrames k m) ≤ m.length
  | 0, _ => by simp [readFrames, wt_nil]
  | k + 1, m => by
    have H := b_frame m
    rw [readFrames]
    generalize readFrame m = t at H
    obtain ⟨es, a⟩ := t
    cases a with
    | none => simpa only [B, left, Nat.add_zero] using H
    | some r =>
      simp only [B, left] at H
      have := wt_frames k r
      simp only [wt_append]
      omega

end Verif.Http2.Release.Cost
