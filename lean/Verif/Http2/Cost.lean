import Verif.Http2.CostSpec
import Verif.Http2.CutSpec
import Verif.Http2.Drive
import Mathlib.Tactic.SplitIfs

/-!
# Helper lemmas: what a tale costs

A byte of payload counts 1, a frame header counts `a`, any other callback and the end of a payload count `b`.
-/

namespace Verif.Http2

/-- The weight of a callback. -/
def wt1 (a b : Nat) : Ev → Nat
  | .payload _ d f => d.length + if f then b else 0
  | .frameFormat .. => a
  | _ => b

/-- The weight of a history. -/
def wt (a b : Nat) (l : List Ev) : Nat := (l.map (wt1 a b)).sum

variable {a b : Nat}

theorem wt_nil : wt a b [] = 0 := rfl
theorem wt_cons (e : Ev) (l : List Ev) : wt a b (e :: l) = wt1 a b e + wt a b l := by simp [wt]
theorem wt_append (l m : List Ev) : wt a b (l ++ m) = wt a b l + wt a b m := by simp [wt]

theorem wt_map (k : Kind) : ∀ d : Bytes, wt a b (d.map fun x => .payload k [x] false) = d.length
  | [] => rfl
  | x :: d => by rw [List.map_cons, wt_cons, wt_map k d]; simp [wt1, Nat.add_comm]

theorem wt_flatEv (e : Ev) : wt a b (flatEv e) = wt1 a b e := by
  cases e with
  | payload k d f => cases f <;> simp [flatEv, wt_append, wt_map, wt_cons, wt_nil, wt1]
  | _ => simp [flatEv, wt_cons, wt_nil]

theorem wt_flat : ∀ l : List Ev, wt a b (flat l) = wt a b l
  | [] => rfl
  | e :: l => by
    have : wt a b (flat l) = wt a b l := wt_flat l
    simp only [flat, List.flatMap_cons, wt_append, wt_flatEv, wt_cons] at this ⊢
    omega

theorem wt_handed : ∀ l : List Ev, wt 9 0 l = handed l + 9 * frames l
  | [] => rfl
  | e :: l => by
    have := wt_handed l
    rw [wt_cons, this]
    cases e <;> simp [wt1, handed, frames, Ev.size, Ev.isFrame, List.countP_cons] <;> omega

theorem wt_length : ∀ l : List Ev, GoodLog l → l.length + 6 * frames l ≤ wt 7 1 l
  | [], _ => Nat.le_refl _
  | e :: l, hg => by
    have h1 := wt_length l fun x hx => hg x (by simp [hx])
    have h2 := hg e (by simp)
    rw [wt_cons]
    cases e with
    | payload k d f =>
      have : 1 ≤ wt1 7 1 (.payload k d f) := by
        cases f
        · have : d ≠ [] := h2 rfl
          have := List.length_pos_iff.2 this
          simp [wt1]; omega
        · simp [wt1]
      simp [frames, Ev.isFrame] at h1 ⊢; omega
    | _ => simp [wt1, frames, Ev.isFrame, List.countP_cons] at h1 ⊢; omega

/-- The bytes that are left at the end. -/
def left : After → Nat
  | .go r => r.length
  | _ => 0

/-- What `t` tells and leaves is at most `n`. -/
def B (a b : Nat) (t : Tale) (n : Nat) : Prop := wt a b t.1 + left t.2 ≤ n

variable {t : Tale} {n m : Nat} {r : Bytes}

theorem B.mono (h : B a b t m) (hm : m ≤ n) : B a b t n := Nat.le_trans h hm

theorem b_stop : B a b ([], .stop) n := by simp [B, left, wt_nil]
theorem b_panic : B a b ([], .panic) n := by simp [B, left, wt_nil]
theorem b_go (es : List Ev) (h : wt a b es + r.length ≤ n) : B a b (es, .go r) n := h

theorem b_tell {es : List Ev} (h : B a b t m) (hm : wt a b es + m ≤ n) : B a b (tell es t) n := by
  simp only [B, tell, wt_append] at h ⊢; omega

theorem b_field {size : Nat} {k : Nat → Bytes → Tale} (h : ∀ v s, s.length + size = r.length → B a b (k v s) n) :
    B a b (readField size r k) n := by
  unfold readField
  split_ifs
  · exact b_stop
  · exact h _ _ (by simp only [List.length_drop]; omega)

theorem b_pad {padded : Bool} {k : Nat → Nat → Bytes → Tale}
    (h : ∀ v p s, s.length ≤ r.length → B a b (k v p s) n) : B a b (readPad padded m r k) n := by
  unfold readPad
  by_cases hp : padded = true
  · rw [if_pos hp]
    refine b_field fun v s hs => ?_
    split_ifs
    · exact b_panic
    · exact h _ _ _ (by omega)
  · rw [if_neg hp]
    exact h _ _ _ (Nat.le_refl _)

theorem b_data {k : Kind} {p : Nat} (hn : r.length + b ≤ n) : B a b (readData k m p r) n := by
  unfold readData
  split_ifs
  · exact b_stop
  · exact b_panic
  · simp only [B, wt_map, left]; omega
  · simp only [B, wt_append, wt_map, left, wt_cons, wt_nil, wt1, List.length_take, List.length_drop, List.length_nil,
      if_true]
    omega

theorem b_body {v : Nat} {ty fl : UInt8} (hb : b ≤ 2) (hn : r.length + 2 * b ≤ n) : B a b (readBody v ty fl r) n := by
  unfold readBody
  dsimp only
  split
  · exact b_pad fun _ _ _ hs => b_data (by omega)
  · refine b_pad fun v' _ s hs => ?_
    by_cases hp : (fl &&& 0x20 == 0x20) = true
    · rw [if_pos hp]
      refine b_field fun _ s' hs' => b_field fun _ s'' hs'' => ?_
      split_ifs
      · exact b_panic
      · exact b_tell (b_data (Nat.le_refl _)) (by simp [wt_cons, wt_nil, wt1]; omega)
    · rw [if_neg hp]
      refine b_tell (b_data (Nat.le_refl _)) ?_
      split_ifs
      · simp [wt_cons, wt_nil, wt1]; omega
      · simp only [wt_nil]; omega
  · exact b_field fun _ s hs => b_field fun _ s' hs' => b_go _ (by simp [wt_cons, wt_nil, wt1]; omega)
  · exact b_field fun _ s hs => b_go _ (by simp [wt_cons, wt_nil, wt1]; omega)
  · exact b_field fun _ s hs => b_field fun _ s' hs' => b_go _ (by simp [wt_cons, wt_nil, wt1]; omega)
  · refine b_pad fun _ _ s hs => b_field fun _ s' hs' => ?_
    split_ifs
    · exact b_stop
    · exact b_panic
    · exact b_tell (b_data (Nat.le_refl _)) (by simp [wt_cons, wt_nil, wt1]; omega)
  · exact b_data (by omega)
  · refine b_field fun _ s hs => b_field fun _ s' hs' => ?_
    split_ifs
    · exact b_panic
    · exact b_tell (b_go [] (n := s'.length) (by simp [wt_nil])) (by simp [wt_cons, wt_nil, wt1]; omega)
    · exact b_tell (b_data (Nat.le_refl _)) (by simp [wt_cons, wt_nil, wt1]; omega)
  · exact b_field fun _ s hs => b_go _ (by simp [wt_cons, wt_nil, wt1]; omega)
  · exact b_data (by omega)
  · exact b_pad fun _ _ _ hs => b_data (by omega)

theorem b_frame (marks : List Nat) (pos : Nat) (r : Bytes) (hb : b ≤ 2) (hab : a + 2 * b ≤ 9) :
    B a b (readFrameC marks pos r) r.length := by
  unfold readFrameC
  refine b_field fun _ s hs => b_field fun _ s' hs' => b_field fun _ s'' hs'' => b_field fun _ s3 hs3 => ?_
  refine b_tell (m := s3.length + 2 * b) ?_ (by simp [wt_cons, wt_nil, wt1]; omega)
  split_ifs
  · exact b_stop
  · exact b_body hb (Nat.le_refl _)

theorem wt_frames (marks : List Nat) (hb : b ≤ 2) (hab : a + 2 * b ≤ 9) : ∀ (k pos : Nat) (m : Bytes),
    wt a b (readFramesC marks k pos m).1 ≤ m.length
  | 0, _, _ => by simp [readFramesC, wt_nil]
  | k + 1, pos, m => by
    have H := b_frame marks pos m hb hab
    unfold readFramesC
    unfold B at H
    split
    · rename_i h; rw [h] at H; simp only [left] at H; omega
    · rename_i h; rw [h] at H; simp only [left] at H; omega
    · rename_i es r h
      rw [h] at H
      simp only [left] at H
      have := wt_frames marks hb hab k (pos + (m.length - r.length)) r
      simp only [wt_append]
      omega

theorem drive_good {h : Handler} : ∀ (ks : List Nat) (last : End) (sts : List Stop) (w : World) (rem : Bytes),
    w.p.st ≠ .dead → w.p.st ≠ .finished → GoodLog w.log → GoodLog (drive h last sts ks w rem).world.log
  | [], _, _, w, rem, _, _, hg => hg
  | k :: ks, last, sts, w, rem, hd, hf, hg => by
    have hc := call_T (h := h) (s := rem.take k) hd hf hg
    rw [drive]
    generalize resume h w (rem.take k) = o at hc
    obtain ⟨r, w'⟩ := o
    cases r with
    | ok su =>
      cases su with
      | eos n => exact drive_good ks _ _ _ _ hc.2.2.2.2.1 hc.2.2.2.2.2 hc.2.2.1
      | callback n => exact drive_good ks _ _ _ _ hc.2.2.2.2.1 hc.2.2.2.2.2 hc.2.2.1
      | finished n => exact hc.elim
    | err => exact hc.elim
    | panic => exact hc
    | diverge => exact hc.elim

end Verif.Http2
