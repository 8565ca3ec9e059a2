import Verif.Util.CostSpec
import Mathlib.Tactic.SplitIfs

/-!
# Helper lemmas: what an iterator produces
-/

namespace Verif.Util.Read

variable {E : Type}

/-- What is read and what is left fits into `N` bytes; the delimiter after the last item may be missing. -/
def Fits (N : Nat) : Got E → Prop
  | .item i s => 1 + itemSize i + s.length ≤ N + if s = [] then 1 else 0
  | .wrong _ s => s.length + 1 ≤ N
  | _ => True

theorem cost_calls {read : Bool → Bytes → Got E} (h0 : ∀ f, read f [] = .nothing)
    (h1 : ∀ f x, x ≠ [] → Fits x.length (read f x)) : ∀ (n : Nat) (f : Bool) (x : Bytes),
    itemBytes (calls read n f x) + itemCount (calls read n f x) + errorCount (calls read n f x) ≤
      x.length + if x = [] then 0 else 1
  | 0, f, x => by simp [calls, itemBytes, itemCount, errorCount]
  | n + 1, f, x => by
    by_cases hx : x = []
    · subst hx
      have := cost_calls h0 h1 n false []
      simp only [calls, h0, itemBytes, itemCount, errorCount] at this ⊢
      simpa using this
    · have H := h1 f x hx
      rw [if_neg hx]
      unfold calls
      generalize read f x = g at H
      cases g with
      | item i r =>
        have := cost_calls h0 h1 n false r
        simp only [itemBytes, itemCount, errorCount, Fits, List.length_nil] at this H ⊢
        split_ifs at this H
        · rename_i hr; subst hr; simp only [List.length_nil] at *; omega
        · omega
      | wrong e r =>
        have := cost_calls h0 h1 n false r
        simp only [itemBytes, itemCount, errorCount, Fits, List.length_cons, List.length_nil] at this H ⊢
        split_ifs at this <;> omega
      | nothing =>
        have := cost_calls h0 h1 n false []
        simp only [itemBytes, itemCount, errorCount, List.length_nil, if_true] at this ⊢
        omega
      | crash => simp [itemBytes, itemCount, errorCount]

/-! ## Fields -/

variable {N : Nat}

theorem drop_le (p : UInt8 → Bool) (r : Bytes) : (r.dropWhile p).length ≤ r.length :=
  (List.dropWhile_sublist p).length_le

theorem fits_end {i : Item} (h : itemSize i ≤ N) : Fits (E := E) N (.item i []) := by
  simp [Fits]; omega

theorem fits_item {i : Item} {s : Bytes} (h : 1 + itemSize i + s.length ≤ N) : Fits (E := E) N (.item i s) := by
  simp only [Fits]; omega

theorem fits_wrong {e : E} {s : Bytes} (h : s.length + 1 ≤ N) : Fits N (.wrong e s) := h

theorem size_some (n v : Bytes) : itemSize (n, some v) = n.length + v.length := rfl
theorem size_none (n : Bytes) : itemSize (n, none) = n.length := rfl

theorem fits_after {d : UInt8} {n v r : Bytes} (h : n.length + v.length + r.length + 1 ≤ N) :
    Fits N (afterQuoted d n v r) := by
  have := drop_le (fun b => decide (Blank b)) r
  unfold afterQuoted
  split
  · rename_i hd
    rw [hd] at this
    simp only [List.length_cons] at this
    split_ifs
    · exact fits_item (by rw [size_some]; omega)
    · exact fits_wrong (by simp; omega)
  · exact fits_end (by rw [size_some]; omega)

theorem fits_quoted {d : UInt8} {n : Bytes} : ∀ (r : Bytes) (p : UInt8) (v : Bytes),
    n.length + v.length + r.length + 1 ≤ N → Fits N (quotedValue d n p r v)
  | [], p, v, h => fits_wrong (by simp; omega)
  | [b], p, v, h => by
    unfold quotedValue
    split_ifs
    · trivial
    · exact fits_after (by simp at h ⊢; omega)
    · exact fits_wrong (by simp; omega)
    · exact fits_quoted [] _ _ (by simp at h ⊢; omega)
    · exact fits_wrong (by simp; omega)
  | b :: e :: r, p, v, h => by
    unfold quotedValue
    simp only [List.length_cons] at h
    split_ifs
    · trivial
    · exact fits_after (by simp; omega)
    · exact fits_quoted r _ _ (by simp; omega)
    · exact fits_quoted (e :: r) _ _ (by simp; omega)
    · exact fits_wrong (by simp; omega)

theorem fits_plain {d : UInt8} {n : Bytes} : ∀ (r v : Bytes),
    n.length + v.length + r.length + 1 ≤ N → Fits N (plainValue d n r v)
  | [], v, h => fits_end (by rw [size_some]; simp at h; omega)
  | b :: r, v, h => by
    unfold plainValue
    simp only [List.length_cons] at h
    split_ifs
    · trivial
    · exact fits_item (by rw [size_some]; omega)
    · exact fits_plain r _ (by simp; omega)
    · exact fits_wrong (by simp; omega)

theorem fits_value {d : UInt8} {n r : Bytes} (h : n.length + r.length + 1 ≤ N) : Fits N (fieldValue d n r) := by
  have := drop_le (fun b => decide (Blank b)) r
  unfold fieldValue
  split
  · exact fits_end (by rw [size_none]; omega)
  · rename_i hd
    rw [hd] at this
    simp only [List.length_cons] at this
    split_ifs
    · exact fits_quoted _ _ _ (by simp; omega)
    · exact fits_plain _ _ (by simp; omega)

theorem fits_field {d : UInt8} {z : Bool} : ∀ (r : Bytes) (l : Bool) (n : Bytes),
    n.length + r.length ≤ N → Fits N (fieldItem d z l r n)
  | [], l, n, h => by
    unfold fieldItem
    split_ifs
    · trivial
    · exact fits_end (by rw [size_none]; omega)
  | b :: r, l, n, h => by
    unfold fieldItem
    simp only [List.length_cons] at h
    split_ifs
    · exact fits_field r _ _ (by omega)
    · trivial
    · exact fits_value (by omega)
    · exact fits_field r _ _ (by simp; omega)
    · exact fits_item (by rw [size_none]; omega)
    · exact fits_field r _ _ (by simp [Verif.lower]; omega)
    · exact fits_field r _ _ (by simp; omega)
    · exact fits_wrong (by simp; omega)

/-! ## Queries -/

theorem fits_qvalue {n : Bytes} (r v : Bytes) (h : n.length + v.length + r.length + 1 ≤ N) :
    Fits N (queryValue n r v) := by
  induction hk : r.length using Nat.strongRecOn generalizing r v with
  | _ k ih =>
    subst hk
    match r with
    | [] => unfold queryValue; exact fits_end (by rw [size_some]; simp at h; omega)
    | b :: r =>
      simp only [List.length_cons] at h ih
      have ih' : ∀ w : Bytes, w.length ≤ 1 → Fits N (queryValue n r (v ++ w)) := fun w hw =>
        ih r.length (by omega) r _ (by simp only [List.length_append]; omega) rfl
      unfold queryValue
      by_cases hp : b = c! '%'
      · rw [if_pos hp]
        split
        · exact fits_wrong (by simp; omega)
        · exact fits_wrong (by simp; omega)
        · rename_i x y r'
          simp only [List.length_cons] at h ih
          split
          · exact fits_wrong (by simp; omega)
          · exact fits_wrong (by omega)
          · exact ih r'.length (by omega) r' _ (by simp; omega) rfl
      · rw [if_neg hp]
        split_ifs
        · exact ih' _ (by simp)
        · exact fits_item (by rw [size_some]; omega)
        · exact ih' _ (by simp)
        · exact fits_wrong (by simp; omega)

theorem fits_qname : ∀ (r : Bytes) (f : Bool) (n : Bytes), n.length + r.length ≤ N → Fits N (queryName f r n)
  | [], f, n, h => by unfold queryName; exact fits_end (by rw [size_none]; simp at h; omega)
  | b :: r, f, n, h => by
    simp only [List.length_cons] at h
    unfold queryName
    by_cases hp : b = c! '%'
    · rw [if_pos hp]
      split
      · exact fits_wrong (by simp; omega)
      · exact fits_wrong (by simp; omega)
      · simp only [List.length_cons] at h
        split
        · exact fits_wrong (by simp; omega)
        · exact fits_wrong (by omega)
        · exact fits_wrong (by simp; omega)
    · rw [if_neg hp]
      split_ifs
      · exact fits_qname r _ _ (by simp; omega)
      · exact fits_wrong (by simp; omega)
      · exact fits_qvalue r _ (by simp; omega)
      · exact fits_wrong (by simp; omega)
      · exact fits_item (by rw [size_none]; omega)
      · exact fits_qname r _ _ (by simp; omega)
      · exact fits_wrong (by simp; omega)

end Verif.Util.Read
