import Verif.Util.ByteLemmas
import Verif.Util.FormSplitSpec
import Verif.Util.QuerySpec

/-!
# The names and values of a form as everybody else finds them

Lemmas for C111.
-/

namespace Verif.Util

theorem formHex_of {b : UInt8} {n : Nat} (h : HexDigit b n) : formHex b = some n := by
  have hn : n < 16 := by
    rcases h with h | h <;> exact (List.getElem?_eq_some_iff.1 h).1
  have key : ∀ b : UInt8, ∀ n : _root_.Fin 16, HexDigit b n → formHex b = some n.1 := by
    apply forall_u8; decide +kernel
  exact key b ⟨n, hn⟩ h

theorem formDecode_of {w n : Bytes} (h : Decodes w n) : formDecode w = n := by
  induction h with
  | nil => rw [formDecode]
  | literal hb _ ih => rw [formDecode, if_neg hb.2.2.1, if_neg hb.2.2.2]; simp only [ih]
  | plus _ ih => rw [formDecode, if_pos rfl, ih]
  | escape h1 h2 _ ih =>
    rw [formDecode, if_neg (by decide), if_pos rfl, formEscape, formHex_of h1, formHex_of h2]
    simp only [Option.bind_some, Option.map_some, List.drop_succ_cons, List.drop_zero, ih]

theorem decodes_empty {w n : Bytes} (h : Decodes w n) : n = [] ↔ w = [] := by
  cases h <;> simp

theorem split_one {sep : UInt8 → Bool} : ∀ {w : Bytes}, (∀ b ∈ w, sep b = false) → splitBy sep w = [w]
  | [], _ => rfl
  | b :: w, h => by
    rw [splitBy, if_neg (by rw [h b (by simp)]; decide), split_one fun c hc => h c (by simp [hc])]

theorem split_more {sep : UInt8 → Bool} {s : UInt8} {x : Bytes} (hs : sep s = true) : ∀ {w : Bytes},
    (∀ b ∈ w, sep b = false) → splitBy sep (w ++ s :: x) = w :: splitBy sep x
  | [], _ => by rw [List.nil_append, splitBy, if_pos hs]
  | b :: w, h => by
    rw [List.cons_append, splitBy, if_neg (by rw [h b (by simp)]; decide), split_more hs fun c hc => h c (by simp [hc])]

theorem both_false {b : UInt8} (h : b ∉ b!"&;") : ampersandOrSemicolon b = false := by
  revert h; revert b; apply forall_u8; decide +kernel

theorem both_true {s : UInt8} (h : s = c! '&' ∨ s = c! ';') : ampersandOrSemicolon s = true := by
  rcases h with rfl | rfl <;> rfl

theorem name_take {w : Bytes} (h : ∀ b ∈ w, b ∉ b!"=&;") :
    (∀ b ∈ w, (b != 61) = true) ∧ ∀ b ∈ w, ampersandOrSemicolon b = false := by
  refine ⟨fun b hb => ?_, fun b hb => both_false fun hm => h b hb (List.mem_cons_of_mem _ hm)⟩
  rw [bne_iff_ne]
  rintro rfl
  exact h _ hb (by decide)

theorem pair_name {esc : Bool} {w n : Bytes} (h : WritesName esc w n) : formPair w = (n, []) := by
  have h1 := (name_take h.2.1).1
  have h2 := List.takeWhile_append_of_pos (l₂ := []) h1
  have h3 := List.dropWhile_append_of_pos (l₂ := []) h1
  rw [List.append_nil, List.takeWhile_nil, List.append_nil] at h2
  rw [List.append_nil, List.dropWhile_nil] at h3
  rw [formPair, h2, h3, formDecode_of h.1, List.drop_nil, formDecode]

theorem pair_both {esc : Bool} {w n u v : Bytes} (h : WritesName esc w n) (hu : Decodes u v) :
    formPair (w ++ c! '=' :: u) = (n, v) := by
  have h1 := (name_take h.2.1).1
  rw [formPair, List.takeWhile_append_of_pos h1, List.dropWhile_append_of_pos h1, List.takeWhile_cons_of_neg (by decide),
    List.dropWhile_cons_of_neg (by decide), List.append_nil, formDecode_of h.1]
  change (n, formDecode u) = _
  rw [formDecode_of hu]

/-- The items as others see them: empty ones do not count, and a missing value is an empty one. -/
theorem pairs_split {esc : Bool} {x : Bytes} {l : List Item} (h : Pairs esc x l) :
    formPairs ampersandOrSemicolon x = (l.filter (· != ([], none))).map fun i => (i.1, i.2.getD []) := by
  induction h with
  | nil => rfl
  | @lastName w n hw hne =>
    have hn : (((n, none) : Item) != ([], none)) = true := by
      rw [bne_iff_ne]
      intro e
      exact hne ((decodes_empty hw.1).1 (congrArg Prod.fst e))
    rw [formPairs, split_one (name_take hw.2.1).2, List.filter_cons_of_pos (by simpa using hne),
      List.filter_cons_of_pos (p := (· != (([], none) : Item))) hn]
    simp [pair_name hw]
  | @lastPair w n u v hw hu =>
    have hs : ∀ b ∈ w ++ c! '=' :: u, ampersandOrSemicolon b = false := by
      intro b hb
      rcases List.mem_append.1 hb with hb | hb
      · exact (name_take hw.2.1).2 b hb
      · rcases List.mem_cons.1 hb with rfl | hb
        · rfl
        · exact both_false (hu.2 b hb)
    rw [formPairs, split_one hs, List.filter_cons_of_pos (by simp)]
    simp [pair_both hw hu.1]
  | @name w n s x l hw hs _ ih =>
    rw [formPairs] at ih ⊢
    rw [split_more (both_true hs) (name_take hw.2.1).2]
    by_cases hne : w = []
    · have hn : n = [] := (decodes_empty hw.1).2 hne
      rw [hne, hn, List.filter_cons_of_neg (by simp), List.filter_cons_of_neg (by simp), ih]
    · have hn : (((n, none) : Item) != ([], none)) = true := by
        rw [bne_iff_ne]
        intro e
        exact hne ((decodes_empty hw.1).1 (congrArg Prod.fst e))
      rw [List.filter_cons_of_pos (by simpa using hne), List.filter_cons_of_pos (p := (· != (([], none) : Item))) hn,
        List.map_cons, List.map_cons, ih, pair_name hw]
      rfl
  | @pair w n u v s x l hw hu hs _ ih =>
    have h1 : ∀ b ∈ w ++ c! '=' :: u, ampersandOrSemicolon b = false := by
      intro b hb
      rcases List.mem_append.1 hb with hb | hb
      · exact (name_take hw.2.1).2 b hb
      · rcases List.mem_cons.1 hb with rfl | hb
        · rfl
        · exact both_false (hu.2 b hb)
    rw [formPairs] at ih ⊢
    rw [split_more (both_true hs) h1, List.filter_cons_of_pos (by simp),
      List.filter_cons_of_pos (p := (· != (([], none) : Item))) (by simp), List.map_cons, List.map_cons, ih, pair_both hw hu.1]
    rfl

/-- Without `;` there is no difference. -/
theorem split_same : ∀ {x : Bytes}, c! ';' ∉ x → splitBy ampersand x = splitBy ampersandOrSemicolon x
  | [], _ => rfl
  | b :: x, h => by
    have e : ampersandOrSemicolon b = ampersand b := by
      have : (b == 59) = false := by
        rw [beq_eq_false_iff_ne]
        rintro rfl
        exact h List.mem_cons_self
      rw [ampersandOrSemicolon, ampersand, this, Bool.or_false]
    rw [splitBy, splitBy, e, split_same fun hm => h (List.mem_cons_of_mem _ hm)]

theorem pairs_same {x : Bytes} (h : c! ';' ∉ x) : formPairs ampersand x = formPairs ampersandOrSemicolon x := by
  rw [formPairs, formPairs, split_same h]

end Verif.Util
