import Verif.Props.FieldAccept
import Verif.Util.FieldItems

/-!
# C113: the items of a header field, as seen by others

`fieldItems`, `looseName`, `strictName` and `OpenEnd` are defined in `Verif.Util.FieldItemsSpec`.
-/

namespace Verif.Util

/-! ## Helper lemmas -/

theorem strict_loose {z : Bool} {w : Bytes} (h : ∀ b ∈ strictName z w, ¬ Blank b) : looseName z w = strictName z w := by
  have hd : (w.filter fun b => !decide (Blank b)) = (w.dropWhile fun b => decide (Blank b)).filter fun b => !decide (Blank b) := by
    induction w with
    | nil => rfl
    | cons a w ih =>
      by_cases ha : Blank a
      · have h' : strictName z (a :: w) = strictName z w := by
          unfold strictName
          rw [List.dropWhile_cons_of_pos (by simpa using ha)]
        rw [List.dropWhile_cons_of_pos (by simpa using ha), List.filter_cons_of_neg (by simpa using ha)]
        exact ih (by rwa [h'] at h)
      · rw [List.dropWhile_cons_of_neg (by simpa using ha)]
  have hf : ∀ b ∈ w.dropWhile fun b => decide (Blank b), ¬ Blank b := by
    intro b hb hbl
    refine h b ?_ hbl
    unfold strictName
    cases z with
    | false => exact hb
    | true =>
      have hu : ¬ UpperByte b := by rcases hbl with rfl | rfl <;> decide
      have := List.mem_map_of_mem (f := fun b : UInt8 => if UpperByte b then b + 32 else b) hb
      simp only [if_neg hu] at this
      exact this
  unfold looseName strictName
  rw [hd, List.filter_eq_self.2 fun b hb => by simpa using hf b hb]

theorem not_open {z : Bool} {x : Bytes} {c : UInt8} (h : x.getLast? = some c) (hc : ¬ Blank c ∧ c ≠ c! '/' ∧ ¬ UpperByte c) :
    ¬ OpenEnd z x := by
  rintro ⟨y, b, s, rfl, h2, h3⟩
  cases s with
  | nil =>
    rw [List.getLast?_concat] at h
    cases h
    rcases h3 with h3 | ⟨-, h3⟩
    · exact hc.2.1 h3
    · exact hc.2.2 h3
  | cons a s =>
    refine hc.1 (h2 c ?_)
    rw [List.getLast?_append, List.getLast?_cons_cons] at h
    obtain ⟨e, he⟩ : ∃ e, (a :: s).getLast? = some e := ⟨_, List.getLast?_eq_some_getLast (by simp)⟩
    rw [he] at h
    cases h
    exact List.mem_of_getLast? he

/-! ## C113 -/

/-- **C113 (partial).** If a loop over a header field yields items without an error, then a program that reads names up to
`=` or the delimiter, and values as quoted strings or up to the delimiter, finds the same names and values in the same
bytes, if it ignores blanks in names, skips empty items and takes a missing value for an empty one. Missing: if the
field ends with a slash or, with `normalize`, an upper-case letter, others may find one more name at the end
(`C113_fails`). For every delimiter other than `=`, `/`, `"` and a blank. -/
theorem C113_same_items_partial (d : UInt8) (z : Bool) (hd : d ≠ c! '=' ∧ d ≠ c! '/' ∧ ¬ Blank d) (hq : d ≠ c! '"')
    (x : Bytes) (l : List Item) (it' : FieldIter) (h : Yields FieldIter.next (FieldIter.new x d z) l it') (he : it'.errs = []) :
    let found := (l.map fun i => (i.1, i.2.getD [])).filter (· != ([], []))
    (¬ OpenEnd z x → fieldItems (looseName z) d x = found) ∧
    (fieldItems (looseName z) d x = found ∨ ∃ n, fieldItems (looseName z) d x = found ++ [(n, [])]) := by
  intro found
  obtain ⟨m, hm, hi⟩ := items_same hd hq (C58_only_fields_accepted d z x l it' h he)
  have hi' : fieldItems (looseName z) d x = found ++ m := hi x.length (Nat.le_refl _)
  rcases hm with rfl | ⟨n, rfl, ho⟩
  · rw [List.append_nil] at hi'
    exact ⟨fun _ => hi', .inl hi'⟩
  · exact ⟨fun hn => absurd ho hn, .inr ⟨n, hi'⟩⟩

/-- **C113 (partial)**, for programs that do not ignore blanks within names: the same, if the names they find have none. -/
theorem C113_strict_partial (d : UInt8) (z : Bool) (hd : d ≠ c! '=' ∧ d ≠ c! '/' ∧ ¬ Blank d) (hq : d ≠ c! '"')
    (x : Bytes) (l : List Item) (it' : FieldIter) (h : Yields FieldIter.next (FieldIter.new x d z) l it') (he : it'.errs = [])
    (ho : ¬ OpenEnd z x) (hb : ∀ i ∈ fieldItems (strictName z) d x, ∀ b ∈ i.1, ¬ Blank b) :
    fieldItems (strictName z) d x = (l.map fun i => (i.1, i.2.getD [])).filter (· != ([], [])) := by
  rw [← (C113_same_items_partial d z hd hq x l it' h he).1 ho]
  unfold fieldItems at hb ⊢
  congr 1
  refine List.map_congr_left fun i hi => ?_
  have hn : ∀ b ∈ strictName z i.1, ¬ Blank b := by
    by_cases hne : strictName z i.1 = []
    · rw [hne]; simp
    · refine hb (strictName z i.1, i.2) (List.mem_filter.2 ⟨List.mem_map.2 ⟨i, hi, rfl⟩, ?_⟩)
      simp [hne]
  rw [strict_loose hn]

/-- Blanks, a quoted value with escapes and the delimiter, a byte after it, an empty item, an empty value. -/
example : let x := b!"text/html; Q=\"a\\\";b\"!;;c=;d= 1=2 ;e="
    (∃ it', Yields FieldIter.next (FieldIter.new x (c! ';') true)
      [(b!"text/html", none), (b!"q", some b!"a\";b"), ([], none), (b!"c", some []), (b!"d", some b!"1=2 "), (b!"e", none)] it' ∧
      it'.errs = []) ∧
    fieldItems (strictName true) (c! ';') x =
      [(b!"text/html", []), (b!"q", b!"a\";b"), (b!"c", []), (b!"d", b!"1=2 "), (b!"e", [])] ∧ ¬ OpenEnd true x := by
  refine ⟨⟨_, .item rfl (.item rfl (.item rfl (.item rfl (.item rfl (.item rfl (.stop rfl)))))), rfl⟩, by decide +kernel, not_open (c := c! '=') (by decide +kernel) (by decide)⟩

/-- The full claim is false: a last name that ends with an upper-case letter is not reported, and blanks within
names are left out. -/
theorem C113_fails :
    (∃ it', Yields FieldIter.next (FieldIter.new b!"TEXT/HTML" (c! ';') true) [] it' ∧ it'.errs = []) ∧
    fieldItems (looseName true) (c! ';') b!"TEXT/HTML" = [(b!"text/html", [])] ∧
    (∃ it', Yields FieldIter.next (FieldIter.new b!"text/ html" (c! ';') false) [(b!"text/html", none)] it' ∧ it'.errs = []) ∧
    fieldItems (strictName false) (c! ';') b!"text/ html" = [(b!"text/ html", [])] :=
  ⟨⟨_, .stop rfl, rfl⟩, by decide +kernel, ⟨_, .item rfl (.stop rfl), rfl⟩, by decide +kernel⟩

end Verif.Util
