import Verif.Http1.EndSpec
import Verif.Http1.LooseSpec

/-!
# Helper lemmas: where a head of the grammar ends
-/

namespace Verif.Http1

/-- Text within a line. -/
def Unbroken (s : Bytes) : Prop := ∀ b ∈ s, b ≠ 13 ∧ b ≠ 10

theorem Unbroken.append {s t : Bytes} (h1 : Unbroken s) (h2 : Unbroken t) : Unbroken (s ++ t) := by
  intro b hb
  rcases List.mem_append.1 hb with hb | hb
  · exact h1 b hb
  · exact h2 b hb

theorem Unbroken.cons {b : UInt8} {t : Bytes} (h1 : b ≠ 13 ∧ b ≠ 10) (h2 : Unbroken t) : Unbroken (b :: t) := by
  intro c hc
  rcases List.mem_cons.1 hc with rfl | hc
  · exact h1
  · exact h2 c hc

theorem Unbroken.nil : Unbroken [] := nofun

theorem after_cons {b : UInt8} {t : Bytes} (h : b ≠ 13) : afterEmptyLine (b :: t) = afterEmptyLine t := by
  rw [afterEmptyLine]
  exact fun _ e _ => h e

theorem after_line : ∀ {s : Bytes} (t : Bytes), Unbroken s → afterEmptyLine (s ++ t) = afterEmptyLine t
  | [], _, _ => rfl
  | b :: s, t, h => by
    rw [List.cons_append, after_cons (h b (by simp)).1, after_line t fun c hc => h c (by simp [hc])]

theorem after_break {b : UInt8} {t : Bytes} (h : b ≠ 13) : afterEmptyLine (13 :: 10 :: b :: t) = afterEmptyLine (b :: t) := by
  rw [afterEmptyLine]
  · rw [after_cons (by decide)]
  · intro r _ e
    simp only [List.cons.injEq] at e
    exact h e.2.1

/-- Lines that are not empty, and an empty line. -/
theorem after_lines (r : Bytes) : ∀ (ls : List Bytes), (∀ s ∈ ls, Unbroken s ∧ s ≠ []) →
    afterEmptyLine (13 :: 10 :: (ls.flatMap (· ++ [13, 10]) ++ 13 :: 10 :: r)) = some r
  | [], _ => rfl
  | s :: ls, h => by
    obtain ⟨h1, h2⟩ := h s (by simp)
    have ih := after_lines r ls fun s hs => h s (by simp [hs])
    cases s with
    | nil => exact absurd rfl h2
    | cons b s =>
      rw [List.flatMap_cons, List.append_assoc, List.append_assoc, List.cons_append, after_break (h1 b (by simp)).1,
        ← List.cons_append, after_line _ h1]
      exact ih

theorem only_line : ∀ {s : Bytes} (t : Bytes), Unbroken s → crlfOnly (s ++ t) = crlfOnly t
  | [], _, _ => rfl
  | b :: s, t, h => by
    obtain ⟨h1, h2⟩ := h b (by simp)
    rw [List.cons_append, crlfOnly, only_line t fun c hc => h c (by simp [hc])]
    · simp [h1, h2]
    · rintro r ⟨⟩
      exact absurd rfl h1

theorem only_lines : ∀ (ls : List Bytes), (∀ s ∈ ls, Unbroken s) → crlfOnly (ls.flatMap (· ++ [13, 10]) ++ [13, 10]) = true
  | [], _ => rfl
  | s :: ls, h => by
    rw [List.flatMap_cons, List.append_assoc, List.append_assoc, only_line _ (h s (by simp))]
    exact only_lines ls fun s hs => h s (by simp [hs])

/-- More bytes do not change where the first empty line is. -/
theorem after_more (z : Bytes) : ∀ (m r : Bytes), afterEmptyLine m = some r → afterEmptyLine (m ++ z) = some (r ++ z)
  | m, r, h => by
    induction m using afterEmptyLine.induct generalizing r with
    | case1 r' => cases h; rfl
    | case2 b m hm ih =>
      rw [afterEmptyLine] at h
      · rw [List.cons_append]
        have := ih r h
        rw [afterEmptyLine]
        · exact this
        · rintro x rfl e
          match m, e, h, hm with
          | [], _, h, _ => cases h
          | [a], e, h, _ =>
            simp only [List.cons_append, List.nil_append, List.cons.injEq] at e
            obtain ⟨rfl, -⟩ := e
            cases h
          | [a, c], e, h, _ =>
            simp only [List.cons_append, List.nil_append, List.cons.injEq] at e
            obtain ⟨rfl, rfl, -⟩ := e
            cases h
          | a :: c :: d :: m, e, h, hm =>
            simp only [List.cons_append, List.cons.injEq] at e
            obtain ⟨rfl, rfl, rfl, -⟩ := e
            exact hm m rfl rfl
      · exact hm
    | case3 => cases h

theorem after_lt {m r : Bytes} (h : afterEmptyLine m = some r) : r.length < m.length := by
  induction m using afterEmptyLine.induct generalizing r with
  | case1 r' => cases h; simp only [List.length_cons]; omega
  | case2 b m hm ih =>
    rw [afterEmptyLine] at h
    · have := ih h
      simp only [List.length_cons]; omega
    · exact hm
  | case3 => cases h

/-- The first empty line ends after a beginning without one. -/
theorem after_beyond : ∀ (y w r : Bytes) (b : UInt8), afterEmptyLine y = none → afterEmptyLine (y ++ b :: w) = some r →
    r.length ≤ w.length
  | [], w, r, b, _, h => by
    have := after_lt h
    simp only [List.length_append, List.length_cons, List.length_nil] at this
    omega
  | c :: y, w, r, b, h1, h2 => by
    by_cases hc : c = 13 ∧ ∃ t, y ++ b :: w = 10 :: 13 :: 10 :: t
    · obtain ⟨rfl, t, ht⟩ := hc
      rw [List.cons_append, ht] at h2
      cases h2
      match y, ht, h1 with
      | [], ht, _ => have := congrArg List.length ht; simp only [List.length_append, List.length_cons, List.length_nil] at this; omega
      | [_], ht, _ => have := congrArg List.length ht; simp only [List.length_append, List.length_cons, List.length_nil] at this; omega
      | [_, _], ht, _ => have := congrArg List.length ht; simp only [List.length_append, List.length_cons, List.length_nil] at this; omega
      | a :: d :: e :: y, ht, h1 =>
        simp only [List.cons_append, List.cons.injEq] at ht
        obtain ⟨rfl, rfl, rfl, -⟩ := ht
        cases h1
    · have h3 : afterEmptyLine (c :: (y ++ b :: w)) = afterEmptyLine (y ++ b :: w) := by
        rw [afterEmptyLine]
        exact fun t e1 e2 => hc ⟨e1, t, e2⟩
      have h4 : afterEmptyLine (c :: y) = afterEmptyLine y := by
        rw [afterEmptyLine]
        rintro t rfl rfl
        cases h1
      rw [List.cons_append, h3] at h2
      rw [h4] at h1
      exact after_beyond y w r b h1 h2

/-! ## The grammar -/

theorem unbroken_of {s : Bytes} {P : UInt8 → Prop} (hP : ∀ b, P b → b ≠ 13 ∧ b ≠ 10) (h : ∀ b ∈ s, P b) : Unbroken s :=
  fun b hb => hP b (h b hb)

theorem token_unbroken : ∀ b, TokenByte b → b ≠ 13 ∧ b ≠ 10 := by
  rintro b ⟨h, -⟩
  constructor <;> rintro rfl <;> exact absurd h (by decide)

theorem visible_unbroken : ∀ b, VisibleByte b → b ≠ 13 ∧ b ≠ 10 := by
  rintro b ⟨h, -⟩
  constructor <;> rintro rfl <;> exact absurd h (by decide)

theorem nonControl_unbroken : ∀ b, NonControlByte b → b ≠ 13 ∧ b ≠ 10 := by
  rintro b ⟨h, -⟩
  constructor <;> rintro rfl <;> exact absurd h (by decide)

theorem upper_unbroken : ∀ b, UpperByte b → b ≠ 13 ∧ b ≠ 10 := by
  rintro b ⟨h, -⟩
  constructor <;> rintro rfl <;> exact absurd h (by decide)

theorem blank_unbroken : ∀ b, Blank b → b ≠ 13 ∧ b ≠ 10 := by
  rintro b (rfl | rfl) <;> decide

theorem field_unbroken : ∀ b, FieldByte b → b ≠ 13 ∧ b ≠ 10 := by
  intro b h
  constructor <;> rintro rfl <;> exact absurd h (by unfold FieldByte; decide)

theorem quoted_unbroken : ∀ b, QuotedByte b → b ≠ 13 ∧ b ≠ 10 := by
  intro b h
  constructor <;> rintro rfl <;> exact absurd h (by unfold QuotedByte FieldByte; decide)

theorem digits_unbroken {s : Bytes} {n : Nat} (h : Digits s n) : Unbroken s := by
  refine unbroken_of (P := fun b => c! '0' ≤ b ∧ b ≤ c! '9') ?_ h.2.2.1
  rintro b ⟨h, -⟩
  constructor <;> rintro rfl <;> exact absurd h (by decide)

theorem quotedText_unbroken {s : Bytes} (h : QuotedText s) : Unbroken s := by
  induction h with
  | nil => exact .nil
  | byte hb _ _ ih => exact .cons (quoted_unbroken _ hb) ih
  | @esc b q hb _ _ ih =>
    refine .cons (by decide) (.cons ?_ ih)
    constructor <;> rintro rfl <;> exact absurd hb (by decide)

theorem fieldText_unbroken {s : Bytes} (h : FieldText s) : Unbroken s := by
  induction h with
  | nil => exact .nil
  | byte hb _ _ ih => exact .cons (field_unbroken _ hb) ih
  | quoted hq _ ih => exact .cons (by decide) ((quotedText_unbroken hq).append (.cons (by decide) ih))

/-- The text of a header line. -/
def Line.text : Line → Bytes
  | .field n bl v => n ++ b!":" ++ bl ++ v
  | .fold b v => b :: v

theorem Line.write_eq (y : Line) : y.write = y.text ++ [13, 10] := by cases y <;> rfl

theorem Line.text_unbroken {y : Line} (h : y.OK) : Unbroken y.text ∧ y.text ≠ [] := by
  cases y with
  | field n bl v =>
    obtain ⟨h1, h2, h3, -⟩ := h
    exact ⟨((((unbroken_of token_unbroken h1).append (.cons (by decide) .nil)).append (unbroken_of blank_unbroken h2)).append
      (fieldText_unbroken h3)), by simp [Line.text]⟩
  | fold b v => exact ⟨.cons (blank_unbroken _ h.1) (fieldText_unbroken h.2), by simp [Line.text]⟩

/-- The text of a start line. -/
def StartLine.text : StartLine → Bytes
  | .request m u ma mi => m ++ b!" " ++ u ++ b!" HTTP/" ++ ma ++ b!"." ++ mi
  | .response ma mi c re => b!"HTTP/" ++ ma ++ b!"." ++ mi ++ b!" " ++ c ++ b!" " ++ re

theorem StartLine.write_eq (y : StartLine) : y.write = y.text ++ [13, 10] := by cases y <;> rfl

theorem StartLine.text_unbroken {y : StartLine} (h : y.OK) : Unbroken y.text ∧ ∃ b t, y.text = b :: t ∧ lead b = false := by
  cases y with
  | request m u ma mi =>
    obtain ⟨⟨h1, h2⟩, ⟨-, h3⟩, ⟨_, h4⟩, ⟨_, h5⟩⟩ := h
    refine ⟨((((((unbroken_of upper_unbroken h2).append (.cons (by decide) .nil)).append (unbroken_of visible_unbroken h3)).append
      (by intro b hb; revert b; decide)).append (digits_unbroken h4)).append (.cons (by decide) .nil)).append (digits_unbroken h5), ?_⟩
    cases m with
    | nil => exact absurd rfl h1
    | cons b m =>
      refine ⟨b, _, rfl, ?_⟩
      obtain ⟨g, -⟩ := h2 b (by simp)
      unfold lead
      rw [decide_eq_false_iff_not]
      intro hb
      simp only [List.mem_cons, List.not_mem_nil, or_false] at hb
      rcases hb with rfl | rfl | rfl | rfl <;> exact absurd g (by decide)
  | response ma mi c re =>
    obtain ⟨⟨_, h1⟩, ⟨_, h2⟩, ⟨-, _, h3⟩, -, h4⟩ := h
    refine ⟨?_, _, _, rfl, by decide⟩
    refine Unbroken.append (.append (.append (.append (.append (.append (.append ?_ (digits_unbroken h1)) ?_) (digits_unbroken h2)) ?_)
      (digits_unbroken h3)) ?_) (unbroken_of nonControl_unbroken h4)
    all_goals intro b hb; revert b; decide

/-- The lines of a head. -/
theorem Head.write_eq (x : Head) :
    x.write = (x.start.text :: x.lines.map Line.text).flatMap (· ++ [13, 10]) ++ [13, 10] := by
  have : Line.write = fun y => y.text ++ [13, 10] := funext Line.write_eq
  rw [Head.write, StartLine.write_eq, List.flatMap_cons, List.flatMap_map, this]

theorem Head.lines_ok {x : Head} (h : x.OK) : ∀ s ∈ x.start.text :: x.lines.map Line.text, Unbroken s ∧ s ≠ [] := by
  intro s hs
  rcases List.mem_cons.1 hs with rfl | hs
  · obtain ⟨h1, b, t, h2, -⟩ := StartLine.text_unbroken h.start
    exact ⟨h1, by rw [h2]; simp⟩
  · obtain ⟨y, hy, rfl⟩ := List.mem_map.1 hs
    exact Line.text_unbroken (h.lines y hy)

/-- **A head ends at its first empty line.** -/
theorem Head.after {x : Head} (h : x.OK) (r : Bytes) : afterEmptyLine (x.write ++ r) = some r := by
  have hl := Head.lines_ok h
  rw [Head.write_eq, List.flatMap_cons, List.append_assoc, List.append_assoc, List.append_assoc,
    after_line _ (hl _ (by simp)).1]
  have := after_lines r (x.lines.map Line.text) fun s hs => hl s (by simp [hs])
  simpa using this

theorem Head.only {x : Head} (h : x.OK) : crlfOnly x.write = true := by
  rw [Head.write_eq]
  exact only_lines _ fun s hs => (Head.lines_ok h s hs).1

theorem Head.starts {x : Head} (h : x.OK) : ∃ b t, x.write = b :: t ∧ lead b = false := by
  obtain ⟨-, b, t, h2, h3⟩ := StartLine.text_unbroken h.start
  exact ⟨b, _, by rw [Head.write, StartLine.write_eq, h2]; simp only [List.cons_append]; rfl, h3⟩

end Verif.Http1
