import Verif.Http1.End
import Verif.Http1.MpFramingSpec

/-!
# The parts of a multipart body as everybody else finds them

Lemmas for C109.
-/

namespace Verif.Http1

/-! ## The first occurrence -/

theorem first_here {p : Bytes} : ∀ {d r : Bytes}, p ≠ [] → (∀ a b, d = a ++ b → b ≠ [] → ¬ p <+: b ++ (p ++ r)) →
    splitAtFirst p (d ++ (p ++ r)) = some (d, r)
  | [], r, hp, _ => by
    cases p with
    | nil => exact absurd rfl hp
    | cons x p =>
      change splitAtFirst (x :: p) (x :: (p ++ r)) = _
      rw [splitAtFirst, if_pos (by rw [List.isPrefixOf_iff_prefix]; exact ⟨r, rfl⟩)]
      simp
  | x :: d, r, hp, h => by
    have h0 := h [] (x :: d) rfl (by simp)
    have ih := first_here (d := d) (r := r) hp fun a b e => h (x :: a) b (by rw [e]; rfl)
    change splitAtFirst p (x :: (d ++ (p ++ r))) = _
    rw [splitAtFirst, if_neg (by rw [List.isPrefixOf_iff_prefix]; exact h0), ih]
    rfl

theorem first_before {p : Bytes} : ∀ {d r : Bytes} {a b : Bytes}, d = a ++ b → b ≠ [] → p <+: b ++ (p ++ r) →
    ∃ d' r', splitAtFirst p (d ++ (p ++ r)) = some (d', r') ∧ d'.length < d.length
  | [], r, a, b, e, hb, _ => by
    have := congrArg List.length e
    rw [List.length_append] at this
    cases b with
    | nil => exact absurd rfl hb
    | cons => simp at this
  | x :: d, r, a, b, e, hb, h => by
    change ∃ d' r', splitAtFirst p (x :: (d ++ (p ++ r))) = _ ∧ _
    rw [splitAtFirst]
    by_cases hx : p.isPrefixOf (x :: (d ++ (p ++ r))) = true
    · rw [if_pos hx]
      exact ⟨_, _, rfl, by simp⟩
    · rw [if_neg hx]
      cases a with
      | nil =>
        rw [List.nil_append] at e
        rw [← e] at h
        exact absurd (List.isPrefixOf_iff_prefix.2 h) hx
      | cons y a =>
        obtain ⟨d', r', h1, h2⟩ := first_before (d := d) (r := r) (a := a) (b := b) (by injection e) hb h
        exact ⟨x :: d', r', by rw [h1]; rfl, by simp; omega⟩

/-- A delimiter does not overlap with the one that follows. -/
theorem no_overlap {c : UInt8} {p b r : Bytes} (hc : c ∉ p) (hb : b ≠ []) (h : c :: p <+: b ++ (c :: p ++ r)) :
    c :: p <+: b := by
  rcases Nat.lt_or_ge b.length (c :: p).length with hlt | hge
  · exfalso
    have h1 : b <+: c :: p := List.prefix_of_prefix_length_le (List.prefix_append _ _) h (Nat.le_of_lt hlt)
    obtain ⟨s, hs⟩ := h1
    rw [← hs, List.prefix_append_right_inj] at h
    cases s with
    | nil => rw [List.append_nil] at hs; rw [hs] at hlt; exact absurd hlt (Nat.lt_irrefl _)
    | cons y s =>
      rw [hs, List.cons_append, List.cons_prefix_cons] at h
      cases b with
      | nil => exact hb rfl
      | cons z b =>
        injection hs with _ hs
        exact hc (by rw [← hs, h.1]; simp)
  · exact List.prefix_of_prefix_length_le h (List.prefix_append _ _) hge

theorem dash_free {bd : Bytes} (hbd : c! '\r' ∉ bd) : (13 : UInt8) ∉ 10 :: (b!"--" ++ bd) := by
  intro h
  rcases List.mem_cons.1 h with h | h
  · cases h
  · rcases List.mem_append.1 h with h | h
    · revert h; decide
    · exact hbd h

theorem first_found {bd d r : Bytes} (hbd : c! '\r' ∉ bd) (h : ¬ delimiter bd <:+: d) :
    splitAtFirst (delimiter bd) (d ++ (delimiter bd ++ r)) = some (d, r) := by
  refine first_here (by simp [delimiter]) fun a b e hb hp => h ?_
  obtain ⟨t, ht⟩ := no_overlap (c := 13) (p := 10 :: (b!"--" ++ bd)) (dash_free hbd) hb hp
  exact ⟨a, t, by rw [e, ← ht]; simp [delimiter]⟩

theorem first_missed {bd d r : Bytes} (h : delimiter bd <:+: d) :
    ∃ d' r', splitAtFirst (delimiter bd) (d ++ (delimiter bd ++ r)) = some (d', r') ∧ d'.length < d.length := by
  obtain ⟨a, t, e⟩ := h
  refine first_before (a := a) (b := delimiter bd ++ t) (by rw [← e, List.append_assoc]) (by simp [delimiter]) ?_
  rw [List.append_assoc]
  exact List.prefix_append _ _

/-! ## Where a delimiter occurs -/

theorem infix_crlf {bd x : Bytes} : delimiter bd <:+: b!"\r\n" ++ x ↔ b!"--" ++ bd <+: x ∨ delimiter bd <:+: x := by
  change 13 :: 10 :: (b!"--" ++ bd) <:+: 13 :: 10 :: x ↔ _
  rw [List.infix_cons_iff, List.infix_cons_iff, List.cons_prefix_cons, List.cons_prefix_cons, List.cons_prefix_cons]
  constructor
  · rintro (⟨-, -, h⟩ | ⟨h, -⟩ | h)
    · exact .inl h
    · cases h
    · exact .inr h
  · rintro (h | h)
    · exact .inl ⟨rfl, rfl, h⟩
    · exact .inr (.inr h)

theorem infix_text {bd x : Bytes} : ∀ {s : Bytes}, Unbroken s → (delimiter bd <:+: s ++ x ↔ delimiter bd <:+: x)
  | [], _ => Iff.rfl
  | b :: s, h => by
    rw [List.cons_append, List.infix_cons_iff, infix_text (s := s) fun c hc => h c (by simp [hc])]
    constructor
    · rintro (h' | h')
      · exact absurd (List.cons_prefix_cons.1 h').1.symm (h b (by simp)).1
      · exact h'
    · exact .inr

/-- Text without CR that starts a line lies before the end of the line. -/
theorem start_text {s x y z : Bytes} (hs : (13 : UInt8) ∉ s) (h : s <+: x ++ 13 :: y) : s <+: x ++ 13 :: z := by
  rcases Nat.lt_or_ge x.length s.length with hlt | hge
  · exfalso
    have : x ++ [13] <+: s := by
      refine List.prefix_of_prefix_length_le (l₃ := x ++ 13 :: y) ⟨y, by simp⟩ h ?_
      simp; omega
    exact hs (this.subset (by simp))
  · exact (List.prefix_of_prefix_length_le h (List.prefix_append _ _) hge).trans (List.prefix_append _ _)

theorem infix_lines {bd d : Bytes} (hbd : c! '\r' ∉ bd) : ∀ {ls : List Line}, (∀ y ∈ ls, y.OK) →
    (delimiter bd <:+: b!"\r\n" ++ (ls.flatMap Line.write ++ (b!"\r\n" ++ d)) ↔
      (∃ y ∈ ls, b!"--" ++ bd <+: y.write) ∨ b!"--" ++ bd <+: d ∨ delimiter bd <:+: d)
  | [], _ => by
    rw [List.flatMap_nil, List.nil_append, infix_crlf, infix_crlf]
    constructor
    · rintro (h | h)
      · exact absurd (List.cons_prefix_cons.1 h).1 (by decide)
      · exact .inr h
    · rintro (⟨y, h, -⟩ | h)
      · cases h
      · exact .inr h
  | y :: ls, h => by
    have hf : (13 : UInt8) ∉ b!"--" ++ bd := fun hm => dash_free hbd (List.mem_cons_of_mem _ hm)
    have ih := infix_lines (d := d) hbd (ls := ls) fun z hz => h z (by simp [hz])
    have hy := (Line.text_unbroken (h y (by simp))).1
    have ey : y.write = y.text ++ 13 :: b!"\n" := Line.write_eq y
    have e : (y :: ls).flatMap Line.write ++ (b!"\r\n" ++ d) =
        y.text ++ 13 :: (b!"\n" ++ (ls.flatMap Line.write ++ (b!"\r\n" ++ d))) := by
      rw [List.flatMap_cons, ey]; simp
    rw [infix_crlf, e, infix_text hy]
    change _ ∨ delimiter bd <:+: b!"\r\n" ++ (ls.flatMap Line.write ++ (b!"\r\n" ++ d)) ↔ _
    rw [ih]
    constructor
    · rintro (h1 | ⟨z, hz, h1⟩ | h1)
      · exact .inl ⟨y, by simp, by rw [ey]; exact start_text hf h1⟩
      · exact .inl ⟨z, by simp [hz], h1⟩
      · exact .inr h1
    · rintro (⟨z, hz, h1⟩ | h1)
      · rcases List.mem_cons.1 hz with rfl | hz
        · rw [ey] at h1
          exact .inl (start_text hf h1)
        · exact .inr (.inl ⟨z, hz, h1⟩)
      · exact .inr (.inr h1)

theorem innocent_iff {bd : Bytes} (hbd : c! '\r' ∉ bd) {x : LoosePart} (h : ∀ y ∈ x.lines, y.OK) :
    x.Innocent bd ↔ ¬ delimiter bd <:+: x.raw := by
  rw [LoosePart.raw, show b!"\r\n" ++ x.lines.flatMap Line.write ++ b!"\r\n" ++ x.data =
    b!"\r\n" ++ (x.lines.flatMap Line.write ++ (b!"\r\n" ++ x.data)) by simp, infix_lines hbd h]
  constructor
  · rintro ⟨h1, h2, h3⟩ (⟨y, hy, h4⟩ | h4 | h4)
    · exact h1 y hy h4
    · exact h2 h4
    · exact h3 h4
  · intro hn
    exact ⟨fun y hy h1 => hn (.inl ⟨y, hy, h1⟩), fun h1 => hn (.inr (.inl h1)), fun h1 => hn (.inr (.inr h1))⟩

/-! ## The parts -/

theorem parts_step (bd : Bytes) (n : Nat) (x : LoosePart) (r : Bytes) :
    partsAfter bd (n + 1) (x.raw ++ r) =
      match splitAtFirst (delimiter bd) (x.raw ++ r) with
      | none => none
      | some (part, r) => (partsAfter bd n r).map fun y => (part :: y.1, y.2) := by
  rw [LoosePart.raw]; rfl

theorem parts_iff {bd : Bytes} (hbd : c! '\r' ∉ bd) (r : Bytes) : ∀ {ps : List LoosePart} {n : Nat},
    (∀ x ∈ ps, ∀ y ∈ x.lines, y.OK) → ps.length < n →
    (partsAfter bd n (ps.flatMap (LoosePart.write bd) ++ (b!"--" ++ r)) = some (ps.map LoosePart.raw, r) ↔
      ∀ x ∈ ps, x.Innocent bd)
  | [], n + 1, _, _ => ⟨fun _ => nofun, fun _ => rfl⟩
  | x :: ps, n + 1, h, hn => by
    have ih := parts_iff hbd r (ps := ps) (n := n) (fun z hz => h z (by simp [hz])) (by simpa using hn)
    have e : (x :: ps).flatMap (LoosePart.write bd) ++ (b!"--" ++ r) =
        x.raw ++ (delimiter bd ++ (ps.flatMap (LoosePart.write bd) ++ (b!"--" ++ r))) := by
      simp [LoosePart.write, LoosePart.raw]
    have hi := innocent_iff hbd (h x (by simp))
    rw [e, parts_step]
    by_cases hx : x.Innocent bd
    · rw [first_found hbd (hi.1 hx)]
      change (partsAfter bd n _).map _ = _ ↔ _
      constructor
      · intro h1 z hz
        rcases List.mem_cons.1 hz with rfl | hz
        · exact hx
        · refine ih.1 ?_ z hz
          cases hp : partsAfter bd n (ps.flatMap (LoosePart.write bd) ++ (b!"--" ++ r)) with
          | none => rw [hp] at h1; cases h1
          | some y =>
            rw [hp] at h1
            simp only [Option.map_some, Option.some.injEq, Prod.mk.injEq, List.map_cons, List.cons.injEq, true_and] at h1
            rw [← h1.1, ← h1.2]
      · intro h1
        rw [ih.2 fun z hz => h1 z (by simp [hz])]
        rfl
    · obtain ⟨d', r', h1, h2⟩ := first_missed (r := ps.flatMap (LoosePart.write bd) ++ (b!"--" ++ r))
        (Decidable.not_not.1 fun hh => hx (hi.2 hh))
      rw [h1]
      refine ⟨fun h3 => ?_, fun h3 => absurd (h3 x (by simp)) hx⟩
      exfalso
      change (partsAfter bd n r').map _ = _ at h3
      cases hp : partsAfter bd n r' with
      | none => rw [hp] at h3; cases h3
      | some y =>
        rw [hp] at h3
        simp only [Option.map_some, Option.some.injEq, Prod.mk.injEq, List.map_cons, List.cons.injEq] at h3
        rw [h3.1.1] at h2
        exact absurd h2 (Nat.lt_irrefl _)

theorem parts_short (bd : Bytes) : ∀ ps : List LoosePart, ps.length ≤ (ps.flatMap (LoosePart.write bd)).length
  | [] => by simp
  | x :: ps => by
    have := parts_short bd ps
    simp [LoosePart.write] at this ⊢
    omega

theorem partsOf_iff {bd : Bytes} (hbd : c! '\r' ∉ bd) (r : Bytes) {ps : List LoosePart}
    (h : ∀ x ∈ ps, ∀ y ∈ x.lines, y.OK) :
    partsOf bd (writeLoose bd ps ++ r) = some (ps.map LoosePart.raw, r) ↔ ∀ x ∈ ps, x.Innocent bd := by
  have e : writeLoose bd ps ++ r = (b!"--" ++ bd) ++ (ps.flatMap (LoosePart.write bd) ++ (b!"--" ++ r)) := by
    simp [writeLoose]
  rw [partsOf, e, if_pos (by rw [List.isPrefixOf_iff_prefix]; exact List.prefix_append _ _), List.drop_left]
  refine parts_iff hbd r h ?_
  have := parts_short bd ps
  simp only [List.length_append, List.length_cons, List.length_nil] at this ⊢
  omega

/-- Names that do not start with two hyphens do. -/
theorem innocent_of_names {bd : Bytes} {x : LoosePart} (h : ∀ y ∈ x.lines, y.OK)
    (h1 : ∀ n bl v, .field n bl v ∈ x.lines → ¬ b!"--" <+: n) (h2 : ¬ b!"--" <+: x.data) (h3 : ¬ delimiter bd <:+: x.data) :
    x.Innocent bd := by
  refine ⟨fun y hy hp => ?_, fun hp => h2 ((List.prefix_append _ _).trans hp), h3⟩
  have hp : b!"--" <+: y.write := (List.prefix_append _ _).trans hp
  cases y with
  | field n bl v =>
    refine h1 n bl v hy ?_
    match n, hp with
    | [], hp => exact absurd (List.cons_prefix_cons.1 hp).1 (by decide)
    | [a], hp => exact absurd (List.cons_prefix_cons.1 (List.cons_prefix_cons.1 hp).2).1 (by decide)
    | a :: b :: n, hp =>
      obtain ⟨e1, hp⟩ := List.cons_prefix_cons.1 hp
      obtain ⟨e2, -⟩ := List.cons_prefix_cons.1 hp
      exact List.cons_prefix_cons.2 ⟨e1, List.cons_prefix_cons.2 ⟨e2, List.nil_prefix⟩⟩
  | fold b v =>
    have hb : Blank b := (h _ hy).1
    have e : 45 = b := (List.cons_prefix_cons.1 hp).1
    rw [← e] at hb
    exact absurd hb (by decide)

end Verif.Http1
