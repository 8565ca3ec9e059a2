import Verif.Util.ForwardSpec
import Verif.Util.ReadSpec
import Verif.Util.ByteLemmas

/-!
# Lemmas: writing the items of a query

Used by C105.
-/

namespace Verif.Util

theorem passName_writes {w n : Bytes} (h : WritesName false w n) : WritesName false (passName n) n := by
  obtain ⟨h1, h2, h3⟩ := h
  replace h3 := h3 rfl
  induction h1 with
  | nil => exact ⟨.nil, nofun, by simp [passName]⟩
  | @literal b x s hb _ ih =>
    obtain ⟨i1, i2, i3⟩ := ih (fun c hc => h2 c (by simp [hc])) (fun hc => h3 (by simp [hc]))
    have hs : b ≠ c! ' ' := by rintro rfl; exact absurd hb (by decide)
    have e : passName (b :: s) = b :: passName s := by simp [passName, hs]
    rw [e]
    refine ⟨.literal hb i1, ?_, fun _ hc => ?_⟩
    · intro c hc
      rcases List.mem_cons.1 hc with rfl | hc
      · exact h2 c (by simp)
      · exact i2 c hc
    · rcases List.mem_cons.1 hc with rfl | hc
      · exact absurd hb (by decide)
      · exact i3 rfl hc
  | @plus x s _ ih =>
    obtain ⟨i1, i2, i3⟩ := ih (fun c hc => h2 c (by simp [hc])) (fun hc => h3 (by simp [hc]))
    have e : passName (c! ' ' :: s) = c! '+' :: passName s := by simp [passName]
    rw [e]
    refine ⟨.plus i1, ?_, fun _ hc => ?_⟩
    · intro c hc
      rcases List.mem_cons.1 hc with rfl | hc
      · decide
      · exact i2 c hc
    · rcases List.mem_cons.1 hc with hc | hc
      · exact absurd hc (by decide)
      · exact i3 rfl hc
  | escape => exact absurd (List.mem_cons_self ..) h3

theorem passByte_ok : ∀ b : UInt8, (passByte b = [b] ∧ Literal b ∧ b ∉ b!"&;") ∨
    ∃ h l m n, passByte b = [c! '%', h, l] ∧ HexDigit h m ∧ HexDigit l n ∧ b = UInt8.ofNat (16 * m + n) ∧
      h ∉ b!"&;" ∧ l ∉ b!"&;" := by
  have key : ∀ b : UInt8, (passByte b = [b] ∧ Literal b ∧ b ∉ b!"&;") ∨
      (passByte b = [c! '%', digit false (b.toNat / 16), digit false (b.toNat % 16)] ∧
        HexDigit (digit false (b.toNat / 16)) (b.toNat / 16) ∧ HexDigit (digit false (b.toNat % 16)) (b.toNat % 16) ∧
        b = UInt8.ofNat (16 * (b.toNat / 16) + b.toNat % 16) ∧ digit false (b.toNat / 16) ∉ b!"&;" ∧
        digit false (b.toNat % 16) ∉ b!"&;") := forall_u8 (by decide +kernel)
  intro b
  exact (key b).imp id fun h => ⟨_, _, _, _, h⟩

theorem passValue_writes : ∀ v : Bytes, WritesValue (v.flatMap passByte) v
  | [] => ⟨.nil, nofun⟩
  | b :: v => by
    obtain ⟨i1, i2⟩ := passValue_writes v
    rw [List.flatMap_cons]
    rcases passByte_ok b with ⟨e, h1, h2⟩ | ⟨h, l, m, n, e, h1, h2, h3, h4, h5⟩
    · rw [e]
      refine ⟨.literal h1 i1, fun c hc => ?_⟩
      rcases List.mem_cons.1 hc with rfl | hc
      · exact h2
      · exact i2 c hc
    · rw [e, h3]
      refine ⟨.escape h1 h2 i1, fun c hc => ?_⟩
      simp only [List.cons_append, List.nil_append, List.mem_cons] at hc
      rcases hc with rfl | rfl | rfl | hc
      · decide
      · exact h4
      · exact h5
      · exact i2 c hc

theorem passQuery_pairs : ∀ l : List Item, (∀ i ∈ l, ∃ w, WritesName false w i.1) → Pairs false (passQuery l) l
  | [], _ => .nil
  | (n, none) :: l, h => by
    obtain ⟨w, hw⟩ := h (n, none) (by simp)
    have ih := passQuery_pairs l fun i hi => h i (by simp [hi])
    have := Pairs.name (passName_writes hw) (.inl rfl) ih
    rwa [passQuery, List.flatMap_cons, passItem, List.append_assoc]
  | (n, some v) :: l, h => by
    obtain ⟨w, hw⟩ := h (n, some v) (by simp)
    have ih := passQuery_pairs l fun i hi => h i (by simp [hi])
    have := Pairs.pair (passName_writes hw) (passValue_writes v) (.inl rfl) ih
    have e : passQuery ((n, some v) :: l) = passName n ++ c! '=' :: v.flatMap passByte ++ c! '&' :: passQuery l := by
      simp [passQuery, passItem]
    rwa [e]

/-! ## The first name -/

theorem value_name {n : Bytes} {i : Item} {r' : Bytes} : ∀ (k : Nat) (r v : Bytes), r.length ≤ k →
    Read.queryValue n r v = .item i r' → i.1 = n
  | _, [], v, _, h => by rw [Read.queryValue] at h; cases h; rfl
  | 0, _ :: _, _, hk, _ => absurd hk (by simp)
  | k + 1, b :: r, v, hk, h => by
    simp only [List.length_cons] at hk
    rw [Read.queryValue.eq_def] at h
    dsimp only at h
    by_cases h1 : b = c! '%'
    · rw [if_pos h1] at h
      match r, h with
      | [], h => cases h
      | [_], h => cases h
      | a :: l :: r, h =>
        dsimp only at h
        simp only [List.length_cons] at hk
        split at h
        · cases h
        · cases h
        · exact value_name k r _ (by omega) h
    rw [if_neg h1] at h
    by_cases h2 : b = c! '+'
    · rw [if_pos h2] at h; exact value_name k r _ (by omega) h
    rw [if_neg h2] at h
    by_cases h3 : b = c! '&' ∨ b = c! ';'
    · rw [if_pos h3] at h; cases h; rfl
    rw [if_neg h3] at h
    by_cases h4 : 0x21 ≤ b ∧ b ≤ 0x7E
    · rw [if_pos h4] at h; exact value_name k r _ (by omega) h
    rw [if_neg h4] at h; cases h

theorem name_grows {i : Item} {r' : Bytes} : ∀ (r n : Bytes) (first : Bool), n ≠ [] ∨ (first = true ∧ r ≠ []) →
    Read.queryName first r n = .item i r' → i.1 ≠ []
  | [], n, first, hn, h => by
    rw [Read.queryName] at h; cases h
    exact hn.resolve_right fun h => h.2 rfl
  | b :: r, n, first, hn, h => by
    rw [Read.queryName.eq_def] at h
    dsimp only at h
    by_cases h1 : b = c! '%'
    · rw [if_pos h1] at h
      match r, h with
      | [], h => cases h
      | [_], h => cases h
      | a :: l :: r, h =>
        dsimp only at h
        split at h <;> cases h
    rw [if_neg h1] at h
    by_cases h2 : b = c! '+'
    · rw [if_pos h2] at h; exact name_grows r _ false (.inl (by simp)) h
    rw [if_neg h2] at h
    by_cases h3 : b = c! '='
    · rw [if_pos h3] at h
      cases first with
      | true => cases h
      | false =>
        rw [if_neg (by simp)] at h
        rw [value_name _ r [] (Nat.le_refl _) h]
        exact hn.resolve_right fun h => by cases h.1
    rw [if_neg h3] at h
    by_cases h4 : b = c! '&' ∨ b = c! ';'
    · rw [if_pos h4] at h
      cases first with
      | true => cases h
      | false =>
        rw [if_neg (by simp)] at h
        cases h
        exact hn.resolve_right fun h => by cases h.1
    rw [if_neg h4] at h
    by_cases h5 : 0x21 ≤ b ∧ b ≤ 0x7E
    · rw [if_pos h5] at h; exact name_grows r _ false (.inl (by simp)) h
    rw [if_neg h5] at h; cases h

end Verif.Util
