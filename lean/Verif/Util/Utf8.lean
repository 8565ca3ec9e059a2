import Verif.Util.DecodeSpec
import Verif.Util.FieldSpec

/-!
# Splitting UTF-8 text at ASCII bytes

Helper lemmas for C61.
-/

namespace Verif.Util

/-- The encoding of a character is one byte below 0x80, or only bytes from 0x80 on. -/
theorem encode_cases (c : Char) : (∃ x : UInt8, x < 0x80 ∧ String.utf8EncodeChar c = [x]) ∨
    (String.utf8EncodeChar c ≠ [] ∧ ∀ x ∈ String.utf8EncodeChar c, 0x80 ≤ x) := by
  have key : ∀ n, n < 128 → (0x80 : UInt8) ≤ UInt8.ofNat (n + 128) := by
    intro n hn
    rw [UInt8.le_iff_toNat_le, UInt8.toNat_ofNat']
    show 128 ≤ (n + 128) % 256
    omega
  unfold String.utf8EncodeChar
  dsimp only
  split
  · rename_i h
    refine .inl ⟨_, ?_, rfl⟩
    rw [UInt8.lt_iff_toNat_lt, UInt8.toNat_ofNat']
    show _ % 256 < 128
    omega
  · right
    split
    · refine ⟨nofun, fun x hx => ?_⟩
      simp only [List.mem_cons, List.not_mem_nil, or_false] at hx
      rcases hx with rfl | rfl
      · exact key (_ % 32 + 64) (by omega)
      · exact key (_ % 64) (by omega)
    · split
      · refine ⟨nofun, fun x hx => ?_⟩
        simp only [List.mem_cons, List.not_mem_nil, or_false] at hx
        rcases hx with rfl | rfl | rfl
        · exact key (_ % 16 + 96) (by omega)
        · exact key (_ % 64) (by omega)
        · exact key (_ % 64) (by omega)
      · refine ⟨nofun, fun x hx => ?_⟩
        simp only [List.mem_cons, List.not_mem_nil, or_false] at hx
        rcases hx with rfl | rfl | rfl | rfl
        · exact key (_ % 8 + 112) (by omega)
        · exact key (_ % 64) (by omega)
        · exact key (_ % 64) (by omega)
        · exact key (_ % 64) (by omega)

theorem utf8_nil : UTF8 [] := ⟨[], rfl⟩

theorem utf8_append {a b : Bytes} : UTF8 a → UTF8 b → UTF8 (a ++ b)
  | ⟨m, hm⟩, ⟨n, hn⟩ => ⟨m ++ n, by rw [hm, hn, List.flatMap_append]⟩

/-- Text can be cut at every ASCII byte. -/
theorem utf8_split {b : UInt8} (hb : b < 0x80) : ∀ (m : List Char) (a r : Bytes),
    a ++ b :: r = m.flatMap String.utf8EncodeChar → UTF8 a ∧ UTF8 r
  | [], a, r, h => by simp at h
  | c :: m, a, r, h => by
    rw [List.flatMap_cons] at h
    rcases encode_cases c with ⟨x, hx, e⟩ | ⟨hn, hh⟩
    · rw [e] at h
      cases a with
      | nil =>
        simp only [List.nil_append, List.cons_append, List.cons.injEq] at h
        exact ⟨utf8_nil, m, h.2⟩
      | cons y a =>
        simp only [List.cons_append, List.nil_append, List.cons.injEq] at h
        obtain ⟨⟨m1, h1⟩, h2⟩ := utf8_split hb m a r h.2
        exact ⟨⟨c :: m1, by rw [List.flatMap_cons, e, h.1, h1]; rfl⟩, h2⟩
    · have : ∃ a', a = String.utf8EncodeChar c ++ a' := by
        rcases List.append_eq_append_iff.mp h with ⟨t, h1, h2⟩ | ⟨t, h1, h2⟩
        · cases t with
          | nil => exact ⟨[], by simpa using h1.symm⟩
          | cons y t =>
            simp only [List.cons_append, List.cons.injEq] at h2
            have := hh b (by rw [h1, h2.1]; simp)
            exact absurd hb (by simpa using this)
        · exact ⟨t, h1⟩
      obtain ⟨a', rfl⟩ := this
      rw [List.append_assoc, List.append_cancel_left_eq] at h
      obtain ⟨⟨m1, h1⟩, h2⟩ := utf8_split hb m a' r h
      exact ⟨⟨c :: m1, by rw [List.flatMap_cons, h1]⟩, h2⟩

theorem UTF8.left {a r : Bytes} {b : UInt8} (h : UTF8 (a ++ b :: r)) (hb : b < 0x80) : UTF8 a :=
  h.elim fun m hm => (utf8_split hb m a r hm).1

theorem UTF8.right {a r : Bytes} {b : UInt8} (h : UTF8 (a ++ b :: r)) (hb : b < 0x80) : UTF8 r :=
  h.elim fun m hm => (utf8_split hb m a r hm).2

theorem UTF8.drop : ∀ {s v : Bytes}, (∀ b ∈ s, b < 0x80) → UTF8 (s ++ v) → UTF8 v
  | [], _, _, h => h
  | b :: s, v, hs, h => UTF8.drop (s := s) (fun x hx => hs x (by simp [hx]))
      (UTF8.right (a := []) h (hs b (by simp)))

theorem quoted_high : ∀ {t q v : Bytes}, (∀ b ∈ t, (0x80 : UInt8) ≤ b) → Quoted (t ++ q) v → ∃ v', v = t ++ v' ∧ Quoted q v'
  | [], _, v, _, h => ⟨v, rfl, h⟩
  | b :: t, q, v, ht, h => by
    rw [List.cons_append] at h
    generalize hq : b :: (t ++ q) = q0 at h
    cases h with
    | nil => cases hq
    | plain h1 h2 h3 =>
      cases hq
      obtain ⟨v', h4, h5⟩ := quoted_high (fun x hx => ht x (by simp [hx])) h3
      exact ⟨v', by rw [h4]; rfl, h5⟩
    | escaped h3 =>
      simp only [List.cons.injEq] at hq
      exact absurd (ht b (by simp)) (by rw [hq.1]; decide)

/-- What text between quotes writes is text. -/
theorem quoted_utf8 : ∀ (n : Nat) (m : List Char) (q v : Bytes), m.length ≤ n → Quoted q v →
    q = m.flatMap String.utf8EncodeChar → UTF8 v
  | n, [], q, v, _, h, e => by
    simp only [List.flatMap_nil] at e
    subst e
    cases h
    exact utf8_nil
  | 0, c :: m, _, _, hn, _, _ => absurd hn (by simp)
  | n + 1, c :: m, q, v, hn, h, e => by
    rw [List.flatMap_cons] at e
    simp only [List.length_cons] at hn
    rcases encode_cases c with ⟨x, hx, ec⟩ | ⟨_, hh⟩
    · rw [ec] at e
      cases h with
      | nil => cases e
      | plain h1 h2 h3 =>
        simp only [List.cons_append, List.nil_append, List.cons.injEq] at e
        obtain ⟨m1, h4⟩ := quoted_utf8 n m _ _ (by omega) h3 e.2
        exact ⟨c :: m1, by rw [List.flatMap_cons, ec, ← e.1, h4]; rfl⟩
      | @escaped b q v h3 =>
        simp only [List.cons_append, List.nil_append, List.cons.injEq] at e
        cases m with
        | nil => cases e.2
        | cons c2 m =>
          have e2 := e.2
          rw [List.flatMap_cons] at e2
          simp only [List.length_cons] at hn
          rcases encode_cases c2 with ⟨y, hy, ec2⟩ | ⟨hne, hh⟩
          · rw [ec2] at e2
            simp only [List.cons_append, List.nil_append, List.cons.injEq] at e2
            obtain ⟨m1, h4⟩ := quoted_utf8 n m _ _ (by omega) h3 e2.2
            exact ⟨c2 :: m1, by rw [List.flatMap_cons, ec2, ← e2.1, h4]; rfl⟩
          · cases ht : String.utf8EncodeChar c2 with
            | nil => exact absurd ht hne
            | cons y t =>
              rw [ht] at e2 hh
              simp only [List.cons_append, List.cons.injEq] at e2
              obtain ⟨rfl, rfl⟩ := e2
              obtain ⟨v', rfl, h5⟩ := quoted_high (fun x hx => hh x (by simp [hx])) h3
              obtain ⟨m1, rfl⟩ := quoted_utf8 n m _ _ (by omega) h5 rfl
              exact ⟨c2 :: m1, by rw [List.flatMap_cons, ht]; rfl⟩
    · subst e
      obtain ⟨v', rfl, h5⟩ := quoted_high hh h
      obtain ⟨m1, rfl⟩ := quoted_utf8 n m _ _ (by omega) h5 rfl
      exact ⟨c :: m1, by rw [List.flatMap_cons]⟩

theorem Quoted.utf8 {q v : Bytes} (h : Quoted q v) (hq : UTF8 q) : UTF8 v :=
  hq.elim fun m hm => quoted_utf8 m.length m q v (Nat.le_refl _) h hm

end Verif.Util
