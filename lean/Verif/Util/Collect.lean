import Verif.Stream
import Mathlib.Tactic.Linarith

/-!
# Collection loops (helper lemmas)
-/

namespace Verif.Util

open Ctx

theorem collectGo_cases (act : UInt8 → Act) : ∀ (r : Bytes) (c : Ctx),
    ((∀ b ∈ r, act b = .cont) ∧
      collectGo act r c = .eos { c with idx := c.idx + r.length, byte := r.getLast?.getD c.byte }) ∨
    ∃ pre b post, r = pre ++ b :: post ∧ (∀ x ∈ pre, act x = .cont) ∧ act b ≠ .cont ∧
      collectGo act r c = (match act b with
        | .cont => Collect.panic
        | .brk => .brk { c with idx := c.idx + pre.length + 1, byte := b }
        | .fail => .fail { c with idx := c.idx + pre.length + 1, byte := b }
        | .panic => .panic)
  | [], c => by
    refine .inl ⟨by simp, ?_⟩
    simp [collectGo]
  | a :: r, c => by
    by_cases h : act a = .cont
    · rcases collectGo_cases act r { c with byte := a, idx := c.idx + 1 } with
        ⟨h1, h2⟩ | ⟨pre, b, post, h1, h2, h3, h4⟩
      · refine .inl ⟨by simp [h]; exact h1, ?_⟩
        rw [collectGo, h]; simp only [h2]
        congr 2
        · simp; omega
        · cases r with
          | nil => rfl
          | cons e r => rw [List.getLast?_cons_cons]; cases h : (e :: r).getLast? <;> simp at h ⊢
      · refine .inr ⟨a :: pre, b, post, by simp [h1], by simp [h]; exact h2, h3, ?_⟩
        rw [collectGo, h]; simp only [h4, List.length_cons]
        rw [show c.idx + 1 + pre.length + 1 = c.idx + (pre.length + 1) + 1 by omega]
    · refine .inr ⟨[], a, r, rfl, by simp, h, ?_⟩
      rw [collectGo]
      cases h' : act a <;> simp_all

theorem rest_drop {c : Ctx} {pre post : Bytes} (h : c.rest = pre ++ post) :
    c.stream.drop (c.idx + pre.length) = post := by
  have : c.stream.drop (c.idx + pre.length) = (c.stream.drop c.idx).drop pre.length := by
    rw [List.drop_drop]
  rw [this]; unfold Ctx.rest at h; rw [h]; simp

theorem avail_rest (c : Ctx) : c.available = c.rest.length := by
  simp [available, rest]

theorem avail_pos {c : Ctx} : c.available ≠ 0 → c.idx < c.stream.length := by
  unfold available; omega

theorem rest_nil {c : Ctx} (h : c.idx = c.stream.length) : c.rest = [] := by
  simp [rest, h]

theorem idx_of_rest {c : Ctx} {a : UInt8} {l : Bytes} (h : c.rest = a :: l) :
    c.idx < c.stream.length := by
  have := congrArg List.length h
  simp [rest] at this; omega

theorem next_cons {c : Ctx} {b : UInt8} {l : Bytes} (h : c.rest = b :: l) :
    c.next = some { c with byte := b, idx := c.idx + 1 } := by
  have : c.stream[c.idx]? = some b := by
    have h2 := congrArg (fun x => x[0]?) h
    simpa [rest] using h2
  simp [Ctx.next, this]

theorem rest_succ {c : Ctx} {b : UInt8} {l : Bytes} (h : c.rest = b :: l) :
    c.stream.drop (c.idx + 1) = l := by
  have := rest_drop (c := c) (pre := [b]) (post := l) (by simpa using h)
  simpa using this

/-- What a collection loop started at its mark does to the unread bytes. -/
theorem collect_cases (act : UInt8 → Act) (c : Ctx) (hm : c.mark = c.idx) :
    ((∀ b ∈ c.rest, act b = .cont) ∧
      ∃ c', c.collect act = .eos c' ∧ c'.stream = c.stream ∧ c'.idx = c.idx + c.rest.length ∧
        c'.mark = c.mark ∧ c'.rest = [] ∧ c'.slice = c.rest ∧ c'.sliceLength = c.rest.length ∧
        c'.byte = c.rest.getLast?.getD c.byte) ∨
    ∃ pre b post, c.rest = pre ++ b :: post ∧ (∀ x ∈ pre, act x = .cont) ∧ act b ≠ .cont ∧
      ∃ c', c'.stream = c.stream ∧ c'.idx = c.idx + pre.length + 1 ∧ c'.mark = c.mark ∧
        c'.byte = b ∧ c'.rest = post ∧ c'.sliceIgnore = pre ∧ c'.sliceLength = pre.length + 1 ∧
        c.collect act = (match act b with
        | .cont => Collect.panic
        | .brk => .brk c'
        | .fail => .fail c'
        | .panic => .panic) := by
  rcases collectGo_cases act c.rest c with ⟨h1, h2⟩ | ⟨pre, b, post, h1, h2, h3, h4⟩
  · refine .inl ⟨h1, _, h2, rfl, rfl, rfl, ?_, ?_, ?_, rfl⟩
    · simp [rest]; omega
    · simp only [slice, hm, rest]; rw [List.take_of_length_le]; simp
    · simp [sliceLength, hm]
  · refine .inr ⟨pre, b, post, h1, h2, h3, { c with idx := c.idx + pre.length + 1, byte := b },
      rfl, rfl, rfl, rfl, ?_, ?_, ?_, h4⟩
    · have := rest_drop (c := c) (pre := pre ++ [b]) (post := post) (by simpa using h1)
      simpa [rest, Nat.add_assoc] using this
    · have h5 : c.stream.drop c.idx = pre ++ b :: post := h1
      simp [sliceIgnore, hm, h5]
    · simp only [sliceLength, hm]; omega

end Verif.Util
