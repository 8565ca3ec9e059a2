import Verif.Http1.Feed
import Verif.Http1.History
import Mathlib.Tactic.Linarith

/-!
# Parsers that differ in the number of bytes counted (helper lemmas)
-/

set_option linter.unusedSimpArgs false
set_option linter.unusedVariables false

namespace Verif.Http1

variable {env : Env} {fut : Bytes} {K : List Ev × Fin} {h : Handler} {c : Cfg}

/-! ## Two parsers that differ in the number of bytes counted -/

/-- The call did not return. -/
def Crash (r : Res) : Prop := r = .panic ∨ r = .ub ∨ r = .diverge

/-- Both runs returned the same, or crashed in the same way. -/
def BT (d : Nat) (a b : Res × Cfg) : Prop :=
  a.1 = b.1 ∧ (Crash a.1 ∨
    (b.2.p = a.2.p.bump d ∧ b.2.log = a.2.log ∧ b.2.ctx.idx = a.2.ctx.idx))

theorem bump_parse {d f : Nat} {p : Parser} {s : Bytes} {l : List Ev} :
    BT d (parse h f ⟨p, Ctx.new s, l⟩) (parse h f ⟨p.bump d, Ctx.new s, l⟩) := by
  have hrel : Rel 0 p.byteCount (p.byteCount + d) ⟨p, Ctx.new s, l⟩ ⟨p.bump d, Ctx.new s, l⟩ :=
    ⟨p, s, 0, 0, _, _, l, rfl, rfl, fun _ => rfl⟩
  have hpt := t_parse (h := h) f _ _ hrel
  revert hpt
  rcases parse h f ⟨p, Ctx.new s, l⟩ with ⟨r, c⟩
  rcases parse h f ⟨p.bump d, Ctx.new s, l⟩ with ⟨r', c'⟩
  intro hpt
  have e1 : ∀ i, p.byteCount + d + i = p.byteCount + (i + 0) + d := by intro i; omega
  cases r with
  | ok su =>
    cases r' with
    | ok su' =>
      obtain ⟨hs, P, S, i, m, b, b', l, rfl, rfl, -⟩ := hpt
      refine ⟨?_, .inr ⟨by simp only [LL, RR, Parser.bump, e1], rfl, rfl⟩⟩
      cases su <;> cases su' <;> simp only [relS, LL, RR] at hs
      · exact congrArg (fun x => Res.ok (.callback x)) (hs.1.trans hs.2.symm)
      · exact congrArg (fun x => Res.ok (.eos x)) (hs.1.trans hs.2.symm)
      · exact congrArg (fun x => Res.ok (.finished x)) (hs.1.trans hs.2.symm)
    | _ => exact hpt.elim
  | err x =>
    cases r' with
    | err x' =>
      obtain ⟨rfl, P, S, i, m, b, b', l, rfl, rfl, -⟩ := hpt
      exact ⟨rfl, .inr ⟨by simp only [LL, RR, Parser.bump, e1], rfl, rfl⟩⟩
    | _ => exact hpt.elim
  | panic =>
    cases r' with
    | panic => exact ⟨rfl, .inl (.inl rfl)⟩
    | _ => exact hpt.elim
  | ub =>
    cases r' with
    | ub => exact ⟨rfl, .inl (.inr (.inl rfl))⟩
    | _ => exact hpt.elim
  | diverge =>
    cases r' with
    | diverge => exact ⟨rfl, .inl (.inr (.inr rfl))⟩
    | _ => exact hpt.elim

/-- `BT` between two calls. -/
def BW (d : Nat) (a b : Res × World) : Prop :=
  a.1 = b.1 ∧ (Crash a.1 ∨ (b.2.p = a.2.p.bump d ∧ b.2.log = a.2.log))

theorem bump_resume {d : Nat} {p : Parser} {s : Bytes} {l : List Ev} :
    BW d (resume h ⟨p, l⟩ s) (resume h ⟨p.bump d, l⟩ s) := by
  by_cases hp : p.ptype = .urlEncoded
  · rw [resume_urlPost hp, resume_urlPost (p := p.bump d) hp]
    have hb := bump_parse (h := h) (d := d) (p := p) (l := l) (f := fuel (s.take p.length).length)
      (s := s.take p.length)
    show BW d _ (urlPost h 2 (parse h (fuel (s.take p.length).length)
      ⟨p.bump d, Ctx.new (s.take p.length), l⟩))
    revert hb
    rcases parse h (fuel (s.take p.length).length) ⟨p, Ctx.new (s.take p.length), l⟩ with ⟨r, c⟩
    rcases parse h (fuel (s.take p.length).length) ⟨p.bump d, Ctx.new (s.take p.length), l⟩ with ⟨r', c'⟩
    rintro ⟨rfl, hb⟩
    rcases hb with hb | ⟨h1, h2, h3⟩
    · rcases hb with hb | hb | hb <;> simp only at hb <;> subst hb
      · exact ⟨rfl, .inl (.inl rfl)⟩
      · exact ⟨rfl, .inl (.inr (.inl rfl))⟩
      · exact ⟨rfl, .inl (.inr (.inr rfl))⟩
    · obtain ⟨P', x', L'⟩ := c'
      simp only at h1 h2 h3
      subst h1 h2
      cases r with
      | ok su =>
        cases su with
        | callback k =>
          show BW d (if c.p.length < k then _ else _) (if c.p.length < k then _ else _)
          split
          · exact ⟨rfl, .inl (.inl rfl)⟩
          · exact ⟨rfl, .inr ⟨rfl, rfl⟩⟩
        | eos k =>
          simp only [urlPost]
          rw [parse_bodyFinished (Nat.le_refl 2) rfl, parse_bodyFinished (Nat.le_refl 2) rfl]
          show BW d (if c.p.length < k then _ else _) (if c.p.length < k then _ else _)
          split
          · exact ⟨rfl, .inl (.inl rfl)⟩
          · show BW d (if c.p.length - k = 0 then _ else _) (if c.p.length - k = 0 then _ else _)
            split
            · dsimp only
              split
              · refine ⟨by simp only [h3], .inr ⟨?_, rfl⟩⟩
                simp only [Parser.bump, h3]
                congr 1
                omega
              · refine ⟨by simp only [h3], .inr ⟨?_, rfl⟩⟩
                simp only [Parser.bump, h3]
                congr 1
                omega
            · exact ⟨rfl, .inr ⟨rfl, rfl⟩⟩
        | finished k => exact ⟨rfl, .inr ⟨rfl, rfl⟩⟩
      | err x => exact ⟨rfl, .inr ⟨rfl, rfl⟩⟩
      | panic => exact ⟨rfl, .inl (.inl rfl)⟩
      | ub => exact ⟨rfl, .inl (.inr (.inl rfl))⟩
      | diverge => exact ⟨rfl, .inl (.inr (.inr rfl))⟩
  · rw [resume_plain (w := ⟨p, l⟩) hp, resume_plain (w := ⟨p.bump d, l⟩) hp]
    obtain ⟨h1, h2⟩ := bump_parse (h := h) (d := d) (p := p) (l := l) (f := fuel s.length) (s := s)
    refine ⟨h1, ?_⟩
    rcases h2 with h2 | ⟨h2, h3, -⟩
    · exact .inl h2
    · exact .inr ⟨h2, h3⟩

theorem bump_reset {d : Nat} {p : Parser} : (p.bump d).reset = p.reset.bump d := by
  obtain ⟨a, b, c, e, t, s, f⟩ := p
  cases t <;> rfl

theorem bump_run {d : Nat} : ∀ (ops : List Op) (p : Parser) (l : List Ev),
    (run ops ⟨p.bump d, l⟩).1 = (run ops ⟨p, l⟩).1 ∧
    (run ops ⟨p.bump d, l⟩).2 = { (run ops ⟨p, l⟩).2 with p := (run ops ⟨p, l⟩).2.p.bump d }
  | [], p, l => ⟨rfl, rfl⟩
  | .reset :: ops, p, l => by
    simp only [run, bump_reset]; exact bump_run ops p.reset l
  | .init t :: ops, p, l => by
    have : (p.bump d).init t = (p.init t).bump d := bump_reset (p := { p with ptype := t })
    simp only [run, this]; exact bump_run ops (p.init t) l
  | .setBoundary b :: ops, p, l => bump_run ops (p.setBoundary b) l
  | .setLength n :: ops, p, l => bump_run ops (p.setLength n) l
  | .resume h s :: ops, p, l => by
    have hb := bump_resume (h := h) (d := d) (p := p) (s := s) (l := l)
    simp only [run]
    revert hb
    rcases resume h ⟨p, l⟩ s with ⟨r, w⟩
    rcases resume h ⟨p.bump d, l⟩ s with ⟨r', w'⟩
    rintro ⟨rfl, hb⟩
    cases r with
    | ok su =>
      rcases hb with hb | ⟨h1, h2⟩
      · rcases hb with hb | hb | hb <;> cases hb
      · have : w' = ⟨w.p.bump d, w.log⟩ := by cases w'; simp only at h1 h2; rw [h1, h2]
        have := bump_run (d := d) ops w.p w.log
        simp only [*]
        exact ⟨trivial, trivial⟩
    | err e =>
      rcases hb with hb | ⟨h1, h2⟩
      · rcases hb with hb | hb | hb <;> cases hb
      · have : w' = ⟨w.p.bump d, w.log⟩ := by cases w'; simp only at h1 h2; rw [h1, h2]
        have := bump_run (d := d) ops w.p w.log
        simp only [*]
        exact ⟨trivial, trivial⟩
    | panic => exact ⟨rfl, rfl⟩
    | ub => exact ⟨rfl, rfl⟩
    | diverge => exact ⟨rfl, rfl⟩

end Verif.Http1
