import Verif.Http1.SimCall
import Verif.Http1.Client
import Verif.Http1.Pause
import Mathlib.Tactic.Linarith

/-!
# What one call of resume guarantees (helper lemmas)
-/

set_option linter.unusedSimpArgs false
set_option linter.unusedVariables false

namespace Verif.Http1

variable {env : Env} {fut : Bytes} {K : List Ev × Fin} {h : Handler} {c : Cfg}

/-! ## The parser loop -/

/-- Facts about a run of the parser loop. -/
def ParseAux (h : Handler) (sf : Prop) (l0 : List Ev) : Res × Cfg → Prop
  | (.ok (.callback _), c) => (sf → c.p.state = c.p.fn) ∧
    ∃ l e, Went h l0 l ∧ c.log = l ++ [e] ∧ (CtxOK c.ctx → flatEv e ≠ []) ∧ h.ret c.log = false
  | (.ok (.eos _), c) => (sf → c.p.state = c.p.fn) ∧ Went h l0 c.log
  | (.ok (.finished _), c) => Went h l0 c.log
  | (.err _, c) => Went h l0 c.log
  | _ => True

theorem aux_parse {sf : Prop} {l0 : List Ev} : ∀ (n : Nat) (c : Cfg), AuxC h sf l0 c →
    ParseAux h sf l0 (parse h n c)
  | 0, _, _ => trivial
  | n + 1, c, H => by
    have hs := aux_step (h := h) H
    simp only [parse]
    cases heq : step h c with
    | cont c' => rw [heq] at hs; exact aux_parse n c' ⟨hs.1, hs.2⟩
    | exit s c' =>
      rw [heq] at hs
      cases s with
      | callback n => exact hs
      | eos n => exact hs
      | finished n => exact hs.2
    | err e c' => rw [heq] at hs; exact hs
    | panic => trivial
    | ub => trivial

/-- `parse` from the state `dead`. -/
theorem parse_dead {n : Nat} (hf : c.p.fn = .dead) :
    parse h (n + 1) c = (.err .dead, { c with p := { c.p with
      byteCount := c.p.byteCount + c.ctx.idx, state := .dead, fn := .dead } }) := by
  rw [parse, step, hf]; rfl

/-- `parse` from the state `finished`. -/
theorem parse_finished {n : Nat} (hf : c.p.fn = .finished) :
    parse h (n + 1) c = (.ok (.finished c.ctx.idx), { c with p := { c.p with
      byteCount := c.p.byteCount + c.ctx.idx, state := .finished } }) := by
  rw [parse, step, hf]; rfl

/-- Nothing but a callback exit follows a refused callback: with a handler that always agrees,
`parse` does not pause. -/
theorem fuel_pos (n : Nat) : ∃ m, fuel n = m + 1 := ⟨8 * n + 7, by simp [fuel]⟩

/-! ## One call of `resume` -/

/-- What one call of `resume` guarantees, in every parser state. `url` marks the calls in
URL-encoded mode that complete the body: they count their bytes twice. -/
def CallOK (h : Handler) (w : World) (s : Bytes) : Res × World → Prop
  | (.ok (.callback n), w') =>
    n ≤ s.length ∧
    (w'.p.byteCount = w.p.byteCount + n ∨
      (w.p.ptype = .urlEncoded ∧ w'.p.fn = .finished ∧
        w'.p.byteCount = w.p.byteCount + n + n)) ∧
    w'.p.ptype = w.p.ptype ∧ w'.p.boundary = w.p.boundary ∧
    (w.p.state = w.p.fn → w'.p.state = w'.p.fn) ∧
    (∃ l e, w.log <+: l ∧ w'.log = l ++ [e] ∧ flatEv e ≠ []) ∧ h.ret w'.log = false
  | (.ok (.eos n), w') =>
    n = s.length ∧ w'.p.byteCount = w.p.byteCount + n ∧
    w'.p.ptype = w.p.ptype ∧ w'.p.boundary = w.p.boundary ∧
    (w.p.state = w.p.fn → w'.p.state = w'.p.fn) ∧ w.log <+: w'.log
  | (.ok (.finished n), w') =>
    n ≤ s.length ∧
    (w'.p.byteCount = w.p.byteCount + n ∨
      (w.p.ptype = .urlEncoded ∧ w'.p.byteCount = w.p.byteCount + n + n)) ∧
    w'.p.ptype = w.p.ptype ∧ w'.p.boundary = w.p.boundary ∧
    w'.p.state = .finished ∧ w'.p.fn = .finished ∧ w.log <+: w'.log
  | (.err _, w') =>
    w.p.byteCount ≤ w'.p.byteCount ∧ w'.p.byteCount ≤ w.p.byteCount + s.length ∧
    w'.p.ptype = w.p.ptype ∧ w'.p.boundary = w.p.boundary ∧
    w'.p.state = .dead ∧ w'.p.fn = .dead ∧ w.log <+: w'.log
  | (.panic, _) => True
  | (.ub, _) => True
  | (.diverge, _) => False

/-- The parser's state function fits its type in URL-encoded mode. -/
def UrlOK (p : Parser) : Prop := p.ptype = .urlEncoded → UrlSt p.fn ∨ p.fn = .dead

theorem resume_plain {w : World} {s : Bytes} (hu : w.p.ptype ≠ .urlEncoded) :
    resume h w s = ((parse h (fuel s.length) ⟨w.p, Ctx.new s, w.log⟩).1,
      ⟨(parse h (fuel s.length) ⟨w.p, Ctx.new s, w.log⟩).2.p,
       (parse h (fuel s.length) ⟨w.p, Ctx.new s, w.log⟩).2.log⟩) := by
  unfold resume
  split
  · rename_i h; exact absurd h hu
  · rfl

theorem callOK_plain {w : World} {s : Bytes} (hu : w.p.ptype ≠ .urlEncoded) :
    CallOK h w s (resume h w s) := by
  have h1 := parse_new_ok h w.p s w.log
  have h2 := aux_parse (h := h) (sf := w.p.state = w.p.fn) (l0 := w.log) (fuel s.length)
    ⟨w.p, Ctx.new s, w.log⟩ ⟨id, .refl⟩
  rw [resume_plain hu]
  revert h1 h2
  generalize parse h (fuel s.length) ⟨w.p, Ctx.new s, w.log⟩ = rc
  obtain ⟨r, c'⟩ := rc
  intro h1 h2
  have hle : RunExt ⟨w.p, Ctx.new s, w.log⟩ c' → c'.ctx.idx ≤ s.length := by
    intro hr
    have hst : c'.ctx.stream = s := hr.stream
    rw [← hst]; exact hr.ok.idx_le
  cases r with
  | ok su =>
    cases su with
    | callback n =>
      obtain ⟨hr, rfl⟩ := h1
      obtain ⟨h2, l, e, h3, h4, h5, h6⟩ := h2
      exact ⟨hle hr, .inl hr.byteCount, hr.ptype, hr.boundary, h2, ⟨l, e, h3.prefix, h4, h5 hr.ok⟩, h6⟩
    | eos n =>
      obtain ⟨hr, rfl, hn⟩ := h1
      have hst : c'.ctx.stream = s := hr.stream
      rw [hst] at hn
      exact ⟨hn, hr.byteCount, hr.ptype, hr.boundary, h2.1, h2.2.prefix⟩
    | finished n =>
      obtain ⟨hr, rfl, hf, hs⟩ := h1
      exact ⟨hle hr, .inl hr.byteCount, hr.ptype, hr.boundary, hs, hf, h2.prefix⟩
  | err e =>
    obtain ⟨hr, hf, hs⟩ := h1
    have := hr.byteCount
    have := hle hr
    refine ⟨?_, ?_, hr.ptype, hr.boundary, hs, hf, hr.log.prefix⟩ <;> simp only at * <;> omega
  | panic => trivial
  | ub => trivial
  | diverge => exact h1

theorem callOK_url {w : World} {s : Bytes} (hp : w.p.ptype = .urlEncoded) (hu : UrlSt w.p.fn) :
    CallOK h w s (resume h w s) := by
  obtain ⟨st, hst⟩ : ∃ st, s.take w.p.length = st := ⟨_, rfl⟩
  have hL : (if w.p.length < s.length then s.take w.p.length else s) = st := by
    rw [← hst]
    split
    · rfl
    · rw [List.take_of_length_le (by omega)]
  have hstl : st.length = min w.p.length s.length := by rw [← hst, List.length_take]
  have h1 := parse_new_ok h w.p st w.log
  have h2 := aux_parse (h := h) (sf := w.p.state = w.p.fn) (l0 := w.log) (fuel st.length)
    ⟨w.p, Ctx.new st, w.log⟩ ⟨id, .refl⟩
  have h3 := outU_parse (h := h) (fuel st.length) ⟨w.p, Ctx.new st, w.log⟩ hu
  rw [resume_url hp hL]
  have hfuel : 2 ≤ fuel st.length := by simp only [fuel]; omega
  revert h1 h2 h3
  generalize parse h (fuel st.length) ⟨w.p, Ctx.new st, w.log⟩ = rc
  obtain ⟨r, c'⟩ := rc
  intro h1 h2 h3
  have hle : RunExt ⟨w.p, Ctx.new st, w.log⟩ c' → c'.ctx.idx ≤ st.length := by
    intro hr
    have hst : c'.ctx.stream = st := hr.stream
    rw [← hst]; exact hr.ok.idx_le
  cases r with
  | ok su =>
    obtain ⟨hus, hl⟩ := h3 su c' rfl
    simp only at hl
    cases su with
    | callback n =>
      obtain ⟨hr, rfl⟩ := h1
      obtain ⟨h2, l, e, h3, h4, h5, h6⟩ := h2
      have := hle hr
      simp only [urlPost]
      rw [if_neg (by omega)]
      exact ⟨by omega, .inl hr.byteCount, hr.ptype, hr.boundary, h2, ⟨l, e, h3.prefix, h4, h5 hr.ok⟩, h6⟩
    | eos n =>
      obtain ⟨hr, rfl, hn⟩ := h1
      have hst' : c'.ctx.stream = st := hr.stream
      rw [hst'] at hn
      simp only [urlPost]
      rw [if_neg (by omega)]
      have hbc : c'.p.byteCount = w.p.byteCount + c'.ctx.idx := hr.byteCount
      split
      · rw [parse_bodyFinished hfuel rfl]
        by_cases hret : h.ret (c'.log ++ [.bodyFinished]) = true
        · simp only [if_pos hret]
          refine ⟨show c'.ctx.idx ≤ s.length by omega, .inr ⟨hp, ?_⟩, hr.ptype, hr.boundary, rfl,
            rfl, h2.2.prefix.trans (List.prefix_append _ _)⟩
          show c'.p.byteCount + c'.ctx.idx = _
          rw [hbc]
        · simp only [if_neg hret]
          refine ⟨show c'.ctx.idx ≤ s.length by omega, .inr ⟨hp, rfl, ?_⟩, hr.ptype, hr.boundary,
            fun _ => rfl, ⟨c'.log, .bodyFinished, h2.2.prefix, rfl, by simp [flatEv]⟩, by simpa using hret⟩
          show c'.p.byteCount + c'.ctx.idx = _
          rw [hbc]
      · exact ⟨by omega, hr.byteCount, hr.ptype, hr.boundary, h2.1, h2.2.prefix⟩
    | finished n =>
      obtain ⟨hr, rfl, hf, hs⟩ := h1
      have := hle hr
      exact ⟨by omega, .inl hr.byteCount, hr.ptype, hr.boundary, hs, hf, h2.prefix⟩
  | err e =>
    obtain ⟨hr, hf, hs⟩ := h1
    have := hr.byteCount
    have := hle hr
    refine ⟨?_, ?_, hr.ptype, hr.boundary, hs, hf, hr.log.prefix⟩ <;> simp only [urlPost] at * <;> omega
  | panic => trivial
  | ub => trivial
  | diverge => exact h1

/-- A dead parser. -/
theorem resume_dead {w : World} {s : Bytes} (hf : w.p.fn = .dead) :
    resume h w s = (.err .dead, ⟨{ w.p with state := .dead }, w.log⟩) := by
  have key : ∀ st : Bytes, parse h (fuel st.length) ⟨w.p, Ctx.new st, w.log⟩ =
      (.err .dead, ⟨{ w.p with state := .dead }, Ctx.new st, w.log⟩) := by
    intro st
    obtain ⟨m, hm⟩ := fuel_pos st.length
    rw [hm, parse_dead hf]
    simp [Ctx.new, ← hf]
  by_cases hp : w.p.ptype = .urlEncoded
  · rw [resume_url hp rfl, key]
    rfl
  · rw [resume_plain hp, key]

/-- A finished parser. -/
theorem resume_finished {w : World} {s : Bytes} (hf : w.p.fn = .finished) :
    resume h w s = (.ok (.finished 0), ⟨{ w.p with state := .finished }, w.log⟩) := by
  have key : ∀ st : Bytes, parse h (fuel st.length) ⟨w.p, Ctx.new st, w.log⟩ =
      (.ok (.finished 0), ⟨{ w.p with state := .finished }, Ctx.new st, w.log⟩) := by
    intro st
    obtain ⟨m, hm⟩ := fuel_pos st.length
    rw [hm, parse_finished hf]
    simp [Ctx.new]
  by_cases hp : w.p.ptype = .urlEncoded
  · rw [resume_url hp rfl, key]
    rfl
  · rw [resume_plain hp, key]

/-- A call pauses right after the first callback that answers `false`, and not otherwise. -/
def Answered (h : Handler) (l0 : List Ev) : Res × World → Prop
  | (.ok (.callback _), w) => ∃ l e, Went h l0 l ∧ w.log = l ++ [e] ∧ h.ret w.log = false
  | (.ok (.eos _), w) => Went h l0 w.log
  | (.ok (.finished _), w) => Went h l0 w.log
  | (.err _, w) => Went h l0 w.log
  | _ => True

theorem answered {w : World} {s : Bytes} : Answered h w.log (resume h w s) := by
  have plain : ∀ (st : Bytes) (r : Res) (c : Cfg), parse h (fuel st.length) ⟨w.p, Ctx.new st, w.log⟩ = (r, c) →
      ∀ q, Answered h w.log (r, ⟨q, c.log⟩) := by
    intro st r c he q
    have h2 := aux_parse (h := h) (sf := False) (l0 := w.log) (fuel st.length)
      ⟨w.p, Ctx.new st, w.log⟩ ⟨False.elim, .refl⟩
    rw [he] at h2
    cases r with
    | ok su =>
      cases su with
      | callback n => obtain ⟨-, l, e, h3, h4, -, h6⟩ := h2; exact ⟨l, e, h3, h4, h6⟩
      | eos n => exact h2.2
      | finished n => exact h2
    | err e => exact h2
    | _ => trivial
  by_cases hp : w.p.ptype = .urlEncoded
  · rw [resume_url hp rfl]
    generalize (if w.p.length < s.length then s.take w.p.length else s) = st
    have hfuel : 2 ≤ fuel st.length := by simp only [fuel]; omega
    have hpl := plain st
    generalize parse h (fuel st.length) ⟨w.p, Ctx.new st, w.log⟩ = rc at hpl ⊢
    obtain ⟨r, c'⟩ := rc
    cases r with
    | ok su =>
      cases su with
      | callback n =>
        simp only [urlPost]
        split
        · trivial
        · exact hpl _ _ rfl _
      | eos n =>
        simp only [urlPost]
        split
        · trivial
        · split
          · have hw : Went h w.log c'.log := hpl _ _ rfl c'.p
            rw [parse_bodyFinished hfuel rfl]
            by_cases hret : h.ret (c'.log ++ [.bodyFinished]) = true
            · simp only [if_pos hret]
              exact hw.snoc hret
            · simp only [if_neg hret]
              exact ⟨_, _, hw, rfl, by simpa using hret⟩
          · exact hpl _ _ rfl _
      | finished n => exact hpl _ _ rfl _
    | err e => exact hpl _ _ rfl _
    | _ => trivial
  · rw [resume_plain hp]
    exact plain s _ _ rfl _

/-- The callbacks of a call that returns are not empty data. -/
def NewData (l0 : List Ev) : Res × World → Prop
  | (.ok _, w) => Grew l0 w.log
  | (.err _, w) => Grew l0 w.log
  | _ => True

theorem newData {w : World} {s : Bytes} : NewData w.log (resume h w s) := by
  have plain : ∀ (st : Bytes) (r : Res) (c : Cfg), parse h (fuel st.length) ⟨w.p, Ctx.new st, w.log⟩ = (r, c) →
      ∀ q, NewData w.log (r, ⟨q, c.log⟩) := by
    intro st r c he q
    have h2 := parse_new_ok h w.p st w.log
    rw [he] at h2
    cases r with
    | ok su => cases su <;> exact h2.1.log
    | err e => exact h2.1.log
    | _ => trivial
  by_cases hp : w.p.ptype = .urlEncoded
  · rw [resume_url hp rfl]
    generalize (if w.p.length < s.length then s.take w.p.length else s) = st
    have hfuel : 2 ≤ fuel st.length := by simp only [fuel]; omega
    have hpl := plain st
    generalize parse h (fuel st.length) ⟨w.p, Ctx.new st, w.log⟩ = rc at hpl ⊢
    obtain ⟨r, c'⟩ := rc
    cases r with
    | ok su =>
      cases su with
      | callback n =>
        simp only [urlPost]
        split
        · trivial
        · exact hpl _ _ rfl _
      | eos n =>
        simp only [urlPost]
        split
        · trivial
        · split
          · have hw : Grew w.log c'.log := hpl _ _ rfl c'.p
            rw [parse_bodyFinished hfuel rfl]
            split <;> exact hw.snoc (by simp [flatEv])
          · exact hpl _ _ rfl _
      | finished n => exact hpl _ _ rfl _
    | err e => exact hpl _ _ rfl _
    | _ => trivial
  · rw [resume_plain hp]
    exact plain s _ _ rfl _

theorem callOK {w : World} {s : Bytes} (hu : UrlOK w.p) : CallOK h w s (resume h w s) := by
  by_cases hp : w.p.ptype = .urlEncoded
  · rcases hu hp with hu | hu
    · exact callOK_url hp hu
    · rw [resume_dead hu]
      exact ⟨Nat.le_refl _, Nat.le_add_right _ _, rfl, rfl, rfl, hu, List.prefix_refl _⟩
  · exact callOK_plain hp

end Verif.Http1
