import Verif.Http1.Safe
import Verif.Http1.Upper
import Verif.Http1.Call
import Mathlib.Tactic.Linarith

/-!
# Every history of calls (helper lemmas)
-/

set_option linter.unusedSimpArgs false
set_option linter.unusedVariables false

namespace Verif.Http1

variable {env : Env} {fut : Bytes} {K : List Ev × Fin} {h : Handler} {c : Cfg}

variable {P : Prop} {S : Bytes} {t : PType}

/-- When a panic is excused. -/
def Excuse (S : Bytes) (p : Parser) : Prop := 255 ∈ S ∨ (p.ptype = .multipart ∧ p.boundary = none)

/-- What holds for a parser in multipart mode. -/
def MpOK (p : Parser) : Prop :=
  p.ptype = .multipart → (∀ bd, p.boundary = some bd → bd.length < 16384) ∧ UI p

/-- What holds for every result of a run that starts well. -/
def SafeRun (P : Prop) (t : PType) (b : Option Bytes) (mp : Prop) : Res × Cfg → Prop
  | (.ok _, c) => c.p.fn ≠ .detect1 ∧ MC t c ∧ c.p.boundary = b ∧ (mp → MpOK c.p)
  | (.panic, _) => P
  | (.ub, _) => False
  | _ => True

theorem bdBad_excuse (M : MC t c) (hu : MpOK c.p) (hb : BdBad c) :
    c.p.ptype = .multipart ∧ c.p.boundary = none := by
  have hm := M.md
  rw [hb.1] at hm
  have hp : c.p.ptype = .multipart := by rw [M.pt]; revert hm; cases t <;> decide
  refine ⟨hp, ?_⟩
  cases hbd : c.p.boundary with
  | none => rfl
  | some bd =>
    have h1 := hb.2 bd hbd
    rcases (hu hp).2 with h2 | ⟨-, bd', h2, h3⟩
    · rw [h2] at h1; exact absurd h1 (Nat.not_lt_zero _)
    · rw [hbd] at h2; cases h2; omega

/-- `mp` tells whether the boundary is handled properly. -/
theorem safe_parse {mp : Prop} (hP : 255 ∈ S → P) (hnp : ¬ mp → P)
    (hN : t = .multipart → c.p.boundary = none → P) : ∀ (n : Nat) (c' : Cfg), CtxOK c'.ctx →
    NJ S c' → MC t c' → c'.p.boundary = c.p.boundary → (mp → MpOK c'.p) →
    SafeRun P t c.p.boundary mp (parse h n c')
  | 0, _, _, _, _, _, _ => trivial
  | n + 1, c', hok, N, M, hb, hu => by
    have hs := fr_step h c' hok
    have hn : NP P (step h c') := by
      refine np_step N hP fun hbad => ?_
      by_cases hmp : mp
      · have h1 := bdBad_excuse M (hu hmp) hbad
        exact hN (M.pt.symm.trans h1.1) (hb.symm.trans h1.2)
      · exact hnp hmp
    have hm := mo_step (h := h) M
    have hui : mp → UIO (step h c') ∨ c'.p.ptype ≠ .multipart := by
      intro hmp
      by_cases hp : c'.p.ptype = .multipart
      · exact .inl (ui_step hp (by rw [M.pt]; exact M.md) (hu hmp hp).1 (hu hmp hp).2)
      · exact .inr hp
    simp only [parse]
    cases heq : step h c' with
    | cont c'' =>
      rw [heq] at hs hn hm hui
      have he := hs.1
      have hst := he.stream.trans N.stream
      refine safe_parse hP hnp hN n c'' he.ok ⟨hst, he.ok.mark_le, by rw [← hst]; exact he.ok.idx_le,
        by rw [← hst]; exact hn⟩ ⟨hm.1, hm.2⟩ (he.boundary.trans hb) fun hmp hp => ?_
      rw [he.ptype] at hp
      refine ⟨by rw [he.boundary]; exact (hu hmp hp).1, ?_⟩
      rcases hui hmp with h | h
      · exact h
      · exact absurd hp h
    | exit s c'' =>
      rw [heq] at hs hn hm hui
      have key : ∀ p : Parser, p.fn = c''.p.fn → p.ptype = c''.p.ptype →
          p.boundary = c''.p.boundary → p.bitData = c''.p.bitData →
          c''.p.ptype = c'.p.ptype → c''.p.boundary = c'.p.boundary →
          SafeRun P t c.p.boundary mp (.ok s, { c'' with p := p }) := by
        intro p h1 h2 h3 h4 h5 h6
        refine ⟨by rw [show ({ c'' with p := p } : Cfg).p.fn = c''.p.fn from h1]; exact hn,
          ⟨by show modeSt t p.fn = true; rw [h1]; exact hm.1, h2.trans hm.2⟩,
          h3.trans (h6.trans hb), fun hmp hp => ?_⟩
        have hp : p.ptype = .multipart := hp
        have hp' : c'.p.ptype = .multipart := by rw [← h5, ← h2]; exact hp
        refine ⟨by show ∀ bd, p.boundary = some bd → _; rw [h3, h6]; exact (hu hmp hp').1, ?_⟩
        rcases hui hmp with h | h
        · show UI p
          have h : UI c''.p := h
          unfold UI at h ⊢
          rw [h1, h3, show getUpper14 p = getUpper14 c''.p by simp only [getUpper14, h4]]
          exact h
        · exact absurd hp' h
      have hpt : c''.p.ptype = c'.p.ptype := hm.2.trans M.pt.symm
      have hbd : c''.p.boundary = c'.p.boundary := by
        revert hs; unfold Fr; cases s <;> exact fun hs => hs.1.boundary
      cases s with
      | callback k => exact key _ rfl rfl rfl rfl hpt hbd
      | eos k => exact key _ rfl rfl rfl rfl hpt hbd
      | finished k => exact key _ rfl rfl rfl rfl hpt hbd
    | err e c'' => trivial
    | panic => rw [heq] at hn; exact hn
    | ub => rw [heq] at hn; exact hn

/-! ## One call of `resume` -/

/-- What one call keeps, and when it can fail to return. -/
def SafeCall (w : World) (s : Bytes) (mp : Prop) : Res × World → Prop
  | (.ok _, w') => w'.p.fn ≠ .detect1 ∧ modeSt w.p.ptype w'.p.fn = true ∧ w'.p.ptype = w.p.ptype ∧
      w'.p.boundary = w.p.boundary ∧ (mp → MpOK w'.p)
  | (.err _, _) => True
  | (.panic, _) => 255 ∈ s ∨ ¬ mp ∨ (w.p.ptype = .multipart ∧ w.p.boundary = none)
  | (.ub, _) => w.p.fn = .detect1 ∧ s = []
  | (.diverge, _) => False

theorem urlSt_of_mode {f : St} (hm : modeSt .urlEncoded f = true) : UrlSt f ∨ f = .dead := by
  revert hm
  cases f <;> simp [modeSt, UrlSt]

theorem detect1_nil {w : World} (hf : w.p.fn = .detect1) :
    resume h w [] = (.ub, w) ∨ w.p.ptype = .urlEncoded := by
  by_cases hp : w.p.ptype = .urlEncoded
  · exact .inr hp
  · left
    rw [resume_plain hp]
    simp only [List.length_nil, fuel, parse, step, hf, detect1, Ctx.available, Ctx.new]
    rfl

theorem safe_resume {w : World} {s : Bytes} {mp : Prop} (hm : modeSt w.p.ptype w.p.fn = true)
    (hu : mp → MpOK w.p) : SafeCall w s mp (resume h w s) := by
  by_cases hd : w.p.fn = .detect1 ∧ s = []
  · obtain ⟨hd, rfl⟩ := hd
    rcases detect1_nil (h := h) hd with h1 | h1
    · rw [h1]; exact ⟨hd, rfl⟩
    · rw [h1, hd] at hm; cases hm
  have run : ∀ st : Bytes, (∀ b ∈ st, b ∈ s) → (w.p.fn = .detect1 → st ≠ []) →
      SafeRun (255 ∈ s ∨ ¬ mp ∨ (w.p.ptype = .multipart ∧ w.p.boundary = none)) w.p.ptype
        w.p.boundary mp (parse h (fuel st.length) ⟨w.p, Ctx.new st, w.log⟩) := by
    intro st hst hne
    refine safe_parse (c := ⟨w.p, Ctx.new st, w.log⟩) (S := st) (fun h => .inl (hst _ h))
      (fun h => .inr (.inl h)) (fun h1 h2 => .inr (.inr ⟨h1, h2⟩)) _ _ (ctxOK_new st)
      ⟨rfl, Nat.le_refl _, Nat.zero_le _, ?_⟩ ⟨hm, rfl⟩ rfl hu
    by_cases hf : w.p.fn = .detect1
    · exact .inr (List.length_pos_iff.2 (hne hf))
    · exact .inl hf
  by_cases hp : w.p.ptype = .urlEncoded
  · rcases urlSt_of_mode (by rw [← hp]; exact hm) with hs | hs
    · obtain ⟨st, hst⟩ : ∃ st, s.take w.p.length = st := ⟨_, rfl⟩
      have hL : (if w.p.length < s.length then s.take w.p.length else s) = st := by
        rw [← hst]
        split
        · rfl
        · rw [List.take_of_length_le (by omega)]
      have hstl : st.length ≤ w.p.length := by rw [← hst, List.length_take]; omega
      have h0 := run st (fun b hb => List.mem_of_mem_take (hst ▸ hb))
        (fun hf => by rw [hf] at hs; cases hs)
      have h1 := parse_new_ok h w.p st w.log
      have h3 := outU_parse (h := h) (fuel st.length) ⟨w.p, Ctx.new st, w.log⟩ hs
      rw [resume_url hp hL]
      have hfuel : 2 ≤ fuel st.length := by simp only [fuel]; omega
      have npm : ∀ p : Parser, p.ptype = w.p.ptype → MpOK p := by
        intro p h1 h2
        rw [h1, hp] at h2; cases h2
      revert h0 h1 h3
      generalize parse h (fuel st.length) ⟨w.p, Ctx.new st, w.log⟩ = rc
      obtain ⟨r, c'⟩ := rc
      intro h0 h1 h3
      cases r with
      | ok su =>
        obtain ⟨hus, hl⟩ := h3 su c' rfl
        simp only at hl
        obtain ⟨a1, a2, a3, a4⟩ := h0
        cases su with
        | callback n =>
          obtain ⟨hr, rfl⟩ := h1
          have h5 : c'.ctx.idx ≤ st.length := by
            have hst : c'.ctx.stream = st := hr.stream
            rw [← hst]; exact hr.ok.idx_le
          simp only [urlPost]
          rw [if_neg (by omega)]
          exact ⟨a1, a2.md, a2.pt, a3, fun _ => npm _ a2.pt⟩
        | eos n =>
          obtain ⟨hr, rfl, hn⟩ := h1
          have hst' : c'.ctx.stream = st := hr.stream
          rw [hst'] at hn
          simp only [urlPost]
          rw [if_neg (by omega)]
          split
          · rw [parse_bodyFinished hfuel rfl]
            by_cases hret : h.ret (c'.log ++ [.bodyFinished]) = true
            · simp only [if_pos hret]
              exact ⟨nofun, rfl, a2.pt, a3, fun _ => npm _ a2.pt⟩
            · simp only [if_neg hret]
              exact ⟨nofun, rfl, a2.pt, a3, fun _ => npm _ a2.pt⟩
          · exact ⟨a1, a2.md, a2.pt, a3, fun _ => npm _ a2.pt⟩
        | finished n => exact ⟨a1, a2.md, a2.pt, a3, a4⟩
      | err e => trivial
      | panic => exact h0
      | ub => exact h0.elim
      | diverge => exact h1
    · rw [resume_dead hs]; trivial
  · have h0 := run s (fun _ h => h) (fun h1 h2 => hd ⟨h1, h2⟩)
    have h1 := parse_new_ok h w.p s w.log
    rw [resume_plain hp]
    revert h0 h1
    generalize parse h (fuel s.length) ⟨w.p, Ctx.new s, w.log⟩ = rc
    obtain ⟨r, c'⟩ := rc
    intro h0 h1
    cases r with
    | ok su =>
      obtain ⟨a1, a2, a3, a4⟩ := h0
      exact ⟨a1, a2.md, a2.pt, a3, a4⟩
    | err e => trivial
    | panic => exact h0
    | ub => exact h0.elim
    | diverge => exact h1

/-! ## Every history -/

variable {ok : Stage → Bytes → Prop} {st : Stage} {p : Parser}

theorem mode_reset (p : Parser) : modeSt p.reset.ptype p.reset.fn = true ∧
    p.reset.fn ≠ .detect1 ∧ p.reset.state = p.reset.fn ∧ getUpper14 p.reset = 0 ∧
    p.reset.boundary = none := by
  have h0 : ∀ p : Parser, p.bitData = 0 → getUpper14 p = 0 := by
    intro p h; rw [getUpper14, h]; decide
  obtain ⟨bd, b, bc, l, t, s, f⟩ := p
  cases t
  · exact ⟨rfl, nofun, rfl, h0 _ rfl, rfl⟩
  · exact ⟨rfl, nofun, rfl, h0 _ rfl, rfl⟩
  · refine ⟨rfl, nofun, rfl, ?_, rfl⟩
    exact (getUpper14_setLower14 (v := 1) _ (by decide)).trans (h0 _ rfl)
  · exact ⟨rfl, nofun, rfl, h0 _ rfl, rfl⟩

/-- `state` is the state function after a call. -/
def SF : Out → Prop
  | .cont c | .exit _ c => c.p.state = c.p.fn
  | _ => True

theorem sf_dataR {e : Ev} (hf : c.p.state = c.p.fn) : SF (callbackData h c e remark) := by
  unfold callbackData; simp only; split <;> exact hf
theorem sf_ite {p : Prop} [Decidable p] {a b : Out} (h1 : SF a) (h2 : SF b) :
    SF (if p then a else b) := by split <;> assumption
theorem sf_detect1 (hlt : ¬ c.ctx.available = 0) : SF (detect1 h c) := by
  have slow : SF (exitIfEos c <| next c fun c =>
      if isUpper c.ctx.byte then transitionNoRemark c .requestMethod .requestMethod
      else .err (.method c.ctx.byte) c) := by
    rw [exitIfEos, if_neg hlt]
    unfold next
    split
    · exact sf_ite rfl trivial
    · trivial
  have hm : SF (detect1Method h c) := by
    unfold detect1Method
    repeat' first
      | exact slow
      | exact sf_dataR rfl
      | with_reducible apply sf_ite
  unfold detect1
  simp only [if_neg hlt]
  repeat' first
    | exact hm
    | exact sf_dataR rfl
    | exact (rfl : _ = _)
    | with_reducible apply sf_ite

/-- The first call of a parser made by `Parser::new`. -/
theorem fresh_state {w w' : World} {s : Bytes} {r : Success} (hf : w.p.fn = .detect1)
    (hp : w.p.ptype ≠ .urlEncoded) (hr : resume h w s = (.ok r, w')) : w'.p.state = w'.p.fn := by
  have hs : s ≠ [] := by
    rintro rfl
    rcases detect1_nil (h := h) hf with h1 | h1
    · rw [h1] at hr; cases hr
    · exact hp h1
  rw [resume_plain hp] at hr
  obtain ⟨m, hm⟩ := fuel_pos s.length
  have hav : ¬ (Ctx.new s).available = 0 := by
    simp only [Ctx.available, Ctx.new]
    have := List.length_pos_iff.2 hs
    omega
  have h1 := sf_detect1 (h := h) (c := ⟨w.p, Ctx.new s, w.log⟩) hav
  rw [hm] at hr
  simp only [parse, step, hf] at hr
  cases heq : detect1 h ⟨w.p, Ctx.new s, w.log⟩ with
  | cont c' =>
    rw [heq] at h1 hr
    have h2 := aux_parse (h := h) (sf := True) (l0 := c'.log) m c' ⟨fun _ => h1, .refl⟩
    have h3 : ∀ n, r = .finished n → w'.p.state = w'.p.fn := by
      rintro n rfl
      have h4 := callOK_plain (h := h) (w := w) (s := s) hp
      rw [resume_plain hp, hm] at h4
      simp only [parse, step, hf, heq, hr] at h4
      rw [h4.2.2.2.2.1, h4.2.2.2.2.2.1]
    simp only at hr
    revert h2 hr
    generalize parse h m c' = rc
    obtain ⟨r', c''⟩ := rc
    intro hr h2
    simp only [Prod.mk.injEq] at hr
    obtain ⟨rfl, rfl⟩ := hr
    cases r with
    | callback n => exact h2.1 trivial
    | eos n => exact h2.1 trivial
    | finished n => exact h3 n rfl
  | exit su c' =>
    rw [heq] at h1 hr
    simp only [Prod.mk.injEq, Res.ok.injEq] at hr
    obtain ⟨rfl, rfl⟩ := hr
    cases su with
    | callback n => exact h1
    | eos n => exact h1
    | finished n =>
      have h4 := callOK_plain (h := h) (w := w) (s := s) hp
      rw [resume_plain hp, hm] at h4
      simp only [parse, step, hf, heq] at h4
      rw [h4.2.2.2.2.1, h4.2.2.2.2.2.1]
  | err e c' => rw [heq] at hr; simp at hr
  | panic => rw [heq] at hr; simp at hr
  | ub => rw [heq] at hr; simp at hr

theorem reach_mode (H : Reach ok st p) : modeSt p.ptype p.fn = true ∧
    (st ≠ .fresh → p.fn ≠ .detect1 ∧ p.state = p.fn) ∧ (st = .fresh → p.fn = .detect1) := by
  induction H with
  | new => exact ⟨rfl, fun h => absurd rfl h, fun _ => rfl⟩
  | @reset st p hp ih => exact ⟨(mode_reset p).1, fun _ => ⟨(mode_reset p).2.1, (mode_reset p).2.2.1⟩,
      nofun⟩
  | @init st p hp t ih =>
    exact ⟨(mode_reset _).1, fun _ => ⟨(mode_reset _).2.1, (mode_reset _).2.2.1⟩, nofun⟩
  | setBoundary hp b hb ih => exact ih
  | setLength hp n ih => exact ih
  | @resumeOk st w hp h s r w' hr ih =>
    have h1 := safe_resume (h := h) (s := s) (mp := False) ih.1 False.elim
    have h2 := callOK (h := h) (s := s) (w := w) fun hu => urlSt_of_mode (by rw [← hu]; exact ih.1)
    rw [hr] at h1 h2
    refine ⟨by rw [h1.2.2.1]; exact h1.2.1, fun _ => ⟨h1.1, ?_⟩, nofun⟩
    by_cases hs : st = .fresh
    · have hf := ih.2.2 hs
      refine fresh_state hf (fun hu => ?_) hr
      have := ih.1
      rw [hu, hf] at this
      cases this
    · have hsf := (ih.2.1 hs).2
      cases r with
      | callback n => exact h2.2.2.2.2.1 hsf
      | eos n => exact h2.2.2.2.2.1 hsf
      | finished n => rw [h2.2.2.2.2.1, h2.2.2.2.2.2.1]
  | @resumeErr st w hp h s e w' hr ih =>
    have h2 := callOK (h := h) (s := s) (w := w) fun hu => urlSt_of_mode (by rw [← hu]; exact ih.1)
    rw [hr] at h2
    obtain ⟨-, -, h3, -, h4, h5, -⟩ := h2
    rw [h5, h4]
    exact ⟨rfl, fun _ => ⟨nofun, rfl⟩, nofun⟩

theorem reach_mp (H : Reach properBoundary st p) : (p.fn = .dead ∨ MpOK p) ∧
    (∀ bd, p.boundary = some bd → bd.length < 16384) ∧
    (st ≠ .running → getUpper14 p = 0) := by
  induction H with
  | new => exact ⟨.inr nofun, nofun, fun _ => rfl⟩
  | @reset st p hp ih =>
    obtain ⟨-, -, -, h1, h2⟩ := mode_reset p
    have h3 : ∀ bd, p.reset.boundary = some bd → bd.length < 16384 := by rw [h2]; nofun
    exact ⟨.inr fun _ => ⟨h3, .inl h1⟩, h3, fun _ => h1⟩
  | @init st p hp t ih =>
    obtain ⟨-, -, -, h1, h2⟩ := mode_reset { p with ptype := t }
    have h3 : ∀ bd, (p.init t).boundary = some bd → bd.length < 16384 := by
      rw [Parser.init, h2]; nofun
    exact ⟨.inr fun _ => ⟨h3, .inl h1⟩, h3, fun _ => h1⟩
  | @setBoundary st p hp b hb ih =>
    have h3 : ∀ bd, (p.setBoundary b).boundary = some bd → bd.length < 16384 := by
      intro bd h; cases h; exact hb.2
    exact ⟨.inr fun _ => ⟨h3, .inl (ih.2.2 hb.1)⟩, h3, ih.2.2⟩
  | setLength hp n ih => exact ih
  | @resumeOk st w hp h s r w' hr ih =>
    have hM : MpOK w.p := ih.1.resolve_left fun hd => by rw [resume_dead hd] at hr; cases hr
    have h1 := safe_resume (h := h) (s := s) (mp := True) (reach_mode hp).1 fun _ => hM
    rw [hr] at h1
    exact ⟨.inr <| h1.2.2.2.2 trivial, by rw [h1.2.2.2.1]; exact ih.2.1, fun h => absurd rfl h⟩
  | @resumeErr st w hp h s e w' hr ih =>
    have h2 := callOK (h := h) (s := s) (w := w) fun hu =>
      urlSt_of_mode (by rw [← hu]; exact (reach_mode hp).1)
    rw [hr] at h2
    obtain ⟨-, -, h3, h6, h4, h5, -⟩ := h2
    exact ⟨.inl h5, by rw [h6]; exact ih.2.1, fun h => absurd rfl h⟩

end Verif.Http1
