import Verif.Http1.Reach
import Verif.Http1.History

/-!
# The byte count of calls in URL-encoded mode (helper lemmas)
-/

set_option linter.unusedSimpArgs false

namespace Verif.Http1

variable {h : Handler} {c : Cfg}

/-- The states of URL-encoded mode before the end of the body. -/
def UrlLv : St → Prop
  | .firstUrlEncodedName | .urlEncodedName | .urlEncodedNameHex1 | .urlEncodedNameHex2
  | .urlEncodedNamePlus | .urlEncodedValue | .urlEncodedValueHex1 | .urlEncodedValueHex2
  | .urlEncodedValuePlus => True
  | _ => False

/-- A state function of URL-encoded mode never ends the body. -/
def OutV (L : Nat) : Out → Prop
  | .cont c | .exit _ c => UrlLv c.p.fn ∧ c.p.length = L
  | _ => True

theorem outV_ite {p : Prop} [Decidable p] {a b : Out} {L : Nat} (h1 : OutV L a) (h2 : OutV L b) :
    OutV L (if p then a else b) := by split <;> assumption

theorem outV_data {L : Nat} {e : Ev} {k : Cfg → Out} (h1 : UrlLv c.p.fn) (h2 : c.p.length = L)
    (hk : ∀ c', c'.p = c.p → OutV L (k c')) : OutV L (callbackData h c e k) := by
  simp only [callbackData]
  split
  · exact hk _ rfl
  · exact ⟨h1, h2⟩

theorem outV_remark {L : Nat} (h1 : UrlLv c.p.fn) (h2 : c.p.length = L) : OutV L (remark c) :=
  ⟨h1, h2⟩

theorem outV_eos {L : Nat} {mk : Bytes → Ev} (h1 : UrlLv c.p.fn) (h2 : c.p.length = L) :
    OutV L (callbackEos h c mk) := by
  unfold callbackEos callbackSlice
  refine outV_ite trivial (outV_ite (outV_data h1 h2 fun c' hc => ?_) ⟨h1, h2⟩)
  exact ⟨by rw [hc]; exact h1, by rw [hc]; exact h2⟩

theorem outV_ctd {L : Nat} {e : Ev} {s f : St} (h1 : UrlLv f) (h2 : c.p.length = L) :
    OutV L (callbackTransitionData h c e s f) := by
  unfold callbackTransitionData
  refine outV_data h1 h2 fun c' hc => ?_
  exact ⟨by show UrlLv c'.p.fn; rw [hc]; exact h1, by show c'.p.length = _; rw [hc]; exact h2⟩

theorem outV_ign {L : Nat} {mk : Bytes → Ev} {s f : St} (h1 : UrlLv f) (h2 : c.p.length = L) :
    OutV L (callbackIgnoreTransition h c mk s f) := by
  unfold callbackIgnoreTransition
  refine outV_ite trivial (outV_ite (outV_data h1 h2 fun c' hc => ?_) ⟨h1, h2⟩)
  exact ⟨by show UrlLv c'.p.fn; rw [hc]; exact h1, by show c'.p.length = _; rw [hc]; exact h2⟩

theorem outV_collecting {L : Nat} {r : Ctx.Collect} {e k : Cfg → Out}
    (he : ∀ x, OutV L (e { c with ctx := x })) (hk : ∀ x, OutV L (k { c with ctx := x })) :
    OutV L (collecting c r e k) := by
  cases r
  · exact he _
  · exact hk _
  · trivial
  · trivial

theorem outV_read {L : Nat} {k : Cfg → Out} (h1 : UrlLv c.p.fn) (h2 : c.p.length = L)
    (hk : ∀ x, OutV L (k { c with ctx := x })) : OutV L (exitIfEos c (next c k)) := by
  unfold exitIfEos
  refine outV_ite ⟨h1, h2⟩ ?_
  unfold next
  split
  · exact hk _
  · trivial

theorem outV_step (hs : UrlLv c.p.fn) : OutV c.p.length (step h c) := by
  cases hfn : c.p.fn <;> rw [hfn] at hs <;> simp only [UrlLv] at hs <;> simp only [step, hfn]
  case firstUrlEncodedName =>
    unfold first_url_encoded_name exitIfEos
    refine outV_ite ⟨by simp [hfn, UrlLv], rfl⟩ ?_
    exact outV_ctd (s := .urlEncodedName) (f := .urlEncodedName) trivial rfl
  case urlEncodedName =>
    unfold url_encoded_name
    refine outV_collecting (fun x => outV_eos (by simp [hfn, UrlLv]) rfl) fun x => ?_
    refine outV_ite (outV_ign trivial rfl) (outV_ite (outV_ign trivial rfl)
      (outV_ite (outV_ign trivial rfl) (outV_ite (outV_ign trivial rfl) trivial)))
  case urlEncodedValue =>
    unfold url_encoded_value
    refine outV_collecting (fun x => outV_eos (by simp [hfn, UrlLv]) rfl) fun x => ?_
    refine outV_ite (outV_ign trivial rfl) (outV_ite (outV_ign trivial rfl)
      (outV_ite (outV_ign trivial rfl) trivial))
  case urlEncodedNameHex1 =>
    unfold url_encoded_name_hex1
    refine outV_read (by simp [hfn, UrlLv]) rfl fun x => ?_
    split
    · exact ⟨trivial, rfl⟩
    · trivial
  case urlEncodedValueHex1 =>
    unfold url_encoded_value_hex1
    refine outV_read (by simp [hfn, UrlLv]) rfl fun x => ?_
    split
    · exact ⟨trivial, rfl⟩
    · trivial
  case urlEncodedNameHex2 =>
    unfold url_encoded_name_hex2
    refine outV_read (by simp [hfn, UrlLv]) rfl fun x => ?_
    split
    · exact outV_ctd trivial rfl
    · trivial
  case urlEncodedValueHex2 =>
    unfold url_encoded_value_hex2
    refine outV_read (by simp [hfn, UrlLv]) rfl fun x => ?_
    split
    · exact outV_ctd trivial rfl
    · trivial
  case urlEncodedNamePlus => exact outV_ctd trivial rfl
  case urlEncodedValuePlus => exact outV_ctd trivial rfl

theorem outV_parse : ∀ (n : Nat) (c : Cfg), UrlLv c.p.fn → ∀ s c', parse h n c = (.ok s, c') →
    UrlLv c'.p.fn ∧ c'.p.length = c.p.length
  | 0, _, _, _, _, he => by simp [parse] at he
  | n + 1, c, hs, s, c', he => by
    have h1 := outV_step (h := h) hs
    simp only [parse] at he
    cases hst : step h c with
    | cont c1 =>
      rw [hst] at h1 he
      obtain ⟨h2, h3⟩ := outV_parse n c1 h1.1 s c' he
      exact ⟨h2, h3.trans h1.2⟩
    | exit s1 c1 =>
      rw [hst] at h1 he
      simp only [Prod.mk.injEq, Res.ok.injEq] at he
      obtain ⟨rfl, rfl⟩ := he
      cases s1 <;> exact h1
    | err e c1 => rw [hst] at he; simp at he
    | panic => rw [hst] at he; simp at he
    | ub => rw [hst] at he; simp at he


theorem UrlSt.cases {f : St} (hu : UrlSt f) : UrlLv f ∨ f = .finished := by
  cases f <;> first | exact hu.elim | exact .inl trivial | exact .inr rfl

theorem UrlLv.ne {f : St} (hu : UrlLv f) : f ≠ .finished := by rintro rfl; exact hu

/-- A call that ends a URL-encoded body counts its bytes twice. -/
def Doubled (w : World) : Res × World → Prop
  | (.ok r, w') => w'.p.fn = .finished → w'.p.byteCount = w.p.byteCount + r.count + r.count
  | _ => True

theorem call_doubled {w : World} {s : Bytes} (hp : w.p.ptype = .urlEncoded) (hu : UrlSt w.p.fn) :
    Doubled w (resume h w s) := by
  rcases hu.cases with hv | hf
  swap
  · rw [resume_finished hf]
    exact fun _ => rfl
  obtain ⟨st, hst⟩ : ∃ st, s.take w.p.length = st := ⟨_, rfl⟩
  have hL : (if w.p.length < s.length then s.take w.p.length else s) = st := by
    rw [← hst]
    split
    · rfl
    · rw [List.take_of_length_le (by omega)]
  have h1 := parse_new_ok h w.p st w.log
  have h3 := outV_parse (h := h) (fuel st.length) ⟨w.p, Ctx.new st, w.log⟩ hv
  rw [resume_url hp hL]
  have hfuel : 2 ≤ fuel st.length := by simp only [fuel]; omega
  revert h1 h3
  generalize parse h (fuel st.length) ⟨w.p, Ctx.new st, w.log⟩ = rc
  obtain ⟨r, c'⟩ := rc
  intro h1 h3
  cases r with
  | ok su =>
    obtain ⟨hus, hl⟩ := h3 su c' rfl
    cases su with
    | callback n =>
      simp only [urlPost]
      split
      · trivial
      · exact fun hf => absurd hf hus.ne
    | eos n =>
      obtain ⟨hr, rfl, hn⟩ := h1
      have hbc : c'.p.byteCount = w.p.byteCount + c'.ctx.idx := hr.byteCount
      simp only [urlPost]
      split
      · trivial
      split
      · rw [parse_bodyFinished hfuel rfl]
        by_cases hret : h.ret (c'.log ++ [.bodyFinished]) = true
        · simp only [if_pos hret]
          intro _
          show c'.p.byteCount + c'.ctx.idx = w.p.byteCount + c'.ctx.idx + c'.ctx.idx
          rw [hbc]
        · simp only [if_neg hret]
          intro _
          show c'.p.byteCount + c'.ctx.idx = w.p.byteCount + c'.ctx.idx + c'.ctx.idx
          rw [hbc]
      · exact fun hf => absurd hf hus.ne
    | finished n =>
      obtain ⟨hr, rfl, hf, hs⟩ := h1
      exact absurd hf hus.ne
  | err e => trivial
  | panic => trivial
  | ub => trivial
  | diverge => trivial

end Verif.Http1
