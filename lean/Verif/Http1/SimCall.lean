import Verif.Http1.SimRun
import Mathlib.Tactic.Linarith

/-!
# Simulation: one call of resume, in every mode (helper lemmas)
-/

set_option linter.unusedSimpArgs false

namespace Verif.Http1

variable {env : Env} {fut : Bytes} {K : List Ev × Fin} {h : Handler} {c : Cfg}

/-! ## URL-encoded mode -/

/-- The states of URL-encoded mode. -/
def UrlSt : St → Prop
  | .firstUrlEncodedName | .urlEncodedName | .urlEncodedNameHex1 | .urlEncodedNameHex2
  | .urlEncodedNamePlus | .urlEncodedValue | .urlEncodedValueHex1 | .urlEncodedValueHex2
  | .urlEncodedValuePlus | .finished => True
  | _ => False

/-- A state function of URL-encoded mode stays in URL-encoded mode and keeps the length. -/
def OutU (L : Nat) : Out → Prop
  | .cont c | .exit _ c => UrlSt c.p.fn ∧ c.p.length = L
  | _ => True

theorem outU_ite {p : Prop} [Decidable p] {a b : Out} {L : Nat} (h1 : OutU L a) (h2 : OutU L b) :
    OutU L (if p then a else b) := by split <;> assumption

theorem outU_data {L : Nat} {e : Ev} {k : Cfg → Out} (h1 : UrlSt c.p.fn) (h2 : c.p.length = L)
    (hk : ∀ c', c'.p = c.p → OutU L (k c')) : OutU L (callbackData h c e k) := by
  simp only [callbackData]
  split
  · exact hk _ rfl
  · exact ⟨h1, h2⟩

theorem outU_remark {L : Nat} (h1 : UrlSt c.p.fn) (h2 : c.p.length = L) : OutU L (remark c) :=
  ⟨h1, h2⟩

theorem outU_eos {L : Nat} {mk : Bytes → Ev} (h1 : UrlSt c.p.fn) (h2 : c.p.length = L) :
    OutU L (callbackEos h c mk) := by
  unfold callbackEos callbackSlice
  refine outU_ite trivial (outU_ite (outU_data h1 h2 fun c' hc => ?_) ⟨h1, h2⟩)
  exact ⟨by rw [hc]; exact h1, by rw [hc]; exact h2⟩

theorem outU_ctd {L : Nat} {e : Ev} {s f : St} (h1 : UrlSt f) (h2 : c.p.length = L) :
    OutU L (callbackTransitionData h c e s f) := by
  unfold callbackTransitionData
  refine outU_data h1 h2 fun c' hc => ?_
  exact ⟨by show UrlSt c'.p.fn; rw [hc]; exact h1, by show c'.p.length = _; rw [hc]; exact h2⟩

theorem outU_ign {L : Nat} {mk : Bytes → Ev} {s f : St} (h1 : UrlSt f) (h2 : c.p.length = L) :
    OutU L (callbackIgnoreTransition h c mk s f) := by
  unfold callbackIgnoreTransition
  refine outU_ite trivial (outU_ite (outU_data h1 h2 fun c' hc => ?_) ⟨h1, h2⟩)
  exact ⟨by show UrlSt c'.p.fn; rw [hc]; exact h1, by show c'.p.length = _; rw [hc]; exact h2⟩

theorem outU_collecting {L : Nat} {r : Ctx.Collect} {e k : Cfg → Out}
    (he : ∀ x, OutU L (e { c with ctx := x })) (hk : ∀ x, OutU L (k { c with ctx := x })) :
    OutU L (collecting c r e k) := by
  cases r
  · exact he _
  · exact hk _
  · trivial
  · trivial

theorem outU_read {L : Nat} {k : Cfg → Out} (h1 : UrlSt c.p.fn) (h2 : c.p.length = L)
    (hk : ∀ x, OutU L (k { c with ctx := x })) : OutU L (exitIfEos c (next c k)) := by
  unfold exitIfEos
  refine outU_ite ⟨h1, h2⟩ ?_
  unfold next
  split
  · exact hk _
  · trivial

theorem outU_step (hs : UrlSt c.p.fn) : OutU c.p.length (step h c) := by
  cases hfn : c.p.fn <;> rw [hfn] at hs <;> simp only [UrlSt] at hs <;> simp only [step, hfn]
  case firstUrlEncodedName =>
    unfold first_url_encoded_name exitIfEos
    refine outU_ite ⟨by simp [hfn, UrlSt], rfl⟩ ?_
    exact outU_ctd (s := .urlEncodedName) (f := .urlEncodedName) trivial rfl
  case urlEncodedName =>
    unfold url_encoded_name
    refine outU_collecting (fun x => outU_eos (by simp [hfn, UrlSt]) rfl) fun x => ?_
    refine outU_ite (outU_ign trivial rfl) (outU_ite (outU_ign trivial rfl)
      (outU_ite (outU_ign trivial rfl) (outU_ite (outU_ign trivial rfl) trivial)))
  case urlEncodedValue =>
    unfold url_encoded_value
    refine outU_collecting (fun x => outU_eos (by simp [hfn, UrlSt]) rfl) fun x => ?_
    refine outU_ite (outU_ign trivial rfl) (outU_ite (outU_ign trivial rfl)
      (outU_ite (outU_ign trivial rfl) trivial))
  case urlEncodedNameHex1 =>
    unfold url_encoded_name_hex1
    refine outU_read (by simp [hfn, UrlSt]) rfl fun x => ?_
    split
    · exact ⟨trivial, rfl⟩
    · trivial
  case urlEncodedValueHex1 =>
    unfold url_encoded_value_hex1
    refine outU_read (by simp [hfn, UrlSt]) rfl fun x => ?_
    split
    · exact ⟨trivial, rfl⟩
    · trivial
  case urlEncodedNameHex2 =>
    unfold url_encoded_name_hex2
    refine outU_read (by simp [hfn, UrlSt]) rfl fun x => ?_
    split
    · exact outU_ctd trivial rfl
    · trivial
  case urlEncodedValueHex2 =>
    unfold url_encoded_value_hex2
    refine outU_read (by simp [hfn, UrlSt]) rfl fun x => ?_
    split
    · exact outU_ctd trivial rfl
    · trivial
  case urlEncodedNamePlus => exact outU_ctd trivial rfl
  case urlEncodedValuePlus => exact outU_ctd trivial rfl
  case finished => exact ⟨by simp [hfn, UrlSt], rfl⟩

theorem outU_parse : ∀ (n : Nat) (c : Cfg), UrlSt c.p.fn → ∀ s c', parse h n c = (.ok s, c') →
    UrlSt c'.p.fn ∧ c'.p.length = c.p.length
  | 0, _, _, _, _, he => by simp [parse] at he
  | n + 1, c, hs, s, c', he => by
    have h1 := outU_step (h := h) hs
    simp only [parse] at he
    cases hst : step h c with
    | cont c1 =>
      rw [hst] at h1 he
      obtain ⟨h2, h3⟩ := outU_parse n c1 h1.1 s c' he
      exact ⟨h2, h3.trans h1.2⟩
    | exit s1 c1 =>
      rw [hst] at h1 he
      simp only [Prod.mk.injEq, Res.ok.injEq] at he
      obtain ⟨rfl, rfl⟩ := he
      cases s1 <;> exact h1
    | err e c1 => rw [hst] at he; simp at he
    | panic => rw [hst] at he; simp at he
    | ub => rw [hst] at he; simp at he

/-- The prediction for a URL-encoded body of the declared length. -/
def endU (L : Nat) (msg : Bytes) : List Ev × Fin → List Ev × Fin
  | (tr, .eos) =>
    if L ≤ msg.length then (tr ++ [.bodyFinished], .finished (msg.drop L)) else (tr, .eos)
  | (tr, .finished r) => (tr, .finished (r ++ msg.drop L))
  | (tr, .err e r) => (tr, .err e (r ++ msg.drop L))
  | (tr, .errB r) => (tr, .errB (r ++ msg.drop L))
  | k => k

theorem endU_prefix (L : Nat) (m : Bytes) (k : List Ev × Fin) : k.1 <+: (endU L m k).1 := by
  obtain ⟨t, f⟩ := k
  unfold endU
  split
  · rename_i heq
    cases heq
    split
    · exact List.prefix_append _ _
    · exact List.prefix_refl _
  · rename_i heq; cases heq; exact List.prefix_refl _
  · rename_i heq; cases heq; exact List.prefix_refl _
  · rename_i heq; cases heq; exact List.prefix_refl _
  · exact List.prefix_refl _

/-- What the byte-by-byte machine tells about the rest of a URL-encoded body. -/
def predU (env : Env) (w : World) (msg : Bytes) : List Ev × Fin :=
  endU w.p.length msg (pred env (flat w.log) (abs w.p) (msg.take w.p.length))

/-- Invariant between two `resume` calls in URL-encoded mode. -/
structure WOKU (env : Env) (w : World) (msg : Bytes) (K : List Ev × Fin) : Prop where
  st : UrlSt w.p.fn
  K : predU env w msg = K
  ptype : w.p.ptype = .urlEncoded
  boundary : w.p.boundary = env.boundary

theorem UrlSt.live {p : Parser} (h : UrlSt p.fn) : Live p := by
  unfold Live; cases hf : p.fn <;> rw [hf] at h <;> first | trivial | exact h.elim

theorem UrlSt.hx {f : St} (h : UrlSt f) (m : Bytes) : HX f m := by
  cases f <;> first | trivial | exact h.elim

theorem UrlSt.nd {f : St} (h : UrlSt f) : f ≠ .detect1 := by
  rintro rfl; exact h

theorem UrlSt.abs_length {p : Parser} (h : UrlSt p.fn) (n : Nat) :
    abs { p with length := n } = abs p := by
  unfold abs
  cases hf : p.fn <;> rw [hf] at h <;> first | exact h.elim | (simp only [hf]; done) | (simp only [hf]; rfl)

theorem endU_drop {L n : Nat} {msg : Bytes} {k : List Ev × Fin} (h1 : n ≤ L) (h2 : n ≤ msg.length) :
    endU (L - n) (msg.drop n) k = endU L msg k := by
  have e1 : (msg.drop n).drop (L - n) = msg.drop L := by
    rw [List.drop_drop]; congr 1; omega
  have e2 : (L - n ≤ (msg.drop n).length) = (L ≤ msg.length) := by
    rw [List.length_drop, eq_iff_iff]; omega
  obtain ⟨tr, f⟩ := k
  cases f <;> simp only [endU, e1, e2]

/-- What one `resume` call does to the prediction `K`, in every mode. `Inv` is the invariant
between calls. -/
def CallSim (Inv : World → Bytes → Prop) (w : World) (s fut : Bytes) (K : List Ev × Fin) :
    Res × World → Prop
  | (.ok (.finished n), w') => n ≤ s.length ∧ K = (flat w'.log, .finished ((s ++ fut).drop n))
  | (.ok (.callback n), w') => n ≤ s.length ∧ Inv w' ((s ++ fut).drop n)
  | (.ok (.eos n), w') => n = s.length ∧ Inv w' fut ∧
    (fut = [] → K = (flat w'.log, .eos))
  | (.err e, w') =>
    (∃ d, isData d = true ∧ K = (flat w'.log ++ flatEv d,
      .err e ((s ++ fut).drop (w'.p.byteCount - w.p.byteCount)))) ∨
      ((∃ r, r <:+ (s ++ fut).drop (w'.p.byteCount - w.p.byteCount) ∧ K = (flat w'.log, .errB r)) ∧
        ∃ b, e = .multipartBoundary b)
  | (.panic, w') => ∃ d, isData d = true ∧ K = (flat w'.log ++ flatEv d, .panic)
  | (.ub, _) => False
  | (.diverge, _) => False

theorem quiet_nil {tr : List Ev} {s : AS} (hq : Quiet env tr s) :
    pred env tr s [] = (tr, .eos) := by
  simp only [pred, hq.1, if_neg hq.2, List.append_nil]

theorem call_of_resume {w : World} {s : Bytes} (h1 : ResumeSim env w s fut K (resume h w s)) :
    CallSim (fun w m => WOK env w m K) w s fut K (resume h w s) := by
  revert h1
  generalize resume h w s = r
  obtain ⟨r, w'⟩ := r
  intro h1
  cases r with
  | ok su =>
    cases su with
    | callback n => exact h1
    | eos n =>
      refine ⟨h1.1, h1.2.1, ?_⟩
      rintro rfl
      have := h1.2.1.K
      rw [quiet_nil h1.2.2] at this
      exact this.symm
    | finished n => exact h1
  | err e => exact h1
  | panic => exact h1
  | ub => exact h1
  | diverge => exact h1

theorem call_resume (hB : BdOK env) (hC : ClOK env h) {w : World} {s : Bytes}
    (hu : w.p.ptype ≠ .urlEncoded) (H : WStart env w s fut K) :
    CallSim (fun w m => WOK env w m K) w s fut K (resume h w s) :=
  call_of_resume (sim_resume hB hC hu H)

theorem parse_bodyFinished {n : Nat} (hn : 2 ≤ n) (hf : c.p.fn = .bodyFinished) :
    parse h n c =
      if h.ret (c.log ++ [.bodyFinished]) then
        (.ok (.finished c.ctx.idx),
          ⟨{ c.p with
              byteCount := c.p.byteCount + c.ctx.idx, state := .finished, fn := .finished }, c.ctx.setMark, c.log ++ [.bodyFinished]⟩)
      else (.ok (.callback c.ctx.idx),
          ⟨{ c.p with
              byteCount := c.p.byteCount + c.ctx.idx, state := .finished, fn := .finished }, c.ctx, c.log ++ [.bodyFinished]⟩) := by
  obtain ⟨m, rfl⟩ : ∃ m, n = m + 2 := ⟨n - 2, by omega⟩
  rw [parse, step, hf]
  by_cases hr : h.ret (c.log ++ [.bodyFinished]) = true
  · have e : body_finished h c = .cont ⟨{ c.p with state := .finished, fn := .finished },
        c.ctx.setMark, c.log ++ [.bodyFinished]⟩ := if_pos hr
    rw [if_pos hr]
    simp only [e]
    rfl
  · have e : body_finished h c = .exit (.callback c.ctx.idx)
        ⟨{ c.p with state := .finished, fn := .finished }, c.ctx, c.log ++ [.bodyFinished]⟩ :=
      if_neg hr
    rw [if_neg hr]
    simp only [e]

/-- What `resume` does in URL-encoded mode with the outcome of the parser loop. -/
def urlPost (h : Handler) (n : Nat) : Res × Cfg → Res × World
  | (.ok (.eos k), c) =>
    if c.p.length < k then (.panic, ⟨c.p, c.log⟩)
    else if c.p.length - k = 0 then
      let (r, c) := parse h n { c with p := { c.p with state := .bodyFinished, fn := .bodyFinished } }
      (r, ⟨c.p, c.log⟩)
    else (.ok (.eos k), ⟨{ c.p with length := c.p.length - k }, c.log⟩)
  | (.ok (.callback k), c) =>
    if c.p.length < k then (.panic, ⟨c.p, c.log⟩)
    else (.ok (.callback k), ⟨{ c.p with length := c.p.length - k }, c.log⟩)
  | (r, c) => (r, ⟨c.p, c.log⟩)

theorem resume_url {w : World} {s st : Bytes} (hp : w.p.ptype = .urlEncoded)
    (hL : (if w.p.length < s.length then s.take w.p.length else s) = st) :
    resume h w s =
      urlPost h (fuel st.length) (parse h (fuel st.length) ⟨w.p, Ctx.new st, w.log⟩) := by
  unfold resume
  rw [hp]
  simp only [hL]
  rfl

theorem call_resumeU (hB : BdOK env) (hC : ClOK env h) (hpt : env.ptype = .urlEncoded)
    {w : World} {s : Bytes} (H : WOKU env w (s ++ fut) K) :
    CallSim (fun w m => WOKU env w m K) w s fut K (resume h w s) := by
  obtain ⟨st, hst⟩ : ∃ st, s.take w.p.length = st := ⟨_, rfl⟩
  have hL : (if w.p.length < s.length then s.take w.p.length else s) = st := by
    rw [← hst]
    split
    · rfl
    · rw [List.take_of_length_le (by omega)]
  have hstl : st.length = min w.p.length s.length := by rw [← hst, List.length_take]
  obtain ⟨fut', hfut⟩ : ∃ fut', (s ++ fut).take w.p.length = st ++ fut' :=
    ⟨fut.take (w.p.length - s.length), by rw [List.take_append, hst]⟩
  have hK := H.K
  unfold predU at hK
  rw [hfut] at hK
  have h1 := sim_parse_new (K := pred env (flat w.log) (abs w.p) (st ++ fut')) hB hC
    (fuel st.length)
    (w := w) (s := st) (fut := fut') ⟨H.st.live, hok_of_hx (H.st.hx _) H.st.nd, rfl,
      H.ptype.trans hpt.symm, H.boundary⟩
  have h2 := parse_new_ok h w.p st w.log
  have h3 := outU_parse (h := h) (fuel st.length) ⟨w.p, Ctx.new st, w.log⟩ H.st
  rw [resume_url H.ptype hL]
  have e2 : ∀ cc, (fuel st.length : Nat) = cc → 2 ≤ cc := by intro cc hcc; simp [fuel] at hcc; omega
  have hfuel : 2 ≤ fuel st.length := e2 _ rfl
  clear e2
  revert h1 h2 h3
  generalize hpr : parse h (fuel st.length) ⟨w.p, Ctx.new st, w.log⟩ = rc
  clear hpr
  obtain ⟨r, c'⟩ := rc
  intro h1 h2 h3
  -- bytes left after an exit at `idx`
  have left : ∀ c' : Cfg, c'.ctx.stream = st → c'.ctx.idx ≤ st.length →
      c'.ctx.rest ++ fut' = ((s ++ fut).drop c'.ctx.idx).take (w.p.length - c'.ctx.idx) := by
    intro c' a1 a2
    rw [rest_of_idx a1 a2, ← hfut, List.drop_take]
  have keep : ∀ (c' : Cfg), RunExt ⟨w.p, Ctx.new st, w.log⟩ c' → UrlSt c'.p.fn →
      c'.p.length = w.p.length → c'.ctx.idx ≤ s.length →
      pred env (flat c'.log) (abs c'.p) (c'.ctx.rest ++ fut') =
        pred env (flat w.log) (abs w.p) (st ++ fut') →
      WOKU env ⟨{ c'.p with length := c'.p.length - c'.ctx.idx }, c'.log⟩
        ((s ++ fut).drop c'.ctx.idx) K := by
    intro c' hr hus hl hi hk
    have a1 : c'.ctx.stream = st := hr.stream
    have a2 : c'.ctx.idx ≤ st.length := by rw [← a1]; exact hr.ok.idx_le
    refine ⟨hus, ?_, hr.ptype.trans H.ptype, hr.boundary.trans H.boundary⟩
    show endU (c'.p.length - c'.ctx.idx) _ (pred env (flat c'.log)
      (abs { c'.p with length := c'.p.length - c'.ctx.idx }) _) = K
    rw [hus.abs_length]
    show endU (c'.p.length - c'.ctx.idx) _ (pred env (flat c'.log) (abs c'.p)
      (((s ++ fut).drop c'.ctx.idx).take (c'.p.length - c'.ctx.idx))) = K
    rw [hl, ← left c' a1 a2, hk, endU_drop (by omega) (by simp only [List.length_append]; omega)]
    exact hK
  cases r with
  | ok su =>
    obtain ⟨hus, hl⟩ := h3 su c' rfl
    simp only at hl
    cases su with
    | callback n =>
      obtain ⟨hr, rfl⟩ := h2
      have a1 : c'.ctx.stream = st := hr.stream
      have a2 : c'.ctx.idx ≤ st.length := by rw [← a1]; exact hr.ok.idx_le
      simp only [urlPost]
      rw [if_neg (by omega)]
      exact ⟨by omega, keep c' hr hus hl (by omega) h1.2⟩
    | eos n =>
      obtain ⟨hr, rfl, hn⟩ := h2
      have a1 : c'.ctx.stream = st := hr.stream
      rw [a1] at hn
      simp only [urlPost]
      rw [if_neg (by omega)]
      have hrest : c'.ctx.rest = [] := by simp [Ctx.rest, a1, hn]
      split
      · rename_i h0
        have hLs : w.p.length ≤ s.length := by omega
        have hidx : c'.ctx.idx = w.p.length := by omega
        have hfut' : fut' = [] := by
          have := congrArg List.length hfut
          simp only [List.length_take, List.length_append] at this
          exact List.eq_nil_of_length_eq_zero (by omega)
        have h12 := h1.2.1
        rw [hrest, hfut', List.nil_append, quiet_nil h1.2.2] at h12
        rw [hfut', ← h12, endU, if_pos (by simp only [List.length_append]; omega)] at hK
        rw [parse_bodyFinished hfuel rfl]
        split
        · refine ⟨show c'.ctx.idx ≤ s.length by omega, ?_⟩
          rw [← hK, flat_append, hidx]
          rfl
        · refine ⟨show c'.ctx.idx ≤ s.length by omega, trivial, ?_, hr.ptype.trans H.ptype, hr.boundary.trans H.boundary⟩
          show endU c'.p.length _ (pred env (flat (c'.log ++ [.bodyFinished])) .fin _) = K
          rw [← hK, flat_append, hidx]
          generalize (List.drop w.p.length (s ++ fut)) = m
          have : ∀ (tr : List Ev) (l : Bytes), pred env tr .fin l = (tr, .finished l) := by
            intro tr l; cases l <;> simp [pred, norm]
          rw [this, hl]
          simp only [endU, List.take_append_drop]
          rfl
      · rename_i h0
        have hns : c'.ctx.idx = s.length := by omega
        have := keep c' hr hus hl (by omega) h1.2.1
        rw [hns, List.drop_left] at this
        rw [hns]
        refine ⟨rfl, this, ?_⟩
        rintro rfl
        have h4 := this.K
        have hq : Quiet env (flat c'.log) (abs c'.p) := h1.2.2
        simp only [predU, List.take_nil] at h4
        have ha : abs { c'.p with length := c'.p.length - s.length } = abs c'.p :=
          hus.abs_length _
        have h5 : endU (c'.p.length - s.length) [] (pred env (flat c'.log)
          (abs { c'.p with length := c'.p.length - s.length }) []) = K := h4
        rw [ha] at h5
        rw [quiet_nil hq, endU, if_neg (by simp only [List.length_nil]; omega)] at h5
        exact h5.symm
    | finished n =>
      obtain ⟨hr, rfl, -⟩ := h2
      have a1 : c'.ctx.stream = st := hr.stream
      have a2 : c'.ctx.idx ≤ st.length := by rw [← a1]; exact hr.ok.idx_le
      refine ⟨by omega, ?_⟩
      have h1' : pred env (flat w.log) (abs w.p) (st ++ fut') =
        (flat c'.log, .finished (c'.ctx.rest ++ fut')) := h1
      rw [h1', endU, left c' a1 a2] at hK
      rw [← hK]
      simp only [Prod.mk.injEq, Fin.finished.injEq, true_and]
      have : (s ++ fut).drop w.p.length =
          ((s ++ fut).drop c'.ctx.idx).drop (w.p.length - c'.ctx.idx) := by
        rw [List.drop_drop]; congr 1; omega
      rw [this, List.take_append_drop]
  | err er =>
    obtain ⟨hr, -⟩ := h2
    have a1 : c'.ctx.stream = st := hr.stream
    have a2 : c'.ctx.idx ≤ st.length := by rw [← a1]; exact hr.ok.idx_le
    have hbc : c'.p.byteCount - w.p.byteCount = c'.ctx.idx := by
      have := hr.byteCount
      simp only at this
      omega
    rcases h1 with ⟨d, hd, hk⟩ | ⟨hk, hb⟩
    · left
      refine ⟨d, hd, ?_⟩
      simp only [hbc]
      rw [hk, endU, left c' a1 a2] at hK
      rw [← hK]
      simp only [Prod.mk.injEq, Fin.err.injEq, true_and]
      have : (s ++ fut).drop w.p.length =
          ((s ++ fut).drop c'.ctx.idx).drop (w.p.length - c'.ctx.idx) := by
        rw [List.drop_drop]; congr 1; omega
      rw [this, List.take_append_drop]
    · right
      obtain ⟨r, hr1, hk⟩ := hk
      refine ⟨?_, hb⟩
      simp only [hbc]
      rw [hk, endU] at hK
      refine ⟨_, ?_, hK.symm⟩
      obtain ⟨y, hy⟩ := hr1
      rw [left c' a1 a2] at hy
      have : (s ++ fut).drop w.p.length =
          ((s ++ fut).drop c'.ctx.idx).drop (w.p.length - c'.ctx.idx) := by
        rw [List.drop_drop]; congr 1; omega
      refine ⟨y, ?_⟩
      rw [← List.append_assoc, hy, this, List.take_append_drop]
  | panic =>
    obtain ⟨d, hd, hk⟩ := h1
    refine ⟨d, hd, ?_⟩
    rw [← hK, hk, endU]
    all_goals simp
  | ub => exact h1
  | diverge => exact h2

end Verif.Http1
