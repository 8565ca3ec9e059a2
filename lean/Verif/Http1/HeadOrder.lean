import Verif.Http1.Emit

/-!
# Order of the callbacks of a head, and numbers (helper lemmas)
-/

set_option linter.unusedSimpArgs false
set_option linter.unusedVariables false

namespace Verif.Http1

variable {env : Env} {fut : Bytes} {K : List Ev × Fin} {h : Handler} {c : Cfg}

/-! ## Order -/

/-- The phases in which a state of a head can be. -/
def AS.ph : AS → Phase → Prop
  | .stripDetect, p | .detect1, p | .det2, p | .det3, p | .det4, p | .det5, p
  | .ldet2, p | .ldet3, p | .ldet4, p | .ldet5, p => p = .start
  | .method, p | .url1, p => p = .method
  | .url2, p | .http1, p | .http2, p | .http3, p | .http4, p | .http5, p => p = .url
  | .maj1 r, p | .maj2 r _, p | .maj3 r _, p | .period r _, p | .min1 r _, p | .min2 r _ _, p
  | .min3 r _ _, p | .verEnd r _ _, p => p = if r then .start else .url
  | .code1, p | .code2 _, p | .code3 _, p | .codeSp _, p => p = .resVersion
  | .reason1, p => p = .code
  | .reason2, p => p = .status
  | .initialEnd, p => p = .reqVersion ∨ p = .status
  | .initialLf, p => p = .initial
  | .hdrCheck, p | .hdrFirst, p | .hdrCr1, p | .hdrLf1, p | .hdrCr2, p | .hdrLf2, p | .hdrEnd, p =>
    p = .initial ∨ p = .value
  | .hdrName, p => p = .name
  | .hdrStrip, p => p = .initial ∨ p = .value ∨ p = .name
  | .hdrVal, p => p = .initial ∨ p = .value
  | .hdrQuot, p | .hdrEsc, p => p = .value
  | .fin, p => p = .done
  | _, _ => False

/-- The order is kept, and the state fits the phase. -/
def InOrder (tr : List Ev) (s : AS) : Prop := ∃ p, phase tr = some p ∧ s.ph p

theorem phase_append (l : List Ev) (e : Ev) : phase (l ++ [e]) = (phase l).bind fun p => p.next e := by
  unfold phase
  rw [List.foldlM_append]
  simp

theorem InOrder.nil {tr : List Ev} {s s' : AS} (h : InOrder tr s) (hs : ∀ p, s.ph p → s'.ph p) :
    InOrder (tr ++ []) s' := by
  obtain ⟨p, h1, h2⟩ := h
  exact ⟨p, by simpa using h1, hs p h2⟩

theorem InOrder.one {tr : List Ev} {s s' : AS} {e : Ev} (h : InOrder tr s)
    (hs : ∀ p, s.ph p → ∃ p', p.next e = some p' ∧ s'.ph p') : InOrder (tr ++ [e]) s' := by
  obtain ⟨p, h1, h2⟩ := h
  obtain ⟨p', h3, h4⟩ := hs p h2
  exact ⟨p', by rw [phase_append, h1]; exact h3, h4⟩

theorem phase_method {tr : List Ev} (ht : phase tr = some .method) : ∀ d : Bytes,
    phase (tr ++ d.map fun b => .method [b]) = some .method
  | [] => by simpa using ht
  | b :: d => by
    have := phase_method (tr := tr ++ [.method [b]]) (by rw [phase_append, ht]; rfl) d
    simpa using this

theorem inOrder_method {tr : List Ev} {b : UInt8} {es : List Ev} {s' : AS} (h : InOrder tr .method)
    (hs : bMethod b = .next es s') : InOrder (tr ++ es) s' := by
  unfold bMethod at hs
  split at hs
  · cases hs; exact h.one fun p hp => ⟨.method, by cases hp; rfl, rfl⟩
  · split at hs <;> cases hs
    exact h.nil fun p hp => hp

theorem inOrder_det {tr : List Ev} {b x y : UInt8} {buf : Bytes} {es : List Ev} {s s1 s' : AS} (h : phase tr = some .start)
    (hs : bDet (x :: buf) y s1 b = .next es s') (h1 : s1.ph .start) : InOrder (tr ++ es) s' := by
  unfold bDet at hs
  split at hs
  · cases hs; exact ⟨_, by simpa using h, h1⟩
  · cases hm : bMethod b with
    | next es1 s2 =>
      rw [hm] at hs
      simp only [BRes.pre, BRes.next.injEq] at hs
      obtain ⟨rfl, rfl⟩ := hs
      have h2 : InOrder (tr ++ flatEv (.method (x :: buf))) .method := by
        refine ⟨.method, ?_, rfl⟩
        have := phase_method (tr := tr ++ [.method [x]]) (by rw [phase_append, h]; rfl) buf
        simpa [flatEv] using this
      have := inOrder_method h2 hm
      simpa using this
    | err es e => rw [hm] at hs; cases hs
    | errB => rw [hm] at hs; cases hs
    | panic => rw [hm] at hs; cases hs

theorem inOrder_start {tr : List Ev} {b : UInt8} {es : List Ev} {s s' : AS} (h : phase tr = some .start)
    (hs : bDetect1 b = .next es s') : InOrder (tr ++ es) s' := by
  unfold bDetect1 at hs
  split at hs
  · cases hs; exact ⟨_, by simpa using h, rfl⟩
  · split at hs <;> cases hs
    exact ⟨.method, by rw [phase_append, h]; rfl, rfl⟩

theorem inOrder_ldet {tr : List Ev} {b y : UInt8} {es : List Ev} {s s1 s' : AS} (h : phase tr = some .start)
    (hs : bLDet y s1 b = .next es s') (h1 : s1.ph .start) : InOrder (tr ++ es) s' := by
  unfold bLDet at hs
  split at hs
  · cases hs; exact ⟨_, by simpa using h, h1⟩
  · split at hs <;> cases hs
    exact ⟨.method, by rw [phase_append, h]; rfl, rfl⟩

theorem inOrder_expect {tr : List Ev} {b y : UInt8} {f : UInt8 → PErr} {es : List Ev} {s s1 s' : AS} (h : InOrder tr s)
    (hs : bExpect y s1 f b = .next es s') (h1 : ∀ p, s.ph p → s1.ph p) : InOrder (tr ++ es) s' := by
  unfold bExpect at hs
  split at hs <;> cases hs
  exact h.nil h1

theorem inOrder_name {tr : List Ev} {b : UInt8} {es : List Ev} {s s' : AS} (h : InOrder tr s)
    (h1 : ∀ p, s.ph p → p = .initial ∨ p = .value ∨ p = .name)
    (hs : bHdrName b = .next es s') : InOrder (tr ++ es) s' := by
  unfold bHdrName at hs
  have hh : ∀ d, ∀ p, s.ph p → ∃ p', p.next (.headerName d) = some p' ∧ AS.hdrName.ph p' := by
    intro d p hp
    refine ⟨.name, ?_, rfl⟩
    rcases h1 p hp with rfl | rfl | rfl <;> rfl
  split at hs
  · cases hs
  · split at hs
    · cases hs; exact h.one (hh _)
    · split at hs
      · cases hs; exact h.one (hh _)
      · split at hs <;> cases hs
        rename_i hb
        exact h.nil h1

theorem inOrder_first {tr : List Ev} {b : UInt8} {es : List Ev} {s s' : AS} (h : InOrder tr s)
    (h1 : ∀ p, s.ph p → p = .initial ∨ p = .value) (hs : bHdrFirst b = .next es s') :
    InOrder (tr ++ es) s' := by
  unfold bHdrFirst at hs
  split at hs
  · exact inOrder_name h (fun p hp => by rcases h1 p hp with h | h <;> simp [h]) hs
  · cases hs

theorem inOrder_check {tr : List Ev} {b : UInt8} {es : List Ev} {s s' : AS} (h : InOrder tr s)
    (h1 : ∀ p, s.ph p → p = .initial ∨ p = .value) (hs : bHdrCheck b = .next es s') :
    InOrder (tr ++ es) s' := by
  unfold bHdrCheck at hs
  split at hs
  · cases hs; exact h.nil h1
  · exact inOrder_first h h1 hs

theorem inOrder_val {tr : List Ev} {b : UInt8} {es : List Ev} {s s' : AS} (h : InOrder tr s)
    (h1 : ∀ p, s.ph p → p = .initial ∨ p = .value ∨ p = .name)
    (h2 : b = c! '\r' → ∀ p, s.ph p → p = .initial ∨ p = .value)
    (hs : bHdrVal b = .next es s') : InOrder (tr ++ es) s' := by
  have hh : ∀ d, ∀ p, s.ph p → p.next (.headerValue d) = some .value := by
    intro d p hp
    rcases h1 p hp with rfl | rfl | rfl <;> rfl
  unfold bHdrVal at hs
  split at hs
  · cases hs
  · split at hs
    · cases hs; exact h.one fun p hp => ⟨_, hh _ p hp, .inr rfl⟩
    · split at hs
      · rename_i hb
        cases hs; exact h.nil (h2 (by simpa using hb))
      · split at hs <;> cases hs
        exact h.one fun p hp => ⟨_, hh _ p hp, rfl⟩

theorem inOrder_strip {tr : List Ev} {b : UInt8} {es : List Ev} {s s' : AS} {f : UInt8 → BRes} {g : UInt8 → PErr}
    (h : InOrder tr s) (hf : isVisible7bit b = true → f b = .next es s' → InOrder (tr ++ es) s')
    (hs : bStrip s f g b = .next es s') : InOrder (tr ++ es) s' := by
  unfold bStrip at hs
  split at hs
  · cases hs; exact h.nil fun _ h => h
  · split at hs
    · rename_i hv; exact hf hv hs
    · cases hs

theorem inOrder_verEnd {tr : List Ev} {b : UInt8} {es : List Ev} {s s' : AS} {r : Bool} {v w : Nat}
    (h : phase tr = some (if r then .start else .url)) (hs : bVerEnd r v w b = .next es s') :
    InOrder (tr ++ es) s' := by
  unfold bVerEnd at hs
  split at hs <;> cases hs
  cases r
  · exact ⟨.reqVersion, by rw [phase_append, h]; rfl, .inl rfl⟩
  · exact ⟨.resVersion, by rw [phase_append, h]; rfl, rfl⟩

theorem inOrder_step (tr : List Ev) (s : AS) (b : UInt8) (es : List Ev) (s' : AS) (h : InOrder tr s)
    (hs : bstep env s b = .next es s') : InOrder (tr ++ es) s' := by
  have hh := h
  obtain ⟨p, hp, hq⟩ := hh
  cases s <;> simp only [AS.ph] at hq <;> simp only [bstep] at hs
  case stripDetect =>
    subst hq; split at hs
    · cases hs; exact h.nil fun _ h => h
    · exact inOrder_start (s := .dead) hp hs
  case detect1 => subst hq; exact inOrder_start (s := .dead) hp hs
  case det2 => subst hq; exact inOrder_det (s := .dead) hp hs rfl
  case det3 => subst hq; exact inOrder_det (s := .dead) hp hs rfl
  case det4 => subst hq; exact inOrder_det (s := .dead) hp hs rfl
  case det5 => subst hq; exact inOrder_det (s := .dead) hp hs rfl
  case ldet2 => subst hq; exact inOrder_ldet (s := .dead) hp hs rfl
  case ldet3 => subst hq; exact inOrder_ldet (s := .dead) hp hs rfl
  case ldet4 => subst hq; exact inOrder_ldet (s := .dead) hp hs rfl
  case ldet5 => subst hq; exact inOrder_ldet (s := .dead) hp hs rfl
  case method => exact inOrder_method h hs
  case hdrStrip =>
    refine inOrder_strip h (fun hv hs => inOrder_val h (fun p hp => hp) ?_ hs) hs
    rintro rfl; exact absurd hv (by decide)
  case hdrVal => exact inOrder_val h (fun p hp => by rcases hp with h | h <;> simp [h]) (fun _ p hp => hp) hs
  case hdrName => exact inOrder_name h (fun p hp => .inr (.inr hp)) hs
  case hdrCheck => exact inOrder_check h (fun p hp => hp) hs
  case hdrFirst => exact inOrder_first h (fun p hp => hp) hs
  case hdrCr2 =>
    split at hs
    · cases hs; exact h.nil fun _ h => h
    · exact inOrder_check h (fun p hp => hp) hs
  case min2 =>
    subst hq; split at hs
    · cases hs; exact h.nil fun _ h => h
    · exact inOrder_verEnd (s := .dead) hp hs
  case min3 =>
    subst hq; split at hs
    · cases hs; exact h.nil fun _ h => h
    · exact inOrder_verEnd (s := .dead) hp hs
  case verEnd => subst hq; exact inOrder_verEnd (s := .dead) hp hs
  case http1 => exact inOrder_expect h hs fun p hp => hp
  case http2 => exact inOrder_expect h hs fun p hp => hp
  case http3 => exact inOrder_expect h hs fun p hp => hp
  case http4 => exact inOrder_expect h hs fun p hp => hp
  case http5 => exact inOrder_expect h hs fun p hp => hp
  case period => exact inOrder_expect h hs fun p hp => hp
  case initialLf => exact inOrder_expect h hs fun p hp => .inl hp
  case hdrCr1 => exact inOrder_expect h hs fun p hp => hp
  case hdrLf1 => exact inOrder_expect h hs fun p hp => hp
  case hdrLf2 => exact inOrder_expect h hs fun p hp => hp
  case maj1 => split at hs <;> cases hs; exact h.nil fun _ h => h
  case maj2 =>
    split at hs
    · cases hs; exact h.nil fun _ h => h
    · split at hs <;> cases hs; exact h.nil fun _ h => h
  case maj3 =>
    split at hs
    · cases hs; exact h.nil fun _ h => h
    · split at hs <;> cases hs; exact h.nil fun _ h => h
  case min1 => split at hs <;> cases hs; exact h.nil fun _ h => h
  case code1 => split at hs <;> cases hs; exact h.nil fun _ h => h
  case code2 => split at hs <;> cases hs; exact h.nil fun _ h => h
  case code3 => split at hs <;> cases hs; exact h.nil fun _ h => h
  case codeSp =>
    split at hs <;> cases hs; exact h.one fun p hp => ⟨.code, by cases hp; rfl, rfl⟩
  case reason1 => split at hs <;> cases hs; exact h.one fun p hp => ⟨.status, by cases hp; rfl, rfl⟩
  case reason2 =>
    split at hs
    · cases hs; exact h.one fun p hp => ⟨.status, by cases hp; rfl, rfl⟩
    · split at hs <;> cases hs; exact h.nil fun _ h => .inr h
  case url1 => split at hs <;> cases hs; exact h.one fun p hp => ⟨.url, by cases hp; rfl, rfl⟩
  case url2 =>
    split at hs
    · cases hs; exact h.one fun p hp => ⟨.url, by cases hp; rfl, rfl⟩
    · split at hs <;> cases hs; exact h.nil fun _ h => h
  case hdrEsc => split at hs <;> cases hs; exact h.one fun p hp => ⟨.value, by cases hp; rfl, rfl⟩
  case hdrQuot =>
    unfold bHdrQuot at hs
    split at hs
    · cases hs
    · repeat' split at hs
      all_goals cases hs
      · exact h.one fun p hp => ⟨.value, by cases hp; rfl, rfl⟩
      · exact h.one fun p hp => ⟨.value, by cases hp; rfl, .inr rfl⟩
      · exact h.one fun p hp => ⟨.value, by cases hp; rfl, rfl⟩
  all_goals cases hs

theorem inOrder_norm (hu : env.ptype = .head) (tr : List Ev) (s : AS) (h : InOrder tr s) :
    InOrder (tr ++ (norm env tr s).1) (norm env tr s).2 := by
  have hh := h
  obtain ⟨p, hp, hq⟩ := hh
  cases s <;> simp only [AS.ph] at hq <;> simp only [norm, hu]
  case initialEnd =>
    exact h.one fun p hp => ⟨.initial, by rcases hp with rfl | rfl <;> rfl, rfl⟩
  case hdrEnd => exact h.one fun p hp => ⟨.done, by rcases hp with rfl | rfl <;> rfl, rfl⟩
  all_goals first | exact h.nil fun _ h => h | exact hq.elim

theorem keeps_order (hu : env.ptype = .head) : KeepsJ env fun _ tr s => InOrder tr s :=
  ⟨fun _ tr s h => inOrder_norm hu tr s h, fun _ tr s b es s' _ h hs => inOrder_step tr s b es s' h hs⟩

theorem AS.ph_done {s : AS} (h : s.ph .done) : s = .fin := by
  cases s <;> simp only [AS.ph] at h <;> first | rfl | (simp at h; done) | exact h.elim | skip
  all_goals (split at h <;> cases h)

/-- What the errors of a head leave in the history: nothing new, or a piece of the method. -/
theorem err_order {tr : List Ev} {s : AS} {b : UInt8} {es : List Ev} {e : PErr} (h : InOrder tr s)
    (hs : bstep env s b = .err es e) (hf : s ≠ .fin) : ∃ p, phase (tr ++ es) = some p ∧ p ≠ .done := by
  have hh := h
  obtain ⟨p, hp, hq⟩ := hh
  have hm : ∀ {b es e}, bMethod b = .err es e → es = [] := by
    intro b es e h
    unfold bMethod at h
    split at h
    · cases h
    · split at h <;> cases h; rfl
  have hd : ∀ {b : UInt8} {y : UInt8} {s1 : AS} {x : UInt8} {buf : Bytes}, phase tr = some .start →
      bDet (x :: buf) y s1 b = .err es e → ∃ p, phase (tr ++ es) = some p ∧ p ≠ .done := by
    intro b y s1 x buf h hs
    unfold bDet at hs
    split at hs
    · cases hs
    · cases hm' : bMethod b with
      | err es1 e1 =>
        have := hm hm'
        subst this
        rw [hm'] at hs
        simp only [BRes.pre, BRes.err.injEq] at hs
        obtain ⟨rfl, rfl⟩ := hs
        refine ⟨.method, ?_, by decide⟩
        have := phase_method (tr := tr ++ [.method [x]]) (by rw [phase_append, h]; rfl) buf
        simpa [flatEv] using this
      | next es s => rw [hm'] at hs; cases hs
      | errB => rw [hm'] at hs; cases hs
      | panic => rw [hm'] at hs; cases hs
  have hn : p ≠ .done := fun hpd => hf (AS.ph_done (hpd ▸ hq))
  by_cases he : es = []
  · exact ⟨p, by simpa [he] using hp, hn⟩
  · cases s <;> simp only [AS.ph] at hq <;> simp only [bstep] at hs
    case det2 => subst hq; exact hd hp hs
    case det3 => subst hq; exact hd hp hs
    case det4 => subst hq; exact hd hp hs
    case det5 => subst hq; exact hd hp hs
    all_goals (exfalso; apply he)
    case method => exact hm hs
    all_goals try simp only [bMethod, bDetect1, bLDet, bExpect, bVerEnd, bHdrName, bHdrFirst, bHdrCheck, bHdrVal,
      bHdrQuot, bStrip] at hs
    all_goals (repeat' split at hs)
    all_goals cases hs
    all_goals rfl

end Verif.Http1
