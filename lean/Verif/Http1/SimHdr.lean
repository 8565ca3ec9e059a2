import Verif.Http1.SimStart
import Mathlib.Tactic.Linarith

/-!
# Simulation: headers (helper lemmas)
-/

set_option linter.unusedSimpArgs false

namespace Verif.Http1

variable {env : Env} {fut : Bytes} {K : List Ev × Fin} {h : Handler} {c : Cfg}

theorem pnext {tr : List Ev} {s s' : AS} {b : UInt8} {r : Bytes} {es : List Ev}
    (hK : pred env tr s (b :: r) = K) (hn : norm env tr s = ([], s)) (hf : s ≠ .fin)
    (hb : bstep env s b = .next es s') : pred env (tr ++ es) s' r = K := by
  rw [pred_next hn hf hb] at hK; simpa using hK

theorem perr {tr : List Ev} {s : AS} {b : UInt8} {r : Bytes} {es : List Ev} {e : PErr}
    (hK : pred env tr s (b :: r) = K) (hn : norm env tr s = ([], s)) (hf : s ≠ .fin)
    (hb : bstep env s b = .err es e) : (tr ++ es, Fin.err e r) = K := by
  rw [pred_err hn hf hb] at hK; simpa using hK

theorem sim_initial_end (H : Pre env fut K c .initialEnd) :
    SimOK env fut K (flat c.log) (initial_end h c) := by
  have hl := H.good.live
  simp only [Live, H.fn] at hl
  have hK := H.start rfl
  simp only [abs, H.fn] at hK
  unfold initial_end
  refine sim_callbackData ⟨hl, trivial, nofun⟩ ?_
  rw [pred_eps (es := [.initialFinished]) (s1 := .initialLf) rfl rfl] at hK
  exact hK

theorem sim_check_header_name (H : Pre env fut K c .checkHeaderName) :
    SimOK env fut K (flat c.log) (check_header_name c) := by
  unfold check_header_name
  sim_read1
  simp only [bHdrCheck] at hK
  sim_if
  · sim_leaf
  · refine sim_replay (adv_idx _) (sim_transition ⟨hl, trivial, nofun⟩ ?_)
    simp only [setState, hrr, List.cons_append, abs, pred, norm, reduceCtorEq, ↓reduceIte, bstep,
      List.append_nil]
    exact hK

theorem sim_firstHeaderNameSlow (H : Pre env fut K c .firstHeaderName) :
    SimOK env fut K (flat c.log) (firstHeaderNameSlow c) := by
  unfold firstHeaderNameSlow
  sim_read1
  simp only [bHdrFirst] at hK
  sim_if
  · refine sim_replay (adv_idx _) (sim_transition ⟨hl, trivial, nofun⟩ ?_)
    simp only [setState, hrr, List.cons_append, abs, pred, norm, reduceCtorEq, ↓reduceIte, bstep,
      List.append_nil]
    exact hK
  · sim_leaf

theorem hdrName_facts : ∀ b : UInt8,
    (isUpper b = true → bHdrName b = .next [.headerName [b + 0x20]] .hdrName) ∧
    (isToken b = none → bHdrName b = .panic) ∧
    (isToken b = some true → isUpper b = false → bHdrName b = .next [.headerName [b]] .hdrName) ∧
    (isToken b = some false → isUpper b = false → b = c! ':' → bHdrName b = .next [] .hdrStrip) ∧
    (isToken b = some false → isUpper b = false → b ≠ c! ':' →
      bHdrName b = .err [] (.headerName b)) := by
  apply forall_u8; decide +kernel

theorem classAct_brk {cls : UInt8 → Option Bool} {stop : UInt8 → Bool} {b : UInt8}
    (h : Ctx.classAct cls stop b = .brk) :
    (cls b = some true ∧ stop b = true) ∨ cls b = some false := by
  unfold Ctx.classAct at h
  split at h
  · exact absurd h nofun
  · split at h
    · exact .inl ⟨‹_›, ‹_›⟩
    · exact absurd h nofun
  · exact .inr ‹_›

theorem sim_upper_header_name (H : Pre env fut K c .upperHeaderName) :
    SimOK env fut K (flat c.log) (upper_header_name h c) := by
  unfold upper_header_name
  sim_read1
  refine sim_ite (fun hb => ?_) (fun hb => ?_) <;> simp only [adv_byte] at hb
  · rw [(hdrName_facts b).1 hb] at hK
    sim_leaf
  · refine sim_replay (adv_idx _) (sim_transition ⟨hl, trivial, nofun⟩ ?_)
    simp only [setState, hrr, List.cons_append, abs]
    simp only [abs, hfn] at hK0
    exact hK0

theorem colon_facts : isToken (c! ':') = some false ∧ isUpper (c! ':') = false := by decide

theorem sim_lower_header_name (H : Pre env fut K c .lowerHeaderName) :
    SimOK env fut K (flat c.log) (lower_header_name h c) := by
  have hl := H.good.live
  simp only [Live, H.fn] at hl
  unfold lower_header_name Ctx.collectTokens
  refine H.collect (s := .hdrName) (mk := .headerName) (.inr rfl) (fun _ => trivial) nofun
    (by simp [abs, H.fn]) (fun _ => rfl) nofun isMk_headerName ?_ ?_
  · intro b
    obtain ⟨h1, h2, h3, -, -⟩ := hdrName_facts b
    unfold Ctx.classAct
    cases ht : isToken b with
    | none => exact h2 ht
    | some t =>
      cases t with
      | false => trivial
      | true =>
        cases hu : isUpper b with
        | true => trivial
        | false => exact h3 ht hu
  · intro x d b post B hb hK
    have hb := classAct_brk hb
    obtain ⟨h1, h2, h3, h4, h5⟩ := hdrName_facts b
    refine sim_ite (fun hu => ?_) (fun hu => ?_) <;> rw [if_byte B] at hu
    · exact brk_replay B isMk_headerName hl (fun _ => trivial) nofun hK
    simp only [Bool.not_eq_true] at hu
    have ht : isToken b = some false := by
      rcases hb with hb | hb
      · rw [hb.2] at hu; cases hu
      · exact hb
    refine sim_ite (fun hc => ?_) (fun hc => ?_) <;> rw [if_byte B] at hc <;>
      simp only [beq_iff_eq] at hc
    · have hK := pnext hK rfl nofun (h4 ht hu hc)
      simp only [List.append_nil] at hK
      exact brk_ignore B isMk_headerName hl (fun _ => trivial) nofun hK
    · have hK := perr hK rfl nofun (h5 ht hu hc)
      simp only [List.append_nil] at hK
      rw [if_byte B]; exact brk_err B isMk_headerName hK

theorem sim_strip_header_value (H : Pre env fut K c .stripHeaderValue) :
    SimOK env fut K (flat c.log) (strip_header_value c) := by
  have hl := H.good.live
  simp only [Live, H.fn] at hl
  unfold strip_header_value
  refine H.strip (s := .hdrStrip) (item := bHdrVal) (e := .headerValue) rfl (fun _ => trivial) nofun
    (by simp [abs, H.fn]) (fun _ => rfl) nofun (fun _ => rfl) ?_
  intro x d b post B h1 h2 h3 h4
  refine sim_ite (fun hv => ?_) (fun hv => ?_) <;> rw [if_byte B] at hv
  · refine brk_transition B hl (fun _ => trivial) nofun ?_
    simp only [setState, abs, pred, norm, reduceCtorEq, ↓reduceIte, bstep, List.append_nil]
    cases hi : bHdrVal b with
    | next es s' => exact h1 _ _ hv hi
    | err es e => exact h2 _ _ hv hi
    | panic =>
      exfalso
      revert hv hi
      exact (forall_u8 (P := fun b => isVisible7bit b = true → ¬ bHdrVal b = .panic)
        (by decide +kernel)) b
    | errB =>
      exfalso
      revert hi
      exact (forall_u8 (P := fun b => ¬ bHdrVal b = .errB) (by decide +kernel)) b
  · rw [if_byte B]
    exact brk_err0 B (h4 (by simpa using hv))

theorem hdrVal_facts : ∀ b : UInt8,
    (isHeaderField b = none → bHdrVal b = .panic) ∧
    (isHeaderField b = some true → bHdrVal b = .next [.headerValue [b]] .hdrVal) ∧
    (isHeaderField b = some false → b = c! '\r' → bHdrVal b = .next [] .hdrLf1) ∧
    (isHeaderField b = some false → b = c! '"' → bHdrVal b = .next [.headerValue [b]] .hdrQuot) ∧
    (isHeaderField b = some false → b ≠ c! '\r' → b ≠ c! '"' →
      bHdrVal b = .err [] (.headerValue b)) := by
  apply forall_u8; decide +kernel

theorem hdrQuot_facts : ∀ b : UInt8,
    (isQuotedHeaderField b = none → bHdrQuot b = .panic) ∧
    (isQuotedHeaderField b = some true → bHdrQuot b = .next [.headerValue [b]] .hdrQuot) ∧
    (isQuotedHeaderField b = some false → b = c! '"' → bHdrQuot b = .next [.headerValue [b]] .hdrVal) ∧
    (isQuotedHeaderField b = some false → b = c! '\\' → bHdrQuot b = .next [.headerValue [b]] .hdrEsc) ∧
    (isQuotedHeaderField b = some false → b ≠ c! '"' → b ≠ c! '\\' →
      bHdrQuot b = .err [] (.headerValue b)) := by
  apply forall_u8; decide +kernel

theorem sim_header_value (H : Pre env fut K c .headerValue) :
    SimOK env fut K (flat c.log) (header_value h c) := by
  have hl := H.good.live
  simp only [Live, H.fn] at hl
  unfold header_value Ctx.collectField
  refine H.collect (s := .hdrVal) (mk := .headerValue) (.inl rfl) (fun _ => trivial) nofun
    (by simp [abs, H.fn]) (fun _ => rfl) nofun isMk_headerValue ?_ ?_
  · intro b
    obtain ⟨h1, h2, -⟩ := hdrVal_facts b
    unfold Ctx.classAct
    cases ht : isHeaderField b with
    | none => exact h1 ht
    | some t =>
      cases t with
      | false => trivial
      | true => exact h2 ht
  · intro x d b post B hb hK
    have ht : isHeaderField b = some false := by
      rcases classAct_brk hb with hb | hb
      · cases hb.2
      · exact hb
    obtain ⟨-, -, h3, h4, h5⟩ := hdrVal_facts b
    refine sim_ite (fun hc => ?_) (fun hc => ?_) <;> rw [if_byte B] at hc <;>
      simp only [beq_iff_eq] at hc
    · have hK := pnext hK rfl nofun (h3 ht hc)
      simp only [List.append_nil] at hK
      exact brk_ignore B isMk_headerValue hl (fun _ => trivial) nofun hK
    refine sim_ite (fun hc' => ?_) (fun hc' => ?_) <;> rw [if_byte B] at hc' <;>
      simp only [beq_iff_eq] at hc'
    · have hK := pnext hK rfl nofun (h4 ht hc')
      exact brk_noRemark B rfl hl (fun _ => trivial) nofun hK
    · have hK := perr hK rfl nofun (h5 ht hc hc')
      simp only [List.append_nil] at hK
      rw [if_byte B]; exact brk_err B isMk_headerValue hK

theorem sim_header_quoted_value (H : Pre env fut K c .headerQuotedValue) :
    SimOK env fut K (flat c.log) (header_quoted_value h c) := by
  have hl := H.good.live
  simp only [Live, H.fn] at hl
  unfold header_quoted_value Ctx.collectQuotedField
  refine H.collect (s := .hdrQuot) (mk := .headerValue) (.inl rfl) (fun _ => trivial) nofun
    (by simp [abs, H.fn]) (fun _ => rfl) nofun isMk_headerValue ?_ ?_
  · intro b
    obtain ⟨h1, h2, -⟩ := hdrQuot_facts b
    unfold Ctx.classAct
    cases ht : isQuotedHeaderField b with
    | none => exact h1 ht
    | some t =>
      cases t with
      | false => trivial
      | true => exact h2 ht
  · intro x d b post B hb hK
    have ht : isQuotedHeaderField b = some false := by
      rcases classAct_brk hb with hb | hb
      · cases hb.2
      · exact hb
    obtain ⟨-, -, h3, h4, h5⟩ := hdrQuot_facts b
    refine sim_ite (fun hc => ?_) (fun hc => ?_) <;> rw [if_byte B] at hc <;>
      simp only [beq_iff_eq] at hc
    · have hK := pnext hK rfl nofun (h3 ht hc)
      exact brk_noRemark B rfl hl (fun _ => trivial) nofun hK
    refine sim_ite (fun hc' => ?_) (fun hc' => ?_) <;> rw [if_byte B] at hc' <;>
      simp only [beq_iff_eq] at hc'
    · have hK := pnext hK rfl nofun (h4 ht hc')
      exact brk_noRemark B rfl hl (fun _ => trivial) nofun hK
    · have hK := perr hK rfl nofun (h5 ht hc hc')
      simp only [List.append_nil] at hK
      rw [if_byte B]; exact brk_err B isMk_headerValue hK

theorem brk_one {x : Ctx} {b : UInt8} (hok : CtxOK x) (hb : x.rest = b :: post) :
    Brk { x with idx := x.idx + 1, byte := b } x.slice b post := by
  have := brk_of (x := x) (pre := []) (b := b) (post := post) hok hb
  simpa using this

theorem sim_header_escaped_value (H : Pre env fut K c .headerEscapedValue) :
    SimOK env fut K (flat c.log) (header_escaped_value h c) := by
  have hl := H.good.live
  simp only [Live, H.fn] at hl
  have hK := H.collectK (mk := .headerValue) (.inl rfl)
  unfold header_escaped_value
  refine sim_ite (fun h0 => ?_) (fun h0 => ?_)
  · refine sim_callbackEos isMk_headerValue H.ok (H.goodX (fun _ => trivial) nofun) hK ?_
    intro tr
    simp [Quiet, abs, H.fn, norm]
  · refine sim_next (by omega) fun b hr => ?_
    have B : Brk (adv c b).ctx c.ctx.slice b (adv c b).ctx.rest := brk_one H.ok hr
    rw [hr] at hK
    simp only [abs, H.fn, List.cons_append, pred, norm, bstep, reduceCtorEq, ↓reduceIte,
      List.append_nil] at hK
    sim_if
    · refine sim_callbackTransition isMk_headerValue B.ok ⟨hl, trivial, nofun⟩ ?_
      rw [B.slice]
      show pred env _ .hdrQuot _ = _
      simpa using hK
    · exact brk_err (c := c) B isMk_headerValue hK

theorem rest_jump {x : Ctx} {n : Nat} : (x.jump n).rest = x.rest.drop n := by
  simp [Ctx.rest, Ctx.jump]

theorem rest_jump_prefix {x : Ctx} {s : Bytes} (hs : x.startsWith s = true) :
    x.rest = s ++ (x.jump s.length).rest := by
  rw [rest_jump]
  obtain ⟨t, ht⟩ := List.isPrefixOf_iff_prefix.1 hs
  rw [← ht]; simp

theorem sim_header_cr1 (H : Pre env fut K c .headerCr1) :
    SimOK env fut K (flat c.log) (header_cr1 c) := by
  unfold header_cr1
  refine sim_ite (fun h0 => ?_) (fun h0 => ?_)
  · have hl := H.good.live
    simp only [Live, H.fn] at hl
    simp only [Bool.and_eq_true] at h0
    have hr := rest_jump_prefix h0.2
    have hK := H.start rfl
    rw [hr] at hK
    refine sim_transition ⟨hl, trivial, nofun⟩ ?_
    simp [abs, H.fn, pred, norm, bstep, bExpect] at hK
    exact hK
  · unfold expectCrlf
    sim_read1
    simp only [bExpect] at hK
    sim_if <;> sim_leaf

theorem sim_header_cr2 (H : Pre env fut K c .headerCr2) :
    SimOK env fut K (flat c.log) (header_cr2 c) := by
  unfold header_cr2
  refine sim_ite (fun h0 => ?_) (fun h0 => ?_)
  · have hl := H.good.live
    simp only [Live, H.fn] at hl
    simp only [Bool.and_eq_true] at h0
    have hr := rest_jump_prefix h0.2
    have hK := H.start rfl
    rw [hr] at hK
    refine sim_transition ⟨hl, trivial, nofun⟩ ?_
    simp [abs, H.fn, pred, norm, bstep, bExpect] at hK
    exact hK
  · sim_read1
    sim_if
    · sim_leaf
    · refine sim_replay (adv_idx _) (sim_transition ⟨hl, trivial, nofun⟩ ?_)
      simp only [setState, hrr, List.cons_append, abs, pred, norm, reduceCtorEq, ↓reduceIte, bstep,
        List.append_nil]
      exact hK

theorem sim_body_finished (H : Pre env fut K c .bodyFinished) :
    SimOK env fut K (flat c.log) (body_finished h c) := by
  have hK := H.start rfl
  simp only [abs, H.fn] at hK
  unfold body_finished
  refine sim_callbackData ⟨trivial, trivial, nofun⟩ ?_
  rw [pred_eps (es := [.bodyFinished]) (s1 := .fin) rfl rfl] at hK
  exact hK

theorem sim_finished (H : Pre env fut K c .finished) :
    SimOK env fut K (flat c.log) (finished c) := by
  have hK := H.start rfl
  simp only [abs, H.fn] at hK
  show K = _
  rw [← hK]
  cases c.ctx.rest ++ fut <;> simp [pred, norm]

theorem sim_header_end (H : Pre env fut K c .headerEnd) :
    SimOK env fut K (flat c.log) (header_end h c) := by
  have hl := H.good.live
  simp only [Live, H.fn] at hl
  have hK := H.start rfl
  simp only [abs, H.fn] at hK
  have hpt := H.ptype
  unfold header_end
  cases ht : c.p.ptype <;> simp only [ht]
  · refine sim_callbackData ⟨trivial, trivial, nofun⟩ ?_
    rw [← hK]
    show pred env _ .bodyFin _ = _
    rw [pred_eps (es := [.bodyFinished]) (s1 := .fin) rfl rfl,
      pred_eps (s := .hdrEnd) (es := [.headersFinished, .bodyFinished]) (s1 := .fin)
        (by simp [norm, ← hpt, ht]) rfl]
    simp [flatEv]
    rfl
  · refine sim_callbackData ⟨trivial, trivial, nofun⟩ ?_
    rw [← hK]
    show pred env _ .fin _ = _
    rw [pred_eps (s := .hdrEnd) (es := [.headersFinished]) (s1 := .fin)
        (by simp [norm, ← hpt, ht]) rfl]
    simp [flatEv]
    rfl
  · refine sim_callbackData ⟨⟨ht, hl ht⟩, trivial, nofun⟩ ?_
    rw [← hK]
    show pred env _ .mpDetect _ = _
    have key : ∀ tr, norm env tr (mpData (env.cl tr)) = ([], mpData (env.cl tr)) := by
      intro tr
      unfold mpData
      cases env.cl tr with
      | none => rfl
      | some n =>
        by_cases hn : n = 0 <;> simp [mpLen', norm, hn]
    rw [pred_eps (s := .mpDetect) (es := []) (s1 := mpData (env.cl _)) rfl (by
        simp only [List.append_nil]; exact key _),
      pred_eps (s := .hdrEnd) (es := [.headersFinished])
        (s1 := mpData (env.cl (flat c.log ++ [.headersFinished])))
        (by simp [norm, ← hpt, ht]) (key _)]
    simp [flatEv, setState]
  · refine sim_callbackData ⟨trivial, trivial, nofun⟩ ?_
    rw [← hK]
    show pred env _ .fin _ = _
    rw [pred_eps (s := .hdrEnd) (es := [.headersFinished]) (s1 := .fin)
        (by simp [norm, ← hpt, ht]) rfl]
    simp [flatEv]
    rfl

end Verif.Http1
