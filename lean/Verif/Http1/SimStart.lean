import Verif.Http1.SimVer
import Mathlib.Tactic.Linarith

/-!
# Simulation: collection loops, start lines (helper lemmas)
-/

set_option linter.unusedSimpArgs false

namespace Verif.Http1

variable {env : Env} {fut : Bytes} {K : List Ev × Fin} {h : Handler} {c : Cfg}

theorem Pre.collectK {f : St} {mk : Bytes → Ev} (H : Pre env fut K c f)
    (hp : pendEv f = some (fun b => mk [b]) ∨ pendEv f = none) :
    pred env (flat c.log ++ c.ctx.slice.map fun b => mk [b]) (abs c.p) (c.ctx.rest ++ fut) = K := by
  have hK := H.K
  simp only [predOf, pend, H.fn] at hK
  rcases hp with hp | hp
  · rw [hp] at hK; exact hK
  · rw [hp] at hK
    rw [slice_of_mark (H.good.mark (by rw [H.fn]; exact hp))]
    exact hK

/-- A collection loop of a state. -/
theorem Pre.collect {f : St} {act : UInt8 → Ctx.Act} {s : AS} {mk : Bytes → Ev} {k : Cfg → Out}
    (H : Pre env fut K c f)
    (hp : pendEv f = some (fun b => mk [b]) ∨ pendEv f = none) (hx : ∀ m, HX f m)
    (nd : f ≠ .detect1) (hs : abs c.p = s)
    (hn : ∀ tr, norm env tr s = ([], s)) (hf : s ≠ .fin) (hmk : IsMk mk)
    (hact : ∀ b, match act b with
      | .cont => bstep env s b = .next [mk [b]] s
      | .panic => bstep env s b = .panic
      | .brk => True
      | .fail => False)
    (hbrk : ∀ x d b post, Brk x d b post → act b = .brk →
      pred env (flat c.log ++ d.map fun b => mk [b]) s (b :: (post ++ fut)) = K →
      SimOK env fut K (flat c.log) (k { c with ctx := x })) :
    SimOK env fut K (flat c.log) (collecting c (c.ctx.collect act) (callbackEos h · mk) k) := by
  refine sim_collect H.ok H.good.live (by rw [H.fn]; exact nd) hs hn hf hmk ?_ ?_ ?_ ?_ ?_ hbrk
  · rw [← hs]; exact H.collectK hp
  · rw [H.fn]; exact hx
  · intro b hb; have := hact b; rw [hb] at this; exact this
  · intro b hb; have := hact b; rw [hb] at this; exact this
  · intro b hb; have := hact b; rw [hb] at this; exact this

/-- `strip_*`: skip white space. -/
theorem Pre.strip {f : St} {s : AS} {item : UInt8 → BRes} {e : UInt8 → PErr} {k : Cfg → Out}
    (H : Pre env fut K c f) (hp : pendEv f = none) (hx : ∀ m, HX f m)
    (nd : f ≠ .detect1) (hs : abs c.p = s)
    (hn : ∀ tr, norm env tr s = ([], s)) (hf : s ≠ .fin)
    (hb : ∀ b, bstep env s b = bStrip s item e b)
    (hbrk : ∀ x d b post, Brk x d b post →
      (∀ es s', isVisible7bit b = true → item b = .next es s' →
        pred env (flat c.log ++ es) s' (post ++ fut) = K) →
      (∀ es e', isVisible7bit b = true → item b = .err es e' →
        (flat c.log ++ es, Fin.err e' (post ++ fut)) = K) →
      (isVisible7bit b = true → item b = .panic → K = (flat c.log, .panic)) →
      (isVisible7bit b = false → (flat c.log, Fin.err (e b) (post ++ fut)) = K) →
      SimOK env fut K (flat c.log) (k { c with ctx := x })) :
    SimOK env fut K (flat c.log) (collecting c c.ctx.consumeLinearSpace exitEos k) := by
  rw [consumeLinearSpace_eq]
  refine sim_skip H.ok H.good.live (by rw [H.fn]; exact nd) hs hn hf (by rw [← hs]; exact H.start hp)
    ?_ ?_ ?_ ?_ ?_
  · intro _; rw [H.fn]; exact hx _
  · intro b h1
    by_cases h2 : (b == c! ' ' || b == c! '\t') = true
    · rw [hb, bStrip, if_pos h2]
    · simp only [if_neg h2] at h1; exact absurd h1 nofun
  · intro b; split <;> nofun
  · intro b; split <;> nofun
  · intro x d b post pre B hr h1 h2 hK
    have h3 : ¬ (b == c! ' ' || b == c! '\t') = true := by
      intro h3; simp only [if_pos h3] at h2; exact absurd h2 nofun
    refine hbrk x d b post B ?_ ?_ ?_ ?_
    · intro es s' hv hi
      rw [pred_next (hn _) hf (es := es) (s' := s')
        (by rw [hb, bStrip, if_neg h3, if_pos hv, hi])] at hK
      simpa using hK
    · intro es e' hv hi
      rw [pred_err (hn _) hf (es := es) (e := e')
        (by rw [hb, bStrip, if_neg h3, if_pos hv, hi])] at hK
      simpa using hK
    · intro hv hi
      rw [← hK, pred_panic (hn _) hf (by rw [hb, bStrip, if_neg h3, if_pos hv, hi]), List.append_nil]
    · intro hv
      rw [pred_err (hn _) hf (es := []) (e := e b)
        (by rw [hb, bStrip, if_neg h3, if_neg (by simp [hv])])] at hK
      simpa using hK

theorem if_byte {x : Ctx} {d post : Bytes} {b : UInt8} (B : Brk x d b post) :
    ({ c with ctx := x } : Cfg).ctx.byte = b := B.byte

/-! ## Start lines -/

theorem act_method : ∀ b : UInt8, (b < 0x41 || b > 0x5A) = !isUpper b := by
  apply forall_u8; decide +kernel

theorem sim_request_method (H : Pre env fut K c .requestMethod) :
    SimOK env fut K (flat c.log) (request_method h c) := by
  have hl := H.good.live
  simp only [Live, H.fn] at hl
  unfold request_method
  refine H.collect (s := .method) (mk := .method) (.inl rfl) (fun _ => trivial) nofun
    (by simp [abs, H.fn]) (fun _ => rfl) nofun isMk_method ?_ ?_
  · intro b
    rw [act_method]
    cases hu : isUpper b <;> simp [bstep, bMethod, hu]
  · intro x d b post B hb hK
    rw [act_method] at hb
    have hu : isUpper b = false := by
      cases hu : isUpper b <;> simp [hu] at hb ⊢
    simp only [pred, norm, bstep, bMethod, hu, reduceCtorEq, ↓reduceIte, List.append_nil,
      Bool.false_eq_true] at hK
    refine sim_ite (fun hb => ?_) (fun hb => ?_) <;> rw [if_byte B] at hb <;>
      simp only [hb, reduceCtorEq, ↓reduceIte, List.append_nil, Bool.false_eq_true] at hK
    · exact brk_ignore B isMk_method hl (fun _ => trivial) nofun hK
    · rw [if_byte B]; exact brk_err B isMk_method hK

theorem sim_request_url2 (H : Pre env fut K c .requestUrl2) :
    SimOK env fut K (flat c.log) (request_url2 h c) := by
  have hl := H.good.live
  simp only [Live, H.fn] at hl
  unfold request_url2 Ctx.collectVisible7bit
  refine H.collect (s := .url2) (mk := .url) (.inl rfl) (fun _ => trivial) nofun
    (by simp [abs, H.fn]) (fun _ => rfl) nofun isMk_url ?_ ?_
  · intro b
    cases hu : isVisible7bit b <;> simp [bstep, hu]
  · intro x d b post B hb hK
    have hu : isVisible7bit b = false := by
      cases hu : isVisible7bit b <;> simp [hu] at hb ⊢
    simp only [pred, norm, bstep, hu, reduceCtorEq, ↓reduceIte, List.append_nil,
      Bool.false_eq_true] at hK
    refine sim_ite (fun hb => ?_) (fun hb => ?_) <;> rw [if_byte B] at hb <;>
      simp only [hb, reduceCtorEq, ↓reduceIte, List.append_nil, Bool.false_eq_true] at hK
    · exact brk_ignore B isMk_url hl (fun _ => trivial) nofun hK
    · rw [if_byte B]; exact brk_err B isMk_url hK

/-- The loop of `response_status2` as a loop that stops at the first control byte. -/
theorem response_status2_eq (c0 : Cfg) : ∀ (r : Bytes) (x : Ctx),
    (match Ctx.collectGo (fun b =>
        if isNonControl b then .cont else if b == c! '\r' then .brk else .fail) r x with
    | .eos ctx => callbackEos h { c0 with ctx := ctx } .status
    | .brk ctx => callbackIgnoreTransition h { c0 with ctx := ctx } .status .initialEnd .initialEnd
    | .fail ctx => .err (.status ctx.byte) { c0 with ctx := ctx }
    | .panic => .panic) =
    collecting c0 (Ctx.collectGo (fun b => if isNonControl b then .cont else .brk) r x)
      (callbackEos h · .status) (fun c =>
        if c.ctx.byte == c! '\r' then
          callbackIgnoreTransition h c .status .initialEnd .initialEnd
        else .err (.status c.ctx.byte) c)
  | [], x => rfl
  | b :: r, x => by
    simp only [Ctx.collectGo]
    cases hn : isNonControl b with
    | true => exact response_status2_eq c0 r _
    | false =>
      cases hcr : (b == c! '\r') with
      | true =>
        simp only [collecting, Bool.false_eq_true, ↓reduceIte, hcr]
      | false =>
        simp only [collecting, Bool.false_eq_true, ↓reduceIte, hcr]

theorem sim_response_status2 (H : Pre env fut K c .responseStatus2) :
    SimOK env fut K (flat c.log) (response_status2 h c) := by
  have hl := H.good.live
  simp only [Live, H.fn] at hl
  have e : response_status2 h c = _ := response_status2_eq (h := h) c c.ctx.rest c.ctx
  rw [e]
  refine H.collect (s := .reason2) (mk := .status) (.inr rfl) (fun _ => trivial) nofun
    (by simp [abs, H.fn]) (fun _ => rfl) nofun isMk_status ?_ ?_
  · intro b
    cases hu : isNonControl b <;> simp [bstep, hu]
  · intro x d b post B hb hK
    have hu : isNonControl b = false := by
      cases hu : isNonControl b <;> simp [hu] at hb ⊢
    simp only [pred, norm, bstep, hu, reduceCtorEq, ↓reduceIte, List.append_nil,
      Bool.false_eq_true] at hK
    refine sim_ite (fun hb => ?_) (fun hb => ?_) <;> rw [if_byte B] at hb <;>
      simp only [hb, reduceCtorEq, ↓reduceIte, List.append_nil, Bool.false_eq_true] at hK
    · exact brk_ignore B isMk_status (fun h' => absurd h' hl) (fun _ => trivial) nofun hK
    · rw [if_byte B]; exact brk_err B isMk_status hK

theorem sim_response_status1 (H : Pre env fut K c .responseStatus1) :
    SimOK env fut K (flat c.log) (response_status1 c) := by
  unfold response_status1
  sim_read1
  sim_if <;> sim_leaf

theorem sim_response_status_code_space (H : Pre env fut K c .responseStatusCodeSpace) :
    SimOK env fut K (flat c.log) (response_status_code_space h c) := by
  unfold response_status_code_space
  sim_read1
  sim_if
  · refine sim_callbackData ⟨by live_tac, trivial, nofun⟩ ?_
    simp only [adv_p, lower_u16]
    exact hK
  · sim_leaf

theorem code_add {v d : UInt32} {k j : Nat} (hv : v.toNat ≤ k) (hd : d.toNat ≤ 9) (hk : k ≤ 1000)
    (hj : j ≤ 100) : (v + d * UInt32.ofNat j).toNat = v.toNat + d.toNat * j := by
  rw [UInt32.toNat_add, UInt32.toNat_mul, UInt32.toNat_ofNat']
  have : d.toNat * j ≤ 900 := by nlinarith
  rw [Nat.mod_eq_of_lt (a := j) (by omega), Nat.mod_eq_of_lt (a := d.toNat * j) (by omega)]
  omega

theorem sim_response_status_code2 (H : Pre env fut K c .responseStatusCode2) :
    SimOK env fut K (flat c.log) (response_status_code2 c) := by
  unfold response_status_code2
  sim_read1
  sim_if
  · obtain ⟨h1, h2⟩ := digitVal_ok b hb
    have hm : (getLower14 c.p + digitVal b * 10).toNat = _ :=
      code_add (j := 10) hl.2 (by omega) (by omega) (by omega)
    have hg : getLower14 (setLower14 c.p (getLower14 c.p + digitVal b * 10)) = _ :=
      getLower14_setLower14 c.p (by omega)
    refine sim_transition ⟨⟨hl.1, ?_⟩, trivial, nofun⟩ ?_
    · show (getLower14 (setLower14 c.p (getLower14 c.p + digitVal b * 10))).toNat ≤ 990
      rw [hg, hm]; omega
    · show pred env _ (.code3 (getLower14 (setLower14 c.p (getLower14 c.p + digitVal b * 10))).toNat) _ = _
      rw [hg, hm, h1]; exact hK
  · sim_leaf

theorem sim_response_status_code3 (H : Pre env fut K c .responseStatusCode3) :
    SimOK env fut K (flat c.log) (response_status_code3 c) := by
  unfold response_status_code3
  sim_read1
  sim_if
  · obtain ⟨h1, h2⟩ := digitVal_ok b hb
    have hm : (getLower14 c.p + digitVal b).toNat = (getLower14 c.p).toNat + (digitVal b).toNat := by
      rw [UInt32.toNat_add]; omega
    have hg : getLower14 (setLower14 c.p (getLower14 c.p + digitVal b)) = _ :=
      getLower14_setLower14 c.p (by omega)
    refine sim_transition ⟨hl.1, trivial, nofun⟩ ?_
    show pred env _ (.codeSp (getLower14 (setLower14 c.p (getLower14 c.p + digitVal b))).toNat) _ = _
    rw [hg, hm, h1]; exact hK
  · sim_leaf

theorem code100 {d : UInt32} (hd : d.toNat ≤ 9) : (d * 100).toNat = d.toNat * 100 := by
  rw [UInt32.toNat_mul]
  simp only [show UInt32.toNat 100 = 100 from rfl]
  omega

theorem avail_rest {x : Ctx} : x.available = x.rest.length := by
  simp [Ctx.available, Ctx.rest]

theorem sim_response_status_code1 (H : Pre env fut K c .responseStatusCode1) :
    SimOK env fut K (flat c.log) (response_status_code1 c) := by
  have hfn := H.fn
  have hl := H.good.live
  simp only [Live, hfn] at hl
  have hK := H.start rfl
  simp only [abs, hfn] at hK
  unfold response_status_code1
  unfold exitIfEos
  refine sim_ite (fun h0 => ?_) (fun h0 => ?_)
  · refine sim_exitEos (H.goodX (fun _ => trivial) nofun) (by rw [abs, hfn]; exact hK) ?_
    simp [Quiet, abs, hfn, norm]
  refine sim_ite (fun h3 => ?_) (fun h3 => ?_)
  · refine sim_next (by omega) fun b1 hr1 => ?_
    rw [hr1] at hK
    simp only [List.cons_append, pred, norm, bstep, reduceCtorEq, ↓reduceIte, List.append_nil] at hK
    rw [avail_rest, hr1, List.length_cons] at h3
    refine sim_ite (fun hb => ?_) (fun hb => ?_) <;> simp only [adv_byte, Bool.not_eq_true'] at hb
    · simp only [hb, Bool.false_eq_true, ↓reduceIte, List.append_nil] at hK
      exact sim_err hK.symm
    simp only [Bool.not_eq_false] at hb
    obtain ⟨h11, h12⟩ := digitVal_ok b1 hb
    simp only [hb, ↓reduceIte, List.append_nil] at hK
    simp only [adv_byte]
    have hm1 : (digitVal b1 * 100).toNat = _ := code100 (by omega)
    have hg1 : getLower14 (setLower14 c.p (digitVal b1 * 100)) = _ :=
      getLower14_setLower14 c.p (by omega)
    -- second digit
    refine sim_next (c := withP (adv c b1) fun p => setLower14 p (digitVal b1 * 100)) (by
      rw [avail_rest]; show 0 < (adv c b1).ctx.rest.length; omega) fun b2 hr2 => ?_
    have hr2' : (adv c b1).ctx.rest = b2 :: (adv (adv c b1) b2).ctx.rest := hr2
    rw [hr2'] at hK h3
    simp only [List.cons_append, pred, norm, bstep, reduceCtorEq, ↓reduceIte, List.append_nil] at hK
    rw [List.length_cons] at h3
    refine sim_ite (fun hb => ?_) (fun hb => ?_) <;> simp only [adv_byte, Bool.not_eq_true'] at hb
    · simp only [hb, Bool.false_eq_true, ↓reduceIte, List.append_nil] at hK
      exact sim_err hK.symm
    simp only [Bool.not_eq_false] at hb
    obtain ⟨h21, h22⟩ := digitVal_ok b2 hb
    simp only [hb, ↓reduceIte, List.append_nil] at hK
    simp only [adv_byte]
    generalize hp1 : setLower14 c.p (digitVal b1 * 100) = p1 at *
    have hv1 : (getLower14 p1).toNat = dec b1 * 100 := by rw [hg1, hm1, h11]
    have hm2 : (getLower14 p1 + digitVal b2 * 10).toNat = _ :=
      code_add (k := 900) (j := 10) (by omega) (by omega) (by omega) (by omega)
    have hg2 : getLower14 (setLower14 p1 (getLower14 p1 + digitVal b2 * 10)) = _ :=
      getLower14_setLower14 p1 (by omega)
    -- third digit
    refine sim_next (c := withP (adv (withP (adv c b1) fun p => setLower14 p (digitVal b1 * 100)) b2)
      fun p => setLower14 p (getLower14 p + digitVal b2 * 10)) (by
      rw [avail_rest]; show 0 < (adv (adv c b1) b2).ctx.rest.length; omega) fun b3 hr3 => ?_
    have hr3' : (adv (adv c b1) b2).ctx.rest = b3 :: (adv (adv (adv c b1) b2) b3).ctx.rest := hr3
    rw [hr3'] at hK h3
    simp only [List.cons_append, pred, norm, bstep, reduceCtorEq, ↓reduceIte, List.append_nil] at hK
    refine sim_ite (fun hb => ?_) (fun hb => ?_) <;> simp only [adv_byte, Bool.not_eq_true'] at hb
    · simp only [hb, Bool.false_eq_true, ↓reduceIte, List.append_nil] at hK
      exact sim_err hK.symm
    simp only [Bool.not_eq_false] at hb
    obtain ⟨h31, h32⟩ := digitVal_ok b3 hb
    simp only [hb, ↓reduceIte, List.append_nil] at hK
    simp only [adv_byte]
    have hp1' : (withP (adv c b1) fun p => setLower14 p (digitVal b1 * 100)).p = p1 := hp1
    generalize hp2 : setLower14 p1 (getLower14 p1 + digitVal b2 * 10) = p2 at *
    have hp2' : (withP (adv (withP (adv c b1) fun p => setLower14 p (digitVal b1 * 100)) b2)
      fun p => setLower14 p (getLower14 p + digitVal b2 * 10)).p = p2 := by
      rw [← hp2, ← hp1]; rfl
    have hv2 : (getLower14 p2).toNat = dec b1 * 100 + dec b2 * 10 := by rw [hg2, hm2, hv1, h21]
    have hm3 : (getLower14 p2 + digitVal b3).toNat = (getLower14 p2).toNat + (digitVal b3).toNat := by
      rw [UInt32.toNat_add]; omega
    have hg3 : getLower14 (setLower14 p2 (getLower14 p2 + digitVal b3)) = _ :=
      getLower14_setLower14 p2 (by omega)
    refine sim_transition ⟨hl, trivial, nofun⟩ ?_
    show pred env _ (.codeSp (getLower14 (setLower14 (withP (adv (withP (adv c b1) fun p =>
      setLower14 p (digitVal b1 * 100)) b2) fun p => setLower14 p (getLower14 p + digitVal b2 * 10)).p
      (getLower14 (withP (adv (withP (adv c b1) fun p =>
      setLower14 p (digitVal b1 * 100)) b2) fun p => setLower14 p (getLower14 p + digitVal b2 * 10)).p
       + digitVal b3))).toNat) _ = _
    rw [hp2', hg3, hm3, hv2, h31]
    exact hK
  · refine sim_next (by omega) fun b hr => ?_
    rw [hr] at hK
    simp only [List.cons_append, pred, norm, bstep, reduceCtorEq, ↓reduceIte, List.append_nil] at hK
    sim_if
    · obtain ⟨h1, h2⟩ := digitVal_ok b hb
      have hm : (digitVal b * 100).toNat = _ := code100 (by omega)
      have hg : getLower14 (setLower14 c.p (digitVal b * 100)) = _ :=
        getLower14_setLower14 c.p (by omega)
      refine sim_transition ⟨⟨hl, ?_⟩, trivial, nofun⟩ ?_
      · show (getLower14 (setLower14 c.p (digitVal b * 100))).toNat ≤ 900
        rw [hg, hm]; omega
      · show pred env _ (.code2 (getLower14 (setLower14 c.p (digitVal b * 100))).toNat) _ = _
        rw [hg, hm, h1]; exact hK
    · sim_leaf

end Verif.Http1
