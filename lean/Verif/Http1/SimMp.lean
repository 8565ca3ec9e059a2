import Verif.Http1.SimChunk
import Mathlib.Tactic.Linarith

/-!
# Simulation: multipart bodies (helper lemmas)
-/

set_option linter.unusedSimpArgs false

namespace Verif.Http1

variable {env : Env} {fut : Bytes} {K : List Ev × Fin} {h : Handler} {c : Cfg}

theorem pred_same {tr : List Ev} {s s' : AS} (hn : norm env tr s = norm env tr s') (r : Bytes) :
    pred env tr s r = pred env tr s' r := by
  cases r <;> (unfold pred; rw [hn])

theorem exp_true {p : Parser} (h : ¬ (getLower14 p == 0) = true) : (getLower14 p != 0) = true := by
  simp only [bne, Bool.not_eq_true'] ; simpa using h

theorem exp_false {p : Parser} (h : (getLower14 p == 0) = true) : (getLower14 p != 0) = false := by
  simp only [bne, h]; rfl

theorem sim_multipart_hyphen1 (H : Pre env fut K c .multipartHyphen1) :
    SimOK env fut K (flat c.log) (multipart_hyphen1 h c) := by
  unfold multipart_hyphen1
  sim_read1
  sim_if
  · exact sim_transition ⟨hl, trivial, nofun⟩ hK
  refine sim_ite (fun h0 => ?_) (fun h0 => ?_) <;> simp only [adv_p] at h0
  · simp only [exp_false h0, Bool.false_eq_true, ↓reduceIte] at hK
    exact sim_callbackTransitionData ⟨⟨hl, beq_iff_eq.1 h0⟩, trivial, nofun⟩ hK
  · simp only [exp_true h0, ↓reduceIte, List.append_nil] at hK
    exact sim_err hK.symm

theorem sim_multipart_hyphen2 (H : Pre env fut K c .multipartHyphen2) :
    SimOK env fut K (flat c.log) (multipart_hyphen2 h c) := by
  unfold multipart_hyphen2
  sim_read1
  sim_if
  · refine sim_transition ⟨?_, trivial, nofun⟩ ?_
    · intro bd _
      show (getUpper14 c.p).toNat ≤ _
      rw [hl]; simp
    · show pred env _ (.bound (getLower14 c.p != 0) (getUpper14 c.p).toNat) _ = _
      rw [hl]; exact hK
  refine sim_ite (fun h0 => ?_) (fun h0 => ?_) <;> simp only [adv_p] at h0
  · simp only [exp_false h0, Bool.false_eq_true, ↓reduceIte] at hK
    exact sim_callbackTransitionData ⟨⟨hl, beq_iff_eq.1 h0⟩, trivial, nofun⟩ hK
  · simp only [exp_true h0, ↓reduceIte, List.append_nil] at hK
    exact sim_err hK.symm

/-- The boundary state reads a piece of the boundary. -/
theorem pred_bound {bd : Bytes} (hbd : env.boundary = some bd) (exp : Bool) :
    ∀ (d : Bytes) (i : Nat) (tr : List Ev) (r : Bytes), d <+: bd.drop i →
    pred env tr (.bound exp i) (d ++ r) = pred env tr (.bound exp (i + d.length)) r
  | [], i, tr, r, _ => by simp
  | b :: d, i, tr, r, hd => by
    obtain ⟨t, ht⟩ := hd
    have hi : i < bd.length := by
      by_contra h'
      rw [List.drop_eq_nil_of_le (by omega)] at ht
      simp at ht
    rw [List.drop_eq_getElem_cons hi, List.cons_append, List.cons.injEq] at ht
    have hb : bd[i]? = some b := by rw [List.getElem?_eq_getElem hi, ← ht.1]
    rw [List.cons_append, pred_next (s1 := .bound exp i) (es0 := []) (es := [])
      (s' := .bound exp (i + 1)) (by simp [norm, hbd]; omega) nofun (by simp [bstep, hbd, hb]),
      pred_bound hbd exp d (i + 1) _ r ⟨t, ht.2⟩]
    simp only [List.append_nil, List.length_cons]
    rw [show i + 1 + d.length = i + (d.length + 1) by omega]

theorem mismatch : ∀ (s l : Bytes), ¬ s.take l.length <+: l →
    ∃ pre b post x t, l = pre ++ b :: post ∧ s = pre ++ x :: t ∧ x ≠ b
  | [], l, h => absurd (by simp) h
  | x :: s, [], h => absurd (by simp) h
  | x :: s, b :: l, h => by
    by_cases hx : x = b
    · subst hx
      rw [List.length_cons, List.take_succ_cons, List.cons_prefix_cons] at h
      obtain ⟨pre, b, post, y, t, h1, h2, h3⟩ := mismatch s l (fun h' => h ⟨rfl, h'⟩)
      exact ⟨x :: pre, b, post, y, t, by simp [h1], by simp [h2], h3⟩
    · exact ⟨[], b, l, x, s, rfl, rfl, hx⟩

theorem pred_mpByte : ∀ (d : Bytes) (tr : List Ev) (r : Bytes), c! '\r' ∉ d →
    pred env tr .mpByte (d ++ r) = pred env (tr ++ d.map fun b => .multipartData [b]) .mpByte r
  | d, tr, r, hd => by
    rw [pred_loop (s := .mpByte) (ev := fun b => [.multipartData [b]]) (fun _ => rfl) nofun _ _ _
      (fun b hb => by
        have : b ≠ c! '\r' := by rintro rfl; exact hd hb
        simp [bstep, bMpByte, this])]
    congr 1
    simp [List.map_eq_flatMap]

theorem pred_mp_miss {s : AS} {es : List Ev} {b : UInt8} {r : Bytes} {tr : List Ev}
    (hn : norm env tr s = ([], s)) (hf : s ≠ .fin)
    (hb : bstep env s b = (bMpByte b).pre es) :
    pred env tr s (b :: r) = pred env (tr ++ es) .mpByte (b :: r) := by
  have h2 : bstep env .mpByte b = bMpByte b := rfl
  have hn2 : norm env (tr ++ es) .mpByte = ([], .mpByte) := rfl
  simp only [pred, hn, hb, hn2, h2, if_neg hf, reduceCtorEq, ↓reduceIte, List.append_nil]
  unfold bMpByte
  by_cases hb : (b == c! '\r') = true <;> simp [hb, BRes.pre]

theorem upper_toNat {n : Nat} (h : n < 16384) : (UInt32.ofNat n).toNat = n := by
  rw [UInt32.toNat_ofNat']; omega

theorem sim_multipart_boundary (hB : BdOK env) (H : Pre env fut K c .multipartBoundary) :
    SimOK env fut K (flat c.log) (multipart_boundary h c) := by
  have hl := H.good.live
  simp only [Live, H.fn] at hl
  have hK := H.start rfl
  have quiet : ∀ tr exp i, Quiet env tr (.bound exp i) := by
    intro tr exp i
    unfold Quiet norm
    cases env.boundary with
    | none => simp
    | some bd => by_cases hi : bd.length ≤ i <;> simp [hi]
  unfold multipart_boundary exitIfEos
  refine sim_ite (fun h0 => ?_) (fun h0 => ?_)
  · refine sim_exitEos (H.goodX (fun _ => trivial) nofun) hK ?_
    simp only [abs, H.fn]
    exact quiet _ _ _
  simp only [abs, H.fn] at hK
  have hbd' := H.boundary
  cases hbd : c.p.boundary with
  | none =>
    simp only
    rw [hbd] at hbd'
    obtain ⟨b, r, hr⟩ : ∃ b r, c.ctx.rest = b :: r := by
      cases hr : c.ctx.rest with
      | nil => rw [avail_rest, hr] at h0; simp at h0
      | cons b r => exact ⟨b, r, rfl⟩
    rw [hr] at hK
    refine ⟨.method [], rfl, ?_⟩
    rw [← hK]
    exact pred_panic (s1 := .bound (getLower14 c.p != 0) (getUpper14 c.p).toNat) (es0 := [])
      (by simp [norm, ← hbd']) nofun
      (by simp [bstep, ← hbd'])
  | some bd =>
    simp only
    rw [hbd] at hbd'
    have hup := hl bd hbd
    have hBd := hB bd hbd'.symm
    rw [if_neg (by omega)]
    have hsl : (if bd.length - (getUpper14 c.p).toNat ≤ c.ctx.available
        then bd.drop (getUpper14 c.p).toNat
        else (bd.drop (getUpper14 c.p).toNat).take c.ctx.available) =
        (bd.drop (getUpper14 c.p).toNat).take c.ctx.rest.length := by
      split
      · rw [List.take_of_length_le (by rw [List.length_drop, ← avail_rest]; assumption)]
      · rw [avail_rest]
    rw [hsl]
    clear hsl
    generalize hsl : (bd.drop (getUpper14 c.p).toNat).take c.ctx.rest.length = sl
    have hpre : sl <+: bd.drop (getUpper14 c.p).toNat := by rw [← hsl]; exact List.take_prefix _ _
    have hsllen : (getUpper14 c.p).toNat + sl.length ≤ bd.length := by
      have := hpre.length_le
      rw [List.length_drop] at this
      omega
    refine sim_ite (fun hs => ?_) (fun hs => ?_)
    · have hr := rest_jump_prefix hs
      rw [hr, List.append_assoc, pred_bound hbd'.symm _ _ _ _ _ hpre] at hK
      refine sim_ite (fun he => ?_) (fun he => ?_)
      · rw [he, pred_eps (es := []) (s1 := .boundCr) (by simp [norm, ← hbd']) rfl] at hK
        refine sim_transition ⟨?_, trivial, nofun⟩ ?_
        · exact getUpper14_setUpper14 c.p (by decide)
        · rw [List.append_nil] at hK; exact hK
      · have hu : getUpper14 (incUpper14 c.p sl.length) = _ :=
          getUpper14_setUpper14 c.p (v := UInt32.ofNat ((getUpper14 c.p).toNat + sl.length))
            (by rw [upper_toNat (by omega)]; omega)
        have hlo : getLower14 (incUpper14 c.p sl.length) = getLower14 c.p :=
          getLower14_setUpper14 c.p _
        have hfn : (incUpper14 c.p sl.length).fn = .multipartBoundary := H.fn
        refine sim_exitEos ⟨?_, ?_, ?_⟩ ?_ ?_
        · show Live (incUpper14 c.p sl.length)
          simp only [Live, hfn]
          intro bd2 hbd2
          have : some bd = some bd2 := hbd.symm.trans hbd2
          cases this
          rw [hu, upper_toNat (by omega)]; exact hsllen
        · show HX (incUpper14 c.p sl.length).fn _
          rw [hfn]; trivial
        · show (incUpper14 c.p sl.length).fn ≠ _
          rw [hfn]; nofun
        · show pred env _ (abs (incUpper14 c.p sl.length)) _ = _
          simp only [abs, hfn, hu, hlo, upper_toNat (show (getUpper14 c.p).toNat + sl.length < 16384
            by omega)]
          exact hK
        · show Quiet env _ (abs (incUpper14 c.p sl.length))
          simp only [abs, hfn]
          exact quiet _ _ _
    · have hs' : ¬ (bd.drop (getUpper14 c.p).toNat).take c.ctx.rest.length <+: c.ctx.rest := by
        rw [hsl]; intro h'; exact hs (List.isPrefixOf_iff_prefix.2 h')
      obtain ⟨pre, b, post, x, t, h1, h2, h3⟩ := mismatch _ _ hs'
      have hi : (getUpper14 c.p).toNat + pre.length < bd.length := by
        have := congrArg List.length h2
        simp only [List.length_drop, List.length_append, List.length_cons] at this
        omega
      have hget : bd[(getUpper14 c.p).toNat + pre.length]? = some x := by
        rw [← List.getElem?_drop, h2]; simp
      have hne : ¬ bd[(getUpper14 c.p).toNat + pre.length]? = some b := by
        rw [hget]; simpa using h3
      have htake : bd.take ((getUpper14 c.p).toNat + pre.length) =
          bd.take (getUpper14 c.p).toNat ++ pre := by
        rw [List.take_add, h2]; simp
      have hnorm : ∀ tr exp, norm env tr (.bound exp ((getUpper14 c.p).toNat + pre.length)) =
          ([], .bound exp ((getUpper14 c.p).toNat + pre.length)) := by
        intro tr exp; simp [norm, ← hbd']; omega
      rw [h1, List.append_assoc, List.cons_append,
        pred_bound hbd'.symm _ _ _ _ _ ⟨x :: t, h2.symm⟩] at hK
      refine sim_ite (fun hlo => ?_) (fun hlo => ?_)
      · rw [exp_false hlo, pred_mp_miss (hnorm _ _) nofun (by
            simp only [bstep, ← hbd', hne, ↓reduceIte, Bool.false_eq_true]; rfl), htake] at hK
        refine sim_callbackTransitionData ⟨⟨getUpper14_setUpper14 c.p (by decide), ?_⟩, trivial,
          nofun⟩ ?_
        · exact (getLower14_setUpper14 c.p 0).trans (by simpa using hlo)
        · show pred env _ .mpByte (c.ctx.rest ++ fut) = _
          rw [h1, List.append_assoc, List.cons_append, pred_mpByte _ _ _ (by
            intro hcr
            refine hBd.2 (List.mem_of_mem_drop (i := (getUpper14 c.p).toNat) ?_)
            rw [h2]; simp [hcr]), ← hK]
          simp [flatEv]
          rfl
      · rw [exp_true hlo, pred_errB (hnorm _ _) nofun (by
            simp only [bstep, ← hbd', hne, ↓reduceIte])] at hK
        refine sim_next (by omega) fun b' hb' => ?_
        refine .inr ⟨⟨_, ?_, by simpa using hK.symm⟩, _, rfl⟩
        rw [h1] at hb'
        cases pre with
        | nil =>
          cases hb'
          exact List.suffix_refl _
        | cons p pre =>
          simp only [List.cons_append, List.cons.injEq] at hb'
          rw [← hb'.2, List.append_assoc, List.cons_append]
          exact ⟨pre ++ [b], by simp⟩

theorem sim_multipart_boundary_cr (H : Pre env fut K c .multipartBoundaryCr) :
    SimOK env fut K (flat c.log) (multipart_boundary_cr h c) := by
  unfold multipart_boundary_cr
  sim_read1
  sim_if
  · exact sim_callbackData ⟨fun _ => hl, trivial, nofun⟩ hK
  sim_if
  · exact sim_transition ⟨hl, trivial, nofun⟩ hK
  · sim_leaf

theorem sim_multipart_detect_data (hC : ClOK env h) (H : Pre env fut K c .multipartDetectData) :
    SimOK env fut K (flat c.log) (multipart_detect_data h c) := by
  have hl := H.good.live
  simp only [Live, H.fn] at hl
  have hK := H.start rfl
  simp only [abs, H.fn] at hK
  have hcl := hC (H.ptype ▸ hl.1) c.log
  unfold multipart_detect_data
  cases hh : h.contentLength c.log with
  | some n =>
    simp only
    rw [hh] at hcl
    have e : pred env (flat c.log) .mpDetect (c.ctx.rest ++ fut) =
        pred env (flat c.log) (.mpLen n) (c.ctx.rest ++ fut) := by
      exact pred_same (by simp only [norm, ← hcl, mpData]) _
    rw [e] at hK
    refine sim_transition ⟨⟨?_, ?_⟩, trivial, nofun⟩ hK
    · show getUpper14 (setLower14 { c.p with length := n } 1) = 0
      rw [getUpper14_setLower14 _ (by decide)]
      exact hl.2
    · show getLower14 (setLower14 { c.p with length := n } 1) ≠ 0
      rw [getLower14_setLower14 _ (by decide)]
      decide
  | none =>
    simp only
    rw [hh] at hcl
    have e : pred env (flat c.log) .mpDetect (c.ctx.rest ++ fut) =
        pred env (flat c.log) .mpByte (c.ctx.rest ++ fut) := by
      exact pred_same (by simp only [norm, ← hcl, mpData]) _
    rw [e] at hK
    refine sim_transition ⟨⟨?_, ?_⟩, trivial, nofun⟩ hK
    · exact (getUpper14_setLower14 c.p (by decide)).trans hl.2
    · exact getLower14_setLower14 c.p (by decide)

theorem sim_multipart_data_by_byte (H : Pre env fut K c .multipartDataByByte) :
    SimOK env fut K (flat c.log) (multipart_data_by_byte h c) := by
  have hl := H.good.live
  simp only [Live, H.fn] at hl
  unfold multipart_data_by_byte
  refine H.collect (s := .mpByte) (mk := .multipartData) (.inr rfl)
    (fun _ => trivial) nofun (by simp [abs, H.fn]) (fun _ => rfl) nofun isMk_multipartData ?_ ?_
  · intro b
    by_cases hb : (b == c! '\r') = true <;> simp [hb, bstep, bMpByte]
  · intro x d b post B hb hK
    have hb' : (b == c! '\r') = true := by
      by_contra h'
      simp only [h', Bool.false_eq_true, ↓reduceIte] at hb
      cases hb
    have hK := pnext hK rfl nofun (s' := .mpByteLf) (es := []) (by simp [bstep, bMpByte, hb'])
    simp only [List.append_nil] at hK
    exact brk_ignore B isMk_multipartData hl (fun _ => trivial) nofun hK

theorem sim_multipart_data_by_byte_lf (H : Pre env fut K c .multipartDataByByteLf) :
    SimOK env fut K (flat c.log) (multipart_data_by_byte_lf h c) := by
  unfold multipart_data_by_byte_lf
  sim_read1
  sim_if
  · refine sim_transition ⟨hl.1, trivial, nofun⟩ ?_
    show pred env _ (.hyphen1 (getLower14 c.p != 0)) _ = _
    rw [hl.2]; exact hK
  · exact sim_callbackTransitionData ⟨hl, trivial, nofun⟩ hK

end Verif.Http1
