import Verif.Http1.SimHdr
import Mathlib.Tactic.Linarith

/-!
# Simulation: detection and fast paths (helper lemmas)
-/

set_option linter.unusedSimpArgs false

namespace Verif.Http1

variable {env : Env} {fut : Bytes} {K : List Ev × Fin} {h : Handler} {c : Cfg}

theorem hdr_token : ∀ b : UInt8, isToken b = some true →
    bHdrName b = .next [.headerName [lowerByte b]] .hdrName := by
  apply forall_u8; decide +kernel

theorem pred_hdrName : ∀ (nm : Bytes) (tr : List Ev) (r : Bytes),
    (∀ b ∈ nm, isToken b = some true) →
    pred env tr .hdrName (nm ++ r) =
      pred env (tr ++ (nm.map lowerByte).map fun b => .headerName [b]) .hdrName r
  | nm, tr, r, hnm => by
    rw [pred_loop (s := .hdrName) (ev := fun b => [.headerName [lowerByte b]]) (fun _ => rfl) nofun _ _ _
      (fun b hb => hdr_token b (hnm b hb))]
    congr 1
    rw [List.map_map, List.map_eq_flatMap]
    rfl

theorem pred_hdrFirst (nm : Bytes) (tr : List Ev) (r : Bytes) (hne : nm ≠ [])
    (hnm : ∀ b ∈ nm, isToken b = some true ∧ isVisible7bit b = true) :
    pred env tr .hdrFirst (nm ++ c! ':' :: r) =
      pred env (tr ++ (nm.map lowerByte).map fun b => .headerName [b]) .hdrStrip r := by
  obtain ⟨b, nm', rfl⟩ := List.exists_cons_of_ne_nil hne
  have hb := hnm b (by simp)
  have h1 : pred env tr .hdrFirst (b :: nm' ++ c! ':' :: r) =
      pred env tr .hdrName (b :: nm' ++ c! ':' :: r) := by
    simp only [List.cons_append, pred, norm, bstep, bHdrFirst, hb.2, reduceCtorEq, ↓reduceIte]
  rw [h1, pred_hdrName _ _ _ (fun b hb => (hnm b hb).1)]
  rw [pred_next (s1 := .hdrName) (es0 := []) (es := []) (s' := .hdrStrip) rfl nofun rfl]
  simp

theorem sim_first_header_name (H : Pre env fut K c .firstHeaderName) :
    SimOK env fut K (flat c.log) (first_header_name h c) := by
  unfold first_header_name
  refine sim_ite (fun h0 => ?_) (fun h0 => ?_)
  · have hf := firstHeaderFast_ok c.ctx
    split
    · rename_i name len heq
      rw [heq] at hf
      obtain ⟨raw, hs, hc⟩ := hf
      simp only [fastCheck, Bool.and_eq_true, beq_iff_eq, decide_eq_true_eq, Bool.not_eq_true',
        List.isEmpty_eq_false_iff, List.all_eq_true] at hc
      obtain ⟨⟨⟨⟨⟨h1, h2⟩, h3⟩, h4⟩, h5⟩, h6⟩ := hc
      have hl := H.good.live
      simp only [Live, H.fn] at hl
      have hr := rest_jump_prefix hs
      have hK := H.start rfl
      simp only [abs, H.fn] at hK
      rw [hr, List.append_assoc, h3, List.append_assoc, List.singleton_append,
        pred_hdrFirst _ _ _ h5 h6] at hK
      refine sim_callbackTransitionData ⟨hl, trivial, nofun⟩ ?_
      rw [← h1, h3, h4]
      exact hK
    · exact sim_firstHeaderNameSlow H
  · exact sim_firstHeaderNameSlow H

/-! ## Request version -/

theorem sim_request_http1 (H : Pre env fut K c .requestHttp1) :
    SimOK env fut K (flat c.log) (request_http1 h c) := by
  have slow : SimOK env fut K (flat c.log) (expectVersion c (c! 'H') .requestHttp2 .requestHttp2) := by
    unfold expectVersion
    sim_read1
    simp only [bExpect] at hK
    sim_if <;> sim_leaf
  have hl := H.good.live
  simp only [Live, H.fn] at hl
  have hK := H.start rfl
  simp only [abs, H.fn] at hK
  have fast : ∀ (lit : Bytes) (ma mi : Nat), c.ctx.startsWith lit = true → lit.length = 9 →
      (∀ tr r, pred env tr .http1 (lit ++ r) = pred env (tr ++ [.version ma mi]) .initialEnd r) →
      SimOK env fut K (flat c.log) (callbackData h (setState (jump c 9) .initialEnd .initialEnd)
        (.version ma mi) remark) := by
    intro lit ma mi hs hlen hp
    rw [rest_jump_prefix hs, List.append_assoc, hp, hlen] at hK
    exact sim_callbackData ⟨fun h' => absurd h' hl, trivial, nofun⟩ hK
  unfold request_http1
  refine sim_ite (fun h0 => ?_) (fun h0 => slow)
  refine sim_ite (fun h1 => ?_) (fun h1 => ?_)
  · refine fast _ _ _ h1 rfl ?_
    intro tr r
    simp [pred, norm, bstep, bExpect, bVerEnd, isDigit, dec, stopByte]
  refine sim_ite (fun h1 => ?_) (fun h1 => ?_)
  · refine fast _ _ _ h1 rfl ?_
    intro tr r
    simp [pred, norm, bstep, bExpect, bVerEnd, isDigit, dec, stopByte]
  refine sim_ite (fun h1 => ?_) (fun h1 => slow)
  · refine fast _ _ _ h1 rfl ?_
    intro tr r
    simp [pred, norm, bstep, bExpect, bVerEnd, isDigit, dec, stopByte]

/-! ## Detection -/

theorem compat_cons {a b : UInt8} {p m : Bytes} (h : Compat (a :: p) (b :: m)) :
    a = b ∧ Compat p m := by
  rcases h with h | h
  · obtain ⟨h1, h2⟩ := List.cons_prefix_cons.1 h; exact ⟨h1, .inl h2⟩
  · obtain ⟨h1, h2⟩ := List.cons_prefix_cons.1 h; exact ⟨h1.symm, .inr h2⟩

theorem sim_detectByte {f s' : St} {expect : UInt8} {sa sb : AS}
    (H : Pre env fut K c f) (hp : pendEv f = none)
    (nd : f ≠ .detect1) (hx : ∀ m, HX f m)
    (ha : ∀ p : Parser, p.fn = f → abs p = sa) (hb : ∀ b, bstep env sa b = bLDet expect sb b)
    (hn : ∀ tr, norm env tr sa = ([], sa)) (hf : sa ≠ .fin)
    (ha' : ∀ p : Parser, p.fn = s' → abs p = sb)
    (hl : ∀ p : Parser, p.fn = f → Live p → p.ptype ≠ .multipart)
    (hl' : ∀ q : Parser, q.fn = s' → q.ptype ≠ .multipart → Live q)
    (hx' : ∀ m, HX s' m) (nd' : s' ≠ .detect1) :
    SimOK env fut K (flat c.log) (detectByte c expect s' s') := by
  have hm := hl _ H.fn H.good.live
  have hmark : c.ctx.mark = c.ctx.idx := H.good.mark (by rw [H.fn]; exact hp)
  unfold detectByte
  refine sim_read ⟨H.good.live, by rw [H.fn]; exact hx _, by rw [H.fn]; exact nd⟩ (H.start hp)
    (by simp [Quiet, ha _ H.fn, hn, hf]) fun b hr hrr hK => ?_
  rw [ha _ H.fn] at hK
  have hb' := hb b
  unfold bLDet at hb'
  rw [adv_byte]
  refine sim_ite (fun h1 => ?_) (fun h1 => ?_)
  · rw [if_pos h1] at hb'
    have hK := pnext hK (hn _) hf hb'
    refine sim_transition ⟨hl' _ rfl hm, hx' _, nd'⟩ ?_
    rw [ha' _ rfl]
    simpa using hK
  rw [if_neg h1] at hb'
  refine sim_ite (fun h2 => ?_) (fun h2 => ?_)
  · rw [if_pos h2] at hb'
    have hK := pnext hK (hn _) hf hb'
    refine sim_transitionNoRemark rfl ⟨hm, trivial, nofun⟩ ?_
    rw [slice_adv hmark hr]
    exact hK
  · rw [if_neg h2] at hb'
    have hK := perr hK (hn _) hf hb'
    refine sim_err ?_
    rw [← hK, List.append_nil]
    rfl

/-- What starts like `HTTP/` is not hurt by forgetting. -/
theorem pred_ldet (tr : List Ev) (m : Bytes) (hc : Compat b!"TTP/" m) :
    pred env tr .det2 m = pred env tr .ldet2 m := by
  have nx : ∀ {pat m : Bytes} {b : UInt8} {s s' t t' : AS},
      (∀ m, Compat pat m → pred env tr s' m = pred env tr t' m) →
      Compat (b :: pat) m → bstep env s b = .next [] s' → bstep env t b = .next [] t' →
      norm env tr s = ([], s) → norm env tr t = ([], t) → s ≠ .fin → t ≠ .fin →
      pred env tr s m = pred env tr t m := by
    intro pat m b s s' t t' ih hc h1 h2 h3 h4 h5 h6
    cases m with
    | nil => simp [pred, h3, h4, h5, h6]
    | cons a m =>
      obtain ⟨rfl, hc'⟩ := compat_cons hc
      rw [pred_next h3 h5 h1, pred_next h4 h6 h2]
      simpa using ih m hc'
  refine nx (pat := b!"TP/") (fun m hc => ?_) hc rfl rfl rfl rfl nofun nofun
  refine nx (pat := b!"P/") (fun m hc => ?_) hc rfl rfl rfl rfl nofun nofun
  refine nx (pat := b!"/") (fun m hc => ?_) hc rfl rfl rfl rfl nofun nofun
  exact nx (pat := []) (fun m hc => rfl) hc rfl rfl rfl rfl nofun nofun

theorem sim_detect2 (H : Pre env fut K c .detect2) : SimOK env fut K (flat c.log) (detect2 c) :=
  sim_detectByte (sa := .ldet2) (sb := .ldet3) H rfl nofun (fun _ => trivial)
    (fun p hp => by simp [abs, hp]) (fun _ => rfl) (fun _ => rfl) nofun
    (fun p hp => by simp [abs, hp])
    (fun p h1 h2 => by simpa only [Live, h1] using h2)
    (fun p h1 h2 => by simpa only [Live, h1] using h2)
    (fun _ => trivial) nofun

theorem sim_detect3 (H : Pre env fut K c .detect3) : SimOK env fut K (flat c.log) (detect3 c) :=
  sim_detectByte (sa := .ldet3) (sb := .ldet4) H rfl nofun (fun _ => trivial)
    (fun p hp => by simp [abs, hp]) (fun _ => rfl) (fun _ => rfl) nofun
    (fun p hp => by simp [abs, hp])
    (fun p h1 h2 => by simpa only [Live, h1] using h2)
    (fun p h1 h2 => by simpa only [Live, h1] using h2)
    (fun _ => trivial) nofun

theorem sim_detect4 (H : Pre env fut K c .detect4) : SimOK env fut K (flat c.log) (detect4 c) :=
  sim_detectByte (sa := .ldet4) (sb := .ldet5) H rfl nofun (fun _ => trivial)
    (fun p hp => by simp [abs, hp]) (fun _ => rfl) (fun _ => rfl) nofun
    (fun p hp => by simp [abs, hp])
    (fun p h1 h2 => by simpa only [Live, h1] using h2)
    (fun p h1 h2 => by simpa only [Live, h1] using h2)
    (fun _ => trivial) nofun

theorem sim_detect5 (H : Pre env fut K c .detect5) : SimOK env fut K (flat c.log) (detect5 c) :=
  sim_detectByte (sa := .ldet5) (sb := .maj1 true) H rfl nofun (fun _ => trivial)
    (fun p hp => by simp [abs, hp]) (fun _ => rfl) (fun _ => rfl) nofun
    (fun p hp => by simp [abs, hp])
    (fun p h1 h2 => by simpa only [Live, h1] using h2)
    (fun p h1 h2 => by simpa only [Live, h1] using h2)
    (fun _ => trivial) nofun

theorem sim_strip_detect (H : Pre env fut K c .stripDetect) :
    SimOK env fut K (flat c.log) (strip_detect c) := by
  have hl := H.good.live
  simp only [Live, H.fn] at hl
  have hst := H.good.hok.start
  rw [H.fn] at hst
  have hact : ∀ b, (if isBlank b then Ctx.Act.cont else .brk) = .cont → isBlank b = true := by
    intro b h1; split at h1
    · assumption
    · cases h1
  unfold strip_detect
  refine sim_skip (s := .stripDetect) H.ok H.good.live (by rw [H.fn]; nofun) (by simp [abs, H.fn])
    (fun _ => rfl) nofun (by have := H.start rfl; simpa [abs, H.fn] using this) ?_ ?_ ?_ ?_ ?_
  · intro hall
    have hdw : ∀ l r : Bytes, (∀ b ∈ l, isBlank b = true) →
        (l ++ r).dropWhile isBlank = r.dropWhile isBlank := by
      intro l r hl
      induction l with
      | nil => rfl
      | cons a l ih =>
        simp [hl a (by simp)]
        exact ih fun b hb => hl b (by simp [hb])
    have hall' : ∀ b ∈ c.ctx.rest, isBlank b = true := fun b hb => hact b (hall b hb)
    rw [H.fn]
    rcases hst with h1 | ⟨-, h1⟩ | h1
    · simp only [HX] at h1 ⊢
      rw [hdw _ _ hall'] at h1
      exact h1
    · have := hdw c.ctx.rest [] hall'
      simp only [List.append_nil, List.dropWhile_nil] at this
      rw [this] at h1
      simp at h1
    · cases h1.1
  · intro b hb
    simp [bstep, hact b hb]
  · intro b; split <;> nofun
  · intro b; split <;> nofun
  · intro x d b post pre B hr h1 h2 hK
    have hnb : isBlank b = false := by
      cases hb : isBlank b
      · rfl
      · simp [hb] at h2
    have hdw : ∀ r : Bytes, (pre ++ b :: r).dropWhile isBlank = b :: r := by
      intro r
      clear hr
      induction pre with
      | nil => simp [hnb]
      | cons a l ih =>
        simp [hact a (h1 a (by simp))]
        exact ih fun b hb => h1 b (by simp [hb])
    refine sim_replay B.idx ?_
    refine ⟨⟨fun _ => rfl, hl, ?_, ?_⟩, ?_⟩
    · show HX .detect1 (x.replay.rest ++ fut) ∨ _ ∨ (_ ∧ 9 ≤ x.replay.rest.length)
      rw [B.restR]
      rw [hr] at hst
      rcases hst with h3 | ⟨-, h3⟩ | h3
      · left
        simp only [HX] at h3 ⊢
        rw [List.append_assoc, List.cons_append, hdw] at h3
        exact h3
      · right; right
        rw [hdw] at h3
        exact ⟨rfl, h3⟩
      · cases h3.1
    · intro _
      show x.replay.rest ≠ []
      rw [B.restR]; simp
    · show pred env (flat c.log ++ []) .detect1 (x.replay.rest ++ fut) = K
      rw [B.restR, ← hK]
      simp [pred, norm, bstep, hnb]

theorem pred_method (m : Bytes) (tr : List Ev) (r : Bytes) (hm : ∀ b ∈ m, isUpper b = true) :
    pred env tr .method (m ++ r) =
      pred env (tr ++ m.map fun b => .method [b]) .method r := by
  rw [pred_loop (s := .method) (ev := fun b => [.method [b]]) (fun _ => rfl) nofun _ _ _
    (fun b hb => by simp [bstep, bMethod, hm b hb])]
  congr 1
  simp [List.map_eq_flatMap]

theorem pred_detect1_other (b : UInt8) (hb : isUpper b = true) (hh : b ≠ c! 'H') (tr : List Ev)
    (r : Bytes) : pred env tr .detect1 (b :: r) = pred env (tr ++ [.method [b]]) .method r := by
  simp [pred, norm, bstep, bDetect1, hb, hh]

theorem pred_det_miss {s : AS} {buf : Bytes} {b : UInt8} {r : Bytes} {tr : List Ev}
    (hn : norm env tr s = ([], s)) (hf : s ≠ .fin)
    (hb : bstep env s b = (bMethod b).pre (flatEv (.method buf))) :
    pred env tr s (b :: r) = pred env (tr ++ flatEv (.method buf)) .method (b :: r) := by
  have h2 : bstep env .method b = bMethod b := rfl
  have hn2 : norm env (tr ++ flatEv (.method buf)) .method = ([], .method) := rfl
  simp only [pred, hn, hb, hn2, h2, if_neg hf, reduceCtorEq, ↓reduceIte, List.append_nil]
  cases hm : bMethod b with
  | next es s' => simp [BRes.pre]
  | err es e => simp [BRes.pre]
  | errB => simp only [bMethod] at hm; split at hm <;> [cases hm; split at hm <;> cases hm]
  | panic => simp only [bMethod] at hm; split at hm <;> [cases hm; split at hm <;> cases hm]

/-- A method that starts with `H`. -/
theorem pred_detect1_H (r : Bytes) (hlen : 4 ≤ r.length) (hn : ¬ b!"TTP/" <+: r) (tr : List Ev) :
    pred env tr .detect1 (c! 'H' :: r) = pred env (tr ++ [.method b!"H"]) .method r := by
  match r, hlen with
  | b1 :: b2 :: b3 :: b4 :: r, _ =>
    rw [pred_next (s1 := .detect1) (es0 := []) (es := []) (s' := .det2) rfl nofun rfl]
    by_cases e1 : b1 = c! 'T'
    · subst e1
      rw [pred_next (s1 := .det2) (es0 := []) (es := []) (s' := .det3) rfl nofun rfl]
      by_cases e2 : b2 = c! 'T'
      · subst e2
        rw [pred_next (s1 := .det3) (es0 := []) (es := []) (s' := .det4) rfl nofun rfl]
        by_cases e3 : b3 = c! 'P'
        · subst e3
          rw [pred_next (s1 := .det4) (es0 := []) (es := []) (s' := .det5) rfl nofun rfl]
          by_cases e4 : b4 = c! '/'
          · subst e4
            exact absurd ⟨r, rfl⟩ hn
          · rw [pred_det_miss (s := .det5) (buf := b!"HTTP") rfl nofun
              (by simp [bstep, bDet, e4])]
            rw [show (c! 'T' :: c! 'T' :: c! 'P' :: b4 :: r) = b!"TTP" ++ b4 :: r from rfl,
              pred_method _ _ _ (by decide)]
            simp [flatEv]
        · rw [pred_det_miss (s := .det4) (buf := b!"HTT") rfl nofun
              (by simp [bstep, bDet, e3])]
          rw [show (c! 'T' :: c! 'T' :: b3 :: b4 :: r) = b!"TT" ++ b3 :: b4 :: r from rfl,
            pred_method b!"TT" _ _ (by decide)]
          simp [flatEv]
      · rw [pred_det_miss (s := .det3) (buf := b!"HT") rfl nofun
              (by simp [bstep, bDet, e2])]
        rw [show (c! 'T' :: b2 :: b3 :: b4 :: r) = b!"T" ++ b2 :: b3 :: b4 :: r from rfl,
          pred_method b!"T" _ _ (by decide)]
        simp [flatEv]
    · rw [pred_det_miss (s := .det2) (buf := b!"H") rfl nofun
              (by simp [bstep, bDet, e1])]
      simp [flatEv]

/-- A whole method. -/
theorem pred_detect1_word (b : UInt8) (m : Bytes) (tr : List Ev) (r : Bytes)
    (hb : ∀ a ∈ b :: m, isUpper a = true)
    (hh : b ≠ c! 'H' ∨ (4 ≤ (m ++ c! ' ' :: r).length ∧ ¬ b!"TTP/" <+: m ++ c! ' ' :: r)) :
    pred env tr .detect1 ((b :: m) ++ c! ' ' :: r) =
      pred env (tr ++ flatEv (.method (b :: m))) .url1 r := by
  have h1 : pred env tr .detect1 ((b :: m) ++ c! ' ' :: r) =
      pred env (tr ++ [.method [b]]) .method (m ++ c! ' ' :: r) := by
    by_cases hbH : b = c! 'H'
    · subst hbH
      rcases hh with hh | hh
      · exact absurd rfl hh
      · exact pred_detect1_H _ hh.1 hh.2 tr
    · exact pred_detect1_other b (hb b (by simp)) hbH tr _
  rw [h1, pred_method _ _ _ (fun a ha => hb a (by simp [ha])),
    pred_next (s1 := .method) (es0 := []) (es := []) (s' := .url1) rfl nofun rfl]
  simp [flatEv]

theorem sim_detect1Method (H : Pre env fut K c .detect1) (hne : c.ctx.rest ≠ [])
    (hH : ∀ r, c.ctx.rest = c! 'H' :: r → 4 ≤ r.length ∧ ¬ b!"TTP/" <+: r ++ fut) :
    SimOK env fut K (flat c.log) (detect1Method h c) := by
  have hl := H.good.live
  simp only [Live, H.fn] at hl
  have hK := H.start rfl
  simp only [abs, H.fn] at hK
  have word : ∀ (m : Bytes) (n : Nat), c.ctx.startsWith (m ++ [c! ' ']) = true →
      n = m.length + 1 → m ≠ [] → (∀ a ∈ m, isUpper a = true) →
      SimOK env fut K (flat c.log) (callbackTransitionData h (jump c n) (.method m)
        .requestUrl1 .requestUrl1) := by
    intro m n hs hn hm hu
    have hr := rest_jump_prefix hs
    obtain ⟨b, m', rfl⟩ := List.exists_cons_of_ne_nil hm
    refine sim_callbackTransitionData ⟨hl, trivial, nofun⟩ ?_
    have hn' : n = ((b :: m') ++ [c! ' ']).length := by simp [hn]
    rw [hn']
    rw [hr, List.append_assoc, List.append_assoc, List.singleton_append,
      pred_detect1_word b m' _ _ hu] at hK
    · exact hK
    · by_cases hb : b = c! 'H'
      · right
        subst hb
        have := hH (m' ++ [c! ' '] ++ (c.ctx.jump ((c! 'H' :: m') ++ [c! ' ']).length).rest) (by
          rw [hr]; simp)
        rw [List.append_assoc, List.append_assoc, List.singleton_append] at this
        refine ⟨?_, this.2⟩
        have h4 := this.1
        simp only [List.length_append, List.length_cons] at h4 ⊢
        omega
      · exact .inl hb
  have slow : SimOK env fut K (flat c.log) (exitIfEos c <| next c fun c =>
      if isUpper c.ctx.byte then transitionNoRemark c .requestMethod .requestMethod
      else .err (.method c.ctx.byte) c) := by
    unfold exitIfEos
    rw [if_neg (by rw [avail_rest]; simpa using hne)]
    refine sim_next (by rw [avail_rest]; exact List.length_pos_iff.2 hne) fun b hr => ?_
    rw [hr, List.cons_append] at hK
    have hm : c.ctx.mark = c.ctx.idx := H.good.mark (by rw [H.fn]; rfl)
    refine sim_ite (fun hb => ?_) (fun hb => ?_) <;> simp only [adv_byte] at hb
    · refine sim_transitionNoRemark rfl ⟨hl, trivial, nofun⟩ ?_
      rw [slice_adv hm hr]
      by_cases hbH : b = c! 'H'
      · subst hbH
        have := hH _ hr
        rw [pred_detect1_H _ (by simp only [List.length_append]; omega) this.2] at hK
        exact hK
      · rw [pred_detect1_other b hb hbH] at hK
        exact hK
    · refine sim_err ?_
      have hbH : b ≠ c! 'H' := by rintro rfl; exact hb (by decide)
      rw [← hK]
      simp [pred, norm, bstep, bDetect1, hb, hbH]
  unfold detect1Method
  refine sim_ite (fun _ => ?_) (fun _ => slow)
  refine sim_ite (fun h1 => word _ _ h1 rfl nofun (by decide)) (fun _ => ?_)
  refine sim_ite (fun _ => ?_) (fun _ => ?_)
  · refine sim_ite (fun h1 => word _ _ h1 rfl nofun (by decide)) (fun _ => ?_)
    exact sim_ite (fun h1 => word _ _ h1 rfl nofun (by decide)) (fun _ => slow)
  refine sim_ite (fun h1 => word _ _ h1 rfl nofun (by decide)) (fun _ => ?_)
  refine sim_ite (fun h1 => word _ _ h1 rfl nofun (by decide)) (fun _ => ?_)
  refine sim_ite (fun h1 => word _ _ h1 rfl nofun (by decide)) (fun _ => ?_)
  refine sim_ite (fun h1 => word _ _ h1 rfl nofun (by decide)) (fun _ => ?_)
  refine sim_ite (fun h1 => word _ _ h1 rfl nofun (by decide)) (fun _ => ?_)
  exact sim_ite (fun h1 => word _ _ h1 rfl nofun (by decide)) (fun _ => slow)

theorem sim_detect1 (H : Pre env fut K c .detect1) : SimOK env fut K (flat c.log) (detect1 h c) := by
  have hl := H.good.live
  simp only [Live, H.fn] at hl
  have hK := H.start rfl
  simp only [abs, H.fn] at hK
  have hst := H.good.hok.start
  have hne := H.good.hok.avail H.fn
  rw [H.fn] at hst
  have fast : ∀ (lit : Bytes) (ma mi : Nat), c.ctx.startsWith lit = true → lit.length = 9 →
      (∀ tr r, pred env tr .detect1 (lit ++ r) = pred env (tr ++ [.version ma mi]) .code1 r) →
      SimOK env fut K (flat c.log) (callbackData h
        (setState (jump c 9) .responseStatusCode1 .responseStatusCode1) (.version ma mi) remark) := by
    intro lit ma mi hs hlen hp
    rw [rest_jump_prefix hs, List.append_assoc, hp, hlen] at hK
    exact sim_callbackData ⟨hl, trivial, nofun⟩ hK
  unfold detect1
  rw [if_neg (by rw [avail_rest]; simpa using hne)]
  refine sim_ite (fun hs => ?_) (fun hs => ?_)
  · refine sim_ite (fun h9 => ?_) (fun h9 => ?_)
    · refine sim_ite (fun h1 => ?_) (fun _ => ?_)
      · refine fast _ _ _ h1 rfl ?_
        intro tr r
        simp [pred, norm, bstep, bDetect1, bDet, bVerEnd, isDigit, dec, stopByte]
      refine sim_ite (fun h1 => ?_) (fun _ => ?_)
      · refine fast _ _ _ h1 rfl ?_
        intro tr r
        simp [pred, norm, bstep, bDetect1, bDet, bVerEnd, isDigit, dec, stopByte]
      refine sim_ite (fun h1 => ?_) (fun _ => ?_)
      · refine fast _ _ _ h1 rfl ?_
        intro tr r
        simp [pred, norm, bstep, bDetect1, bDet, bVerEnd, isDigit, dec, stopByte]
      refine sim_ite (fun h1 => ?_) (fun h1 => ?_)
      · rw [rest_jump_prefix h1] at hK
        refine sim_transition ⟨hl, trivial, nofun⟩ ?_
        simp [pred, norm, bstep, bDetect1, bDet] at hK
        exact hK
      · refine sim_detect1Method H hne ?_
        intro r hr
        simp only [Ctx.hasBytes, avail_rest, hr, List.length_cons, decide_eq_true_eq] at h9
        refine ⟨by omega, fun hp => h1 ?_⟩
        simp only [Ctx.startsWith, hr]
        rw [List.isPrefixOf_iff_prefix]
        refine List.cons_prefix_cons.2 ⟨rfl, ?_⟩
        obtain ⟨t, ht⟩ := hp
        have := congrArg (List.take 4) ht
        rw [List.take_append_of_le_length (l₁ := r) (by omega)] at this
        refine ⟨r.drop 4, ?_⟩
        conv_rhs => rw [← List.take_append_drop 4 r, ← this]
        simp
    · have h1 := rest_jump_prefix hs
      have hX : HX .detect1 (c.ctx.rest ++ fut) := by
        rcases hst with h | ⟨h, -⟩ | ⟨-, h⟩
        · exact h
        · cases h
        · simp [Ctx.hasBytes, avail_rest] at h9; omega
      rw [h1] at hX hK
      refine sim_transition ⟨hl, trivial, nofun⟩ ?_
      rcases hX with hX | hX
      · simp at hX
      · simp only [List.cons_append, List.nil_append] at hK hX
        rw [pred_next (s1 := .detect1) (es0 := []) (es := []) (s' := .det2) rfl nofun rfl,
          pred_ldet _ _ (compat_cons hX).2] at hK
        simp only [List.append_nil] at hK
        exact hK
  · refine sim_detect1Method H hne ?_
    intro r hr
    simp [Ctx.startsWith, hr] at hs

end Verif.Http1
