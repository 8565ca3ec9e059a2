import Verif.Http1.SimBase

/-!
# Simulation: single bytes, versions (helper lemmas)
-/

set_option linter.unusedSimpArgs false

namespace Verif.Http1

variable {env : Env} {fut : Bytes} {K : List Ev × Fin} {h : Handler} {c : Cfg}

theorem sim_request_http2 (H : Pre env fut K c .requestHttp2) : SimOK env fut K (flat c.log) (request_http2 c) := by
  unfold request_http2 expectVersion
  sim_read1
  simp only [bExpect] at hK
  sim_if <;> sim_leaf

theorem sim_request_http3 (H : Pre env fut K c .requestHttp3) : SimOK env fut K (flat c.log) (request_http3 c) := by
  unfold request_http3 expectVersion
  sim_read1
  simp only [bExpect] at hK
  sim_if <;> sim_leaf

theorem sim_request_http4 (H : Pre env fut K c .requestHttp4) : SimOK env fut K (flat c.log) (request_http4 c) := by
  unfold request_http4 expectVersion
  sim_read1
  simp only [bExpect] at hK
  sim_if <;> sim_leaf

theorem sim_request_http5 (H : Pre env fut K c .requestHttp5) : SimOK env fut K (flat c.log) (request_http5 c) := by
  unfold request_http5 expectVersion
  sim_read1
  simp only [bExpect] at hK
  sim_if <;> sim_leaf

theorem sim_request_version_period (H : Pre env fut K c .requestVersionPeriod) : SimOK env fut K (flat c.log) (request_version_period c) := by
  unfold request_version_period expectVersion
  sim_read1
  simp only [bExpect] at hK
  sim_if <;> sim_leaf

theorem sim_response_version_period (H : Pre env fut K c .responseVersionPeriod) : SimOK env fut K (flat c.log) (response_version_period c) := by
  unfold response_version_period expectVersion
  sim_read1
  simp only [bExpect] at hK
  sim_if <;> sim_leaf

theorem sim_initial_lf (H : Pre env fut K c .initialLf) : SimOK env fut K (flat c.log) (initial_lf c) := by
  unfold initial_lf expectCrlf
  sim_read1
  simp only [bExpect] at hK
  sim_if <;> sim_leaf

theorem sim_header_lf1 (H : Pre env fut K c .headerLf1) : SimOK env fut K (flat c.log) (header_lf1 c) := by
  unfold header_lf1 expectCrlf
  sim_read1
  simp only [bExpect] at hK
  sim_if <;> sim_leaf

theorem sim_header_lf2 (H : Pre env fut K c .headerLf2) : SimOK env fut K (flat c.log) (header_lf2 c) := by
  unfold header_lf2 expectCrlf
  sim_read1
  simp only [bExpect] at hK
  sim_if <;> sim_leaf

theorem sim_chunk_length_lf (H : Pre env fut K c .chunkLengthLf) : SimOK env fut K (flat c.log) (chunk_length_lf c) := by
  unfold chunk_length_lf expectCrlf
  sim_read1
  simp only [bExpect] at hK
  sim_if <;> sim_leaf

theorem sim_chunk_data_cr (H : Pre env fut K c .chunkDataCr) : SimOK env fut K (flat c.log) (chunk_data_cr c) := by
  unfold chunk_data_cr expectCrlf
  sim_read1
  simp only [bExpect] at hK
  sim_if <;> sim_leaf

theorem sim_chunk_data_lf (H : Pre env fut K c .chunkDataLf) : SimOK env fut K (flat c.log) (chunk_data_lf c) := by
  unfold chunk_data_lf expectCrlf
  sim_read1
  simp only [bExpect] at hK
  sim_if <;> sim_leaf

theorem sim_multipart_boundary_lf (H : Pre env fut K c .multipartBoundaryLf) : SimOK env fut K (flat c.log) (multipart_boundary_lf c) := by
  unfold multipart_boundary_lf expectBoundary
  sim_read1
  simp only [bExpect] at hK
  sim_if
  · refine sim_transition ⟨?_, trivial, nofun⟩ ?_
    · exact fun _ => hl
    · simpa [abs, setState] using hK
  · sim_leaf

theorem sim_multipart_data_by_length_cr (H : Pre env fut K c .multipartDataByLengthCr) : SimOK env fut K (flat c.log) (multipart_data_by_length_cr c) := by
  unfold multipart_data_by_length_cr expectBoundary
  sim_read1
  simp only [bExpect] at hK
  sim_if <;> sim_leaf

theorem sim_multipart_data_by_length_lf (H : Pre env fut K c .multipartDataByLengthLf) : SimOK env fut K (flat c.log) (multipart_data_by_length_lf c) := by
  unfold multipart_data_by_length_lf expectBoundary
  sim_read1
  simp only [bExpect] at hK
  sim_if
  · refine sim_transition ⟨?_, trivial, nofun⟩ ?_
    · exact hl.1
    · have : (getLower14 c.p != 0) = true := by simpa using hl.2
      have : abs (setState (adv c b) .multipartHyphen1 .multipartHyphen1).p = .hyphen1 true := by
        show AS.hyphen1 (getLower14 c.p != 0) = _
        rw [this]
      rw [this]; exact hK
  · sim_leaf

theorem sim_multipart_end (H : Pre env fut K c .multipartEnd) : SimOK env fut K (flat c.log) (multipart_end c) := by
  unfold multipart_end expectBoundary
  sim_read1
  simp only [bExpect] at hK
  sim_if <;> sim_leaf
theorem sim_request_url1 (H : Pre env fut K c .requestUrl1) : SimOK env fut K (flat c.log) (request_url1 c) := by
  unfold request_url1
  sim_read1
  sim_if
  · refine sim_transitionNoRemark rfl ⟨by live_tac, trivial, nofun⟩ ?_
    rw [slice_adv (H.good.mark (by rw [hfn]; rfl)) hr]
    exact hK
  · sim_leaf

theorem digitVal_ok : ∀ b : UInt8, isDigit b = true →
    (digitVal b).toNat = dec b ∧ dec b ≤ 9 := by
  apply forall_u8; decide +kernel

theorem mul10 {v d : UInt32} {k : Nat} (hv : v.toNat ≤ k) (hk : k ≤ 99) (hd : d.toNat ≤ 9) :
    (v * 10 + d).toNat = v.toNat * 10 + d.toNat := by
  rw [UInt32.toNat_add, UInt32.toNat_mul]
  simp only [show UInt32.toNat 10 = 10 from rfl]
  omega

theorem sim_versionMajor1 {f s' : St} (H : Pre env fut K c f) (hp : pendEv f = none)
    (hx : ∀ m, HX f m) (nd : f ≠ .detect1) (r : Bool) (ha : ∀ p : Parser, p.fn = f → abs p = .maj1 r)
    (hl : c.p.ptype ≠ .multipart)
    (hx' : ∀ m, HX s' m) (nd' : s' ≠ .detect1)
    (hlive : ∀ p : Parser, p.fn = s' → p.ptype ≠ .multipart → (getLower14 p).toNat ≤ 9 → Live p)
    (ha' : ∀ p : Parser, p.fn = s' → abs p = .maj2 r (getLower14 p).toNat) :
    SimOK env fut K (flat c.log) (versionMajor1 c s' s') := by
  unfold versionMajor1
  refine H.read hp hx nd (by simp [Quiet, ha _ H.fn, norm]) fun b hr hrr hK => ?_
  simp only [ha _ H.fn, pred, norm, bstep, reduceCtorEq, ↓reduceIte, List.append_nil] at hK
  refine sim_ite (fun hb => ?_) (fun hb => ?_)
  · have hb' : isDigit b = true := hb
    obtain ⟨h1, h2⟩ := digitVal_ok b hb'
    simp only [hb', ↓reduceIte, List.append_nil] at hK
    have hg : ∀ q, getLower14 (setLower14 q (digitVal b)) = digitVal b :=
      fun q => getLower14_setLower14 q (by omega)
    refine sim_transition ⟨?_, hx' _, nd'⟩ ?_
    · refine hlive _ rfl hl ?_
      show (getLower14 (setLower14 _ (digitVal b))).toNat ≤ 9
      rw [hg, h1]; exact h2
    · rw [ha' _ rfl]
      show pred env _ (.maj2 r (getLower14 (setLower14 _ (digitVal b))).toNat) _ = _
      rw [hg, h1]; exact hK
  · have hb' : ¬ isDigit b = true := hb
    simp only [hb', ↓reduceIte, List.append_nil, Bool.false_eq_true] at hK
    refine sim_err ?_
    simpa [withP] using hK.symm

theorem sim_versionMajorN {f mi s' : St} (H : Pre env fut K c f) (hp : pendEv f = none)
    (hx : ∀ m, HX f m) (nd : f ≠ .detect1) (r : Bool) (k k' : Nat) (hk : k ≤ 99)
    (hk' : k' = k * 10 + 9)
    (S S' : Nat → AS)
    (ha : ∀ p : Parser, p.fn = f → abs p = S (getLower14 p).toNat)
    (hS : ∀ v, S v ≠ .fin) (hn : ∀ tr v, norm env tr (S v) = ([], S v))
    (hb : ∀ v b, bstep env (S v) b = if b == c! '.' then .next [] (.min1 r v)
      else if isDigit b then .next [] (S' (v * 10 + dec b)) else .err [] (.version b))
    (hl : c.p.ptype ≠ .multipart) (hl2 : (getLower14 c.p).toNat ≤ k)
    (hx1 : ∀ m, HX mi m) (nd1 : mi ≠ .detect1)
    (hlive1 : ∀ p : Parser, p.fn = mi → p.ptype ≠ .multipart → Live p)
    (ha1 : ∀ p : Parser, p.fn = mi → abs p = .min1 r (getLower14 p).toNat)
    (hx' : ∀ m, HX s' m) (nd' : s' ≠ .detect1)
    (hlive : ∀ p : Parser, p.fn = s' → p.ptype ≠ .multipart → (getLower14 p).toNat ≤ k' → Live p)
    (ha' : ∀ p : Parser, p.fn = s' → abs p = S' (getLower14 p).toNat) :
    SimOK env fut K (flat c.log) (versionMajorN c mi mi s' s') := by
  unfold versionMajorN
  refine H.read hp hx nd (by simp [Quiet, ha _ H.fn, hn, hS]) fun b hr hrr hK => ?_
  simp only [ha _ H.fn, pred, hn, hS, hb, reduceCtorEq, ↓reduceIte, List.append_nil] at hK
  refine sim_ite (fun hb => ?_) (fun hb => ?_) <;> simp only [adv_byte] at hb <;>
    simp only [hb, ↓reduceIte, Bool.false_eq_true, List.append_nil] at hK
  · refine sim_transition ⟨hlive1 _ rfl hl, hx1 _, nd1⟩ ?_
    rw [ha1 _ rfl]; exact hK
  refine sim_ite (fun hb => ?_) (fun hb => ?_) <;> simp only [adv_byte] at hb <;>
    simp only [hb, ↓reduceIte, Bool.false_eq_true, List.append_nil] at hK
  · obtain ⟨h1, h2⟩ := digitVal_ok b hb
    have hm := mul10 (d := digitVal b) hl2 hk (by omega)
    have hg : getLower14 (setLower14 c.p (getLower14 c.p * 10 + digitVal b)) = _ :=
      getLower14_setLower14 c.p (by omega)
    refine sim_transition ⟨?_, hx' _, nd'⟩ ?_
    · refine hlive _ rfl hl ?_
      show (getLower14 (setLower14 c.p (getLower14 c.p * 10 + digitVal b))).toNat ≤ k'
      rw [hg, hm]; omega
    · rw [ha' _ rfl]
      show pred env _ (S' (getLower14 (setLower14 c.p (getLower14 c.p * 10 + digitVal b))).toNat) _ = _
      rw [hg, hm, h1]; exact hK
  · refine sim_err ?_
    simpa using hK.symm

theorem sim_versionMinor1 {f s' : St} (H : Pre env fut K c f) (hp : pendEv f = none)
    (hx : ∀ m, HX f m) (nd : f ≠ .detect1) (r : Bool)
    (ha : ∀ p : Parser, p.fn = f → abs p = .min1 r (getLower14 p).toNat)
    (hl : c.p.ptype ≠ .multipart)
    (hx' : ∀ m, HX s' m) (nd' : s' ≠ .detect1)
    (hlive : ∀ p : Parser, p.fn = s' → p.ptype ≠ .multipart → (getUpper14 p).toNat ≤ 9 → Live p)
    (ha' : ∀ p : Parser, p.fn = s' → abs p = .min2 r (getLower14 p).toNat (getUpper14 p).toNat) :
    SimOK env fut K (flat c.log) (versionMinor1 c s' s') := by
  unfold versionMinor1
  refine H.read hp hx nd (by simp [Quiet, ha _ H.fn, norm]) fun b hr hrr hK => ?_
  simp only [ha _ H.fn, pred, norm, bstep, reduceCtorEq, ↓reduceIte, List.append_nil] at hK
  refine sim_ite (fun hb => ?_) (fun hb => ?_) <;> simp only [adv_byte] at hb <;>
    simp only [hb, ↓reduceIte, Bool.false_eq_true, List.append_nil] at hK
  · obtain ⟨h1, h2⟩ := digitVal_ok b hb
    have hg : getUpper14 (setUpper14 c.p (digitVal b)) = digitVal b :=
      getUpper14_setUpper14 _ (by omega)
    have hg2 : getLower14 (setUpper14 c.p (digitVal b)) = getLower14 c.p :=
      getLower14_setUpper14 _ _
    refine sim_transition ⟨?_, hx' _, nd'⟩ ?_
    · refine hlive _ rfl hl ?_
      show (getUpper14 (setUpper14 c.p (digitVal b))).toNat ≤ 9
      rw [hg, h1]; exact h2
    · rw [ha' _ rfl]
      show pred env _ (.min2 r (getLower14 (setUpper14 c.p (digitVal b))).toNat
        (getUpper14 (setUpper14 c.p (digitVal b))).toNat) _ = _
      rw [hg, hg2, h1]; exact hK
  · refine sim_err ?_
    simpa using hK.symm

theorem sim_versionMinorN {f e s' : St} (H : Pre env fut K c f) (hp : pendEv f = none)
    (hx : ∀ m, HX f m) (nd : f ≠ .detect1) (r : Bool) (k k' : Nat) (hk : k ≤ 99)
    (hk' : k' = k * 10 + 9)
    (S S' : Nat → Nat → AS)
    (ha : ∀ p : Parser, p.fn = f → abs p = S (getLower14 p).toNat (getUpper14 p).toNat)
    (hS : ∀ v w, S v w ≠ .fin) (hn : ∀ tr v w, norm env tr (S v w) = ([], S v w))
    (hb : ∀ v w b, bstep env (S v w) b =
      if isDigit b then .next [] (S' v (w * 10 + dec b)) else bVerEnd r v w b)
    (hl : c.p.ptype ≠ .multipart) (hl2 : (getUpper14 c.p).toNat ≤ k)
    (hx1 : ∀ m, HX e m) (nd1 : e ≠ .detect1)
    (hlive1 : ∀ p : Parser, p.fn = e → p.ptype ≠ .multipart → Live p)
    (ha1 : ∀ p : Parser, p.fn = e → abs p = .verEnd r (getLower14 p).toNat (getUpper14 p).toNat)
    (hx' : ∀ m, HX s' m) (nd' : s' ≠ .detect1)
    (hlive : ∀ p : Parser, p.fn = s' → p.ptype ≠ .multipart → (getUpper14 p).toNat ≤ k' → Live p)
    (ha' : ∀ p : Parser, p.fn = s' → abs p = S' (getLower14 p).toNat (getUpper14 p).toNat) :
    SimOK env fut K (flat c.log) (versionMinorN c (stopByte r) e e s' s') := by
  unfold versionMinorN
  refine H.read hp hx nd (by simp [Quiet, ha _ H.fn, hn, hS]) fun b hr hrr hK => ?_
  simp only [ha _ H.fn, pred, hn, hS, hb, reduceCtorEq, ↓reduceIte, List.append_nil] at hK
  have hstop : isDigit (stopByte r) = false := by cases r <;> decide
  refine sim_ite (fun hb => ?_) (fun hb => ?_) <;> simp only [adv_byte] at hb
  · have hb' : b = stopByte r := by simpa using hb
    subst hb'
    simp only [hstop, Bool.false_eq_true, ↓reduceIte] at hK
    refine sim_replay (adv_idx _) (sim_transition ⟨hlive1 _ rfl hl, hx1 _, nd1⟩ ?_)
    rw [ha1 _ rfl]
    simp only [setState, hrr, List.cons_append, pred, norm, reduceCtorEq, ↓reduceIte, bstep]
    simp only [List.append_nil]
    exact hK
  refine sim_ite (fun hb => ?_) (fun hb => ?_) <;> simp only [adv_byte] at hb
  · simp only [hb, ↓reduceIte, Bool.false_eq_true, List.append_nil] at hK
    obtain ⟨h1, h2⟩ := digitVal_ok b hb
    have hm := mul10 (d := digitVal b) hl2 hk (by omega)
    have hg : getUpper14 (setUpper14 c.p (getUpper14 c.p * 10 + digitVal b)) = _ :=
      getUpper14_setUpper14 c.p (by omega)
    have hg2 : getLower14 (setUpper14 c.p (getUpper14 c.p * 10 + digitVal b)) = getLower14 c.p :=
      getLower14_setUpper14 _ _
    refine sim_transition ⟨?_, hx' _, nd'⟩ ?_
    · refine hlive _ rfl hl ?_
      show (getUpper14 (setUpper14 c.p (getUpper14 c.p * 10 + digitVal b))).toNat ≤ k'
      rw [hg, hm]; omega
    · rw [ha' _ rfl]
      show pred env _ (S' (getLower14 (setUpper14 c.p (getUpper14 c.p * 10 + digitVal b))).toNat
        (getUpper14 (setUpper14 c.p (getUpper14 c.p * 10 + digitVal b))).toNat) _ = _
      rw [hg, hg2, hm, h1]; exact hK
  · rename_i hb0
    simp only [hb, hb0, bVerEnd, ↓reduceIte, Bool.false_eq_true, List.append_nil] at hK
    refine sim_err ?_
    simpa using hK.symm

theorem lower_u16 (p : Parser) : (getLower14 p).toUInt16.toNat = (getLower14 p).toNat := by
  have := getLower14_lt p
  simp only [UInt32.toNat_toUInt16]; omega

theorem upper_u16 (p : Parser) : (getUpper14 p).toUInt16.toNat = (getUpper14 p).toNat := by
  have := getUpper14_lt p
  simp only [UInt32.toNat_toUInt16]; omega

theorem sim_request_version_major1 (H : Pre env fut K c .requestVersionMajor1) :
    SimOK env fut K (flat c.log) (request_version_major1 c) := by
  have hl := H.good.live
  simp only [Live, H.fn] at hl
  exact sim_versionMajor1 H rfl (fun _ => trivial) nofun false (fun p hp => by simp [abs, hp]) hl
    (fun _ => trivial) nofun (fun p h1 h2 h3 => by simp [Live, h1, h2, h3])
    (fun p hp => by simp [abs, hp])

theorem sim_response_version_major1 (H : Pre env fut K c .responseVersionMajor1) :
    SimOK env fut K (flat c.log) (response_version_major1 c) := by
  have hl := H.good.live
  simp only [Live, H.fn] at hl
  exact sim_versionMajor1 H rfl (fun _ => trivial) nofun true (fun p hp => by simp [abs, hp]) hl
    (fun _ => trivial) nofun (fun p h1 h2 h3 => by simp [Live, h1, h2, h3])
    (fun p hp => by simp [abs, hp])

theorem sim_request_version_major2 (H : Pre env fut K c .requestVersionMajor2) :
    SimOK env fut K (flat c.log) (request_version_major2 c) := by
  have hl := H.good.live
  simp only [Live, H.fn] at hl
  exact sim_versionMajorN H rfl (fun _ => trivial) nofun false 9 99 (by omega) rfl (.maj2 false)
    (.maj3 false) (fun p hp => by simp [abs, hp]) (fun _ => nofun) (fun _ _ => rfl)
    (fun _ _ => rfl) hl.1 hl.2
    (fun _ => trivial) nofun (fun p h1 h2 => by simp [Live, h1, h2])
    (fun p hp => by simp [abs, hp])
    (fun _ => trivial) nofun (fun p h1 h2 h3 => by simp [Live, h1, h2, h3])
    (fun p hp => by simp [abs, hp])

theorem sim_response_version_major2 (H : Pre env fut K c .responseVersionMajor2) :
    SimOK env fut K (flat c.log) (response_version_major2 c) := by
  have hl := H.good.live
  simp only [Live, H.fn] at hl
  exact sim_versionMajorN H rfl (fun _ => trivial) nofun true 9 99 (by omega) rfl (.maj2 true)
    (.maj3 true) (fun p hp => by simp [abs, hp]) (fun _ => nofun) (fun _ _ => rfl)
    (fun _ _ => rfl) hl.1 hl.2
    (fun _ => trivial) nofun (fun p h1 h2 => by simp [Live, h1, h2])
    (fun p hp => by simp [abs, hp])
    (fun _ => trivial) nofun (fun p h1 h2 h3 => by simp [Live, h1, h2, h3])
    (fun p hp => by simp [abs, hp])

theorem sim_request_version_major3 (H : Pre env fut K c .requestVersionMajor3) :
    SimOK env fut K (flat c.log) (request_version_major3 c) := by
  have hl := H.good.live
  simp only [Live, H.fn] at hl
  exact sim_versionMajorN H rfl (fun _ => trivial) nofun false 99 999 (by omega) rfl (.maj3 false)
    (.period false) (fun p hp => by simp [abs, hp]) (fun _ => nofun) (fun _ _ => rfl)
    (fun _ _ => rfl) hl.1 hl.2
    (fun _ => trivial) nofun (fun p h1 h2 => by simp [Live, h1, h2])
    (fun p hp => by simp [abs, hp])
    (fun _ => trivial) nofun (fun p h1 h2 h3 => by simp [Live, h1, h2])
    (fun p hp => by simp [abs, hp])

theorem sim_response_version_major3 (H : Pre env fut K c .responseVersionMajor3) :
    SimOK env fut K (flat c.log) (response_version_major3 c) := by
  have hl := H.good.live
  simp only [Live, H.fn] at hl
  exact sim_versionMajorN H rfl (fun _ => trivial) nofun true 99 999 (by omega) rfl (.maj3 true)
    (.period true) (fun p hp => by simp [abs, hp]) (fun _ => nofun) (fun _ _ => rfl)
    (fun _ _ => rfl) hl.1 hl.2
    (fun _ => trivial) nofun (fun p h1 h2 => by simp [Live, h1, h2])
    (fun p hp => by simp [abs, hp])
    (fun _ => trivial) nofun (fun p h1 h2 h3 => by simp [Live, h1, h2])
    (fun p hp => by simp [abs, hp])

theorem sim_request_version_minor1 (H : Pre env fut K c .requestVersionMinor1) :
    SimOK env fut K (flat c.log) (request_version_minor1 c) := by
  have hl := H.good.live
  simp only [Live, H.fn] at hl
  exact sim_versionMinor1 H rfl (fun _ => trivial) nofun false (fun p hp => by simp [abs, hp]) hl
    (fun _ => trivial) nofun (fun p h1 h2 h3 => by simp [Live, h1, h2, h3])
    (fun p hp => by simp [abs, hp])

theorem sim_response_version_minor1 (H : Pre env fut K c .responseVersionMinor1) :
    SimOK env fut K (flat c.log) (response_version_minor1 c) := by
  have hl := H.good.live
  simp only [Live, H.fn] at hl
  exact sim_versionMinor1 H rfl (fun _ => trivial) nofun true (fun p hp => by simp [abs, hp]) hl
    (fun _ => trivial) nofun (fun p h1 h2 h3 => by simp [Live, h1, h2, h3])
    (fun p hp => by simp [abs, hp])

theorem sim_request_version_minor2 (H : Pre env fut K c .requestVersionMinor2) :
    SimOK env fut K (flat c.log) (request_version_minor2 c) := by
  have hl := H.good.live
  simp only [Live, H.fn] at hl
  exact sim_versionMinorN H rfl (fun _ => trivial) nofun false 9 99 (by omega) rfl (.min2 false)
    (.min3 false) (fun p hp => by simp [abs, hp]) (fun _ _ => nofun) (fun _ _ _ => rfl)
    (fun _ _ _ => rfl) hl.1 hl.2
    (fun _ => trivial) nofun (fun p h1 h2 => by simp [Live, h1, h2])
    (fun p hp => by simp [abs, hp])
    (fun _ => trivial) nofun (fun p h1 h2 h3 => by simp [Live, h1, h2, h3])
    (fun p hp => by simp [abs, hp])

theorem sim_response_version_minor2 (H : Pre env fut K c .responseVersionMinor2) :
    SimOK env fut K (flat c.log) (response_version_minor2 c) := by
  have hl := H.good.live
  simp only [Live, H.fn] at hl
  exact sim_versionMinorN H rfl (fun _ => trivial) nofun true 9 99 (by omega) rfl (.min2 true)
    (.min3 true) (fun p hp => by simp [abs, hp]) (fun _ _ => nofun) (fun _ _ _ => rfl)
    (fun _ _ _ => rfl) hl.1 hl.2
    (fun _ => trivial) nofun (fun p h1 h2 => by simp [Live, h1, h2])
    (fun p hp => by simp [abs, hp])
    (fun _ => trivial) nofun (fun p h1 h2 h3 => by simp [Live, h1, h2, h3])
    (fun p hp => by simp [abs, hp])

theorem sim_request_version_minor3 (H : Pre env fut K c .requestVersionMinor3) :
    SimOK env fut K (flat c.log) (request_version_minor3 c) := by
  have hl := H.good.live
  simp only [Live, H.fn] at hl
  exact sim_versionMinorN H rfl (fun _ => trivial) nofun false 99 999 (by omega) rfl (.min3 false)
    (.verEnd false) (fun p hp => by simp [abs, hp]) (fun _ _ => nofun) (fun _ _ _ => rfl)
    (fun _ _ _ => rfl) hl.1 hl.2
    (fun _ => trivial) nofun (fun p h1 h2 => by simp [Live, h1, h2])
    (fun p hp => by simp [abs, hp])
    (fun _ => trivial) nofun (fun p h1 h2 h3 => by simp [Live, h1, h2])
    (fun p hp => by simp [abs, hp])

theorem sim_response_version_minor3 (H : Pre env fut K c .responseVersionMinor3) :
    SimOK env fut K (flat c.log) (response_version_minor3 c) := by
  have hl := H.good.live
  simp only [Live, H.fn] at hl
  exact sim_versionMinorN H rfl (fun _ => trivial) nofun true 99 999 (by omega) rfl (.min3 true)
    (.verEnd true) (fun p hp => by simp [abs, hp]) (fun _ _ => nofun) (fun _ _ _ => rfl)
    (fun _ _ _ => rfl) hl.1 hl.2
    (fun _ => trivial) nofun (fun p h1 h2 => by simp [Live, h1, h2])
    (fun p hp => by simp [abs, hp])
    (fun _ => trivial) nofun (fun p h1 h2 h3 => by simp [Live, h1, h2])
    (fun p hp => by simp [abs, hp])

theorem sim_request_version_cr (H : Pre env fut K c .requestVersionCr) :
    SimOK env fut K (flat c.log) (request_version_cr h c) := by
  unfold request_version_cr versionEnd
  sim_read1
  simp only [bVerEnd, stopByte, Bool.false_eq_true, ↓reduceIte] at hK
  sim_if
  · refine sim_callbackData ⟨by live_tac, trivial, nofun⟩ ?_
    simp only [adv_p, lower_u16, upper_u16]
    exact hK
  · sim_leaf

theorem sim_response_version_space (H : Pre env fut K c .responseVersionSpace) :
    SimOK env fut K (flat c.log) (response_version_space h c) := by
  unfold response_version_space versionEnd
  sim_read1
  simp only [bVerEnd, stopByte, ↓reduceIte] at hK
  sim_if
  · refine sim_callbackData ⟨by live_tac, trivial, nofun⟩ ?_
    simp only [adv_p, lower_u16, upper_u16]
    exact hK
  · sim_leaf

end Verif.Http1
