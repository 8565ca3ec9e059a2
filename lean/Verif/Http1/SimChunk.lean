import Verif.Http1.SimDetect
import Mathlib.Tactic.Linarith

/-!
# Simulation: chunked bodies and data of known length (helper lemmas)
-/

set_option linter.unusedSimpArgs false

namespace Verif.Http1

variable {env : Env} {fut : Bytes} {K : List Ev × Fin} {h : Handler} {c : Cfg}

theorem sim_chunk_length1 (H : Pre env fut K c .chunkLength1) :
    SimOK env fut K (flat c.log) (chunk_length1 h c) := by
  unfold chunk_length1
  sim_read1
  sim_if
  · refine sim_callbackData ⟨hl.1, trivial, nofun⟩ ?_
    show pred env _ (.sizeEnd c.p.length) _ = _
    rw [hl.2]; exact hK
  sim_if
  · exact sim_callbackData ⟨hl.1, trivial, nofun⟩ hK
  · sim_leaf

theorem hexToByte_lt : ∀ b : UInt8, isHex b = true → (hexToByte b).toNat < 16 := by
  apply forall_u8; decide +kernel

theorem hex_push (n : Nat) (b : UInt8) (hb : isHex b = true) :
    (n <<< 4) ||| (hexToByte b).toNat = n * 16 + (hexToByte b).toNat := by
  rw [← Nat.shiftLeft_add_eq_or_of_lt (by simpa using hexToByte_lt b hb), Nat.shiftLeft_eq]

theorem sim_chunkLengthN {f s : St} {k : Nat} (H : Pre env fut K c f) (hp : pendEv f = none)
    (hx : ∀ m, HX f m) (nd : f ≠ .detect1)
    (ha : ∀ p : Parser, p.fn = f → abs p = .size k p.length)
    (hl : ∀ p : Parser, p.fn = f → Live p → p.ptype ≠ .multipart)
    (ha' : ∀ p : Parser, p.fn = s → abs p = sizeNext (k - 1) p.length)
    (hl' : ∀ p : Parser, p.fn = s → p.ptype ≠ .multipart → Live p)
    (hx' : ∀ m, HX s m) (nd' : s ≠ .detect1) :
    SimOK env fut K (flat c.log) (chunkLengthN c s s) := by
  have hlive := hl _ H.fn H.good.live
  unfold chunkLengthN
  refine H.read hp hx nd (by rw [ha _ H.fn]; simp [Quiet, norm]) fun b hr hrr hK => ?_
  rw [ha _ H.fn] at hK
  have hK0 := hK
  simp only [pred, norm, bstep, reduceCtorEq, ↓reduceIte, List.append_nil] at hK
  sim_if
  · refine sim_transition ⟨hl' _ rfl hlive, hx' _, nd'⟩ ?_
    rw [ha' _ rfl]
    show pred env _ (sizeNext (k - 1) ((c.p.length <<< 4) ||| (hexToByte b).toNat)) _ = _
    rw [hex_push _ _ hb]
    exact hK
  · refine sim_replay (adv_idx _) (sim_transition ⟨hlive, trivial, nofun⟩ ?_)
    show pred env _ (.sizeEnd c.p.length) ((adv c b).ctx.replay.rest ++ fut) = _
    rw [hrr]
    simp only [List.cons_append, pred, norm, bstep, reduceCtorEq, ↓reduceIte, List.append_nil]
    exact hK

theorem sim_chunk_length2 (H : Pre env fut K c .chunkLength2) :
    SimOK env fut K (flat c.log) (chunk_length2 c) :=
  sim_chunkLengthN (k := 7) H rfl (fun _ => trivial) nofun (fun p hp => by simp [abs, hp])
    (fun p hp => by simp [Live, hp]) (fun p hp => by simp [abs, hp, sizeNext])
    (fun p hp => by simp [Live, hp]) (fun _ => trivial) nofun
theorem sim_chunk_length3 (H : Pre env fut K c .chunkLength3) :
    SimOK env fut K (flat c.log) (chunk_length3 c) :=
  sim_chunkLengthN (k := 6) H rfl (fun _ => trivial) nofun (fun p hp => by simp [abs, hp])
    (fun p hp => by simp [Live, hp]) (fun p hp => by simp [abs, hp, sizeNext])
    (fun p hp => by simp [Live, hp]) (fun _ => trivial) nofun
theorem sim_chunk_length4 (H : Pre env fut K c .chunkLength4) :
    SimOK env fut K (flat c.log) (chunk_length4 c) :=
  sim_chunkLengthN (k := 5) H rfl (fun _ => trivial) nofun (fun p hp => by simp [abs, hp])
    (fun p hp => by simp [Live, hp]) (fun p hp => by simp [abs, hp, sizeNext])
    (fun p hp => by simp [Live, hp]) (fun _ => trivial) nofun
theorem sim_chunk_length5 (H : Pre env fut K c .chunkLength5) :
    SimOK env fut K (flat c.log) (chunk_length5 c) :=
  sim_chunkLengthN (k := 4) H rfl (fun _ => trivial) nofun (fun p hp => by simp [abs, hp])
    (fun p hp => by simp [Live, hp]) (fun p hp => by simp [abs, hp, sizeNext])
    (fun p hp => by simp [Live, hp]) (fun _ => trivial) nofun
theorem sim_chunk_length6 (H : Pre env fut K c .chunkLength6) :
    SimOK env fut K (flat c.log) (chunk_length6 c) :=
  sim_chunkLengthN (k := 3) H rfl (fun _ => trivial) nofun (fun p hp => by simp [abs, hp])
    (fun p hp => by simp [Live, hp]) (fun p hp => by simp [abs, hp, sizeNext])
    (fun p hp => by simp [Live, hp]) (fun _ => trivial) nofun
theorem sim_chunk_length7 (H : Pre env fut K c .chunkLength7) :
    SimOK env fut K (flat c.log) (chunk_length7 c) :=
  sim_chunkLengthN (k := 2) H rfl (fun _ => trivial) nofun (fun p hp => by simp [abs, hp])
    (fun p hp => by simp [Live, hp]) (fun p hp => by simp [abs, hp, sizeNext])
    (fun p hp => by simp [Live, hp]) (fun _ => trivial) nofun
theorem sim_chunk_length8 (H : Pre env fut K c .chunkLength8) :
    SimOK env fut K (flat c.log) (chunk_length8 c) :=
  sim_chunkLengthN (k := 1) H rfl (fun _ => trivial) nofun (fun p hp => by simp [abs, hp])
    (fun p hp => by simp [Live, hp]) (fun p hp => by simp [abs, hp, sizeNext])
    (fun p hp => by simp [Live, hp]) (fun _ => trivial) nofun

theorem sim_chunk_length_cr (H : Pre env fut K c .chunkLengthCr) :
    SimOK env fut K (flat c.log) (chunk_length_cr h c) := by
  unfold chunk_length_cr
  sim_read1
  simp only [bSizeEnd] at hK
  sim_if
  · refine sim_ite (fun h0 => ?_) (fun h0 => ?_) <;> simp only [adv_p] at h0
    · simp only [h0, ↓reduceIte] at hK
      refine sim_callbackTransitionData ⟨fun h' => absurd h' hl, trivial, nofun⟩ ?_
      rw [adv_p, h0]; exact hK
    · simp only [h0, ↓reduceIte] at hK
      exact sim_callbackTransitionData ⟨hl, trivial, nofun⟩ hK
  sim_if
  · exact sim_callbackTransitionData ⟨hl, trivial, nofun⟩ hK
  · sim_leaf

/-! ## Chunk extensions -/

theorem extName_facts : ∀ b : UInt8,
    (isUpper b = true → isToken b = some true ∧ b ≠ c! '=' ∧ b ≠ c! '\r' ∧ b ≠ c! ';') ∧
    (isToken b = some true → b ≠ c! '=' ∧ b ≠ c! '\r' ∧ b ≠ c! ';') := by
  apply forall_u8; decide +kernel

theorem bExtName_up (v : Nat) {b : UInt8} (hu : isUpper b = true) :
    bExtName v b = .next [.chunkExtensionName [b + 0x20]] (.extName v) := by
  simp [bExtName, (extName_facts b).1 hu |>.1, hu]

theorem visible_token : ∀ b : UInt8, isVisible7bit b = true → isToken b ≠ none := by
  apply forall_u8; decide +kernel

theorem visible_field : ∀ b : UInt8, isVisible7bit b = true → isHeaderField b ≠ none := by
  apply forall_u8; decide +kernel

theorem bExtName_cases (v : Nat) (b : UInt8) :
    bExtName v b ≠ .errB ∧ (isToken b ≠ none → bExtName v b ≠ .panic) := by
  unfold bExtName
  cases isToken b with
  | none => simp
  | some t =>
    simp only
    constructor
    · intro h
      repeat' (split at h <;> try cases h)
    · intro _ h
      repeat' (split at h <;> try cases h)

theorem bExtVal_cases (v : Nat) (b : UInt8) :
    bExtVal v b ≠ .errB ∧ (isHeaderField b ≠ none → bExtVal v b ≠ .panic) := by
  unfold bExtVal
  cases isHeaderField b with
  | none => simp
  | some t =>
    simp only
    constructor
    · intro h
      repeat' (split at h <;> try cases h)
    · intro _ h
      repeat' (split at h <;> try cases h)

theorem sim_strip_chunk_extension_name (H : Pre env fut K c .stripChunkExtensionName) :
    SimOK env fut K (flat c.log) (strip_chunk_extension_name c) := by
  have hl := H.good.live
  simp only [Live, H.fn] at hl
  unfold strip_chunk_extension_name
  refine H.strip (s := .extStrip c.p.length) (item := bExtName c.p.length)
    (e := .chunkExtensionName) rfl (fun _ => trivial) nofun
    (by simp [abs, H.fn]) (fun _ => rfl) nofun (fun _ => rfl) ?_
  intro x d b post B h1 h2 h3 h4
  refine sim_ite (fun hv => ?_) (fun hv => ?_) <;> rw [if_byte B] at hv
  · refine brk_transition B hl (fun _ => trivial) nofun ?_
    simp only [setState, abs, pred, norm, reduceCtorEq, ↓reduceIte, bstep, List.append_nil]
    cases hi : bExtName c.p.length b with
    | next es s' => exact h1 _ _ hv hi
    | err es e => exact h2 _ _ hv hi
    | panic => exact absurd hi ((bExtName_cases _ b).2 (visible_token b hv))
    | errB => exact absurd hi (bExtName_cases _ b).1
  · rw [if_byte B]
    exact brk_err0 B (h4 (by simpa using hv))

theorem sim_strip_chunk_extension_value (H : Pre env fut K c .stripChunkExtensionValue) :
    SimOK env fut K (flat c.log) (strip_chunk_extension_value c) := by
  have hl := H.good.live
  simp only [Live, H.fn] at hl
  unfold strip_chunk_extension_value
  refine H.strip (s := .extVStrip c.p.length) (item := bExtVal c.p.length)
    (e := .chunkExtensionValue) rfl (fun _ => trivial) nofun
    (by simp [abs, H.fn]) (fun _ => rfl) nofun (fun _ => rfl) ?_
  intro x d b post B h1 h2 h3 h4
  refine sim_ite (fun hv => ?_) (fun hv => ?_) <;> rw [if_byte B] at hv
  · refine brk_transition B hl (fun _ => trivial) nofun ?_
    simp only [setState, abs, pred, norm, reduceCtorEq, ↓reduceIte, bstep, List.append_nil]
    cases hi : bExtVal c.p.length b with
    | next es s' => exact h1 _ _ hv hi
    | err es e => exact h2 _ _ hv hi
    | panic => exact absurd hi ((bExtVal_cases _ b).2 (visible_field b hv))
    | errB => exact absurd hi (bExtVal_cases _ b).1
  · rw [if_byte B]
    exact brk_err0 B (h4 (by simpa using hv))

theorem sim_upper_chunk_extension_name (H : Pre env fut K c .upperChunkExtensionName) :
    SimOK env fut K (flat c.log) (upper_chunk_extension_name h c) := by
  unfold upper_chunk_extension_name
  sim_read1
  refine sim_ite (fun hb => ?_) (fun hb => ?_) <;> simp only [adv_byte] at hb
  · rw [bExtName_up _ hb] at hK
    exact sim_callbackTransitionData ⟨hl, trivial, nofun⟩ hK
  · refine sim_replay (adv_idx _) (sim_transition ⟨hl, trivial, nofun⟩ ?_)
    simp only [setState, hrr, List.cons_append, abs]
    simp only [abs, hfn] at hK0
    exact hK0

/-- The extra state after a finished extension. -/
theorem pred_extFin (tr : List Ev) (v : Nat) (b : UInt8) (r : Bytes) (s : AS)
    (hs : s = if b == c! '\r' then .extsFin v else .extStrip v) :
    pred env tr (.extFin v) (b :: r) = pred env (tr ++ [.chunkExtensionFinished]) s r := by
  simp [pred, norm, bstep, hs]

theorem sim_lower_chunk_extension_name (H : Pre env fut K c .lowerChunkExtensionName) :
    SimOK env fut K (flat c.log) (lower_chunk_extension_name h c) := by
  have hl := H.good.live
  simp only [Live, H.fn] at hl
  unfold lower_chunk_extension_name Ctx.collectTokens
  refine H.collect (s := .extName c.p.length) (mk := .chunkExtensionName) (.inr rfl)
    (fun _ => trivial) nofun (by simp [abs, H.fn]) (fun _ => rfl) nofun isMk_chunkExtensionName ?_ ?_
  · intro b
    unfold Ctx.classAct
    cases ht : isToken b with
    | none => simp [bstep, bExtName, ht]
    | some t =>
      cases t with
      | false => trivial
      | true =>
        cases hu : isUpper b with
        | true => trivial
        | false => simp [bstep, bExtName, ht, hu]
  · intro x d b post B hb hK
    have hb := classAct_brk hb
    have fin : (b = c! '\r' ∨ b = c! ';') → isUpper b = false → isToken b = some false →
        pred env (flat c.log ++ d.map fun b => .chunkExtensionName [b]) (.extFin c.p.length)
          (b :: (post ++ fut)) = K := by
      intro hc hu ht
      rw [pred_extFin _ _ _ _ _ rfl, ← hK]
      rcases hc with rfl | rfl <;> simp [pred, norm, bstep, bExtName, ht, hu]
    refine sim_ite (fun hc => ?_) (fun hc => ?_) <;> rw [if_byte B] at hc <;>
      simp only [beq_iff_eq] at hc
    · subst hc
      have hK := pnext hK rfl nofun rfl
      simp only [List.append_nil] at hK
      exact brk_ignore B isMk_chunkExtensionName hl (fun _ => trivial) nofun hK
    refine sim_ite (fun hc' => ?_) (fun hc' => ?_) <;> rw [if_byte B] at hc' <;>
      simp only [beq_iff_eq, Bool.or_eq_true] at hc'
    · refine brk_replay B isMk_chunkExtensionName hl (fun _ => trivial) nofun ?_
      refine fin hc' ?_ ?_ <;> rcases hc' with rfl | rfl <;> rfl
    refine sim_ite (fun hu => ?_) (fun hu => ?_) <;> rw [if_byte B] at hu
    · exact brk_replay B isMk_chunkExtensionName hl (fun _ => trivial) nofun hK
    · simp only [Bool.not_eq_true] at hu
      have ht : isToken b = some false := by
        rcases hb with hb | hb
        · rw [hb.2] at hu; cases hu
        · exact hb
      rw [not_or] at hc'
      have hK := perr (es := []) (e := .chunkExtensionName b) hK rfl nofun (by
        simp [bstep, bExtName, ht, hu, hc, hc'])
      simp only [List.append_nil] at hK
      rw [if_byte B]; exact brk_err B isMk_chunkExtensionName hK

theorem sim_chunk_extension_value (H : Pre env fut K c .chunkExtensionValue) :
    SimOK env fut K (flat c.log) (chunk_extension_value h c) := by
  have hl := H.good.live
  simp only [Live, H.fn] at hl
  unfold chunk_extension_value Ctx.collectField
  refine H.collect (s := .extVal c.p.length) (mk := .chunkExtensionValue) (.inr rfl)
    (fun _ => trivial) nofun (by simp [abs, H.fn]) (fun _ => rfl) nofun isMk_chunkExtensionValue ?_ ?_
  · intro b
    unfold Ctx.classAct
    cases ht : isHeaderField b with
    | none => simp [bstep, bExtVal, ht]
    | some t =>
      cases t with
      | false => trivial
      | true =>
        cases hu : (b == c! ';') with
        | true => simp only [hu, ↓reduceIte]
        | false => simp only [beq_eq_false_iff_ne] at hu; simp [bstep, bExtVal, ht, hu]
  · intro x d b post B hb hK
    have hb := classAct_brk hb
    refine sim_ite (fun hc' => ?_) (fun hc' => ?_) <;> rw [if_byte B] at hc' <;>
      simp only [beq_iff_eq, Bool.or_eq_true] at hc'
    · refine brk_replay B isMk_chunkExtensionValue hl (fun _ => trivial) nofun ?_
      show pred env _ (.extFin c.p.length) _ = _
      rw [pred_extFin _ _ _ _ _ rfl, ← hK]
      rcases hc' with rfl | rfl <;>
        simp [pred, norm, bstep, bExtVal, show isHeaderField (c! ';') = some true from rfl,
          show isHeaderField (c! '\r') = some false from rfl]
    rw [not_or] at hc'
    have ht : isHeaderField b = some false := by
      rcases hb with hb | hb
      · exact absurd (beq_iff_eq.1 hb.2) hc'.2
      · exact hb
    refine sim_ite (fun hc => ?_) (fun hc => ?_) <;> rw [if_byte B] at hc <;>
      simp only [beq_iff_eq] at hc
    · subst hc
      have hK := pnext hK rfl nofun rfl
      simp only [List.append_nil] at hK
      exact brk_ignore B isMk_chunkExtensionValue hl (fun _ => trivial) nofun hK
    · have hK := perr (es := []) (e := .chunkExtensionValue b) hK rfl nofun (by
        simp [bstep, bExtVal, ht, hc, hc'])
      simp only [List.append_nil] at hK
      rw [if_byte B]; exact brk_err B isMk_chunkExtensionValue hK

theorem sim_chunk_extension_quoted_value (H : Pre env fut K c .chunkExtensionQuotedValue) :
    SimOK env fut K (flat c.log) (chunk_extension_quoted_value h c) := by
  have hl := H.good.live
  simp only [Live, H.fn] at hl
  unfold chunk_extension_quoted_value Ctx.collectQuotedField
  refine H.collect (s := .extQuot c.p.length) (mk := .chunkExtensionValue) (.inr rfl)
    (fun _ => trivial) nofun (by simp [abs, H.fn]) (fun _ => rfl) nofun isMk_chunkExtensionValue ?_ ?_
  · intro b
    unfold Ctx.classAct
    cases ht : isQuotedHeaderField b with
    | none => simp [bstep, bExtQuot, ht]
    | some t =>
      cases t with
      | false => trivial
      | true => simp [bstep, bExtQuot, ht]
  · intro x d b post B hb hK
    have ht : isQuotedHeaderField b = some false := by
      rcases classAct_brk hb with hb | hb
      · cases hb.2
      · exact hb
    refine sim_ite (fun hc => ?_) (fun hc => ?_) <;> rw [if_byte B] at hc <;>
      simp only [beq_iff_eq] at hc
    · subst hc
      have hK := pnext hK rfl nofun rfl
      simp only [List.append_nil] at hK
      exact brk_ignore B isMk_chunkExtensionValue hl (fun _ => trivial) nofun hK
    refine sim_ite (fun hc' => ?_) (fun hc' => ?_) <;> rw [if_byte B] at hc' <;>
      simp only [beq_iff_eq] at hc'
    · subst hc'
      have hK := pnext hK rfl nofun rfl
      simp only [List.append_nil] at hK
      exact brk_ignore B isMk_chunkExtensionValue hl (fun _ => trivial) nofun hK
    · have hK := perr (es := []) (e := .chunkExtensionValue b) hK rfl nofun (by
        simp [bstep, bExtQuot, ht, hc, hc'])
      simp only [List.append_nil] at hK
      rw [if_byte B]; exact brk_err B isMk_chunkExtensionValue hK

theorem sim_chunk_extension_escaped_value (H : Pre env fut K c .chunkExtensionEscapedValue) :
    SimOK env fut K (flat c.log) (chunk_extension_escaped_value h c) := by
  unfold chunk_extension_escaped_value
  sim_read1
  sim_if
  · exact sim_callbackTransitionData ⟨hl, trivial, nofun⟩ hK
  · sim_leaf

theorem sim_chunk_extension_finished (H : Pre env fut K c .chunkExtensionFinished) :
    SimOK env fut K (flat c.log) (chunk_extension_finished h c) := by
  unfold chunk_extension_finished
  sim_read1
  simp only [adv_byte]
  by_cases hb : (b == c! '\r') = true
  · simp only [hb, ↓reduceIte] at hK ⊢
    exact sim_callbackData ⟨hl, trivial, nofun⟩ hK
  · simp only [hb, ↓reduceIte] at hK ⊢
    exact sim_callbackData ⟨hl, trivial, nofun⟩ hK

theorem sim_chunk_extensions_finished (H : Pre env fut K c .chunkExtensionsFinished) :
    SimOK env fut K (flat c.log) (chunk_extensions_finished h c) := by
  have hl := H.good.live
  simp only [Live, H.fn] at hl
  have hK := H.start rfl
  simp only [abs, H.fn] at hK
  unfold chunk_extensions_finished
  refine sim_callbackData ⟨hl, trivial, nofun⟩ ?_
  rw [pred_eps (es := [.chunkExtensionsFinished]) (s1 := .sizeLf c.p.length) rfl rfl] at hK
  exact hK

/-! ## Data of known length -/

/-- A counting state reads `d`. -/
theorem pred_count {S : Nat → AS} {T : AS} {mk : Bytes → Ev}
    (hn : ∀ n tr, norm env tr (S n) = ([], if n = 0 then T else S n))
    (hf : ∀ n, S n ≠ .fin)
    (hb : ∀ n b, bstep env (S n) b = .next [mk [b]] (S (n - 1))) :
    ∀ (d : Bytes) (n : Nat) (tr : List Ev) (r : Bytes), d.length ≤ n →
    pred env tr (S n) (d ++ r) = pred env (tr ++ d.map fun b => mk [b]) (S (n - d.length)) r
  | [], n, tr, r, _ => by simp
  | b :: d, n, tr, r, hd => by
    simp only [List.length_cons] at hd
    have hn' : n ≠ 0 := by omega
    rw [List.cons_append, pred_next (s1 := S n) (es0 := []) (es := [mk [b]]) (s' := S (n - 1))
      (by rw [hn, if_neg hn']) (hf n) (hb n b),
      pred_count hn hf hb d (n - 1) _ r (by omega)]
    simp only [List.append_nil, List.map_cons, List.length_cons, List.append_assoc,
      List.singleton_append]
    rw [show n - 1 - d.length = n - (d.length + 1) by omega]

theorem sim_collectLength {f t : St} {S : Nat → AS} {T : AS} {mk : Bytes → Ev}
    (H : Pre env fut K c f) (hp : pendEv f = none) (hmk : IsMk mk)
    (hx : ∀ m, HX f m) (nd : f ≠ .detect1)
    (hn : ∀ n tr, norm env tr (S n) = ([], if n = 0 then T else S n))
    (hf : ∀ n, S n ≠ .fin) (hT : T ≠ .fin) (hnT : ∀ tr, norm env tr T = ([], T))
    (hb : ∀ n b, bstep env (S n) b = .next [mk [b]] (S (n - 1)))
    (ha : ∀ p : Parser, p.fn = f → abs p = S p.length)
    (ht : ∀ p : Parser, p.fn = t → abs p = T)
    (hx' : ∀ m, HX t m) (nd' : t ≠ .detect1)
    (hl1 : Live { c.p with length := 0, state := t, fn := t })
    (hl2 : ∀ n, Live { c.p with length := n, state := f, fn := f }) :
    SimOK env fut K (flat c.log) (collectLength h c mk t t f f) := by
  have hK := H.start hp
  have hm : c.ctx.mark = c.ctx.idx := H.good.mark (by rw [H.fn]; exact hp)
  have hi := H.ok.idx_le
  rw [ha _ H.fn] at hK
  unfold collectLength exitIfEos
  refine sim_ite (fun h0 => ?_) (fun h0 => ?_)
  · refine sim_exitEos (H.goodX hx nd) (by rw [ha _ H.fn]; exact hK) ?_
    rw [ha _ H.fn]
    refine ⟨by rw [hn], ?_⟩
    rw [hn]
    by_cases h0 : c.p.length = 0 <;> simp [h0, hT, hf]
  have slice : ∀ n, n ≤ c.ctx.available → (c.ctx.jump n).slice = c.ctx.rest.take n := by
    intro n _
    simp [Ctx.slice, Ctx.jump, Ctx.rest, hm]
  have ok : ∀ n, n ≤ c.ctx.available → CtxOK (c.ctx.jump n) := by
    intro n hn
    simp only [Ctx.available] at hn
    exact ⟨by simp only [Ctx.jump]; omega, by simp only [Ctx.jump]; omega⟩
  refine sim_ite (fun h1 => ?_) (fun h1 => ?_)
  · refine sim_callbackTransition hmk (ok _ h1) ⟨hl1, hx' _, nd'⟩ ?_
    rw [ht _ rfl]
    show pred env (flat c.log ++ List.map _ (c.ctx.jump c.p.length).slice) T
      ((c.ctx.jump c.p.length).rest ++ fut) = K
    rw [slice _ h1, rest_jump, ← hK]
    have hlen : (c.ctx.rest.take c.p.length).length = c.p.length := by
      rw [List.length_take, ← avail_rest]; omega
    conv_rhs => rw [← List.take_append_drop c.p.length c.ctx.rest, List.append_assoc]
    rw [pred_count hn hf hb _ _ _ _ (by omega), hlen, Nat.sub_self]
    have := hn 0
    simp only [↓reduceIte] at this
    rw [pred_eps (s := S 0) (es := []) (s1 := T) (this _) (hnT _), List.append_nil]
  · have h1' : c.ctx.available ≤ c.p.length := by omega
    refine sim_callbackTransition hmk (ok _ (Nat.le_refl _)) ⟨hl2 _, hx _, nd⟩ ?_
    rw [ha _ rfl]
    show pred env (flat c.log ++ List.map _ (c.ctx.jump c.ctx.available).slice)
      (S (c.p.length - c.ctx.available)) ((c.ctx.jump c.ctx.available).rest ++ fut) = K
    rw [slice _ (Nat.le_refl _), rest_jump, avail_rest, List.take_length, List.drop_length, ← hK,
      List.nil_append]
    rw [pred_count hn hf hb _ _ _ _ (by rw [← avail_rest]; exact h1')]

theorem sim_chunk_data (H : Pre env fut K c .chunkData) :
    SimOK env fut K (flat c.log) (chunk_data h c) := by
  have hl := H.good.live
  simp only [Live, H.fn] at hl
  exact sim_collectLength (S := .data) (T := .dataCr) H rfl isMk_chunkData (fun _ => trivial) nofun
    (fun _ _ => rfl) (fun _ => nofun) nofun (fun _ => rfl) (fun _ _ => rfl)
    (fun p hp => by simp [abs, hp]) (fun p hp => by simp [abs, hp]) (fun _ => trivial) nofun
    ⟨hl, rfl⟩ (fun _ => hl)

theorem sim_multipart_data_by_length (H : Pre env fut K c .multipartDataByLength) :
    SimOK env fut K (flat c.log) (multipart_data_by_length h c) := by
  have hl := H.good.live
  simp only [Live, H.fn] at hl
  exact sim_collectLength (S := .mpLen) (T := .mpLenCr) H rfl isMk_multipartData (fun _ => trivial)
    nofun (fun _ _ => rfl) (fun _ => nofun) nofun (fun _ => rfl) (fun _ _ => rfl)
    (fun p hp => by simp [abs, hp]) (fun p hp => by simp [abs, hp]) (fun _ => trivial) nofun
    hl (fun _ => hl)

end Verif.Http1
