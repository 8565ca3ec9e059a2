import Verif.Http2.ReleaseSwallow
import Verif.Http2.ReleaseSpec

/-!
# After a subtraction that wraps around (helper lemmas)

Once the parser with overflow checks panics, the parser without them reads a payload that does not end within the
bytes there are.
-/

set_option linter.unusedSimpArgs false
set_option linter.unusedVariables false

namespace Verif.Http2.Release

variable {h : Handler} {c c' : Cfg} {F : Nat}

/-! ## The invariant -/

/-- The payload being read is longer than the `R` bytes that are left. -/
def Deep (R : Nat) (s : Core) : Prop :=
  match s.st with
  | .dataData | .goAwayDebugData | .headersFragment | .pingData | .unsupportedData | .headersCallback => R < left s
  | .headersStreamId1 | .headersStreamId2 | .headersStreamId3 | .headersStreamId4 | .headersWeight
  | .pushPromiseStreamId1 | .pushPromiseStreamId2 | .pushPromiseStreamId3 | .pushPromiseStreamId4
  | .pushPromiseCallback => R + 264 ≤ s.hi
  | _ => False

/-- More callbacks, but no frame header and no end of a payload. -/
def More (l l' : List Ev) : Prop := ∃ es, l' = l ++ es ∧ ∀ e ∈ es, e.inside = true

theorem More.refl {l : List Ev} : More l l := ⟨[], by simp, by simp⟩

theorem More.one {l : List Ev} {e : Ev} (he : e.inside = true) : More l (l ++ [e]) := ⟨[e], rfl, by simpa using he⟩

theorem More.trans {l1 l2 l3 : List Ev} (h1 : More l1 l2) (h2 : More l2 l3) : More l1 l3 := by
  obtain ⟨e1, rfl, g1⟩ := h1
  obtain ⟨e2, rfl, g2⟩ := h2
  refine ⟨e1 ++ e2, by simp, fun e he => ?_⟩
  rcases List.mem_append.1 he with he | he
  · exact g1 e he
  · exact g2 e he

/-- A step that leads to such a place; `F` more bytes come after this slice. -/
def DeepOut (F : Nat) (l : List Ev) : Out → Prop
  | .cont c' => Deep (c'.ctx.available + F) c'.p ∧ More l c'.log
  | .exit _ c' => Deep (c'.ctx.available + F) c'.p ∧ More l c'.log
  | _ => False

theorem deep_eos {k : Out} (hd : Deep (c.ctx.available + F) c.p) (hk : 1 ≤ c.ctx.available → DeepOut F c.log k) :
    DeepOut F c.log (exitIfEos c k) := by
  unfold exitIfEos
  split
  · exact ⟨hd, .refl⟩
  · exact hk (by omega)

theorem deep_u8 {k : UInt8 → Cfg → Out} (ha : 1 ≤ c.ctx.available)
    (hk : ∀ b, (jump c 1).ctx.available + 1 = c.ctx.available → DeepOut F c.log (k b (jump c 1))) :
    DeepOut F c.log (getU8 c k) := by
  obtain ⟨b, g1, -, g2⟩ := rest_cons (x := c.ctx) (by omega)
  simp only [getU8, g1]
  exact hk b g2

theorem deep_u32 {k : UInt32 → Cfg → Out} {i : UInt32} (ha : 4 ≤ c.ctx.available)
    (hk : ∀ x, (jump c 4).ctx.available + 4 = c.ctx.available → DeepOut F c.log (k x (jump c 4))) :
    DeepOut F c.log (readU32 c i k) := by
  obtain ⟨b1, b2, b3, b4, g1, g2, g3, g4, hr, ha⟩ := rest_four ha
  simp only [readU32, g1, g2, g3, g4]
  exact hk _ ha

theorem deep_transition {l : List Ev} {st : St} (hd : Deep (c.ctx.available + F) (setState c st).p) (hl : More l c.log) :
    DeepOut F l (transition c st) := ⟨hd, hl⟩

theorem deep_callback {l : List Ev} {e : Ev} (hd : Deep (c.ctx.available + F) c.p) (hl : More l c.log)
    (he : e.inside = true) : DeepOut F l (callback h c e) := by
  unfold callback
  simp only
  split
  · exact ⟨hd, hl.trans (.one he)⟩
  · exact ⟨hd, hl.trans (.one he)⟩

/-- After a subtraction. -/
theorem dec_left {n : UInt32} (hn : n.toNat ≤ 8) {R : Nat} (hR : R < 2 ^ 24 - 264)
    (hh : c.p.hi < n.toNat ∨ R + 264 ≤ c.p.hi) : R < left (decPayload c n).p := by
  obtain ⟨e1, e2⟩ := dec_num c n (by omega)
  have h1 := hi_lt c.p
  have h2 := lo_lt c.p
  unfold left
  rw [e1, e2]
  split <;> omega

theorem or_hi (s : Core) (b : UInt8) : ({ s with bit32a := s.bit32a ||| b.toUInt32 } : Core).hi = s.hi := by
  have hb := b.toNat_lt
  show (s.bit32a ||| b.toUInt32).toNat / 256 = s.bit32a.toNat / 256
  rw [UInt32.toNat_or, UInt8.toNat_toUInt32, show (256 : Nat) = 2 ^ 8 from rfl, ← Nat.shiftRight_eq_div_pow,
    ← Nat.shiftRight_eq_div_pow, Nat.shiftRight_or_distrib, Nat.shiftRight_eq_div_pow b.toNat, Nat.div_eq_of_lt hb,
    Nat.or_zero]

/-! ## Payload -/

theorem deep_of_kind {R : Nat} {s : Core} {k : Kind} (hk : kindOf s.st = some k) : Deep R s ↔ R < left s := by
  unfold Deep
  revert hk
  cases s.st <;> simp [kindOf]

theorem deep_data {k : Kind} (hk : kindOf c.p.st = some k) (hok : Ok c) (hl : c.ctx.available + F < left c.p) :
    DeepOut F c.log (exitIfEos c <| parsePayloadData h c k) := by
  have hm := hok.mark
  have hle := hok.le
  refine deep_eos ((deep_of_kind hk).2 hl) fun h0 => ?_
  have hhi := hi_lt c.p
  have hlo := lo_lt c.p
  have hl' := hl
  unfold left at hl'
  unfold parsePayloadData
  simp only
  rw [if_neg (by rw [actual_num]; split at hl' <;> split <;> omega),
    if_neg (by simp only [decPayload, jump, Ctx.jump]; omega)]
  have ha : c.ctx.available < 2 ^ 24 := by split at hl' <;> omega
  obtain ⟨e1, e2⟩ := dec_num c (UInt32.ofNat c.ctx.available) (by rw [ofNat_toNat ha]; exact ha)
  rw [ofNat_toNat ha] at e1
  have hleft : left (decPayload c (UInt32.ofNat c.ctx.available)).p = left c.p - c.ctx.available := by
    unfold left
    rw [e1, e2]
    by_cases hc : c.p.lo ≤ c.p.hi
    · rw [if_pos hc] at hl' ⊢; rw [if_pos (by omega)]; omega
    · rw [if_neg hc] at hl' ⊢; split <;> omega
  have hx : (c.ctx.jump c.ctx.available).available = 0 := by simp only [Ctx.available, Ctx.jump]; omega
  have hd : Deep ((c.ctx.jump c.ctx.available).available + F) (decPayload c (UInt32.ofNat c.ctx.available)).p := by
    refine (deep_of_kind (s := (decPayload c (UInt32.ofNat c.ctx.available)).p) (k := k) hk).2 ?_
    rw [hleft, hx]; omega
  split
  · exact ⟨hd, .one rfl⟩
  · exact ⟨hd, .one rfl⟩

/-! ## Steps from such a place -/

theorem deep_long {i : UInt32} {s1 s2 : St} (hs : c.p.st = s1)
    (h1 : ∀ (R : Nat) (p : Core), p.st = s1 → (Deep R p ↔ R + 264 ≤ p.hi))
    (h2 : ∀ (R : Nat) (p : Core), p.st = s2 → (Deep R p ↔ R + 264 ≤ p.hi))
    (hd : Deep (c.ctx.available + F) c.p) {f : UInt8 → UInt32} :
    DeepOut F c.log (exitIfEos c <| getU8 c fun b c => transition (set32b c (c.p.bit32b ||| f b)) s2) := by
  have hd' := (h1 _ _ hs).1 hd
  refine deep_eos hd fun ha => deep_u8 ha fun b hb => deep_transition ?_ .refl
  refine (h2 _ _ rfl).2 ?_
  show (jump c 1).ctx.available + F + 264 ≤ c.p.hi
  omega

theorem deep_long4 {s1 s2 s3 : St} (hs : c.p.st = s1)
    (h1 : ∀ (R : Nat) (p : Core), p.st = s1 → (Deep R p ↔ R + 264 ≤ p.hi))
    (h2 : ∀ (R : Nat) (p : Core), p.st = s2 → (Deep R p ↔ R + 264 ≤ p.hi))
    (h3 : ∀ (R : Nat) (p : Core), p.st = s3 → (Deep R p ↔ R + 264 ≤ p.hi))
    (hd : Deep (c.ctx.available + F) c.p) {f : UInt8 → UInt32} :
    DeepOut F c.log (exitIfEos c <| if c.ctx.available ≥ 4 then
      readU32 c c.p.bit32b fun x c => transition (set32b c x) s3
      else getU8 c fun b c => transition (set32b c (c.p.bit32b ||| f b)) s2) := by
  have hd' := (h1 _ _ hs).1 hd
  refine deep_eos hd fun ha => ?_
  split
  · rename_i h4
    refine deep_u32 h4 fun x hx => deep_transition ?_ .refl
    refine (h3 _ _ rfl).2 ?_
    show (jump c 4).ctx.available + F + 264 ≤ c.p.hi
    omega
  · refine deep_u8 ha fun b hb => deep_transition ?_ .refl
    refine (h2 _ _ rfl).2 ?_
    show (jump c 1).ctx.available + F + 264 ≤ c.p.hi
    omega

/-- The weight of a HEADERS frame. -/
theorem deep_weight (ha : 1 ≤ c.ctx.available) (hR : c.ctx.available + F < 2 ^ 24 - 264)
    (hh : c.p.hi < 5 ∨ c.ctx.available + F + 264 ≤ c.p.hi) :
    DeepOut F c.log (getU8 c fun b c => transition (decPayload (set16a c (b.toUInt16 <<< 8)) 5) .headersCallback) := by
  refine deep_u8 ha fun b hb => deep_transition ?_ .refl
  show (jump c 1).ctx.available + F < left (decPayload (set16a (jump c 1) (b.toUInt16 <<< 8)) 5).p
  refine dec_left (by decide) (by omega) ?_
  show c.p.hi < 5 ∨ (jump c 1).ctx.available + F + 264 ≤ c.p.hi
  omega

/-- The promised stream of a PUSH_PROMISE frame. -/
theorem deep_push (hR : c.ctx.available + F < 2 ^ 24 - 264) (hh : c.p.hi < 4 ∨ c.ctx.available + F + 264 ≤ c.p.hi) :
    DeepOut F c.log (callback h (setState (decPayload c 4) .headersFragment) (.pushPromise (decPayload c 4).p.bit32b)) := by
  refine deep_callback ?_ .refl rfl
  exact dec_left (c := c) (n := 4) (by decide) hR hh

theorem deep_step (hok : Ok c) (hR : c.ctx.available + F < 2 ^ 24 - 264) (hd : Deep (c.ctx.available + F) c.p) :
    DeepOut F c.log (stepFn h c) := by
  have mid : ∀ st : St, st ∈ [St.headersStreamId1, .headersStreamId2, .headersStreamId3, .headersStreamId4,
      .headersWeight, .pushPromiseStreamId1, .pushPromiseStreamId2, .pushPromiseStreamId3, .pushPromiseStreamId4,
      .pushPromiseCallback] → ∀ (R : Nat) (p : Core), p.st = st → (Deep R p ↔ R + 264 ≤ p.hi) := by
    intro st hm R p hp
    unfold Deep
    rw [hp]
    revert hm
    cases st <;> simp
  cases hs : c.p.st with
  | dataData => rw [step_payload (k := .data) (by rw [hs]; rfl)]
                exact deep_data (by rw [hs]; rfl) hok ((deep_of_kind (k := .data) (by rw [hs]; rfl)).1 hd)
  | goAwayDebugData => rw [step_payload (k := .goAwayDebugData) (by rw [hs]; rfl)]
                       exact deep_data (by rw [hs]; rfl) hok ((deep_of_kind (k := .goAwayDebugData) (by rw [hs]; rfl)).1 hd)
  | headersFragment => rw [step_payload (k := .headersFragment) (by rw [hs]; rfl)]
                       exact deep_data (by rw [hs]; rfl) hok ((deep_of_kind (k := .headersFragment) (by rw [hs]; rfl)).1 hd)
  | pingData => rw [step_payload (k := .ping) (by rw [hs]; rfl)]
                exact deep_data (by rw [hs]; rfl) hok ((deep_of_kind (k := .ping) (by rw [hs]; rfl)).1 hd)
  | unsupportedData => rw [step_payload (k := .unsupported) (by rw [hs]; rfl)]
                       exact deep_data (by rw [hs]; rfl) hok ((deep_of_kind (k := .unsupported) (by rw [hs]; rfl)).1 hd)
  | headersCallback =>
    unfold Deep at hd
    rw [hs] at hd
    unfold stepFn
    rw [hs]
    simp only
    unfold Http2.stepFn
    rw [hs]
    simp only
    unfold headers_callback
    exact deep_callback (c := setState c .headersFragment) hd .refl rfl
  | headersStreamId1 =>
    unfold stepFn; rw [hs]; simp only
    unfold Http2.stepFn; rw [hs]; simp only
    exact deep_long4 hs (mid _ (by simp)) (mid _ (by simp)) (mid _ (by simp)) hd
  | pushPromiseStreamId1 =>
    unfold stepFn; rw [hs]; simp only
    unfold Http2.stepFn; rw [hs]; simp only
    exact deep_long4 hs (mid _ (by simp)) (mid _ (by simp)) (mid _ (by simp)) hd
  | headersStreamId2 =>
    unfold stepFn; rw [hs]; simp only
    unfold Http2.stepFn; rw [hs]; simp only
    exact deep_long (i := 0) hs (mid _ (by simp)) (mid _ (by simp)) hd
  | headersStreamId3 =>
    unfold stepFn; rw [hs]; simp only
    unfold Http2.stepFn; rw [hs]; simp only
    exact deep_long (i := 0) hs (mid _ (by simp)) (mid _ (by simp)) hd
  | headersStreamId4 =>
    unfold stepFn; rw [hs]; simp only
    unfold Http2.stepFn; rw [hs]; simp only
    exact deep_long (i := 0) hs (mid _ (by simp)) (mid _ (by simp)) hd
  | pushPromiseStreamId2 =>
    unfold stepFn; rw [hs]; simp only
    unfold Http2.stepFn; rw [hs]; simp only
    exact deep_long (i := 0) hs (mid _ (by simp)) (mid _ (by simp)) hd
  | pushPromiseStreamId3 =>
    unfold stepFn; rw [hs]; simp only
    unfold Http2.stepFn; rw [hs]; simp only
    exact deep_long (i := 0) hs (mid _ (by simp)) (mid _ (by simp)) hd
  | pushPromiseStreamId4 =>
    unfold stepFn; rw [hs]; simp only
    unfold Http2.stepFn; rw [hs]; simp only
    exact deep_long (i := 0) hs (mid _ (by simp)) (mid _ (by simp)) hd
  | headersWeight =>
    unfold stepFn; rw [hs]; simp only
    exact deep_eos hd fun ha => deep_weight ha hR (.inr ((mid _ (by simp) _ _ hs).1 hd))
  | pushPromiseCallback =>
    unfold stepFn; rw [hs]; simp only
    exact deep_eos hd fun ha => deep_push hR (.inr ((mid _ (by simp) _ _ hs).1 hd))
  | _ => unfold Deep at hd; rw [hs] at hd; exact hd.elim

/-! ## The step at which the parser with overflow checks panics -/

/-- The pad length of a frame without payload. -/
theorem panic_pad {s : St} {l : List Ev} (hR : c.ctx.available + F < 2 ^ 24 - 264)
    (hD : ∀ (R : Nat) (p : Core), p.st = s → (R + 264 ≤ p.hi → R < left p → Deep R p))
    (hp : (exitIfEos c <| getU8 c fun b c =>
      Http2.decPayload (set32a c (c.p.bit32a ||| b.toUInt32)) 1 fun c => transition c s) = .panic l) :
    l = c.log ∧ DeepOut F c.log (exitIfEos c <| getU8 c fun b c =>
      transition (decPayload (set32a c (c.p.bit32a ||| b.toUInt32)) 1) s) := by
  unfold exitIfEos at hp ⊢
  by_cases h0 : c.ctx.available = 0
  · rw [if_pos h0] at hp; cases hp
  · rw [if_neg h0] at hp ⊢
    obtain ⟨b, g1, -, g2⟩ := rest_cons (x := c.ctx) h0
    simp only [getU8, g1] at hp ⊢
    unfold Http2.decPayload Core.decPayloadLength at hp
    split at hp
    · cases hp
    · rename_i hn
      split at hn
      · rename_i hlt
        have hz : c.p.hi < 1 := by
          rw [UInt32.lt_iff_toNat_lt, payload_toNat] at hlt
          have := or_hi c.p b
          exact this ▸ hlt
        refine ⟨by cases hp; rfl, deep_transition ?_ .refl⟩
        have hz' : (set32a (jump c 1) ((jump c 1).p.bit32a ||| b.toUInt32)).p.hi < 1 := by
          have := or_hi c.p b
          exact this.symm ▸ hz
        refine hD _ _ rfl ?_ ?_
        · show (jump c 1).ctx.available + F + 264 ≤ (decPayload (set32a (jump c 1) ((jump c 1).p.bit32a ||| b.toUInt32)) 1).p.hi
          rw [(dec_num _ 1 (by decide)).1]
          have : (1 : UInt32).toNat = 1 := rfl
          have g2 : (jump c 1).ctx.available + 1 = c.ctx.available := g2
          rw [this]
          omega
        · show (jump c 1).ctx.available + F < left (decPayload (set32a (jump c 1) ((jump c 1).p.bit32a ||| b.toUInt32)) 1).p
          have g2 : (jump c 1).ctx.available + 1 = c.ctx.available := g2
          exact dec_left (by decide) (by omega) (.inl hz')
      · cases hn

theorem dec_panic {n : UInt32} {k : Cfg → Out} {l : List Ev} (hk : ∀ c, Np (k c))
    (hp : Http2.decPayload c n k = .panic l) : c.p.hi < n.toNat ∧ l = c.log := by
  unfold Http2.decPayload Core.decPayloadLength at hp
  by_cases h0 : c.p.payloadLength < n
  · rw [if_pos h0] at hp
    rw [UInt32.lt_iff_toNat_lt, payload_toNat] at h0
    exact ⟨h0, by cases hp; rfl⟩
  · rw [if_neg h0] at hp
    exact absurd hp (hk _ _)

theorem dec_log (n : UInt32) : (decPayload c n).log = c.log := rfl

theorem panic_data {k : Kind} {l : List Ev} (hk : kindOf c.p.st = some k) (hok : Ok c)
    (hR : c.ctx.available + F < 2 ^ 24 - 264)
    (hp : (exitIfEos c <| Http2.parsePayloadData h c k) = .panic l) :
    l = c.log ∧ DeepOut F c.log (exitIfEos c <| parsePayloadData h c k) := by
  have hhi := hi_lt c.p
  have hlo := lo_lt c.p
  have hn := np_payload (h := h) (k := k) hok
  unfold exitIfEos at hp
  by_cases h0 : c.ctx.available = 0
  · rw [if_pos h0] at hp; cases hp
  · rw [if_neg h0] at hp
    by_cases hlt : c.p.payloadLength < c.p.padLength
    · have hl : l = c.log := by
        unfold Http2.parsePayloadData Core.actualLength at hp
        rw [if_pos hlt] at hp
        cases hp; rfl
      rw [UInt32.lt_iff_toNat_lt, payload_toNat, pad_toNat] at hlt
      refine ⟨hl, deep_data hk hok ?_⟩
      unfold left
      rw [if_neg (by omega)]
      omega
    · exfalso
      unfold Http2.parsePayloadData Core.actualLength at hp
      rw [if_neg hlt] at hp
      rw [UInt32.lt_iff_toNat_lt, payload_toNat, pad_toNat] at hlt
      have hn1 : (c.p.payloadLength - c.p.padLength).toNat = c.p.hi - c.p.lo := by
        have := actual_num c.p
        rw [if_pos (by omega)] at this
        exact this
      have hm := hok.mark
      simp only at hp
      by_cases hav : c.ctx.available ≥ (c.p.payloadLength - c.p.padLength).toNat
      · rw [if_pos hav] at hp
        have hx : ¬ c.p.payloadLength < c.p.payloadLength - c.p.padLength := by
          rw [UInt32.lt_iff_toNat_lt, payload_toNat, hn1]; omega
        simp only [Http2.decPayload, Core.decPayloadLength] at hp
        rw [if_neg (by exact hx)] at hp
        simp only at hp
        rw [if_neg (by simp only [setState, jump, Ctx.jump]; omega)] at hp
        exact absurd hp (np_callback _)
      · rw [if_neg hav] at hp
        have hx : ¬ c.p.payloadLength < UInt32.ofNat c.ctx.available := by
          rw [UInt32.lt_iff_toNat_lt, payload_toNat, ofNat_toNat (by omega)]; omega
        simp only [Http2.decPayload, Core.decPayloadLength] at hp
        rw [if_neg (by exact hx)] at hp
        simp only at hp
        rw [if_neg (by simp only [setState, jump, Ctx.jump]; omega)] at hp
        revert hp
        split <;> exact nofun

theorem panic_step {l : List Ev} (hok : Ok c) (hR : c.ctx.available + F < 2 ^ 24 - 264)
    (hp : Http2.stepFn h c = .panic l) : l = c.log ∧ DeepOut F c.log (stepFn h c) := by
  have hnp := step_np (h := h) hok
  have hdeep : ∀ st : St, st ∈ [St.dataData, .headersStreamId1, .headersCallback, .pushPromiseStreamId1,
      .unsupportedData] → ∀ (R : Nat) (p : Core), p.st = st → (R + 264 ≤ p.hi → R < left p → Deep R p) := by
    intro st hm R p hst
    unfold Deep
    rw [hst]
    revert hm
    cases st <;> simp
    all_goals intros; assumption
  cases hs : c.p.st with
  | dataPadLength =>
    unfold Http2.stepFn at hp; rw [hs] at hp; simp only at hp; unfold stepFn; rw [hs]; simp only
    exact panic_pad hR (hdeep _ (by simp)) hp
  | headersPadLengthWithPriority =>
    unfold Http2.stepFn at hp; rw [hs] at hp; simp only at hp; unfold stepFn; rw [hs]; simp only
    exact panic_pad hR (hdeep _ (by simp)) hp
  | headersPadLengthWithoutPriority =>
    unfold Http2.stepFn at hp; rw [hs] at hp; simp only at hp; unfold stepFn; rw [hs]; simp only
    exact panic_pad hR (hdeep _ (by simp)) hp
  | pushPromisePadLength =>
    unfold Http2.stepFn at hp; rw [hs] at hp; simp only at hp; unfold stepFn; rw [hs]; simp only
    exact panic_pad hR (hdeep _ (by simp)) hp
  | unsupportedPadLength =>
    unfold Http2.stepFn at hp; rw [hs] at hp; simp only at hp; unfold stepFn; rw [hs]; simp only
    exact panic_pad hR (hdeep _ (by simp)) hp
  | dataData =>
    unfold Http2.stepFn at hp; rw [hs] at hp; simp only at hp; unfold stepFn; rw [hs]; simp only
    exact panic_data (by rw [hs]; rfl) hok hR hp
  | goAwayDebugData =>
    unfold Http2.stepFn at hp; rw [hs] at hp; simp only at hp; unfold stepFn; rw [hs]; simp only
    exact panic_data (by rw [hs]; rfl) hok hR hp
  | headersFragment =>
    unfold Http2.stepFn at hp; rw [hs] at hp; simp only at hp; unfold stepFn; rw [hs]; simp only
    exact panic_data (by rw [hs]; rfl) hok hR hp
  | pingData =>
    unfold Http2.stepFn at hp; rw [hs] at hp; simp only at hp; unfold stepFn; rw [hs]; simp only
    exact panic_data (by rw [hs]; rfl) hok hR hp
  | unsupportedData =>
    unfold Http2.stepFn at hp; rw [hs] at hp; simp only at hp; unfold stepFn; rw [hs]; simp only
    exact panic_data (by rw [hs]; rfl) hok hR hp
  | goAwayCallback =>
    unfold Http2.stepFn at hp; rw [hs] at hp; simp only at hp; unfold stepFn; rw [hs]; simp only
    unfold Http2.go_away_callback at hp
    obtain ⟨h1, h2⟩ := dec_panic (fun _ => np_callback) hp
    refine ⟨h2, ?_⟩
    unfold go_away_callback
    have h3 : (decPayload c 8).p.payloadLength > 0 := by
      show 0 < _
      rw [UInt32.lt_iff_toNat_lt, payload_toNat, (dec_num c 8 (by decide)).1]
      have : (8 : UInt32).toNat = 8 := rfl
      have h0 : (0 : UInt32).toNat = 0 := rfl
      rw [this] at h1
      rw [this, h0]
      omega
    simp only
    rw [if_pos h3]
    refine deep_callback ?_ .refl rfl
    exact dec_left (c := c) (n := 8) (by decide) hR (.inl h1)
  | headersWeight =>
    unfold Http2.stepFn at hp; rw [hs] at hp; simp only at hp; unfold stepFn; rw [hs]; simp only
    unfold Http2.headers_weight exitIfEos at hp
    unfold headers_weight exitIfEos
    by_cases h0 : c.ctx.available = 0
    · rw [if_pos h0] at hp; cases hp
    · rw [if_neg h0] at hp ⊢
      obtain ⟨b, g1, -, g2⟩ := rest_cons (x := c.ctx) h0
      have hp' := hp
      simp only [getU8, g1] at hp'
      obtain ⟨h1, h2⟩ := dec_panic (fun _ => np_transition) hp'
      exact ⟨h2, deep_weight (by omega) hR (.inl h1)⟩
  | pushPromiseCallback =>
    unfold Http2.stepFn at hp; rw [hs] at hp; simp only at hp; unfold stepFn; rw [hs]; simp only
    unfold Http2.push_promise_callback exitIfEos at hp
    unfold push_promise_callback exitIfEos
    by_cases h0 : c.ctx.available = 0
    · rw [if_pos h0] at hp; cases hp
    · rw [if_neg h0] at hp ⊢
      obtain ⟨h1, h2⟩ := dec_panic (fun _ => np_callback) hp
      exact ⟨h2, deep_push hR (.inl h1)⟩
  | framePadding =>
    exfalso
    unfold Http2.stepFn at hp; rw [hs] at hp; simp only at hp
    unfold Http2.frame_padding exitIfEos at hp
    by_cases h0 : c.ctx.available = 0
    · rw [if_pos h0] at hp; cases hp
    · rw [if_neg h0] at hp
      by_cases h1 : c.ctx.available ≥ c.p.payloadLength.toNat
      · rw [if_pos h1] at hp; exact absurd hp (np_transition _)
      · rw [if_neg h1] at hp
        obtain ⟨h2, -⟩ := dec_panic (fun _ => np_exitEos) hp
        have := hi_lt c.p
        rw [payload_toNat] at h1
        rw [ofNat_toNat (by omega)] at h2
        omega
  | _ =>
    exfalso
    unfold stepFn at hnp; rw [hs] at hnp
    exact hnp l hp

/-! ## Calls -/

/-- A call that ends at such a place. -/
def DeepCall (F : Nat) (l : List Ev) : Res × Cfg → Prop
  | (.ok _, c') => Deep (c'.ctx.available + F) c'.p ∧ More l c'.log
  | (.diverge, _) => True
  | _ => False

theorem avail_le (hmu : mu c' < mu c) : c'.ctx.available ≤ c.ctx.available := by
  have := rank_le c.p.st
  unfold mu at hmu
  omega

theorem DeepCall.more {l l' : List Ev} {x : Res × Cfg} (hl : More l l') (hx : DeepCall F l' x) : DeepCall F l x := by
  obtain ⟨r, c'⟩ := x
  cases r with
  | ok su => exact ⟨hx.1, hl.trans hx.2⟩
  | diverge => trivial
  | err => exact hx
  | panic => exact hx

theorem deep_alive {R : Nat} {s : Core} (hd : Deep R s) : s.st ≠ .dead ∧ s.st ≠ .finished := by
  unfold Deep at hd
  constructor <;> intro he <;> rw [he] at hd <;> exact hd

/-- The stream stays the same, and the count that is returned is the position in it. -/
theorem parse_stream : ∀ (n : Nat) (c : Cfg), Ok c → c.p.st ≠ .dead → c.p.st ≠ .finished →
    match parse h n c with
    | (.ok (.eos k), c') => c'.ctx.stream = c.ctx.stream ∧ k = c'.ctx.idx
    | (.ok (.callback k), c') => c'.ctx.stream = c.ctx.stream ∧ k = c'.ctx.idx
    | _ => True
  | 0, c, _, _, _ => trivial
  | n + 1, c, hok, h1, h2 => by
    have hy := step_T (h := h) hok h1 h2
    rw [parse]
    generalize stepFn h c = o at hy
    cases o with
    | cont c' =>
      obtain ⟨g1, g2, -, g4, g5⟩ := hy
      have := parse_stream n c' g1 g4 g5
      rw [g2] at this
      exact this
    | exit su c' =>
      cases su with
      | eos k => exact ⟨hy.1, hy.2.1⟩
      | callback k => exact ⟨hy.1, hy.2.1⟩
      | finished k => trivial
    | err c' => trivial
    | panic log => trivial

theorem deep_parse : ∀ (n : Nat) (c : Cfg), Ok c → c.ctx.available + F < 2 ^ 24 - 264 →
    Deep (c.ctx.available + F) c.p → DeepCall F c.log (parse h n c)
  | 0, c, _, _, _ => trivial
  | n + 1, c, hok, hR, hd => by
    have hx := deep_step (h := h) hok hR hd
    have hy := step_T (h := h) hok (deep_alive hd).1 (deep_alive hd).2
    rw [parse]
    generalize stepFn h c = o at hx hy
    cases o with
    | cont c' =>
      obtain ⟨g1, -, g3, -⟩ := hy
      have := avail_le g3
      exact (deep_parse n c' g1 (by omega) hx.1).more hx.2
    | exit su c' => exact hx
    | err c' => exact hx
    | panic log => exact hx

/-- The call during which the parser with overflow checks panics. -/
theorem panic_parse : ∀ (n : Nat) (c : Cfg), Ok c → c.p.st ≠ .dead → c.p.st ≠ .finished →
    c.ctx.available + F < 2 ^ 24 - 264 → (Http2.parse h n c).1 = .panic →
    DeepCall F (Http2.parse h n c).2.log (parse h n c)
  | 0, c, _, _, _, _, hp => by cases hp
  | n + 1, c, hok, h1, h2, hR, hp => by
    have hy := Http2.step_T (h := h) hok h1 h2
    rw [Http2.parse] at hp ⊢
    rw [parse]
    rcases agree_step (h := h) (c := c) with ⟨l, hl⟩ | hl
    · obtain ⟨rfl, hx⟩ := panic_step (F := F) hok hR hl
      have hz := step_T (h := h) hok h1 h2
      rw [hl]
      simp only
      generalize stepFn h c = o at hx hz
      cases o with
      | cont c' =>
        obtain ⟨g1, -, g3, -⟩ := hz
        have := avail_le g3
        exact (deep_parse n c' g1 (by omega) hx.1).more hx.2
      | exit su c' => exact hx
      | err c' => exact hx
      | panic log => exact hx
    · rw [← hl]
      generalize Http2.stepFn h c = o at hp hy hl ⊢
      cases o with
      | cont c' =>
        obtain ⟨g1, -, g3, g4, g5⟩ := hy
        have := avail_le g3
        exact panic_parse n c' g1 g4 g5 (by omega) hp
      | exit su c' => cases hp
      | err c' => cases hp
      | panic log => exact absurd hl.symm (step_np hok _)

/-- What a call that ends at such a place returns; `R` bytes are left before it. -/
def DeepRes (R : Nat) (l : List Ev) : Res × World → Prop
  | (.ok (.callback n), w') => Deep (R - n) w'.p.toCore ∧ More l w'.log
  | (.ok (.eos n), w') => Deep (R - n) w'.p.toCore ∧ More l w'.log
  | _ => False

theorem deep_result {w : World} {s : Bytes} {R : Nat} {l : List Ev} (hs : s.length ≤ R) (h1 : w.p.st ≠ .dead)
    (h2 : w.p.st ≠ .finished) (hc : DeepCall (R - s.length) l (parse h (fuel s.length) ⟨w.p.toCore, Ctx.new s, w.log⟩)) :
    DeepRes R l (resume h w s) := by
  have ht := call_T (h := h) (s := s) h1 h2
  have hst := parse_stream (h := h) (fuel s.length) ⟨w.p.toCore, Ctx.new s, w.log⟩ ⟨rfl, Nat.zero_le _⟩ h1 h2
  revert ht hc hst
  unfold resume
  generalize parse h (fuel s.length) ⟨w.p.toCore, Ctx.new s, w.log⟩ = o
  obtain ⟨r, c⟩ := o
  intro hc ht hst
  cases r with
  | ok su =>
    cases su with
    | eos n =>
      obtain ⟨g1, g2⟩ := hst
      refine ⟨?_, hc.2⟩
      have := hc.1
      obtain ⟨g3, -⟩ := ht
      unfold Ctx.available at this
      rw [g1, ← g2] at this
      rwa [show (Ctx.new s).stream.length - n + (R - s.length) = R - n by show s.length - n + _ = _; omega] at this
    | callback n =>
      obtain ⟨g1, g2⟩ := hst
      refine ⟨?_, hc.2⟩
      have := hc.1
      obtain ⟨g3, -⟩ := ht
      unfold Ctx.available at this
      rw [g1, ← g2] at this
      rwa [show (Ctx.new s).stream.length - n + (R - s.length) = R - n by show s.length - n + _ = _; omega] at this
    | finished n => exact ht
  | err => exact ht
  | panic => exact ht
  | diverge => exact ht

theorem deep_resume {w : World} {s : Bytes} {R : Nat} (hs : s.length ≤ R) (hR : R < 2 ^ 24 - 264)
    (hd : Deep R w.p.toCore) : DeepRes R w.log (resume h w s) := by
  have ha : (Ctx.new s).available + (R - s.length) = R := by
    simp only [Ctx.available, Ctx.new]; omega
  refine deep_result hs (deep_alive hd).1 (deep_alive hd).2 ?_
  exact deep_parse _ ⟨w.p.toCore, Ctx.new s, w.log⟩ ⟨rfl, Nat.zero_le _⟩ (by simp only [ha]; exact hR)
    (by simp only [ha]; exact hd)

theorem panic_resume {w : World} {s : Bytes} {R : Nat} (hs : s.length ≤ R) (hR : R < 2 ^ 24 - 264)
    (h1 : w.p.st ≠ .dead) (h2 : w.p.st ≠ .finished) (hp : (Http2.resume h w s).1 = .panic) :
    DeepRes R (Http2.resume h w s).2.log (resume h w s) := by
  have ha : (Ctx.new s).available + (R - s.length) = R := by
    simp only [Ctx.available, Ctx.new]; omega
  have hc := panic_parse (h := h) (F := R - s.length) (fuel s.length) ⟨w.p.toCore, Ctx.new s, w.log⟩
    ⟨rfl, Nat.zero_le _⟩ h1 h2 (by simp only [ha]; exact hR)
  have key : (Http2.parse h (fuel s.length) ⟨w.p.toCore, Ctx.new s, w.log⟩).1 = .panic ∧
      (Http2.resume h w s).2.log = (Http2.parse h (fuel s.length) ⟨w.p.toCore, Ctx.new s, w.log⟩).2.log := by
    revert hp
    unfold Http2.resume
    generalize Http2.parse h (fuel s.length) ⟨w.p.toCore, Ctx.new s, w.log⟩ = o
    obtain ⟨r, c⟩ := o
    cases r with
    | ok su => cases su <;> exact nofun
    | err => exact nofun
    | panic => exact fun _ => ⟨rfl, rfl⟩
    | diverge => exact nofun
  rw [key.2]
  exact deep_result hs h1 h2 (hc key.1)

theorem deep_drive : ∀ (ks : List Nat) (last : End) (sts : List Stop) (w : World) (rem : Bytes),
    rem.length < 2 ^ 24 - 264 → Deep rem.length w.p.toCore → last = .callback ∨ last = .eos →
    ((drive h last sts ks w rem).last = .callback ∨ (drive h last sts ks w rem).last = .eos) ∧
    More w.log (drive h last sts ks w rem).world.log
  | [], last, sts, w, rem, _, _, hl => ⟨hl, .refl⟩
  | k :: ks, last, sts, w, rem, hR, hd, hl => by
    have hr := deep_resume (h := h) (s := rem.take k) (R := rem.length) (by rw [List.length_take]; omega) hR hd
    rw [drive]
    generalize resume h w (rem.take k) = o at hr
    obtain ⟨r, w'⟩ := o
    cases r with
    | ok su =>
      cases su with
      | eos n =>
        obtain ⟨g1, g2⟩ := hr
        have := deep_drive ks .eos (sts ++ [⟨w'.p.st, (rem.drop n).length⟩]) w' (rem.drop n)
          (by rw [List.length_drop]; omega) (by rw [List.length_drop]; exact g1) (.inr rfl)
        exact ⟨this.1, g2.trans this.2⟩
      | callback n =>
        obtain ⟨g1, g2⟩ := hr
        have := deep_drive ks .callback (sts ++ [⟨w'.p.st, (rem.drop n).length⟩]) w' (rem.drop n)
          (by rw [List.length_drop]; omega) (by rw [List.length_drop]; exact g1) (.inl rfl)
        exact ⟨this.1, g2.trans this.2⟩
      | finished n => exact hr.elim
    | err => exact hr.elim
    | panic => exact hr.elim
    | diverge => exact hr.elim

/-- The client run during which the parser with overflow checks panics. -/
theorem panic_drive : ∀ (ks : List Nat) (last : End) (sts : List Stop) (w : World) (rem : Bytes),
    rem.length < 2 ^ 24 - 264 → w.p.st ≠ .dead → w.p.st ≠ .finished → last ≠ .panic →
    (Http2.drive h last sts ks w rem).last = .panic →
    ((drive h last sts ks w rem).last = .callback ∨ (drive h last sts ks w rem).last = .eos) ∧
    More (Http2.drive h last sts ks w rem).world.log (drive h last sts ks w rem).world.log
  | [], last, sts, w, rem, _, _, _, hl, hp => absurd hp hl
  | k :: ks, last, sts, w, rem, hR, h1, h2, hl, hp => by
    rw [Http2.drive] at hp ⊢
    rw [drive]
    have ht := call_T (h := h) (s := rem.take k) h1 h2
    have hpr := panic_resume (h := h) (s := rem.take k) (R := rem.length) (by rw [List.length_take]; omega) hR h1 h2
    rcases agree_resume (h := h) w (rem.take k) with hr | hr
    · have hr' := hpr hr
      revert hr hr'
      generalize Http2.resume h w (rem.take k) = o
      obtain ⟨r, w1⟩ := o
      intro hr hr'
      cases hr
      simp only
      generalize resume h w (rem.take k) = o at hr'
      obtain ⟨r, w'⟩ := o
      cases r with
      | ok su =>
        cases su with
        | eos n =>
          obtain ⟨g1, g2⟩ := hr'
          have := deep_drive (h := h) ks .eos (sts ++ [⟨w'.p.st, (rem.drop n).length⟩]) w' (rem.drop n)
            (by rw [List.length_drop]; omega) (by rw [List.length_drop]; exact g1) (.inr rfl)
          exact ⟨this.1, g2.trans this.2⟩
        | callback n =>
          obtain ⟨g1, g2⟩ := hr'
          have := deep_drive (h := h) ks .callback (sts ++ [⟨w'.p.st, (rem.drop n).length⟩]) w' (rem.drop n)
            (by rw [List.length_drop]; omega) (by rw [List.length_drop]; exact g1) (.inl rfl)
          exact ⟨this.1, g2.trans this.2⟩
        | finished n => exact hr'.elim
      | err => exact hr'.elim
      | panic => exact hr'.elim
      | diverge => exact hr'.elim
    · rw [hr] at ht ⊢
      generalize Http2.resume h w (rem.take k) = o at hp ht
      obtain ⟨r, w'⟩ := o
      cases r with
      | ok su =>
        cases su with
        | eos n =>
          exact panic_drive ks _ _ _ _ (by rw [List.length_drop]; omega) ht.2.2.1 ht.2.2.2 nofun hp
        | callback n =>
          exact panic_drive ks _ _ _ _ (by rw [List.length_drop]; omega) ht.2.2.1 ht.2.2.2 nofun hp
        | finished n => exact ht.elim
      | err => exact ht.elim
      | panic => exact ht.elim
      | diverge => exact ht.elim

end Verif.Http2.Release
