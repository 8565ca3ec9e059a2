import Verif.Http2.ReleaseEnds

/-!
# The parser without overflow checks, frame by frame (helper lemmas)
-/

set_option linter.unusedSimpArgs false
set_option linter.unusedVariables false

namespace Verif.Http2.Release

variable {h : Handler} {p : Core} {r : Bytes} {L : List Ev}

/-- What is left to show after `t`. -/
def Rest (h : Handler) (log : List Ev) (t : Tale) (L : List Ev) : Prop :=
  match t.2 with
  | none => L = flat log ++ t.1
  | some r' => ∀ (s : Core) (ctx : Ctx) (log' : List Ev), s.st = .frameLength1 → ctx.mark = ctx.idx →
      ctx.idx ≤ ctx.stream.length → ctx.rest = r' → flat log' = flat log ++ t.1 → Ends h ⟨s, ctx, log'⟩ L

/-- The parser tells `t` about `r`. -/
def Tells (h : Handler) (p : Core) (r : Bytes) (t : Tale) : Prop :=
  ∀ (ctx : Ctx) (log : List Ev) (L : List Ev), ctx.mark = ctx.idx → ctx.idx ≤ ctx.stream.length → ctx.rest = r →
    Rest h log t L → Ends h ⟨p, ctx, log⟩ L

theorem Tells.none (hl : r.length < need p.st) : Tells h p r ([], .none) := by
  rintro ctx log L h1 h2 rfl h4
  have h4 : L = flat log ++ [] := h4
  rw [h4, List.append_nil]
  exact quiet _ ⟨p, ctx, log⟩ (Nat.lt_succ_self _) hl

theorem Rest.tell {es : List Ev} {t : Tale} {log log' : List Ev} (hr : Rest h log (tell es t) L)
    (hl : flat log' = flat log ++ es) : Rest h log' t L := by
  unfold Rest Release.tell at *
  simp only at hr
  cases ht : t.2 with
  | none => rw [ht] at hr; simp only at hr ⊢; rw [hr, hl, List.append_assoc]
  | some r' =>
    rw [ht] at hr
    simp only at hr ⊢
    intro s ctx l a1 a2 a3 a4 a5
    exact hr s ctx l a1 a2 a3 a4 (by rw [a5, hl, List.append_assoc])

/-- A step without a callback. -/
theorem Tells.step {q : Core} {r' : Bytes} {t : Tale} (ht : Tells h q r' t)
    (hs : ∀ (ctx : Ctx) (log : List Ev) (u : Nat) (L : List Ev), ctx.mark = ctx.idx → ctx.idx ≤ ctx.stream.length → ctx.rest = r →
      (∀ ctx' : Ctx, ctx'.mark = ctx'.idx → ctx'.idx ≤ ctx'.stream.length → ctx'.rest = r' → Ends h ⟨q, ctx', log⟩ L) →
      EndsO h u L (stepFn h ⟨p, ctx, log⟩)) : Tells h p r t := by
  intro ctx log L h1 h2 h3 h4
  refine EndsO.ends (hs ctx log _ L h1 h2 h3 fun ctx' a1 a2 a3 => ht ctx' log L a1 a2 a3 h4)

theorem jump_le {x : Ctx} {k : Nat} (hk : k ≤ x.rest.length) (hx : x.idx ≤ x.stream.length) :
    (x.jump k).setMark.idx ≤ (x.jump k).setMark.stream.length := by
  simp only [Ctx.rest, List.length_drop] at hk
  simp only [Ctx.jump, Ctx.setMark]
  omega

/-- A number of four bytes. -/
theorem tells_field4 {a : UInt32} {x y : UInt16} {s1 s5 : St} {F : Nat → Bytes → Tale}
    (hs : ∀ c : Cfg, c.p.st = s1 → ∃ k, stepFn h c = (exitIfEos c <| if c.ctx.available ≥ 4 then
      readU32 c c.p.bit32b (fun x c => transition (set32b c x) s5) else k)) (hn : 4 ≤ need s1)
    (hF : ∀ n r, n < 2 ^ 32 → Tells h ⟨a, UInt32.ofNat n, x, y, s5⟩ r (F n r)) :
    Tells h ⟨a, 0, x, y, s1⟩ r (readField 4 r F) := by
  unfold readField
  split
  · exact .none (by simp only; omega)
  · match r with
    | [] | [_] | [_, _] | [_, _, _] => rename_i hl; exact absurd (by simp) hl
    | b1 :: b2 :: b3 :: b4 :: r =>
      obtain ⟨e1, e2⟩ := be_num4 b1 b2 b3 b4
      have e3 := be4 e1
      simp only [be, List.cons.injEq, and_true] at e2
      rw [e2.1, e2.2.1, e2.2.2.1, e2.2.2.2] at e3
      refine Tells.step (hF (num [b1, b2, b3, b4]) r e1) ?_
      intro ctx log u L h1 h2 h3 hk
      obtain ⟨k, hk'⟩ := hs ⟨⟨a, 0, x, y, s1⟩, ctx, log⟩ rfl
      rw [hk']
      refine eo_eos (fun h0 => by simp only [h3] at h0; cases h0) fun _ => ?_
      rw [if_pos (by rw [← rest_length]; simp only [h3]; simp)]
      refine eo_u32 h3 fun hr => ?_
      refine eo_transition ?_
      simp only [e3]
      exact hk _ rfl (jump_le (by rw [h3]; simp) h2) hr

/-- One byte. -/
theorem tells_field1 {F : Nat → Bytes → Tale} (hn : 1 ≤ need p.st)
    (hF : ∀ (b : UInt8) r, Tells h p (b :: r) (F b.toNat r)) : Tells h p r (readField 1 r F) := by
  unfold readField
  split
  · exact .none (by omega)
  · match r with
    | [] => rename_i hl; exact absurd (by simp) hl
    | b :: r =>
      show Tells h p (b :: r) (F (num [b]) r)
      rw [num1]
      exact hF b r

/-! ## Data -/

theorem dec_pk {n q : Nat} {b : UInt32} {x y : UInt16} {st : St} {ctx : Ctx} {log : List Ev} (hn : n < 2 ^ 24)
    (hq : q < 256) (k : UInt32) (hk : k.toNat < 2 ^ 24) : decPayload ⟨⟨pk n q, b, x, y, st⟩, ctx, log⟩ k =
      ⟨⟨pk (minus n k.toNat) q, b, x, y, st⟩, ctx, log⟩ := by
  obtain ⟨h1, h2⟩ := dec_num ⟨⟨pk n q, b, x, y, st⟩, ctx, log⟩ k hk
  rw [pk_hi hn hq] at h1
  rw [pk_lo hn hq] at h2
  have hm : minus n k.toNat = (n + 2 ^ 24 - k.toNat) % 2 ^ 24 := by unfold minus; split <;> omega
  have hlt : minus n k.toNat < 2 ^ 24 := by rw [hm]; exact Nat.mod_lt _ (by decide)
  rw [← hm] at h1
  have : (decPayload ⟨⟨pk n q, b, x, y, st⟩, ctx, log⟩ k).p.bit32a = pk (minus n k.toNat) q := by
    apply UInt32.toNat_inj.mp
    rw [pk_toNat hlt hq]
    simp only [Core.hi, Core.lo] at h1 h2
    omega
  revert this
  unfold decPayload
  simp only
  intro this
  rw [this]

theorem dec_actual {n q : Nat} {b : UInt32} {x y : UInt16} {st : St} {ctx : Ctx} {log : List Ev} (hn : n < 2 ^ 24)
    (hq : q < 256) : decPayload ⟨⟨pk n q, b, x, y, st⟩, ctx, log⟩ (actualLength ⟨pk n q, b, x, y, st⟩) =
      ⟨⟨pk q q, b, x, y, st⟩, ctx, log⟩ := by
  have h0 := dec_pk (n := q) (q := q) (b := b) (x := x) (y := y) (st := st) (ctx := ctx) (log := log) (by omega) hq 0
    (by decide)
  rw [show minus q (0 : UInt32).toNat = q by unfold minus; simp] at h0
  rw [← h0]
  unfold decPayload actualLength
  have e1 : (Core.mk (pk n q) b x y st).padLength = (Core.mk (pk q q) b x y st).padLength := by
    apply UInt32.toNat_inj.mp
    rw [pad_toNat, pad_toNat, pk_lo hn hq, pk_lo (by omega) hq]
  have e2 : (Core.mk (pk n q) b x y st).payloadLength -
      ((Core.mk (pk n q) b x y st).payloadLength - (Core.mk (pk n q) b x y st).padLength) =
      (Core.mk (pk q q) b x y st).payloadLength - 0 := by
    apply UInt32.toNat_inj.mp
    rw [UInt32.toNat_sub, UInt32.toNat_sub, UInt32.toNat_sub, payload_toNat, payload_toNat, pad_toNat, pk_lo hn hq, pk_hi hn hq,
      pk_hi (by omega) hq]
    show _ = (2 ^ 32 - 0 + q) % 2 ^ 32
    omega
  simp only [e1] at e2 ⊢
  rw [e2]

/-- The client at the end of the bytes. -/
theorem Ends.start (he : Ends h ⟨p, Ctx.new [], l⟩ L) (hp : p.st = .frameLength1) : L = flat l := by
  have hs : stepFn h ⟨p, Ctx.new [], l⟩ = .exit (.eos 0) ⟨p, Ctx.new [], l⟩ := by
    unfold stepFn
    rw [hp]
    simp only
    unfold Http2.stepFn
    rw [hp]
    rfl
  cases he with
  | eos h1 => rw [hs] at h1; cases h1; rfl
  | step h1 _ => rw [hs] at h1; cases h1
  | pause h1 _ _ => rw [hs] at h1; cases h1

/-- Padding. -/
theorem tells_padding {n q : Nat} {b : UInt32} {x y : UInt16} (hn : n < 2 ^ 24) (hq : q < 256) :
    Tells h ⟨pk n q, b, x, y, .framePadding⟩ r ([], some (r.drop n)) := by
  rintro ctx log L h1 h2 rfl h4
  refine EndsO.ends ?_
  have hl : ctx.rest.length ≤ n → L = flat log := by
    intro hle
    have := Ends.start (h4 ⟨0, 0, 0, 0, .frameLength1⟩ (Ctx.new []) log rfl rfl (Nat.le_refl _) (by
      rw [List.drop_of_length_le hle]; rfl) (by simp)) rfl
    exact this
  have hp : (Core.mk (pk n q) b x y .framePadding).payloadLength.toNat = n := by rw [payload_toNat, pk_hi hn hq]
  unfold stepFn
  simp only
  unfold frame_padding
  refine eo_eos (fun h0 => hl (by simp only at h0; rw [h0]; exact Nat.zero_le _)) fun _ => ?_
  simp only [hp]
  split
  · rename_i ha
    rw [← rest_length] at ha
    refine eo_transition (h4 _ _ _ rfl rfl (jump_le ha h2) ?_ (by simp [jump]))
    simp [Ctx.rest, Ctx.jump, Ctx.setMark, jump]
  · rename_i ha
    rw [← rest_length] at ha
    exact hl (by omega)

theorem flat_payload {k : Kind} {x : Bytes} {f : Bool} {log : List Ev} : flat (log ++ [.payload k x f]) =
    flat log ++ (x.map (.payload k [·] false) ++ if f then [.payload k [] true] else []) := by
  simp [flat, flatEv]

theorem pay_rank {st : St} {k : Kind} (hk : kindOf st = some k) : rank st = 2 := by
  revert hk
  cases st <;> simp [kindOf, rank]

theorem tells_data {k : Kind} {n q : Nat} {b : UInt32} {x y : UInt16} {st : St} (hn : n < 2 ^ 24) (hq : q < 256)
    (hk : kindOf st = some k) : Tells h ⟨pk n q, b, x, y, st⟩ r (readData k n q r) := by
  rintro ctx log L h1 h2 rfl h4
  have hrank := pay_rank hk
  by_cases hne : ctx.rest = []
  · refine EndsO.ends ?_
    rw [step_payload hk]
    refine eo_eos (fun _ => ?_) fun h0 => absurd hne h0
    have h4 : Rest h log (if ctx.rest = [] then ([], none) else _) L := h4
    rw [if_pos hne] at h4
    have h4 : L = flat log ++ [] := h4
    rw [h4, List.append_nil]
  · refine EndsO.ends ?_
    rw [step_payload hk]
    refine eo_eos (fun h0 => absurd h0 hne) fun _ => ?_
    have ha := actual_num ⟨pk n q, b, x, y, st⟩
    rw [pk_hi hn hq, pk_lo hn hq] at ha
    unfold readData at h4
    simp only at h4
    rw [if_neg hne, ← ha] at h4
    unfold parsePayloadData
    simp only
    generalize hz : actualLength ⟨pk n q, b, x, y, st⟩ = z at *
    have hpos : 0 < ctx.rest.length := List.length_pos_iff.mpr hne
    by_cases hl : ctx.rest.length < z.toNat
    · rw [if_neg (by rw [← rest_length]; omega), if_neg (by simp only [decPayload, jump, Ctx.jump]; omega)]
      rw [if_pos hl] at h4
      have h4 : L = flat log ++ ctx.rest.map (.payload k [·] false) := h4
      have hx : ctx.idx + ctx.available = ctx.stream.length := by unfold Ctx.available; omega
      have hsl : (ctx.jump ctx.available).slice = ctx.rest := by
        simp only [Ctx.slice, Ctx.jump, h1, Ctx.rest, hx]
        exact List.take_of_length_le (by simp)
      have hfl : L = flat (log ++ [.payload k (ctx.jump ctx.available).slice false]) := by
        rw [h4, hsl, flat_payload]; simp
      have hnil : (ctx.jump ctx.available).rest = [] := by
        simp only [Ctx.rest, Ctx.jump, hx]
        exact List.drop_length
      split
      · exact hfl
      · refine ⟨?_, ?_⟩
        · rw [again_mu]
          simp only [mu, decPayload, jump, Ctx.jump, Ctx.available]
          rw [hrank]
          rw [rest_length] at hpos
          simp only [Ctx.available] at hpos
          omega
        · refine EndsO.ends ?_
          rw [step_payload hk]
          refine eo_eos (fun _ => hfl) fun h0 => absurd ?_ h0
          show (Ctx.new (ctx.jump ctx.available).rest).rest = []
          rw [hnil]; rfl
    · rw [if_pos (by rw [← rest_length]; omega)]
      rw [if_neg hl] at h4
      have hd : decPayload (jump ⟨⟨pk n q, b, x, y, st⟩, ctx, log⟩ z.toNat) z =
          ⟨⟨pk q q, b, x, y, st⟩, ctx.jump z.toNat, log⟩ := by
        rw [← hz]
        exact dec_actual hn hq
      rw [hd]
      have hnp : ¬ (ctx.jump z.toNat).idx < (ctx.jump z.toNat).mark := by simp only [Ctx.jump, h1]; omega
      have hsl : (ctx.jump z.toNat).slice = ctx.rest.take z.toNat := by
        simp only [Ctx.slice, Ctx.jump, h1, Ctx.rest]
        congr 1
        omega
      have hrest : (ctx.jump z.toNat).rest = ctx.rest.drop z.toNat := by simp [Ctx.rest, Ctx.jump]
      have hidx : (ctx.jump z.toNat).idx ≤ (ctx.jump z.toNat).stream.length := by
        rw [rest_length] at hl
        simp only [Ctx.available, Ctx.jump] at hl ⊢
        omega
      have hlo : (pk q q &&& 0xFF).toNat = q := by
        rw [lo_and, pk_toNat (by omega) hq]; omega
      by_cases hq0 : q = 0
      · subst hq0
        have hg : ¬ (pk 0 0 &&& 0xFF > 0) := by
          intro hh
          have := UInt32.lt_iff_toNat_lt.mp hh
          rw [hlo] at this
          exact absurd this (by decide)
        rw [if_neg (by exact hnp), if_neg (by exact hg)]
        refine eo_callback ?_ (fun ctx' a1 a2 a3 => ?_) hidx
        · show 4 * _ + 0 < 4 * _ + rank st; rw [hrank]; simp only [setState, Ctx.available, Ctx.jump]; omega
        · refine h4 _ _ _ rfl a1 a2 ?_ ?_
          · rw [a3]; exact hrest
          · show flat (log ++ [.payload k (ctx.jump z.toNat).slice true]) = _
            rw [hsl, flat_payload]; simp
      · have hg : pk q q &&& 0xFF > 0 := by
          apply UInt32.lt_iff_toNat_lt.mpr
          rw [hlo]
          exact Nat.pos_of_ne_zero hq0
        rw [if_neg (by exact hnp), if_pos (by exact hg)]
        refine eo_callback ?_ (fun ctx' a1 a2 a3 => ?_) hidx
        · show 4 * _ + 1 < 4 * _ + rank st; rw [hrank]; simp only [setState, Ctx.available, Ctx.jump]; omega
        · refine tells_padding (n := q) (by omega) hq ctx' _ L a1 a2 rfl ?_
          intro s ctx'' log'' g1 g2 g3 g4 g5
          refine h4 s ctx'' log'' g1 g2 g3 ?_ ?_
          · rw [g4, a3]
            show (ctx.jump z.toNat).rest.drop q = _
            rw [hrest, List.drop_drop]
          · rw [g5]
            show flat (log ++ [.payload k (ctx.jump z.toNat).slice true]) ++ [] = _
            rw [hsl, flat_payload]; simp

end Verif.Http2.Release
