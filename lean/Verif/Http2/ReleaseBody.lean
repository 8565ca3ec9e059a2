import Verif.Http2.ReleaseAny

/-!
# The payloads, for the parser without overflow checks (helper lemmas)
-/

set_option linter.unusedSimpArgs false
set_option linter.unusedVariables false

namespace Verif.Http2.Release

variable {h : Handler} {p : Core} {r : Bytes} {L : List Ev}

/-- A callback. -/
theorem Tells.call {q : Core} {r' : Bytes} {t : Tale} {e : Ev} (ht : Tells h q r' t)
    (hs : ∀ (ctx : Ctx) (log : List Ev), ctx.idx ≤ ctx.stream.length → ctx.rest = r →
      ∃ ctx' : Ctx, stepFn h ⟨p, ctx, log⟩ = callback h ⟨q, ctx', log⟩ e ∧ ctx'.rest = r' ∧
        ctx'.idx ≤ ctx'.stream.length)
    (hm : 4 * r'.length + rank q.st < 4 * r.length + rank p.st) (he : flatEv e = [e]) : Tells h p r (tell [e] t) := by
  intro ctx log L h1 h2 h3 h4
  obtain ⟨ctx', g1, g2, g3⟩ := hs ctx log h2 h3
  refine EndsO.ends ?_
  rw [g1]
  refine eo_callback ?_ (fun x a1 a2 a3 => ?_) g3
  · show 4 * ctx'.available + rank q.st < 4 * ctx.available + rank p.st
    rw [← rest_length, ← rest_length, g2, h3]
    exact hm
  · exact ht x _ L a1 a2 (a3.trans g2) (h4.tell (by simp [flat, he]))

/-- The end of a frame. -/
theorem Tells.go (hp : p.st = .frameLength1) : Tells h p r ([], some r) := by
  intro ctx log L h1 h2 h3 h4
  exact h4 p ctx log hp h1 h2 h3 (by simp)

theorem minus_lt {n k : Nat} (hn : n < 2 ^ 24) (hk : 0 < k) : minus n k < 2 ^ 24 := by
  unfold minus
  split <;> omega

/-- The pad length. -/
theorem tells_pad {n : Nat} {s1 s2 : St} {F : Nat → Nat → Bytes → Tale} (hn : n < 2 ^ 24)
    (hs : ∀ c : Cfg, c.p.st = s1 → stepFn h c = (exitIfEos c <| getU8 c fun b c =>
      transition (decPayload (set32a c (c.p.bit32a ||| b.toUInt32)) 1) s2)) (h1 : 1 ≤ need s1)
    (hF : ∀ n q r, n < 2 ^ 24 → q < 256 → Tells h ⟨pk n q, 0, 0, 0, s2⟩ r (F n q r)) :
    Tells h ⟨pk n 0, 0, 0, 0, s1⟩ r (readPad true n r F) := by
  unfold readPad
  rw [if_pos rfl]
  refine tells_field1 h1 fun b r => ?_
  refine Tells.step (hF _ _ _ (minus_lt hn (by decide)) b.toNat_lt) ?_
  intro ctx log u L g1 g2 g3 hk
  rw [hs _ rfl]
  refine eo_eos (fun h0 => by simp only [g3] at h0; cases h0) fun _ => ?_
  refine eo_u8 g3 fun hr => ?_
  refine eo_transition ?_
  have hor : pk n 0 ||| b.toUInt32 = pk n b.toNat := by
    have := pk_or (n := n) (p := b.toNat) hn b.toNat_lt
    rwa [UInt8.ofNat_toNat] at this
  have hd := dec_pk (n := n) (q := b.toNat) (b := 0) (x := 0) (y := 0) (st := s1) (ctx := ctx.jump 1) (log := log) hn
    b.toNat_lt 1 (by decide)
  simp only [set32a, jump, hor, hd]
  exact hk _ rfl (jump_le (by rw [g3]; simp) g2) hr

/-- The promised stream of a PUSH_PROMISE frame. -/
theorem tells_push {n q x : Nat} (hn : n < 2 ^ 24) (hq : q < 256) :
    Tells h ⟨pk n q, UInt32.ofNat x, 0, 0, .pushPromiseCallback⟩ r (if r = [] then ([], none)
      else tell [.pushPromise (UInt32.ofNat x)] (readData .headersFragment (minus n 4) q r)) := by
  split
  · rename_i hr; subst hr; exact .none (by simp [need])
  · rename_i hr
    have hpos : 0 < r.length := List.length_pos_iff.mpr hr
    refine Tells.call (q := ⟨pk (minus n 4) q, UInt32.ofNat x, 0, 0, .headersFragment⟩)
      (tells_data (minus_lt hn (by decide)) hq rfl) ?_ (by simp only [rank]; omega) rfl
    intro ctx log g2 g3
    refine ⟨ctx, ?_, g3, g2⟩
    show push_promise_callback h _ = _
    unfold push_promise_callback exitIfEos
    rw [if_neg (by rw [← rest_length]; simp only [g3]; omega)]
    rw [dec_pk hn hq 4 (by decide)]
    rfl

/-- The callback of a HEADERS frame. -/
theorem tells_headers {n q : Nat} {v : UInt32} {w : UInt16} (hn : n < 2 ^ 24) (hq : q < 256) :
    Tells h ⟨pk n q, v, w, 0, .headersCallback⟩ r
      (tell [.headers (v >>> 31 == 1) (v &&& 0x7FFFFFFF) (w >>> 8).toUInt8] (readData .headersFragment n q r)) :=
  Tells.call (q := ⟨pk n q, v, w, 0, .headersFragment⟩) (tells_data hn hq rfl) (fun ctx log g2 g3 => ⟨ctx, rfl, g3, g2⟩)
    (by simp only [rank]; omega) rfl

theorem word_parts {d : Nat} (hd : d < 2 ^ 32) : (UInt32.ofNat d >>> 31 == 1) = decide (2 ^ 31 ≤ d) ∧
    UInt32.ofNat d &&& 0x7FFFFFFF = UInt32.ofNat (d % 2 ^ 31) := by
  obtain ⟨hw, hlt⟩ := num_word d hd
  have hd' := ofNat_word d hd
  rw [hd', word_shr hlt, word_and hlt]
  exact ⟨rfl, rfl⟩

theorem weight_byte (b : UInt8) : ((b.toUInt16 <<< 8) >>> 8).toUInt8 = b := by
  apply UInt8.toNat_inj.mp
  have := b.toNat_lt
  simp [UInt16.toNat_toUInt8, UInt16.toNat_shiftRight, UInt16.toNat_shiftLeft, Nat.shiftLeft_eq, Nat.shiftRight_eq_div_pow]
  omega

/-- The fields of a HEADERS frame with a priority. -/
theorem tells_prio {n q : Nat} (hn : n < 2 ^ 24) (hq : q < 256) :
    Tells h ⟨pk n q, 0, 0, 0, .headersStreamId1⟩ r (readField 4 r fun d r => readField 1 r fun w r =>
      tell [.headers (2 ^ 31 ≤ d) (UInt32.ofNat (d % 2 ^ 31)) (UInt8.ofNat w)]
        (readData .headersFragment (minus n 5) q r)) := by
  refine tells_field4 (s5 := .headersWeight) (fun c hs => ⟨_, by unfold stepFn; rw [hs]; simp only; unfold Http2.stepFn; rw [hs]; rfl⟩)
    (by decide) fun d r hd => ?_
  refine tells_field1 (by simp [need]) fun b r => ?_
  obtain ⟨e1, e2⟩ := word_parts hd
  rw [UInt8.ofNat_toNat, ← e1, ← e2]
  have := tells_headers (h := h) (r := r) (v := UInt32.ofNat d) (w := b.toUInt16 <<< 8) (minus_lt (k := 5) hn (by decide)) hq
  rw [weight_byte] at this
  refine Tells.step this ?_
  intro ctx log u L g1 g2 g3 hk
  show EndsO h u L (headers_weight _)
  unfold headers_weight
  refine eo_eos (fun h0 => by simp only [g3] at h0; cases h0) fun _ => ?_
  refine eo_u8 g3 fun hr => ?_
  refine eo_transition ?_
  have hd := dec_pk (n := n) (q := q) (b := UInt32.ofNat d) (x := b.toUInt16 <<< 8) (y := 0) (st := .headersWeight)
    (ctx := ctx.jump 1) (log := log) hn hq 5 (by decide)
  simp only [set16a, jump, hd]
  exact hk _ rfl (jump_le (by rw [g3]; simp) g2) hr

theorem tells_priority {n : Nat} : Tells h ⟨pk n 0, 0, 0, 0, .priorityStreamId1⟩ r
    (readField 4 r fun d r => readField 1 r fun w r =>
      ([.priority (2 ^ 31 ≤ d) (UInt32.ofNat (d % 2 ^ 31)) (UInt8.ofNat w)], some r)) := by
  refine tells_field4 (s5 := .priorityWeight) (fun c hs => ⟨_, by unfold stepFn; rw [hs]; simp only; unfold Http2.stepFn; rw [hs]; rfl⟩)
    (by decide) fun d r hd => ?_
  refine tells_field1 (by simp [need]) fun b r => ?_
  obtain ⟨e1, e2⟩ := word_parts hd
  rw [UInt8.ofNat_toNat, ← e1, ← e2]
  refine Tells.call (t := ([], some r)) (r' := r) (q := ⟨pk n 0, UInt32.ofNat d, 0, 0, .frameLength1⟩) (.go rfl) ?_
    (by simp only [rank, List.length_cons]; omega) rfl
  intro ctx log g2 g3
  have ha : ctx.available ≠ 0 := by rw [← rest_length, g3]; simp
  obtain ⟨b', k1, k2, -⟩ := rest_cons ha
  rw [g3] at k2
  cases k2
  refine ⟨ctx.jump 1, ?_, rfl, jump_le (by rw [g3]; simp) g2⟩
  show priority_weight h _ = _
  unfold priority_weight exitIfEos getU8
  rw [if_neg ha]
  simp only [k1]
  rfl

/-- A callback at the end of a frame. -/
theorem tells_last {q : Core} {e : Ev} (hp : rank p.st = 3) (hq : q.st = .frameLength1) (he : flatEv e = [e])
    (hs : ∀ ctx log, stepFn h ⟨p, ctx, log⟩ = callback h ⟨q, ctx, log⟩ e) : Tells h p r ([e], some r) :=
  Tells.call (t := ([], some r)) (q := q) (.go hq) (fun ctx log g2 g3 => ⟨ctx, hs ctx log, g3, g2⟩)
    (by rw [hp, hq]; simp only [rank]; omega) he

theorem tells_settings {n : Nat} : Tells h ⟨pk n 0, 0, 0, 0, .settingsId1⟩ r
    (readField 2 r fun i r => readField 4 r fun v r => ([.settings (UInt16.ofNat i) (UInt32.ofNat v)], some r)) := by
  have next : ∀ (i : Nat) (r : Bytes), Tells h ⟨pk n 0, 0, UInt16.ofNat i, 0, .settingsValue1⟩ r
      (readField 4 r fun v r => ([.settings (UInt16.ofNat i) (UInt32.ofNat v)], some r)) := fun i r =>
    tells_field4 (s5 := .settingsCallback) (fun c hs => ⟨_, by unfold stepFn; rw [hs]; simp only; unfold Http2.stepFn; rw [hs]; rfl⟩)
      (by decide) fun v r hv => tells_last rfl (q := ⟨_, _, _, _, .frameLength1⟩) rfl rfl fun ctx log => rfl
  unfold readField
  split
  · exact .none (by simp only [need]; omega)
  · match r with
    | [] | [_] => rename_i hl; exact absurd (by simp) hl
    | b1 :: b2 :: r =>
      obtain ⟨e1, e2⟩ := be_num2 b1 b2
      have e3 := be2 e1
      simp only [be, List.cons.injEq, and_true] at e2
      rw [e2.1, e2.2] at e3
      refine Tells.step (next (num [b1, b2]) r) ?_
      intro ctx log u L h1 h2 h3 hk
      show EndsO h u L (settings_id1 _)
      unfold settings_id1
      refine eo_eos (fun h0 => by simp only [h3] at h0; cases h0) fun _ => ?_
      rw [if_pos (by rw [← rest_length]; simp only [h3]; simp)]
      refine eo_u16 h3 fun hr => ?_
      refine eo_transition ?_
      simp only [e3]
      exact hk _ rfl (jump_le (by rw [h3]; simp) h2) hr

theorem tells_goAway {n : Nat} (hn : n < 2 ^ 24) : Tells h ⟨pk n 0, 0, 0, 0, .goAwayStreamId1⟩ r
    (readField 4 r fun l r => readField 4 r fun c r => tell [.goAway (UInt32.ofNat (l % 2 ^ 31)) (UInt32.ofNat c)]
      (if n = 8 then ([], some r) else readData .goAwayDebugData (minus n 8) 0 r)) := by
  refine tells_field4 (s5 := .goAwayErrorCode1) (fun c hs => ⟨_, by unfold stepFn; rw [hs]; simp only; unfold Http2.stepFn; rw [hs]; rfl⟩)
    (by decide) fun l r hl => ?_
  obtain ⟨-, el⟩ := word_parts hl
  unfold readField
  split
  · exact .none (by simp only [need]; omega)
  · match r with
    | [] | [_] | [_, _] | [_, _, _] => rename_i hl; exact absurd (by simp) hl
    | b1 :: b2 :: b3 :: b4 :: r =>
      have hm := minus_lt (n := n) (k := 8) hn (by decide)
      have ec : ((((0 : UInt16) ||| (b1.toUInt16 <<< 8)) ||| b2.toUInt16).toUInt32 <<< 16) |||
          (((0 : UInt16) ||| (b3.toUInt16 <<< 8)) ||| b4.toUInt16).toUInt32 = UInt32.ofNat (num [b1, b2, b3, b4]) := by
        have h1 := b1.toNat_lt
        have h2 := b2.toNat_lt
        have h3 := b3.toNat_lt
        have h4 := b4.toNat_lt
        have hN : num [b1, b2, b3, b4] = ((b1.toNat * 256 + b2.toNat) * 256 + b3.toNat) * 256 + b4.toNat := by simp [num]
        have hlt : num [b1, b2, b3, b4] < 2 ^ 32 := by omega
        have hc := code_split (UInt32.ofNat (num [b1, b2, b3, b4]))
        rw [UInt32.toNat_ofNat', Nat.mod_eq_of_lt hlt] at hc
        rw [← hc]
        congr 2
        · congr 1
          apply UInt16.toNat_inj.mp
          rw [val2, UInt16.toNat_ofNat', Nat.mod_eq_of_lt (by omega)]
          omega
        · apply UInt16.toNat_inj.mp
          rw [val2, UInt16.toNat_ofNat', Nat.mod_eq_of_lt (by omega)]
          omega
      have key : Tells h ⟨pk n 0, UInt32.ofNat l, ((0 : UInt16) ||| (b1.toUInt16 <<< 8)) ||| b2.toUInt16,
          ((0 : UInt16) ||| (b3.toUInt16 <<< 8)) ||| b4.toUInt16, .goAwayCallback⟩ r
          (tell [.goAway (UInt32.ofNat (l % 2 ^ 31)) (UInt32.ofNat (num [b1, b2, b3, b4]))]
            (if n = 8 then ([], some r) else readData .goAwayDebugData (minus n 8) 0 r)) := by
        rw [← ec, ← el]
        generalize ((0 : UInt16) ||| (b1.toUInt16 <<< 8)) ||| b2.toUInt16 = x
        generalize ((0 : UInt16) ||| (b3.toUInt16 <<< 8)) ||| b4.toUInt16 = y
        split
        · rename_i h8
          subst h8
          refine Tells.call (q := ⟨pk (minus 8 8) 0, UInt32.ofNat l, x, y, .frameLength1⟩) (.go rfl) (fun ctx log g2 g3 => ⟨ctx, ?_, g3, g2⟩) (by simp only [rank]; omega) rfl
          show go_away_callback h _ = _
          unfold go_away_callback
          rw [dec_pk hn (by decide) 8 (by decide)]
          simp only [setState]
          rw [if_neg]
          · rfl
          · intro hg
            have := UInt32.lt_iff_toNat_lt.mp hg
            rw [payload_toNat] at this
            have this : 0 < (Core.mk (pk (minus 8 8) 0) (UInt32.ofNat l) x y .goAwayCallback).hi := this
            rw [pk_hi hm (by decide)] at this
            exact absurd this (by decide)
        · rename_i h8
          refine Tells.call (q := ⟨pk (minus n 8) 0, UInt32.ofNat l, x, y, .goAwayDebugData⟩) (tells_data hm (by decide) rfl) (fun ctx log g2 g3 => ⟨ctx, ?_, g3, g2⟩) (by simp only [rank]; omega) rfl
          show go_away_callback h _ = _
          unfold go_away_callback
          rw [dec_pk hn (by decide) 8 (by decide)]
          simp only [setState]
          rw [if_pos]
          · rfl
          · apply UInt32.lt_iff_toNat_lt.mpr
            rw [payload_toNat]
            show 0 < (Core.mk (pk (minus n 8) 0) _ _ _ _).hi
            rw [pk_hi hm (by decide)]
            unfold minus
            split <;> omega
      refine Tells.step key ?_
      intro ctx log u L h1 h2 h3 hk
      show EndsO h u L (go_away_error_code1 _)
      unfold go_away_error_code1
      refine eo_eos (fun h0 => by simp only [h3] at h0; cases h0) fun _ => ?_
      rw [if_pos (by rw [← rest_length]; simp only [h3]; simp)]
      refine eo_u16 h3 fun hr => ?_
      refine eo_u16 hr fun hr => ?_
      refine eo_transition ?_
      exact hk _ rfl (jump_le (k := 4) (by rw [h3]; simp) h2) hr

end Verif.Http2.Release
