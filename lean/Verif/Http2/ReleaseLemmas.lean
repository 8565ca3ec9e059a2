import Verif.Http2.Release
import Verif.Http2.Total

/-!
# The parser without overflow checks: agreement with the checked one, and progress (helper lemmas)
-/

set_option linter.unusedSimpArgs false
set_option linter.unusedVariables false

namespace Verif.Http2.Release

variable {h : Handler} {c : Cfg}

/-! ## Agreement -/

theorem dec_agree {n : UInt32} {k : Cfg → Out} :
    (∃ l, Http2.decPayload c n k = .panic l) ∨ Http2.decPayload c n k = k (decPayload c n) := by
  unfold Http2.decPayload Core.decPayloadLength
  by_cases h0 : c.p.payloadLength < n
  · rw [if_pos h0]; exact .inl ⟨_, rfl⟩
  · rw [if_neg h0]; exact .inr rfl

/-- The checked state function panics, or both do the same. -/
def Agree (o r : Out) : Prop := (∃ l, o = .panic l) ∨ o = r

theorem Agree.rfl {o : Out} : Agree o o := .inr (Eq.refl o)

theorem agree_eos {o r : Out} (hk : Agree o r) : Agree (exitIfEos c o) (exitIfEos c r) := by
  unfold exitIfEos
  split
  · exact .rfl
  · exact hk

theorem agree_u8 {f g : UInt8 → Cfg → Out} (hk : ∀ b c, Agree (f b c) (g b c)) : Agree (getU8 c f) (getU8 c g) := by
  unfold getU8
  split
  · exact hk _ _
  · exact .rfl

theorem agree_dec {n : UInt32} {k : Cfg → Out} {r : Out} (hk : k (decPayload c n) = r) :
    Agree (Http2.decPayload c n k) r := by
  rw [← hk]
  exact dec_agree

theorem agree_payload {k : Kind} : Agree (Http2.parsePayloadData h c k) (parsePayloadData h c k) := by
  unfold Http2.parsePayloadData Core.actualLength
  by_cases h0 : c.p.payloadLength < c.p.padLength
  · rw [if_pos h0]; exact .inl ⟨_, Eq.refl _⟩
  · rw [if_neg h0]
    unfold parsePayloadData actualLength
    simp only
    split
    · exact agree_dec (Eq.refl _)
    · exact agree_dec (Eq.refl _)

theorem agree_padding : Agree (Http2.frame_padding c) (frame_padding c) := by
  unfold Http2.frame_padding frame_padding
  refine agree_eos ?_
  split
  · exact .rfl
  · exact agree_dec (Eq.refl _)

theorem agree_step : Agree (Http2.stepFn h c) (stepFn h c) := by
  unfold stepFn
  split <;> rename_i hs <;> first
    | exact .rfl
    | (unfold Http2.stepFn; rw [hs]; simp only)
  · exact agree_padding
  · exact agree_eos (agree_u8 fun _ _ => agree_dec (Eq.refl _))
  · exact agree_eos agree_payload
  · exact agree_dec (Eq.refl _)
  · exact agree_eos agree_payload
  · exact agree_eos (agree_u8 fun _ _ => agree_dec (Eq.refl _))
  · exact agree_eos (agree_u8 fun _ _ => agree_dec (Eq.refl _))
  · exact agree_eos (agree_u8 fun _ _ => agree_dec (Eq.refl _))
  · exact agree_eos agree_payload
  · exact agree_eos agree_payload
  · exact agree_eos (agree_u8 fun _ _ => agree_dec (Eq.refl _))
  · exact agree_eos (agree_dec (Eq.refl _))
  · exact agree_eos (agree_u8 fun _ _ => agree_dec (Eq.refl _))
  · exact agree_eos agree_payload

theorem agree_parse : ∀ (n : Nat) (c : Cfg), (Http2.parse h n c).1 = .panic ∨ parse h n c = Http2.parse h n c
  | 0, c => .inr rfl
  | n + 1, c => by
    rw [Http2.parse, parse]
    rcases agree_step (h := h) (c := c) with ⟨l, hl⟩ | hl
    · rw [hl]; exact .inl rfl
    · rw [← hl]
      cases Http2.stepFn h c with
      | cont c' => exact agree_parse n c'
      | exit s c' => exact .inr rfl
      | err c' => exact .inr rfl
      | panic l => exact .inr rfl

theorem agree_resume (w : World) (s : Bytes) :
    (Http2.resume h w s).1 = .panic ∨ resume h w s = Http2.resume h w s := by
  unfold resume Http2.resume
  rcases agree_parse (h := h) (fuel s.length) ⟨w.p.toCore, Ctx.new s, w.log⟩ with hp | hp
  · left
    revert hp
    generalize Http2.parse h (fuel s.length) ⟨w.p.toCore, Ctx.new s, w.log⟩ = o
    obtain ⟨r, c⟩ := o
    intro hp
    cases hp
    rfl
  · right
    rw [hp]
    generalize Http2.parse h (fuel s.length) ⟨w.p.toCore, Ctx.new s, w.log⟩ = o
    obtain ⟨r, c⟩ := o
    cases r with
    | ok su => cases su <;> rfl
    | err => rfl
    | panic => rfl
    | diverge => rfl

theorem agree_drive : ∀ (ks : List Nat) (last : End) (sts : List Stop) (w : World) (rem : Bytes),
    (Http2.drive h last sts ks w rem).last = .panic ∨
    drive h last sts ks w rem = Http2.drive h last sts ks w rem
  | [], last, sts, w, rem => .inr rfl
  | k :: ks, last, sts, w, rem => by
    rw [Http2.drive, drive]
    rcases agree_resume (h := h) w (rem.take k) with hr | hr
    · left
      revert hr
      generalize Http2.resume h w (rem.take k) = o
      obtain ⟨r, w'⟩ := o
      intro hp
      cases hp
      rfl
    · rw [hr]
      generalize Http2.resume h w (rem.take k) = o
      obtain ⟨r, w'⟩ := o
      cases r with
      | ok su =>
        cases su with
        | eos n => exact agree_drive ks _ _ _ _
        | callback n => exact agree_drive ks _ _ _ _
        | finished n => exact .inr rfl
      | err => exact .inr rfl
      | panic => exact .inr rfl
      | diverge => exact .inr rfl

/-! ## No panics -/

/-- Not a panic. -/
def Np (o : Out) : Prop := ∀ l, o ≠ .panic l

theorem np_eos {k : Out} (hk : 1 ≤ c.ctx.available → Np k) : Np (exitIfEos c k) := by
  unfold exitIfEos
  split
  · exact nofun
  · exact hk (by omega)

theorem np_u8 {k : UInt8 → Cfg → Out} (ha : 1 ≤ c.ctx.available) (hk : ∀ b, Np (k b (jump c 1))) : Np (getU8 c k) := by
  obtain ⟨b, g1, -, -⟩ := rest_cons (x := c.ctx) (by omega)
  simp only [getU8, g1]
  exact hk b

theorem np_u16 {k : UInt16 → Cfg → Out} {i : UInt16} (ha : 2 ≤ c.ctx.available) (hk : ∀ x, Np (k x (jump c 2))) :
    Np (readU16 c i k) := by
  obtain ⟨b, g1, -, g⟩ := rest_cons (x := c.ctx) (by omega)
  obtain ⟨b', g2, -, -⟩ := rest_cons (x := c.ctx.jump 1) (by omega)
  have g2 : c.ctx.stream[c.ctx.idx + 1]? = some b' := g2
  simp only [readU16, g1, g2]
  exact hk _

theorem np_u32 {k : UInt32 → Cfg → Out} {i : UInt32} (ha : 4 ≤ c.ctx.available) (hk : ∀ x, Np (k x (jump c 4))) :
    Np (readU32 c i k) := by
  obtain ⟨b1, b2, b3, b4, g1, g2, g3, g4, hr, ha⟩ := rest_four ha
  simp only [readU32, g1, g2, g3, g4]
  exact hk _

theorem np_ite {P : Prop} [Decidable P] {a b : Out} (ha : P → Np a) (hb : ¬ P → Np b) : Np (if P then a else b) := by
  split
  · rename_i hp; exact ha hp
  · rename_i hp; exact hb hp

theorem np_callback {e : Ev} : Np (callback h c e) := by
  unfold callback
  exact np_ite (fun _ => nofun) (fun _ => nofun)

theorem np_exitEos : Np (exitEos c) := nofun

theorem np_err : Np (.err c) := nofun

theorem np_exit {s : Success} : Np (.exit s c) := nofun

theorem np_two {x : UInt16} (ha : 4 ≤ c.ctx.available) : 2 ≤ (set16a (jump c 2) x).ctx.available := by
  show 2 ≤ (c.ctx.jump 2).available
  simp only [Ctx.available, Ctx.jump] at ha ⊢
  omega

theorem np_transition {st : St} : Np (transition c st) := nofun

theorem np_payload {k : Kind} (hok : Ok c) : Np (parsePayloadData h c k) := by
  unfold parsePayloadData
  simp only
  have := hok.mark
  refine np_ite (fun _ => np_ite (fun hx => ?_) fun _ => np_callback) fun _ => np_ite (fun hx => ?_) fun _ =>
    np_ite (fun _ => nofun) (fun _ => nofun)
  · simp only [decPayload, jump, setState, Ctx.jump] at hx
    omega
  · simp only [decPayload, jump, setState, Ctx.jump] at hx
    omega

/-- Go through a state function. -/
macro "np_tac" : tactic => `(tactic| repeat' first
  | exact np_callback
  | exact np_transition
  | exact np_exitEos
  | exact np_err
  | exact np_exit
  | exact np_payload (by assumption)
  | refine np_eos fun _ => ?_
  | refine np_ite (fun _ => ?_) (fun _ => ?_)
  | refine np_u8 (by assumption) fun _ => ?_
  | refine np_u32 (by assumption) fun _ => ?_
  | refine np_u16 (by first | assumption | omega) fun _ => ?_
  | refine np_u16 (np_two (by assumption)) fun _ => ?_)

theorem step_np (hok : Ok c) : Np (stepFn h c) := by
  cases hs : c.p.st <;> unfold stepFn <;> rw [hs] <;> simp only <;> try (unfold Http2.stepFn; rw [hs]; simp only)
  · unfold dead; np_tac
  · unfold frame_length1; np_tac
  · unfold frame_length2; np_tac
  · unfold frame_length3; np_tac
  · unfold frame_type; np_tac
  · unfold frame_flags; np_tac
  · unfold frame_stream_id1; np_tac
  · unfold frame_stream_id2; np_tac
  · unfold frame_stream_id3; np_tac
  · unfold frame_stream_id4; np_tac
  · unfold frame_format_end; np_tac
  · unfold frame_padding; np_tac
  · unfold data_pad_length; np_tac
  · unfold data_data; np_tac
  · unfold go_away_stream_id1; np_tac
  · unfold go_away_stream_id2; np_tac
  · unfold go_away_stream_id3; np_tac
  · unfold go_away_stream_id4; np_tac
  · unfold go_away_error_code1; np_tac
  · unfold go_away_error_code2; np_tac
  · unfold go_away_error_code3; np_tac
  · unfold go_away_error_code4; np_tac
  · unfold go_away_callback; np_tac
  · unfold go_away_debug_data; np_tac
  · unfold headers_pad_length_with_priority; np_tac
  · unfold headers_pad_length_without_priority; np_tac
  · unfold headers_stream_id1; np_tac
  · unfold headers_stream_id2; np_tac
  · unfold headers_stream_id3; np_tac
  · unfold headers_stream_id4; np_tac
  · unfold headers_weight; np_tac
  · unfold headers_callback; np_tac
  · unfold headers_fragment; np_tac
  · unfold ping_data; np_tac
  · unfold priority_stream_id1; np_tac
  · unfold priority_stream_id2; np_tac
  · unfold priority_stream_id3; np_tac
  · unfold priority_stream_id4; np_tac
  · unfold priority_weight; np_tac
  · unfold push_promise_pad_length; np_tac
  · unfold push_promise_stream_id1; np_tac
  · unfold push_promise_stream_id2; np_tac
  · unfold push_promise_stream_id3; np_tac
  · unfold push_promise_stream_id4; np_tac
  · unfold push_promise_callback; np_tac
  · unfold rst_stream_error_code1; np_tac
  · unfold rst_stream_error_code2; np_tac
  · unfold rst_stream_error_code3; np_tac
  · unfold rst_stream_error_code4; np_tac
  · unfold rst_stream_callback; np_tac
  · unfold settings_id1; np_tac
  · unfold settings_id2; np_tac
  · unfold settings_value1; np_tac
  · unfold settings_value2; np_tac
  · unfold settings_value3; np_tac
  · unfold settings_value4; np_tac
  · unfold settings_callback; np_tac
  · unfold unsupported_pad_length; np_tac
  · unfold unsupported_data; np_tac
  · unfold window_update_increment1; np_tac
  · unfold window_update_increment2; np_tac
  · unfold window_update_increment3; np_tac
  · unfold window_update_increment4; np_tac
  · unfold window_update_callback; np_tac
  · unfold finished; np_tac

/-! ## Progress -/

theorem callbackT {c' : Cfg} {e : Ev} (hs : c'.ctx.stream = c.ctx.stream) (hi : c'.ctx.idx ≤ c'.ctx.stream.length)
    (hm : mu c' < mu c) (ha : c'.p.st ≠ .dead ∧ c'.p.st ≠ .finished) : StepT c (callback h c' e) := by
  unfold callback
  simp only
  split
  · exact ⟨⟨rfl, hi⟩, hs, hm, ha⟩
  · exact ⟨hs, rfl, by rw [← hs]; exact hi, ha⟩

theorem eosT {k : Out} (hok : Ok c) (h0 : c.p.st ≠ .dead ∧ c.p.st ≠ .finished)
    (hk : 1 ≤ c.ctx.available → StepT c k) : StepT c (exitIfEos c k) := by
  unfold exitIfEos
  split
  · rename_i ha
    refine ⟨rfl, rfl, ?_, h0⟩
    have := hok.le
    unfold Ctx.available at ha
    omega
  · exact hk (by omega)

/-- The states of payload data. -/
def payState : St → Bool
  | .dataData | .goAwayDebugData | .headersFragment | .pingData | .unsupportedData => true
  | _ => false

theorem payloadT {k : Kind} (hok : Ok c) (hs : payState c.p.st = true) (ha : 1 ≤ c.ctx.available) :
    StepT c (parsePayloadData h c k) := by
  have hle := hok.le
  have hr : rank c.p.st = 2 := by
    revert hs
    generalize c.p.st = st
    cases st <;> simp [payState, rank]
  have hd : c.p.st ≠ .dead ∧ c.p.st ≠ .finished := by
    revert hs
    generalize c.p.st = st
    cases st <;> simp [payState]
  have hm := hok.mark
  unfold parsePayloadData
  simp only
  split
  · rename_i hn
    rw [if_neg (by simp only [decPayload, jump, setState, Ctx.jump]; omega)]
    refine callbackT rfl ?_ ?_ ?_
    · simp only [decPayload, jump, setState, Ctx.jump]
      unfold Ctx.available at hn
      omega
    · show 4 * (c.ctx.jump _).available + rank (if _ then _ else _) < 4 * c.ctx.available + rank _
      have : ∀ P : Prop, ∀ _ : Decidable P, rank (if P then St.framePadding else .frameLength1) ≤ 1 := by
        intro P _; split <;> decide
      have := this (((decPayload (jump c (actualLength c.p).toNat) (actualLength c.p)).p.bit32a &&& 0xFF) > 0) inferInstance
      simp only [Ctx.jump, Ctx.available] at *
      omega
    · constructor <;> (simp only [setState]; split <;> nofun)
  · rename_i hn
    rw [if_neg (by simp only [decPayload, jump, setState, Ctx.jump]; omega)]
    have hx : (jump (decPayload c (UInt32.ofNat c.ctx.available)) c.ctx.available).ctx.idx = c.ctx.stream.length := by
      simp only [decPayload, jump, Ctx.jump]
      unfold Ctx.available
      omega
    split
    · exact ⟨rfl, rfl, hx, hd⟩
    · exact ⟨rfl, rfl, Nat.le_of_eq hx, hd⟩

theorem paddingT (hok : Ok c) (hs : c.p.st = .framePadding) : StepT c (frame_padding c) := by
  have hle := hok.le
  refine eosT hok (by rw [hs]; exact ⟨nofun, nofun⟩) fun ha => ?_
  have ha' := ha
  unfold Ctx.available at ha'
  split
  · rename_i hn
    unfold Ctx.available at hn
    refine ⟨⟨rfl, ?_⟩, rfl, ?_, nofun, nofun⟩
    · simp only [jump, setState, Ctx.jump, Ctx.setMark]
      omega
    · show 4 * (c.ctx.jump _).available + rank _ < 4 * c.ctx.available + rank _
      rw [hs]
      have : rank St.framePadding = 1 := rfl
      have : rank St.frameLength1 = 0 := rfl
      simp only [setState, Ctx.jump, Ctx.available] at *
      omega
  · refine ⟨rfl, rfl, ?_, ?_⟩
    · simp only [decPayload, jump, Ctx.jump]
      unfold Ctx.available
      omega
    · show c.p.st ≠ _ ∧ c.p.st ≠ _
      rw [hs]; exact ⟨nofun, nofun⟩

theorem step_T (hok : Ok c) (h1 : c.p.st ≠ .dead) (h2 : c.p.st ≠ .finished) : StepT c (stepFn h c) := by
  unfold stepFn
  split <;> rename_i hs
  · exact paddingT hok hs
  · exact byteT hok (fun b s => { s with bit32a := ({ s with bit32a := s.bit32a ||| b.toUInt32 } : Core).padLength |||
      ((({ s with bit32a := s.bit32a ||| b.toUInt32 } : Core).payloadLength - 1) <<< 8), st := .dataData }) (by rfl)
      ⟨h1, h2⟩ (fun b => ⟨nofun, nofun⟩)
  · exact eosT hok ⟨h1, h2⟩ (payloadT hok (by rw [hs]; rfl))
  · refine callbackT rfl hok.le ?_ ?_
    · show 4 * c.ctx.available + rank (if _ then _ else _) < 4 * c.ctx.available + rank _
      rw [hs]
      have : rank St.goAwayCallback = 3 := rfl
      have : ∀ P : Prop, ∀ _ : Decidable P, rank (if P then St.goAwayDebugData else .frameLength1) ≤ 2 := by
        intro P _; split <;> decide
      have := this ((decPayload c 8).p.payloadLength > 0) inferInstance
      omega
    · constructor <;> (simp only [setState]; split <;> nofun)
  · exact eosT hok ⟨h1, h2⟩ (payloadT hok (by rw [hs]; rfl))
  · exact byteT hok (fun b s => { s with bit32a := ({ s with bit32a := s.bit32a ||| b.toUInt32 } : Core).padLength |||
      ((({ s with bit32a := s.bit32a ||| b.toUInt32 } : Core).payloadLength - 1) <<< 8), st := .headersStreamId1 }) (by rfl)
      ⟨h1, h2⟩ (fun b => ⟨nofun, nofun⟩)
  · exact byteT hok (fun b s => { s with bit32a := ({ s with bit32a := s.bit32a ||| b.toUInt32 } : Core).padLength |||
      ((({ s with bit32a := s.bit32a ||| b.toUInt32 } : Core).payloadLength - 1) <<< 8), st := .headersCallback }) (by rfl)
      ⟨h1, h2⟩ (fun b => ⟨nofun, nofun⟩)
  · exact byteT hok (fun b s => { s with bit16a := b.toUInt16 <<< 8, st := .headersCallback, bit32a := s.padLength |||
      ((s.payloadLength - 5) <<< 8) }) (by rfl) ⟨h1, h2⟩ (fun b => ⟨nofun, nofun⟩)
  · exact eosT hok ⟨h1, h2⟩ (payloadT hok (by rw [hs]; rfl))
  · exact eosT hok ⟨h1, h2⟩ (payloadT hok (by rw [hs]; rfl))
  · exact byteT hok (fun b s => { s with bit32a := ({ s with bit32a := s.bit32a ||| b.toUInt32 } : Core).padLength |||
      ((({ s with bit32a := s.bit32a ||| b.toUInt32 } : Core).payloadLength - 1) <<< 8), st := .pushPromiseStreamId1 }) (by rfl)
      ⟨h1, h2⟩ (fun b => ⟨nofun, nofun⟩)
  · refine eosT hok ⟨h1, h2⟩ fun ha => callbackT rfl hok.le ?_ ⟨nofun, nofun⟩
    show 4 * c.ctx.available + rank St.headersFragment < 4 * c.ctx.available + rank _
    rw [hs]
    have : rank St.pushPromiseCallback = 3 := rfl
    have : rank St.headersFragment = 2 := rfl
    omega
  · exact byteT hok (fun b s => { s with bit32a := ({ s with bit32a := s.bit32a ||| b.toUInt32 } : Core).padLength |||
      ((({ s with bit32a := s.bit32a ||| b.toUInt32 } : Core).payloadLength - 1) <<< 8), st := .unsupportedData }) (by rfl)
      ⟨h1, h2⟩ (fun b => ⟨nofun, nofun⟩)
  · exact eosT hok ⟨h1, h2⟩ (payloadT hok (by rw [hs]; rfl))
  · exact Http2.step_T hok h1 h2

/-! ## Calls -/

/-- What every call of `resume` returns. -/
def CallT (w : World) (s : Bytes) : Res × World → Prop
  | (.ok (.callback n), w') => n ≤ s.length ∧ w'.p.byteCount = w.p.byteCount + n ∧ w'.p.st ≠ .dead ∧
      w'.p.st ≠ .finished
  | (.ok (.eos n), w') => n = s.length ∧ w'.p.byteCount = w.p.byteCount + n ∧ w'.p.st ≠ .dead ∧ w'.p.st ≠ .finished
  | _ => False

theorem parse_T (s : Bytes) (w : World) : ∀ (n : Nat) (c : Cfg), mu c < n → Ok c → c.ctx.stream = s →
    c.p.st ≠ .dead → c.p.st ≠ .finished →
    CallT w s (match parse h n c with
      | (.ok (.finished n), c) => (.ok (.finished n), ⟨⟨{ c.p with st := .finished }, w.p.byteCount + c.ctx.idx⟩, c.log⟩)
      | (.ok su, c) => (.ok su, ⟨⟨c.p, w.p.byteCount + c.ctx.idx⟩, c.log⟩)
      | (.err, c) => (.err, ⟨⟨{ c.p with st := .dead }, w.p.byteCount + c.ctx.idx⟩, c.log⟩)
      | (r, c) => (r, ⟨w.p, c.log⟩))
  | 0, c, hm, _, _, _, _ => absurd hm (by omega)
  | n + 1, c, hm, hok, hs, hd, hf => by
    have hx := step_T (h := h) hok hd hf
    have hy := step_np (h := h) hok
    rw [parse]
    generalize stepFn h c = o at hx hy
    cases o with
    | cont c' =>
      obtain ⟨h1, h2, h3, h4, h5⟩ := hx
      exact parse_T s w n c' (by omega) h1 (h2.trans hs) h4 h5
    | exit su c' =>
      cases su with
      | eos n =>
        obtain ⟨h1, h2, h3, h4⟩ := hx
        exact ⟨by rw [h3, hs], by rw [h2], h4⟩
      | callback n =>
        obtain ⟨h1, h2, h3, h4⟩ := hx
        exact ⟨by rw [← hs]; exact h3, by rw [h2], h4⟩
      | finished n => exact hx
    | err c' => exact hx
    | panic log => exact absurd rfl (hy log)

theorem call_T {w : World} {s : Bytes} (hd : w.p.st ≠ .dead) (hf : w.p.st ≠ .finished) :
    CallT w s (resume h w s) := by
  have := parse_T (h := h) s w (fuel s.length) ⟨w.p.toCore, Ctx.new s, w.log⟩ ?_ ⟨rfl, Nat.zero_le _⟩ rfl hd hf
  · unfold resume
    revert this
    generalize parse h (fuel s.length) ⟨w.p.toCore, Ctx.new s, w.log⟩ = o
    obtain ⟨r, c⟩ := o
    intro this
    cases r with
    | ok su => cases su <;> exact this
    | err => exact this
    | panic => exact this
    | diverge => exact this
  · have := rank_le w.p.st
    simp only [mu, fuel, Ctx.available, Ctx.new]
    omega

end Verif.Http2.Release
