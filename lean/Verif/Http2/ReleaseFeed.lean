import Verif.Http2.Feed
import Verif.Http2.ReleaseLemmas
import Verif.Http2.ReleaseSpec

/-!
# Calls with a handler that refuses, without overflow checks (helper lemmas)

As `Verif.Http2.Pair` and `Verif.Http2.Feed`.
-/

set_option linter.unusedVariables false

namespace Verif.Http2.Release

variable {h : Handler} {c : Cfg} {pre : Bytes} {y : UInt8} {l0 : List Ev}

/-! ## State functions -/

theorem dec_shift (n : UInt32) : decPayload (shift pre y c) n = shift pre y (decPayload c n) := rfl

theorem pair_payload {k : Kind} : Pair h pre y c.log (parsePayloadData h c k) (parsePayloadData yes (shift pre y c) k) := by
  unfold parsePayloadData
  simp only [shift_p, shift_available, jump_shift, dec_shift]
  refine pair_ite Iff.rfl ?_ ?_
  · refine pair_ite shift_lt ⟨rfl, rfl⟩ ?_
    simp only [show ∀ (z : Cfg) (q : St), (setState z q).ctx = z.ctx from fun _ _ => rfl, shift_slice]
    exact pair_callback (c := setState (decPayload (jump c _) _) _) rfl
  · refine pair_ite shift_lt ⟨rfl, rfl⟩ ?_
    rw [shift_slice]
    simp only [yes]
    rw [if_pos trivial]
    split
    · rename_i hr
      exact ⟨rfl, rfl, rfl, .inr ⟨_, rfl, hr⟩⟩
    · rename_i hr
      refine ⟨rfl, rfl, rfl, ?_, _, rfl, by simpa using hr⟩
      show c.ctx.stream.length - (c.ctx.idx + c.ctx.available) = 0
      unfold Ctx.available
      omega

theorem pair_step : Pair h pre y c.log (stepFn h c) (stepFn yes (shift pre y c)) := by
  unfold stepFn
  simp only [shift_p]
  split
  · refine pair_eos rfl (pair_ite (by rw [shift_available]; rfl) ?_ ?_)
    · rw [shift_p, jump_shift]; exact pair_transition rfl
    · simp only [shift_available, dec_shift, jump_shift]; exact ⟨rfl, rfl, rfl, .inl rfl⟩
  · exact pair_eos rfl (pair_u8 rfl fun b c' hl => ⟨rfl, .inl hl⟩)
  · exact pair_eos rfl pair_payload
  · exact pair_callback (c := setState (decPayload c 8) _) rfl
  · exact pair_eos rfl pair_payload
  · exact pair_eos rfl (pair_u8 rfl fun b c' hl => ⟨rfl, .inl hl⟩)
  · exact pair_eos rfl (pair_u8 rfl fun b c' hl => ⟨rfl, .inl hl⟩)
  · exact pair_eos rfl (pair_u8 rfl fun b c' hl => ⟨rfl, .inl hl⟩)
  · exact pair_eos rfl pair_payload
  · exact pair_eos rfl pair_payload
  · exact pair_eos rfl (pair_u8 rfl fun b c' hl => ⟨rfl, .inl hl⟩)
  · exact pair_eos rfl (pair_callback (c := setState (decPayload c 4) _) rfl)
  · exact pair_eos rfl (pair_u8 rfl fun b c' hl => ⟨rfl, .inl hl⟩)
  · exact pair_eos rfl pair_payload
  · exact Http2.pair_step

theorem step_empty (hi : imm c.p.st = false) (hd : c.p.st ≠ .dead) (hf : c.p.st ≠ .finished)
    (h0 : c.ctx.available = 0) : stepFn h c = exitEos c := by
  cases hs : c.p.st <;> rw [hs] at hi hd hf <;> first
    | (simp only [stepFn, hs]; exact if_pos h0)
    | (simp only [stepFn, Http2.stepFn, hs]; exact if_pos h0)
    | exact absurd rfl hd
    | exact absurd rfl hf
    | exact absurd hi (by decide)

theorem step_imm (hi : imm c.p.st = true) (s : Success) (a : Cfg) : stepFn yes c ≠ .exit s a := by
  have hcb : ∀ (c' : Cfg) (e : Ev), callback yes c' e ≠ .exit s a := by
    intro c' e
    unfold callback yes
    simp [remark]
  cases hs : c.p.st <;> rw [hs] at hi <;> first | exact Bool.noConfusion hi | skip
  all_goals unfold stepFn; rw [hs]
  all_goals first
    | exact hcb _ _
    | (unfold Http2.stepFn; rw [hs]; exact hcb _ _)

/-- At the end of a slice, the state stays. -/
def Stays (st : St) : Out → Prop
  | .exit (.eos _) a => a.p.st = st
  | _ => True

theorem stays_ite {st : St} {P : Prop} [Decidable P] {a b : Out} (ha : Stays st a) (hb : Stays st b) :
    Stays st (if P then a else b) := by
  split
  · exact ha
  · exact hb

theorem stays_callback {st : St} {e : Ev} : Stays st (callback h c e) := by
  unfold callback
  exact stays_ite trivial trivial

theorem stays_eos {st : St} {k : Out} (hs : c.p.st = st) (hk : Stays st k) : Stays st (exitIfEos c k) := stays_ite hs hk

theorem stays_u8 {st : St} {k : UInt8 → Cfg → Out} (hk : ∀ b, Stays st (k b (jump c 1))) : Stays st (getU8 c k) := by
  unfold getU8
  split
  · exact hk _
  · trivial

theorem stays_u16 {st : St} {k : UInt16 → Cfg → Out} {x : UInt16} (hk : ∀ y, Stays st (k y (jump c 2))) :
    Stays st (readU16 c x k) := by
  unfold readU16
  split
  · exact hk _
  · trivial

theorem stays_u32 {st : St} {k : UInt32 → Cfg → Out} {x : UInt32} (hk : ∀ y, Stays st (k y (jump c 4))) :
    Stays st (readU32 c x k) := by
  unfold readU32
  split
  · exact hk _
  · trivial

theorem stays_payload {st : St} {k : Kind} (hs : c.p.st = st) : Stays st (parsePayloadData h c k) := by
  unfold parsePayloadData
  simp only
  exact stays_ite (stays_ite trivial stays_callback) (stays_ite trivial (stays_ite hs trivial))

/-- Go through a state function. -/
macro "stays_tac" : tactic => `(tactic| repeat' first
  | exact trivial
  | exact stays_callback
  | exact stays_payload (by assumption)
  | refine stays_eos (by assumption) ?_
  | refine stays_ite ?_ ?_
  | refine stays_u8 fun _ => ?_
  | refine stays_u32 fun _ => ?_
  | refine stays_u16 fun _ => ?_)

theorem step_stays : Stays c.p.st (stepFn h c) := by
  cases hs : c.p.st <;> unfold stepFn <;> rw [hs] <;> simp only <;> try (unfold Http2.stepFn; rw [hs]; simp only)
  · unfold dead; stays_tac
  · unfold frame_length1; stays_tac
  · unfold frame_length2; stays_tac
  · unfold frame_length3; stays_tac
  · unfold frame_type; stays_tac
  · unfold frame_flags; stays_tac
  · unfold frame_stream_id1; stays_tac
  · unfold frame_stream_id2; stays_tac
  · unfold frame_stream_id3; stays_tac
  · unfold frame_stream_id4; stays_tac
  · unfold frame_format_end; stays_tac
  · exact stays_eos hs (stays_ite trivial hs)
  · unfold data_pad_length; stays_tac
  · unfold data_data; stays_tac
  · unfold go_away_stream_id1; stays_tac
  · unfold go_away_stream_id2; stays_tac
  · unfold go_away_stream_id3; stays_tac
  · unfold go_away_stream_id4; stays_tac
  · unfold go_away_error_code1; stays_tac
  · unfold go_away_error_code2; stays_tac
  · unfold go_away_error_code3; stays_tac
  · unfold go_away_error_code4; stays_tac
  · unfold go_away_callback; stays_tac
  · unfold go_away_debug_data; stays_tac
  · unfold headers_pad_length_with_priority; stays_tac
  · unfold headers_pad_length_without_priority; stays_tac
  · unfold headers_stream_id1; stays_tac
  · unfold headers_stream_id2; stays_tac
  · unfold headers_stream_id3; stays_tac
  · unfold headers_stream_id4; stays_tac
  · unfold headers_weight; stays_tac
  · unfold headers_callback; stays_tac
  · unfold headers_fragment; stays_tac
  · unfold ping_data; stays_tac
  · unfold priority_stream_id1; stays_tac
  · unfold priority_stream_id2; stays_tac
  · unfold priority_stream_id3; stays_tac
  · unfold priority_stream_id4; stays_tac
  · unfold priority_weight; stays_tac
  · unfold push_promise_pad_length; stays_tac
  · unfold push_promise_stream_id1; stays_tac
  · unfold push_promise_stream_id2; stays_tac
  · unfold push_promise_stream_id3; stays_tac
  · unfold push_promise_stream_id4; stays_tac
  · unfold push_promise_callback; stays_tac
  · unfold rst_stream_error_code1; stays_tac
  · unfold rst_stream_error_code2; stays_tac
  · unfold rst_stream_error_code3; stays_tac
  · unfold rst_stream_error_code4; stays_tac
  · unfold rst_stream_callback; stays_tac
  · unfold settings_id1; stays_tac
  · unfold settings_id2; stays_tac
  · unfold settings_value1; stays_tac
  · unfold settings_value2; stays_tac
  · unfold settings_value3; stays_tac
  · unfold settings_value4; stays_tac
  · unfold settings_callback; stays_tac
  · unfold unsupported_pad_length; stays_tac
  · unfold unsupported_data; stays_tac
  · unfold window_update_increment1; stays_tac
  · unfold window_update_increment2; stays_tac
  · unfold window_update_increment3; stays_tac
  · unfold window_update_increment4; stays_tac
  · unfold window_update_callback; stays_tac
  · unfold finished; stays_tac

theorem eos_imm {n : Nat} {a : Cfg} (he : stepFn yes c = .exit (.eos n) a) : imm a.p.st = false := by
  have h1 := step_stays (h := yes) (c := c)
  rw [he] at h1
  rw [show a.p.st = c.p.st from h1]
  cases hi : imm c.p.st with
  | false => rfl
  | true => exact absurd he (step_imm hi _ _)

/-- One run with a handler, and one with the handler that always agrees. -/
def Both (h : Handler) (pre : Bytes) (y : UInt8) (c : Cfg) (m : Nat) : Res × Cfg → Prop
  | (.ok (.eos k), a) => k = a.ctx.idx ∧ a.ctx.stream = c.ctx.stream ∧ k = c.ctx.stream.length ∧
      parse yes m (shift pre y c) = (.ok (.eos (pre.length + k)), shift pre y a) ∧ Went h c.log a.log
  | (.ok (.callback k), a) => k = a.ctx.idx ∧ a.ctx.stream = c.ctx.stream ∧ k ≤ c.ctx.stream.length ∧
      (∃ l, Went h c.log l ∧ Refused h l a.log) ∧ mu a < mu c ∧
      ((a.ctx.available = 0 ∧ imm a.p.st = false ∧ parse yes m (shift pre y c) = (.ok (.eos (pre.length + k)), shift pre y a)) ∨
        ∃ m', mu a < m' ∧
          parse yes m (shift pre y c) = parse yes m' (shift pre y { a with ctx := a.ctx.setMark }))
  | (.panic, a) => (∃ b, parse yes m (shift pre y c) = (.panic, b) ∧ b.log = a.log) ∧ Went h c.log a.log
  | _ => False

theorem both : ∀ (n : Nat) (c : Cfg) (m : Nat), mu c < n → mu c < m → Ok c → c.p.st ≠ .dead → c.p.st ≠ .finished →
    Both h pre y c m (parse h n c)
  | 0, _, _, hn, _, _, _, _ => absurd hn (by omega)
  | _ + 1, _, 0, _, hm, _, _, _ => absurd hm (by omega)
  | n + 1, c, m + 1, hn, hm, hok, hd, hf => by
    have hx := step_T (h := h) hok hd hf
    have hy := step_T (h := yes) (shift_ok (pre := pre) (y := y) hok) hd hf
    have hp := pair_step (h := h) (pre := pre) (y := y) (c := c)
    rw [parse]
    generalize hl : stepFn h c = o at hx hp
    generalize hr : stepFn yes (shift pre y c) = o' at hy hp
    cases o with
    | cont a =>
      cases o' with
      | cont b =>
        obtain ⟨rfl, ha⟩ := hp
        obtain ⟨h1, h2, h3, h4, h5⟩ := hx
        have := both n a m (by omega) (by omega) h1 h4 h5
        simp only
        generalize parse h n a = r at this
        have hpar : parse yes (m + 1) (shift pre y c) = parse yes m (shift pre y a) := by rw [parse, hr]
        obtain ⟨r, a'⟩ := r
        cases r with
        | ok su =>
          cases su with
          | eos k =>
            obtain ⟨g1, g2, g3, g4, g5⟩ := this
            exact ⟨g1, g2.trans h2, by rw [g3, h2], by rw [hpar, g4], ha.went.trans g5⟩
          | callback k =>
            obtain ⟨g1, g2, g3, ⟨l, g4, g5⟩, g6, g7⟩ := this
            refine ⟨g1, g2.trans h2, by rw [← h2]; exact g3, ⟨l, ha.went.trans g4, g5⟩, by omega, ?_⟩
            rw [hpar]; exact g7
          | finished k => exact this
        | err => exact this
        | panic =>
          obtain ⟨⟨b, g1, g2⟩, g3⟩ := this
          exact ⟨⟨b, by rw [hpar, g1], g2⟩, ha.went.trans g3⟩
        | diverge => exact this
      | exit su b => cases su <;> exact hp.elim
      | err b => exact hp.elim
      | panic l => exact hp.elim
    | exit su a =>
      cases su with
      | eos k =>
        cases o' with
        | cont b => exact hp.elim
        | exit su' b =>
          cases su' with
          | eos k' =>
            obtain ⟨rfl, rfl, rfl, ha⟩ := hp
            obtain ⟨h1, h2, h3, h4, h5⟩ := hx
            exact ⟨rfl, h1, h3, by rw [parse, hr]; rfl, ha.went⟩
          | callback k' => exact hp.elim
          | finished k' => exact hp.elim
        | err b => exact hp.elim
        | panic l => exact hp.elim
      | callback k =>
        cases o' with
        | cont b =>
          obtain ⟨rfl, rfl, ha⟩ := hp
          obtain ⟨h1, h2, h3, h4, h5⟩ := hx
          obtain ⟨g1, g2, g3, -⟩ := hy
          rw [shift_mu, shift_mu, mu_setMark] at g3
          exact ⟨rfl, h1, h3, ⟨_, .refl, ha⟩, g3, .inr ⟨m, by omega, by rw [parse, hr]⟩⟩
        | exit su' b =>
          cases su' with
          | eos k' =>
            obtain ⟨rfl, rfl, rfl, h0, ha⟩ := hp
            obtain ⟨h1, h2, h3, h4, h5⟩ := hx
            refine ⟨rfl, h1, h3, ⟨_, .refl, ha⟩, ?_, .inl ⟨h0, eos_imm (a := shift pre y a) hr, by rw [parse, hr]; rfl⟩⟩
            have hc : c.ctx.available ≠ 0 := by
              intro hc
              cases hi : imm c.p.st with
              | false => rw [step_empty hi hd hf hc] at hl; simp [exitEos] at hl
              | true => exact step_imm (c := shift pre y c) hi _ _ hr
            have := rank_le a.p.st
            unfold mu
            omega
          | callback k' => exact hp.elim
          | finished k' => exact hp.elim
        | err b => exact hp.elim
        | panic l => exact hp.elim
      | finished k => exact hx.elim
    | err a => exact hx.elim
    | panic l =>
      cases o' with
      | cont b => exact hp.elim
      | exit su' b => cases su' <;> exact hp.elim
      | err b => exact hp.elim
      | panic l' =>
        obtain ⟨rfl, rfl⟩ := hp
        exact ⟨⟨{ shift pre y c with log := c.log }, by rw [parse, hr], rfl⟩, .refl⟩

/-! ## Calls -/

/-- One call: what the loop did, and what `resume` makes of it. -/
theorem resume_both {w : World} {s : Bytes} (hd : w.p.st ≠ .dead) (hf : w.p.st ≠ .finished) {m : Nat}
    (hm : mu (start w s) < m) : ∃ r a, Both h pre y (start w s) m (r, a) ∧
      ((∃ k, r = .ok (.eos k) ∨ r = .ok (.callback k)) ∧ resume h w s = (r, ⟨⟨a.p, w.p.byteCount + a.ctx.idx⟩, a.log⟩) ∨
        r = .panic ∧ resume h w s = (.panic, ⟨w.p, a.log⟩)) := by
  have hb := both (h := h) (pre := pre) (y := y) (fuel s.length) (start w s) m (start_fuel w s) hm
    ⟨rfl, Nat.zero_le _⟩ hd hf
  have hr : resume h w s = (match parse h (fuel s.length) (start w s) with
      | (.ok (.finished n), c) => (.ok (.finished n), ⟨⟨{ c.p with st := .finished }, w.p.byteCount + c.ctx.idx⟩, c.log⟩)
      | (.ok su, c) => (.ok su, ⟨⟨c.p, w.p.byteCount + c.ctx.idx⟩, c.log⟩)
      | (.err, c) => (.err, ⟨⟨{ c.p with st := .dead }, w.p.byteCount + c.ctx.idx⟩, c.log⟩)
      | (r, c) => (r, ⟨w.p, c.log⟩)) := by
    unfold resume start
    generalize parse h (fuel s.length) _ = o
    obtain ⟨r, c⟩ := o
    cases r with
    | ok su => cases su <;> rfl
    | err => rfl
    | panic => rfl
    | diverge => rfl
  revert hb hr
  generalize parse h (fuel s.length) (start w s) = o
  obtain ⟨r, a⟩ := o
  intro hb hr
  refine ⟨r, a, hb, ?_⟩
  cases r with
  | ok su =>
    cases su with
    | eos k => exact .inl ⟨⟨k, .inl rfl⟩, hr⟩
    | callback k => exact .inl ⟨⟨k, .inr rfl⟩, hr⟩
    | finished k => exact hb.elim
  | err => exact hb.elim
  | panic => exact .inr ⟨rfl, hr⟩
  | diverge => exact hb.elim

/-- A call with nothing. -/
theorem resume_nil {w : World} (hi : imm w.p.st = false) (hd : w.p.st ≠ .dead) (hf : w.p.st ≠ .finished) :
    resume h w [] = (.ok (.eos 0), w) := by
  have : parse h (fuel 0) (start w []) = (.ok (.eos 0), start w []) := by
    rw [show fuel 0 = 7 + 1 from rfl, parse, step_empty (c := start w []) hi hd hf rfl]
    rfl
  unfold resume
  rw [show parse h (fuel ([] : Bytes).length) ⟨w.p.toCore, Ctx.new [], w.log⟩ = _ from this]
  rfl

/-! ## Passing a slice on -/

theorem feed_pair : ∀ (N : Nat) (w : World) (s pre : Bytes) (B m : Nat), w.p.st ≠ .dead → w.p.st ≠ .finished →
    w.p.byteCount = B + pre.length → mu (start w s) < N → mu (start w s) < m →
    SameOut (feed h N w s) (finish B (pre ++ s) (parse yes m (shift pre 0 (start w s))))
  | 0, _, _, _, _, _, _, _, _, hN, _ => absurd hN (by omega)
  | N + 1, w, s, pre, B, m, hd, hf, hB, hN, hm => by
    have hc := call_T (h := h) (s := s) hd hf
    obtain ⟨r, a, hb, hr⟩ := resume_both (h := h) (pre := pre) (y := 0) hd hf hm
    rcases hr with ⟨⟨k, rfl | rfl⟩, hr⟩ | ⟨rfl, hr⟩
    · obtain ⟨rfl, h1, h2, h3, -⟩ := hb
      left
      rw [feed, hr, h3]
      simp only [finish, shift]
      rw [drop_add, hB, Nat.add_assoc]
    · obtain ⟨rfl, h1, h2, -, h4, h5⟩ := hb
      rw [hr] at hc
      obtain ⟨-, -, g3, g4⟩ := hc
      rw [feed, hr]
      simp only
      have ha : a.ctx.available = s.length - a.ctx.idx := by unfold Ctx.available; rw [h1]; rfl
      have hle : a.ctx.idx ≤ s.length := h2
      rcases h5 with ⟨h0, g2, h5⟩ | ⟨m', h5, h6⟩
      · left
        have hs : s.drop a.ctx.idx = [] := List.drop_of_length_le (by omega)
        obtain ⟨N', rfl⟩ : ∃ N', N = N' + 1 := ⟨N - 1, by omega⟩
        rw [hs, feed, resume_nil g2 g3 g4, h5]
        simp only [finish, shift]
        rw [drop_add, hs, hB, Nat.add_assoc]
        rfl
      · have hst : shift (pre ++ s.take a.ctx.idx) 0 (start ⟨⟨a.p, w.p.byteCount + a.ctx.idx⟩, a.log⟩ (s.drop a.ctx.idx)) =
            shift pre 0 { a with ctx := a.ctx.setMark } := by
          simp only [shift, start, Ctx.new, Ctx.setMark, h1, List.append_assoc, List.take_append_drop, List.length_append,
            List.length_take, Nat.min_eq_left hle, Nat.add_zero]
        have hmu : mu (start ⟨⟨a.p, w.p.byteCount + a.ctx.idx⟩, a.log⟩ (s.drop a.ctx.idx)) = mu a := by
          rw [start_mu, mu, ha, List.length_drop]
        have := feed_pair N ⟨⟨a.p, w.p.byteCount + a.ctx.idx⟩, a.log⟩ (s.drop a.ctx.idx) (pre ++ s.take a.ctx.idx) B m'
          g3 g4 (by simp only [List.length_append, List.length_take, Nat.min_eq_left hle, hB]; omega)
          (by omega) (by omega)
        rw [hst, List.append_assoc, List.take_append_drop, ← h6] at this
        exact this
    · obtain ⟨⟨b, h1, h2⟩, -⟩ := hb
      right
      rw [feed, hr, h1]
      exact ⟨rfl, rfl, h2.symm⟩

theorem feed_same {w : World} {s : Bytes} (hd : w.p.st ≠ .dead) (hf : w.p.st ≠ .finished)
    {n : Nat} (hn : 4 * s.length + 4 ≤ n) : SameOut (feed h n w s) (feed yes 1 w s) := by
  have hm := start_fuel w s
  have hr := rank_le w.p.st
  have h1 := feed_pair (h := h) n w s [] w.p.byteCount _ hd hf rfl (by rw [start_mu]; omega) hm
  rw [shift_nil] at h1
  have hy := both (h := yes) (pre := []) (y := 0) (fuel s.length) (start w s) _ hm hm ⟨rfl, Nat.zero_le _⟩ hd hf
  have hr : resume yes w s = (match parse yes (fuel s.length) (start w s) with
      | (.ok (.finished n), c) => (.ok (.finished n), ⟨⟨{ c.p with st := .finished }, w.p.byteCount + c.ctx.idx⟩, c.log⟩)
      | (.ok su, c) => (.ok su, ⟨⟨c.p, w.p.byteCount + c.ctx.idx⟩, c.log⟩)
      | (.err, c) => (.err, ⟨⟨{ c.p with st := .dead }, w.p.byteCount + c.ctx.idx⟩, c.log⟩)
      | (r, c) => (r, ⟨w.p, c.log⟩)) := by
    unfold resume start
    generalize parse yes (fuel s.length) _ = o
    obtain ⟨r, c⟩ := o
    cases r with
    | ok su => cases su <;> rfl
    | err => rfl
    | panic => rfl
    | diverge => rfl
  rw [feed, hr]
  revert h1 hy
  generalize parse yes (fuel s.length) (start w s) = o
  obtain ⟨r, a⟩ := o
  intro h1 hy
  cases r with
  | ok su =>
    cases su with
    | eos k => exact h1
    | callback k => obtain ⟨-, -, -, ⟨_, _, _, _, hno⟩, -⟩ := hy; cases hno
    | finished k => exact hy.elim
  | err => exact hy.elim
  | panic =>
    rcases h1 with h1 | ⟨h1, -, h3⟩
    · right; rw [h1]; exact ⟨rfl, rfl, rfl⟩
    · right; exact ⟨h1, rfl, h3⟩
  | diverge => exact hy.elim

end Verif.Http2.Release
