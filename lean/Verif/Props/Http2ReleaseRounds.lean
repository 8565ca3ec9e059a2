import Verif.Http2.Rounds
import Verif.Http2.ReleaseLemmas
import Verif.Http2.FrameSpec

/-!
# C117: the work is linear in the number of bytes, for HTTP/2 without overflow checks

`resumeRounds` and `driveRounds` are the same as in `Verif.Http2.Rounds`, for `Verif.Http2.Release`.
-/

namespace Verif.Http2.Release

/-- How many state functions the loop calls. src/http2/parser.rs 258-279, as `Release.parse`. -/
def rounds (h : Handler) : Nat → Cfg → Nat
  | 0, _ => 0
  | n + 1, c =>
    match stepFn h c with
    | .cont c' => rounds h n c' + 1
    | _ => 1

/-- The same without fuel: `Loops h c n` says that the loop ends after `n` state functions. src/http2/parser.rs 258-279. -/
inductive Loops (h : Handler) : Cfg → Nat → Prop
  | stop {c} : (∀ c', stepFn h c ≠ .cont c') → Loops h c 1
  | more {c c' n} : stepFn h c = .cont c' → Loops h c' n → Loops h c (n + 1)

/-- How many state functions a call of `resume` calls. src/http2/parser.rs 255-280, as `Release.resume`. -/
def resumeRounds (h : Handler) (w : World) (s : Bytes) : Nat := rounds h (fuel s.length) ⟨w.p.toCore, Ctx.new s, w.log⟩

/-- How many state functions are called in a client run, see `Release.drive`. -/
def driveRounds (h : Handler) : List Nat → World → Bytes → Nat
  | [], _, _ => 0
  | k :: ks, w, rem =>
    resumeRounds h w (rem.take k) +
      match resume h w (rem.take k) with
      | (.ok (.callback n), w') => driveRounds h ks w' (rem.drop n)
      | (.ok (.eos n), w') => driveRounds h ks w' (rem.drop n)
      | _ => 0

/-! ## Helper lemmas -/

variable {h : Handler} {c : Cfg} {i : Nat}

/-- A state function that returns to the caller has not gone back before `i`. -/
def Mono (i : Nat) : Out → Prop
  | .exit _ a => i ≤ a.ctx.idx
  | _ => True

theorem mono_ite {P : Prop} [Decidable P] {a b : Out} (ha : Mono i a) (hb : Mono i b) : Mono i (if P then a else b) := by
  split
  · exact ha
  · exact hb

theorem mono_callback {e : Ev} (hi : i ≤ c.ctx.idx) : Mono i (callback h c e) := by
  unfold callback
  exact mono_ite trivial hi

theorem mono_eos {k : Out} (hi : i ≤ c.ctx.idx) (hk : Mono i k) : Mono i (exitIfEos c k) := mono_ite hi hk

theorem mono_u8 {k : UInt8 → Cfg → Out} (hk : ∀ b, Mono i (k b (jump c 1))) : Mono i (getU8 c k) := by
  unfold getU8
  split
  · exact hk _
  · trivial

theorem mono_u16 {k : UInt16 → Cfg → Out} {x : UInt16} (hk : ∀ y, Mono i (k y (jump c 2))) : Mono i (readU16 c x k) := by
  unfold readU16
  split
  · exact hk _
  · trivial

theorem mono_u32 {k : UInt32 → Cfg → Out} {x : UInt32} (hk : ∀ y, Mono i (k y (jump c 4))) : Mono i (readU32 c x k) := by
  unfold readU32
  split
  · exact hk _
  · trivial

theorem mono_payload {k : Kind} (hi : i ≤ c.ctx.idx) : Mono i (parsePayloadData h c k) := by
  unfold parsePayloadData
  simp only
  refine mono_ite (mono_ite trivial (mono_callback ?_)) (mono_ite trivial (mono_ite ?_ ?_))
  all_goals
    show i ≤ c.ctx.idx + _
    omega

/-- Go through a state function. -/
macro "mono_tac" : tactic => `(tactic| repeat' first
  | exact trivial
  | exact Nat.le_refl _
  | exact Nat.le_add_right _ _
  | refine mono_callback ?_
  | refine mono_payload ?_
  | refine mono_eos ?_ ?_
  | refine mono_ite ?_ ?_
  | refine mono_u8 fun _ => ?_
  | refine mono_u32 fun _ => ?_
  | refine mono_u16 fun _ => ?_)

theorem step_mono : Mono c.ctx.idx (stepFn h c) := by
  cases hs : c.p.st <;> unfold stepFn <;> rw [hs] <;> simp only <;> try (unfold Http2.stepFn; rw [hs]; simp only)
  · unfold dead; mono_tac
  · unfold frame_length1; mono_tac
  · unfold frame_length2; mono_tac
  · unfold frame_length3; mono_tac
  · unfold frame_type; mono_tac
  · unfold frame_flags; mono_tac
  · unfold frame_stream_id1; mono_tac
  · unfold frame_stream_id2; mono_tac
  · unfold frame_stream_id3; mono_tac
  · unfold frame_stream_id4; mono_tac
  · unfold frame_format_end; mono_tac
  · unfold frame_padding; mono_tac
  · unfold data_pad_length; mono_tac
  · unfold data_data; mono_tac
  · unfold go_away_stream_id1; mono_tac
  · unfold go_away_stream_id2; mono_tac
  · unfold go_away_stream_id3; mono_tac
  · unfold go_away_stream_id4; mono_tac
  · unfold go_away_error_code1; mono_tac
  · unfold go_away_error_code2; mono_tac
  · unfold go_away_error_code3; mono_tac
  · unfold go_away_error_code4; mono_tac
  · unfold go_away_callback; mono_tac
  · unfold go_away_debug_data; mono_tac
  · unfold headers_pad_length_with_priority; mono_tac
  · unfold headers_pad_length_without_priority; mono_tac
  · unfold headers_stream_id1; mono_tac
  · unfold headers_stream_id2; mono_tac
  · unfold headers_stream_id3; mono_tac
  · unfold headers_stream_id4; mono_tac
  · unfold headers_weight; mono_tac
  · unfold headers_callback; mono_tac
  · unfold headers_fragment; mono_tac
  · unfold ping_data; mono_tac
  · unfold priority_stream_id1; mono_tac
  · unfold priority_stream_id2; mono_tac
  · unfold priority_stream_id3; mono_tac
  · unfold priority_stream_id4; mono_tac
  · unfold priority_weight; mono_tac
  · unfold push_promise_pad_length; mono_tac
  · unfold push_promise_stream_id1; mono_tac
  · unfold push_promise_stream_id2; mono_tac
  · unfold push_promise_stream_id3; mono_tac
  · unfold push_promise_stream_id4; mono_tac
  · unfold push_promise_callback; mono_tac
  · unfold rst_stream_error_code1; mono_tac
  · unfold rst_stream_error_code2; mono_tac
  · unfold rst_stream_error_code3; mono_tac
  · unfold rst_stream_error_code4; mono_tac
  · unfold rst_stream_callback; mono_tac
  · unfold settings_id1; mono_tac
  · unfold settings_id2; mono_tac
  · unfold settings_value1; mono_tac
  · unfold settings_value2; mono_tac
  · unfold settings_value3; mono_tac
  · unfold settings_value4; mono_tac
  · unfold settings_callback; mono_tac
  · unfold unsupported_pad_length; mono_tac
  · unfold unsupported_data; mono_tac
  · unfold window_update_increment1; mono_tac
  · unfold window_update_increment2; mono_tac
  · unfold window_update_increment3; mono_tac
  · unfold window_update_increment4; mono_tac
  · unfold window_update_callback; mono_tac
  · unfold finished; mono_tac

theorem rounds_le (h : Handler) : ∀ (n : Nat) (c : Cfg), mu c < n → Ok c → c.p.st ≠ .dead → c.p.st ≠ .finished →
    rounds h n c + 4 * (parse h n c).2.ctx.available ≤ mu c + 1
  | 0, c, hm, _, _, _ => absurd hm (Nat.not_lt_zero _)
  | n + 1, c, hm, hok, hd, hf => by
    have hx := step_T (h := h) hok hd hf
    have hy := step_mono (h := h) (c := c)
    rw [parse, rounds]
    generalize stepFn h c = o at *
    cases o with
    | cont a =>
      obtain ⟨h1, h2, h3, h4, h5⟩ := hx
      have ih := rounds_le h n a (by omega) h1 h4 h5
      dsimp only
      omega
    | exit su a =>
      have hy : c.ctx.idx ≤ a.ctx.idx := hy
      have hs : a.ctx.stream = c.ctx.stream := by
        cases su with
        | callback k => exact hx.1
        | eos k => exact hx.1
        | finished k => exact hx.elim
      unfold mu
      dsimp only
      simp only [Ctx.available, hs]
      omega
    | err a => exact hx.elim
    | panic l => unfold mu; dsimp only; omega

/-- What a call starts with. -/
def start (w : World) (s : Bytes) : Cfg := ⟨w.p.toCore, Ctx.new s, w.log⟩

theorem start_mu (w : World) (s : Bytes) : mu (start w s) = 4 * s.length + rank w.p.st := by
  simp [mu, start, Ctx.available, Ctx.new]

theorem start_fuel (w : World) (s : Bytes) : mu (start w s) < fuel s.length := by
  have := rank_le w.p.st
  rw [start_mu]
  unfold fuel
  omega

/-- Where the loop stops. -/
def Stops (s : Bytes) : Res × Cfg → Prop
  | (.ok (.callback k), a) => k ≤ s.length ∧ k = a.ctx.idx ∧ a.ctx.stream = s
  | (.ok (.eos k), _) => k = s.length
  | _ => True

theorem parse_stops (h : Handler) : ∀ (n : Nat) (c : Cfg), Ok c → c.p.st ≠ .dead → c.p.st ≠ .finished →
    Stops c.ctx.stream (parse h n c)
  | 0, c, _, _, _ => trivial
  | n + 1, c, hok, hd, hf => by
    have hx := step_T (h := h) hok hd hf
    rw [parse]
    generalize stepFn h c = o at *
    cases o with
    | cont a =>
      obtain ⟨h1, h2, h3, h4, h5⟩ := hx
      rw [← h2]
      exact parse_stops h n a h1 h4 h5
    | exit su a =>
      cases su with
      | callback k => exact ⟨hx.2.2.1, hx.2.1, hx.1⟩
      | eos k => exact hx.2.2.1
      | finished k => trivial
    | err a => trivial
    | panic l => trivial

theorem resume_parse (h : Handler) (w : World) (s : Bytes) :
    (resume h w s).1 = (parse h (fuel s.length) (start w s)).1 := by
  unfold resume start
  generalize parse h (fuel s.length) _ = o
  obtain ⟨r, c⟩ := o
  cases r with
  | ok su => cases su <;> rfl
  | err => rfl
  | panic => rfl
  | diverge => rfl

theorem call_rounds (h : Handler) (w : World) (s : Bytes) :
    resumeRounds h w s ≤ 4 * s.length + 4 ∧
    ∀ k, (resume h w s).1 = .ok (.callback k) ∨ (resume h w s).1 = .ok (.eos k) →
      k ≤ s.length ∧ resumeRounds h w s ≤ 4 * k + 4 := by
  rw [resume_parse, show resumeRounds h w s = rounds h (fuel s.length) (start w s) from rfl]
  by_cases hd : w.p.st = .dead
  · have e : stepFn h (start w s) = .err (start w s) := by
      have : (start w s).p.st = .dead := hd
      unfold stepFn
      rw [this]
      simp only
      unfold Http2.stepFn
      rw [this]
      rfl
    rw [show fuel s.length = 4 * s.length + 7 + 1 from rfl, rounds, parse, e]
    dsimp only
    exact ⟨by omega, fun k hk => by rcases hk with hk | hk <;> cases hk⟩
  by_cases hf : w.p.st = .finished
  · have e : stepFn h (start w s) = .exit (.finished 0) (start w s) := by
      have : (start w s).p.st = .finished := hf
      unfold stepFn
      rw [this]
      simp only
      unfold Http2.stepFn
      rw [this]
      rfl
    rw [show fuel s.length = 4 * s.length + 7 + 1 from rfl, rounds, parse, e]
    dsimp only
    exact ⟨by omega, fun k hk => by rcases hk with hk | hk <;> cases hk⟩
  have h1 := rounds_le h (fuel s.length) (start w s) (start_fuel w s) ⟨rfl, Nat.zero_le _⟩ hd hf
  have h2 : Stops s _ := parse_stops h (fuel s.length) (start w s) ⟨rfl, Nat.zero_le _⟩ hd hf
  rw [start_mu] at h1
  have := rank_le w.p.st
  generalize rounds h (fuel s.length) (start w s) = a at *
  generalize hpc : parse h (fuel s.length) (start w s) = o at h1 h2 ⊢
  obtain ⟨r, c⟩ := o
  refine ⟨by omega, fun k hk => ?_⟩
  dsimp only at hk
  rcases hk with rfl | rfl
  · obtain ⟨g1, g2, g3⟩ := h2
    simp only [Ctx.available, g3] at h1
    omega
  · have g3 : k = s.length := h2
    omega

theorem rounds_loops (h : Handler) : ∀ (n : Nat) (c : Cfg), mu c < n → Ok c → Loops h c (rounds h n c)
  | 0, c, hm, _ => absurd hm (Nat.not_lt_zero _)
  | n + 1, c, hm, hok => by
    rw [rounds]
    by_cases hd : c.p.st = .dead
    · have e : stepFn h c = .err c := by unfold stepFn; rw [hd]; simp only; unfold Http2.stepFn; rw [hd]; rfl
      rw [e]
      exact .stop (by simp [e])
    by_cases hf : c.p.st = .finished
    · have e : stepFn h c = .exit (.finished c.ctx.idx) c := by unfold stepFn; rw [hf]; simp only; unfold Http2.stepFn; rw [hf]; rfl
      rw [e]
      exact .stop (by simp [e])
    have hx := step_T (h := h) hok hd hf
    cases heq : stepFn h c with
    | cont a =>
      rw [heq] at hx
      obtain ⟨h1, h2, h3, h4, h5⟩ := hx
      exact .more heq (rounds_loops h n a (by omega) h1)
    | exit su a => exact .stop (by simp [heq])
    | err a => exact .stop (by simp [heq])
    | panic l => exact .stop (by simp [heq])

/-! ## C117 -/

/-- **C117**, without overflow checks. The fuel of the model has no part in the numbers: the loop of `resume` ends after the number of state functions
that `resumeRounds` says. -/
theorem C117_release_counted (h : Handler) (w : World) (s : Bytes) :
    Loops h ⟨w.p.toCore, Ctx.new s, w.log⟩ (resumeRounds h w s) :=
  rounds_loops h _ (start w s) (start_fuel w s) ⟨rfl, Nat.zero_le _⟩

example : Loops ⟨fun _ => true⟩ ⟨Parser.new.toCore, Ctx.new (header 8 6 0 false 0), []⟩ 5 :=
  C117_release_counted ⟨fun _ => true⟩ ⟨.new, []⟩ (header 8 6 0 false 0)

/-- **C117**, without overflow checks. A call of `resume` that processes `n` bytes of its slice calls at most `4 * n + 4` state functions; no call
more than `4 * length + 4`. -/
theorem C117_release_call (h : Handler) (w : World) (s : Bytes) :
    resumeRounds h w s ≤ 4 * s.length + 4 ∧
    ∀ n, (resume h w s).1 = .ok (.callback n) ∨ (resume h w s).1 = .ok (.eos n) → resumeRounds h w s ≤ 4 * n + 4 :=
  ⟨(call_rounds h w s).1, fun n hn => ((call_rounds h w s).2 n hn).2⟩

example : let s := header 1 0 8 false 1 ++ [5, 97, 98, 99]
    (resume ⟨fun _ => true⟩ ⟨.new, []⟩ s).1 = .ok (.eos 13) ∧ resumeRounds ⟨fun _ => true⟩ ⟨.new, []⟩ s = 6 := by
  decide +kernel

/-- **C117**, without overflow checks. A client that reads any bytes calls at most 4 state functions per byte and 4 per call of `resume`, however it
cuts the bytes, wherever the handler pauses, and however often bytes are passed again after a pause. -/
theorem C117_release_client (h : Handler) : ∀ (ks : List Nat) (w : World) (msg : Bytes),
    driveRounds h ks w msg ≤ 4 * msg.length + 4 * ks.length
  | [], w, msg => Nat.zero_le _
  | k :: ks, w, msg => by
    obtain ⟨h1, h2⟩ := call_rounds h w (msg.take k)
    have hl : (msg.take k).length ≤ msg.length := by rw [List.length_take]; omega
    simp only [driveRounds, List.length_cons]
    generalize resumeRounds h w (msg.take k) = a at *
    generalize resume h w (msg.take k) = R at *
    obtain ⟨r, w'⟩ := R
    cases r with
    | ok su =>
      cases su with
      | callback n =>
        obtain ⟨h3, h4⟩ := h2 n (.inl rfl)
        have ih := C117_release_client h ks w' (msg.drop n)
        rw [List.length_drop] at ih
        dsimp only
        omega
      | eos n =>
        obtain ⟨h3, h4⟩ := h2 n (.inr rfl)
        have ih := C117_release_client h ks w' (msg.drop n)
        rw [List.length_drop] at ih
        dsimp only
        omega
      | finished n => dsimp only; omega
    | err => dsimp only; omega
    | panic => dsimp only; omega
    | diverge => dsimp only; omega

/-- A DATA frame with more padding than payload: the payload length wraps around, and the PING frame is taken for data. -/
example : let m := header 1 0 8 false 1 ++ [5] ++ header 8 6 0 false 0 ++ [1, 2, 3, 4, 5, 6, 7, 8]
    (drive ⟨fun _ => false⟩ .idle [] (List.replicate 10 100) ⟨.new, []⟩ m).last = .eos ∧
    driveRounds ⟨fun _ => false⟩ (List.replicate 10 100) ⟨.new, []⟩ m = 14 := by
  decide +kernel

end Verif.Http2.Release
