import Verif.Props.Http2Pauses
import Verif.Http2.Rounds
import Verif.Http2.Feed
import Verif.Http2.FrameSpec

/-!
# C117: the work is linear in the number of bytes, for HTTP/2

`rounds`, `resumeRounds` and `driveRounds` are defined in `Verif.Http2.Rounds`.
-/

namespace Verif.Http2

/-! ## Helper lemmas -/

/-- What the loop leaves unread after a pause. -/
def unread : Res × Cfg → Nat
  | (.ok (.callback _), a) => a.ctx.available
  | _ => 0

theorem rounds_le (h : Handler) : ∀ (n : Nat) (c : Cfg), mu c < n → Ok c → c.p.st ≠ .dead → c.p.st ≠ .finished →
    rounds h n c + 4 * unread (parse h n c) ≤ mu c + 1
  | 0, c, hm, _, _, _ => absurd hm (Nat.not_lt_zero _)
  | n + 1, c, hm, hok, hd, hf => by
    have hx := step_T (h := h) hok hd hf
    have hb := both (h := h) (pre := []) (y := 0) (n + 1) c (n + 1) hm hm hok hd hf
    rw [parse] at hb ⊢
    rw [rounds]
    generalize stepFn h c = o at *
    cases o with
    | cont a =>
      obtain ⟨h1, h2, h3, h4, h5⟩ := hx
      have ih := rounds_le h n a (by omega) h1 h4 h5
      dsimp only
      omega
    | exit su a =>
      cases su with
      | callback k =>
        obtain ⟨-, -, -, -, hb, -⟩ := hb
        unfold mu at *
        simp only [unread]
        omega
      | eos k => simp only [unread]; omega
      | finished k => simp only [unread]; omega
    | err a => simp only [unread]; omega
    | panic l => simp only [unread]; omega

theorem resume_parse (h : Handler) (w : World) (s : Bytes) :
    (resume h w s).1 = (parse h (fuel s.length) (start w s)).1 := by
  unfold resume start
  generalize parse h (fuel s.length) _ = o
  obtain ⟨r, c⟩ := o
  cases r with
  | ok su => cases su <;> rfl
  | err => rfl
  | panic => rfl
  | diverge => rfl

theorem call_rounds (h : Handler) (w : World) (s : Bytes) :
    resumeRounds h w s ≤ 4 * s.length + 4 ∧
    ∀ k, (resume h w s).1 = .ok (.callback k) ∨ (resume h w s).1 = .ok (.eos k) →
      k ≤ s.length ∧ resumeRounds h w s ≤ 4 * k + 4 := by
  rw [resume_parse, show resumeRounds h w s = rounds h (fuel s.length) (start w s) from rfl]
  by_cases hd : w.p.st = .dead
  · have e : stepFn h (start w s) = .err (start w s) := by
      have : (start w s).p.st = .dead := hd
      unfold stepFn
      rw [this]
      rfl
    rw [show fuel s.length = 4 * s.length + 7 + 1 from rfl, rounds, parse, e]
    dsimp only
    exact ⟨by omega, fun k hk => by rcases hk with hk | hk <;> cases hk⟩
  by_cases hf : w.p.st = .finished
  · have e : stepFn h (start w s) = .exit (.finished 0) (start w s) := by
      have : (start w s).p.st = .finished := hf
      unfold stepFn
      rw [this]
      rfl
    rw [show fuel s.length = 4 * s.length + 7 + 1 from rfl, rounds, parse, e]
    dsimp only
    exact ⟨by omega, fun k hk => by rcases hk with hk | hk <;> cases hk⟩
  have h1 := rounds_le h (fuel s.length) (start w s) (start_fuel w s) ⟨rfl, Nat.zero_le _⟩ hd hf
  have h2 := both (h := h) (pre := []) (y := 0) (fuel s.length) (start w s) _ (start_fuel w s) (start_fuel w s)
    ⟨rfl, Nat.zero_le _⟩ hd hf
  rw [start_mu] at h1
  have := rank_le w.p.st
  generalize rounds h (fuel s.length) (start w s) = a at *
  generalize hpc : parse h (fuel s.length) (start w s) = o at h1 h2 ⊢
  obtain ⟨r, c⟩ := o
  refine ⟨by omega, fun k hk => ?_⟩
  dsimp only at hk
  rcases hk with rfl | rfl
  · obtain ⟨g1, g2, g3, -⟩ := h2
    have g2 : c.ctx.stream = s := g2
    have g3 : k ≤ s.length := g3
    simp only [unread, Ctx.available, g2] at h1
    omega
  · obtain ⟨-, -, g3, -⟩ := h2
    have g3 : k = s.length := g3
    omega

theorem rounds_loops (h : Handler) : ∀ (n : Nat) (c : Cfg), mu c < n → Ok c → Loops h c (rounds h n c)
  | 0, c, hm, _ => absurd hm (Nat.not_lt_zero _)
  | n + 1, c, hm, hok => by
    rw [rounds]
    by_cases hd : c.p.st = .dead
    · have e : stepFn h c = .err c := by unfold stepFn; rw [hd]; rfl
      rw [e]
      exact .stop (by simp [e])
    by_cases hf : c.p.st = .finished
    · have e : stepFn h c = .exit (.finished c.ctx.idx) c := by unfold stepFn; rw [hf]; rfl
      rw [e]
      exact .stop (by simp [e])
    have hx := step_T (h := h) hok hd hf
    cases heq : stepFn h c with
    | cont a =>
      rw [heq] at hx
      obtain ⟨h1, h2, h3, h4, h5⟩ := hx
      exact .more heq (rounds_loops h n a (by omega) h1)
    | exit su a => exact .stop (by simp [heq])
    | err a => exact .stop (by simp [heq])
    | panic l => exact .stop (by simp [heq])

/-! ## C117 -/

/-- **C117**. The fuel of the model has no part in the numbers: the loop of `resume` ends after the number of state functions
that `resumeRounds` says. -/
theorem C117_counted (h : Handler) (w : World) (s : Bytes) :
    Loops h ⟨w.p.toCore, Ctx.new s, w.log⟩ (resumeRounds h w s) :=
  rounds_loops h _ (start w s) (start_fuel w s) ⟨rfl, Nat.zero_le _⟩

example : Loops ⟨fun _ => true⟩ ⟨Parser.new.toCore, Ctx.new (header 8 6 0 false 0), []⟩ 5 :=
  C117_counted ⟨fun _ => true⟩ ⟨.new, []⟩ (header 8 6 0 false 0)

/-- **C117.** A call of `resume` that processes `n` bytes of its slice calls at most `4 * n + 4` state functions; one that
panics at most `4 * length + 4`. -/
theorem C117_call (h : Handler) (w : World) (s : Bytes) :
    resumeRounds h w s ≤ 4 * s.length + 4 ∧
    ∀ n, (resume h w s).1 = .ok (.callback n) ∨ (resume h w s).1 = .ok (.eos n) → resumeRounds h w s ≤ 4 * n + 4 :=
  ⟨(call_rounds h w s).1, fun n hn => ((call_rounds h w s).2 n hn).2⟩

example : let s := header 8 6 0 false 0 ++ [1, 2, 3, 4, 5, 6, 7, 8]
    (resume ⟨fun _ => true⟩ ⟨.new, []⟩ s).1 = .ok (.eos 17) ∧ resumeRounds ⟨fun _ => true⟩ ⟨.new, []⟩ s = 6 := by
  decide +kernel

/-- **C117.** A client that reads any bytes calls at most 4 state functions per byte and 4 per call of `resume`, however it
cuts the bytes, wherever the handler pauses, and however often bytes are passed again after a pause. -/
theorem C117_client (h : Handler) : ∀ (ks : List Nat) (w : World) (msg : Bytes),
    driveRounds h ks w msg ≤ 4 * msg.length + 4 * ks.length
  | [], w, msg => Nat.zero_le _
  | k :: ks, w, msg => by
    obtain ⟨h1, h2⟩ := call_rounds h w (msg.take k)
    have hl : (msg.take k).length ≤ msg.length := by rw [List.length_take]; omega
    simp only [driveRounds, List.length_cons]
    generalize resumeRounds h w (msg.take k) = a at *
    generalize resume h w (msg.take k) = R at *
    obtain ⟨r, w'⟩ := R
    cases r with
    | ok su =>
      cases su with
      | callback n =>
        obtain ⟨h3, h4⟩ := h2 n (.inl rfl)
        have ih := C117_client h ks w' (msg.drop n)
        rw [List.length_drop] at ih
        dsimp only
        omega
      | eos n =>
        obtain ⟨h3, h4⟩ := h2 n (.inr rfl)
        have ih := C117_client h ks w' (msg.drop n)
        rw [List.length_drop] at ih
        dsimp only
        omega
      | finished n => dsimp only; omega
    | err => dsimp only; omega
    | panic => dsimp only; omega
    | diverge => dsimp only; omega

/-- PING and DATA, and a handler that pauses after every callback. -/
example : let m := header 8 6 0 false 0 ++ [1, 2, 3, 4, 5, 6, 7, 8] ++ header 2 0 0 false 1 ++ [9, 10]
    (drive ⟨fun _ => false⟩ .idle [] (List.replicate 10 100) ⟨.new, []⟩ m).last = .eos ∧
    driveRounds ⟨fun _ => false⟩ (List.replicate 10 100) ⟨.new, []⟩ m = 16 := by
  decide +kernel

/-- **C117.** Until all bytes are processed, or the parser panics (see C45), at most `20 * length + 16` state functions are called,
by a client that passes at least one of its unread bytes with every call (see C65). -/
theorem C117_total (h : Handler) {w : World} {n : Nat} (hw : Reach w n) (msg : Bytes) (ks : List Nat)
    (hk : ∀ k ∈ ks, 0 < k) (hl : 4 * msg.length + 4 ≤ ks.length) :
    ∃ j, (drive h .idle [] (ks.take j) w msg).complete ∧ driveRounds h (ks.take j) w msg ≤ 20 * msg.length + 16 := by
  obtain ⟨j, hj, hc⟩ := C65_client_finishes h hw msg ks hk hl
  have := C117_client h (ks.take j) w msg
  rw [List.length_take] at this
  exact ⟨j, hc, by omega⟩

/-- One byte at a time, with a pause after every callback. -/
example : let m := header 4 3 0 false 1 ++ be 4 8
    (drive never .idle [] (List.replicate 14 1) ⟨.new, []⟩ m).complete ∧
    driveRounds never (List.replicate 14 1) ⟨.new, []⟩ m = 27 := by
  decide +kernel

end Verif.Http2
