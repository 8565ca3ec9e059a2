import Verif.Props.Http1Progress
import Verif.Http1.Rounds
import Verif.Http1.History
import Verif.Http1.Feed
import Verif.Props.Http1ConnRead

/-!
# C117: the work is linear in the number of bytes, for HTTP/1

`rounds`, `resumeRounds`, `driveRounds` and `serveRounds` are defined in `Verif.Http1.Rounds`.
-/

namespace Verif.Http1

/-! ## Helper lemmas -/

theorem rounds_le (h : Handler) : ∀ (n : Nat) (c : Cfg), CtxOK c.ctx →
    rounds h n c + 8 * (c.ctx.stream.length - (parse h n c).2.ctx.idx) ≤ meas c + 1
  | 0, c, _ => by simp only [rounds, parse, meas]; omega
  | n + 1, c, hok => by
    have hs := fr_step h c hok
    simp only [rounds, parse]
    cases heq : step h c with
    | cont c' =>
      rw [heq] at hs
      obtain ⟨he, hlt⟩ := hs
      have ih := rounds_le h n c' he.ok
      rw [he.stream] at ih
      simp only
      omega
    | exit s c' =>
      rw [heq] at hs
      have he : c.ctx.idx ≤ c'.ctx.idx := by cases s <;> exact hs.1.idx
      simp only [meas]
      omega
    | err e c' =>
      rw [heq] at hs
      have he : Ext c c' := hs
      have := he.idx
      simp only [meas]
      omega
    | panic => simp only [meas]; omega
    | ub => simp only [meas]; omega

theorem rounds_new (h : Handler) (p : Parser) (s : Bytes) (l : List Ev) :
    rounds h (fuel s.length) ⟨p, Ctx.new s, l⟩ + 8 * (s.length - (parse h (fuel s.length) ⟨p, Ctx.new s, l⟩).2.ctx.idx) ≤
      8 * s.length + 6 := by
  have h1 := rounds_le h (fuel s.length) ⟨p, Ctx.new s, l⟩ (ctxOK_new s)
  have := rank_le p.fn s[0]?
  simp only [meas, Ctx.new] at h1 ⊢
  omega

theorem call_cost (h : Handler) (w : World) (s : Bytes) :
    resumeRounds h w s ≤ 8 * s.length + 8 ∧
    ∀ su, (resume h w s).1 = .ok su → su.count ≤ s.length ∧ resumeRounds h w s ≤ 8 * su.count + 8 := by
  by_cases hu : w.p.ptype = .urlEncoded
  · generalize hst : (if w.p.length < s.length then s.take w.p.length else s) = st
    have hl : st.length ≤ s.length := by
      subst hst
      split
      · rw [List.length_take]; omega
      · exact Nat.le_refl _
    have h1 := rounds_new h w.p st w.log
    have h2 := parse_new_ok h w.p st w.log
    have hR : resumeRounds h w s = rounds h (fuel st.length) ⟨w.p, Ctx.new st, w.log⟩ +
        match parse h (fuel st.length) ⟨w.p, Ctx.new st, w.log⟩ with
        | (.ok (.eos n), c) =>
          if c.p.length < n then 0
          else if c.p.length - n = 0 then
            rounds h (fuel st.length) { c with p := { c.p with state := .bodyFinished, fn := .bodyFinished } }
          else 0
        | _ => 0 := by
      unfold resumeRounds
      rw [hu]
      dsimp only
      rw [hst]
      generalize parse h (fuel st.length) ⟨w.p, Ctx.new st, w.log⟩ = rc
      obtain ⟨r, c⟩ := rc
      cases r with
      | ok su => cases su <;> rfl
      | err e => rfl
      | panic => rfl
      | ub => rfl
      | diverge => rfl
    rw [resume_url hu hst, hR]
    clear hR hst
    generalize rounds h (fuel st.length) ⟨w.p, Ctx.new st, w.log⟩ = a at *
    generalize parse h (fuel st.length) ⟨w.p, Ctx.new st, w.log⟩ = rc at *
    obtain ⟨r, c⟩ := rc
    cases r with
    | ok su =>
      cases su with
      | eos n =>
        obtain ⟨g1, g2, g3⟩ := h2
        have g4 : c.ctx.stream = st := g1.stream
        have g5 := rounds_le h (fuel st.length)
          { c with p := { c.p with state := .bodyFinished, fn := .bodyFinished } } g1.ok
        simp only [meas, rank, g3, Nat.sub_self] at g5
        have g6 := parse_ok h (fuel st.length) { c with p := { c.p with state := .bodyFinished, fn := .bodyFinished } } g1.ok
          (by simp only [meas, rank, g3, fuel]; omega)
        rw [g3, g4] at g2
        dsimp only at h1 ⊢
        unfold urlPost
        dsimp only
        split
        · exact ⟨by omega, nofun⟩
        split
        · refine ⟨by omega, fun su hsu => ?_⟩
          rw [parse_bodyFinished (by unfold fuel; omega) rfl] at hsu
          split at hsu <;> cases hsu <;> simp only [Success.count, g3, g4] <;> omega
        · refine ⟨by omega, fun su hsu => ?_⟩
          cases hsu
          simp only [Success.count]
          omega
      | callback n =>
        obtain ⟨g1, g2⟩ := h2
        have g3 := g1.ok.idx_le
        rw [g1.stream] at g3
        simp only [Ctx.new] at g3
        dsimp only at h1 ⊢
        unfold urlPost
        dsimp only
        split
        · exact ⟨by omega, nofun⟩
        · refine ⟨by omega, fun su hsu => ?_⟩
          cases hsu
          simp only [Success.count]
          omega
      | finished n =>
        obtain ⟨g1, g2, -⟩ := h2
        have g3 := g1.ok.idx_le
        rw [g1.stream] at g3
        simp only [Ctx.new] at g3
        dsimp only at h1 ⊢
        refine ⟨by omega, fun su hsu => ?_⟩
        cases hsu
        simp only [Success.count]
        omega
    | err e => exact ⟨by dsimp only; omega, nofun⟩
    | panic => exact ⟨by dsimp only; omega, nofun⟩
    | ub => exact ⟨by dsimp only; omega, nofun⟩
    | diverge => exact ⟨by dsimp only; omega, nofun⟩
  · have h1 := rounds_new h w.p s w.log
    have h2 := parse_new_ok h w.p s w.log
    have hR : resumeRounds h w s = rounds h (fuel s.length) ⟨w.p, Ctx.new s, w.log⟩ := by
      unfold resumeRounds
      split
      · rename_i e; exact absurd e hu
      · rfl
    rw [hR, resume_plain hu]
    generalize rounds h (fuel s.length) ⟨w.p, Ctx.new s, w.log⟩ = a at *
    generalize parse h (fuel s.length) ⟨w.p, Ctx.new s, w.log⟩ = rc at *
    obtain ⟨r, c⟩ := rc
    refine ⟨by omega, fun su hsu => ?_⟩
    simp only at hsu
    subst hsu
    have h3 : RunExt ⟨w.p, Ctx.new s, w.log⟩ c ∧ su.count = c.ctx.idx := by
      cases su with
      | callback n => exact h2
      | eos n => exact ⟨h2.1, h2.2.1⟩
      | finished n => exact ⟨h2.1, h2.2.1⟩
    obtain ⟨g1, g2⟩ := h3
    have g3 := g1.ok.idx_le
    rw [g1.stream] at g3
    simp only [Ctx.new] at g3
    dsimp only at h1
    omega

theorem rounds_loops (h : Handler) : ∀ (n : Nat) (c : Cfg), (parse h n c).1 ≠ .diverge → Loops h c (rounds h n c)
  | 0, c, hd => absurd rfl hd
  | n + 1, c, hd => by
    simp only [parse, rounds] at *
    cases heq : step h c with
    | cont c' =>
      rw [heq] at hd
      exact .more heq (rounds_loops h n c' hd)
    | exit s c' => exact .stop (by simp [heq])
    | err e c' => exact .stop (by simp [heq])
    | panic => exact .stop (by simp [heq])
    | ub => exact .stop (by simp [heq])

/-! ## C117 -/

/-- **C117.** The fuel of the model has no part in the numbers: both loops of `resume` end after the number of state functions that
`resumeRounds` adds up, the first one with any parser and any slice, the second one, which only starts when a URL-encoded body
is over, with anything. -/
theorem C117_counted (h : Handler) :
    (∀ p s l, Loops h ⟨p, Ctx.new s, l⟩ (rounds h (fuel s.length) ⟨p, Ctx.new s, l⟩)) ∧
    ∀ (c : Cfg) s, Loops h { c with p := { c.p with state := .bodyFinished, fn := .bodyFinished } }
      (rounds h (fuel s) { c with p := { c.p with state := .bodyFinished, fn := .bodyFinished } }) := by
  refine ⟨fun p s l => rounds_loops h _ _ fun hd => ?_, fun c s => rounds_loops h _ _ ?_⟩
  · have := parse_new_ok h p s l
    generalize parse h (fuel s.length) ⟨p, Ctx.new s, l⟩ = o at *
    obtain ⟨r, c⟩ := o
    dsimp only at hd
    subst hd
    exact this
  · rw [parse_bodyFinished (by unfold fuel; omega) rfl]
    split <;> exact nofun

example : Loops goOn ⟨Parser.new.init .head, Ctx.new b!"GET ", []⟩ 4 := (C117_counted goOn).1 _ b!"GET " _

/-- **C117.** A call of `resume` that processes `n` bytes of its slice calls at most `8 * n + 8` state functions; one that fails
or panics at most `8 * length + 8`. -/
theorem C117_call (h : Handler) (w : World) (s : Bytes) :
    resumeRounds h w s ≤ 8 * s.length + 8 ∧
    ∀ su, (resume h w s).1 = .ok su → resumeRounds h w s ≤ 8 * su.count + 8 :=
  ⟨(call_cost h w s).1, fun su hsu => ((call_cost h w s).2 su hsu).2⟩

example : let w : World := ⟨Parser.new.init .head, []⟩
    let s := b!"POST / HTTP/1.1\r\nHost: a\r\n"
    (resume goOn w s).1 = .ok (.eos 26) ∧ resumeRounds goOn w s = 16 ∧
    (resume pauses w s).1 = .ok (.callback 5) ∧ resumeRounds pauses w s = 2 := by
  decide +kernel

/-- **C117.** A client that reads a message calls at most 8 state functions per byte of the message and 8 per call of `resume`,
however it cuts the message, wherever the handler pauses, and however often bytes are passed again after a pause. -/
theorem C117_client (h : Handler) : ∀ (ks : List Nat) (w : World) (msg : Bytes),
    driveRounds h ks w msg ≤ 8 * msg.length + 8 * ks.length
  | [], w, msg => Nat.zero_le _
  | k :: ks, w, msg => by
    obtain ⟨h1, h2⟩ := call_cost h w (msg.take k)
    have hl : (msg.take k).length ≤ msg.length := by rw [List.length_take]; omega
    simp only [driveRounds, List.length_cons]
    generalize resumeRounds h w (msg.take k) = a at *
    generalize resume h w (msg.take k) = R at *
    obtain ⟨r, w'⟩ := R
    cases r with
    | ok su =>
      obtain ⟨h3, h4⟩ := h2 su rfl
      have ih := C117_client h ks w' (msg.drop su.count)
      rw [List.length_drop] at ih
      cases su <;> simp only [Success.count] at h3 h4 ih ⊢ <;> omega
    | err e => dsimp only; omega
    | panic => dsimp only; omega
    | ub => dsimp only; omega
    | diverge => dsimp only; omega

/-- A client that always passes all bytes that are left, and a handler that pauses after every callback: bytes are
passed 11 times, but only 20 state functions are called. -/
example : let m := b!"POST / HTTP/1.1\r\nContent-Length: 3\r\n\r\n"
    (drive pauses .idle (List.replicate 100 100) ⟨Parser.new.init .head, []⟩ m).last = .finished ∧
    driveRounds pauses (List.replicate 100 100) ⟨Parser.new.init .head, []⟩ m = 20 := by
  decide +kernel

/-- **C117.** The same for a connection with any number of messages. -/
theorem C117_connection (h : Handler) (next : List Ev → Option Mode) : ∀ (ks : List Nat) (w : World) (msg : Bytes),
    serveRounds h next ks w msg ≤ 8 * msg.length + 8 * ks.length
  | [], w, msg => Nat.zero_le _
  | k :: ks, w, msg => by
    obtain ⟨h1, h2⟩ := call_cost h w (msg.take k)
    have hl : (msg.take k).length ≤ msg.length := by rw [List.length_take]; omega
    simp only [serveRounds, List.length_cons]
    generalize resumeRounds h w (msg.take k) = a at *
    generalize resume h w (msg.take k) = R at *
    obtain ⟨r, w'⟩ := R
    cases r with
    | ok su =>
      obtain ⟨h3, h4⟩ := h2 su rfl
      cases su with
      | callback n =>
        have ih := C117_connection h next ks w' (msg.drop n)
        rw [List.length_drop] at ih
        simp only [Success.count] at h3 h4 ⊢
        omega
      | eos n =>
        have ih := C117_connection h next ks w' (msg.drop n)
        rw [List.length_drop] at ih
        simp only [Success.count] at h3 h4 ⊢
        omega
      | finished n =>
        dsimp only
        cases next w'.log with
        | none => dsimp only; omega
        | some m =>
          have ih := C117_connection h next ks ⟨m.prepare w'.p, w'.log⟩ (msg.drop n)
          rw [List.length_drop] at ih
          simp only [Success.count] at h3 h4 ⊢
          omega
    | err e => dsimp only; omega
    | panic => dsimp only; omega
    | ub => dsimp only; omega
    | diverge => dsimp only; omega

/-- Two messages and the beginning of a third one, 10 bytes at a time. -/
example : let m := b!"GET / HTTP/1.1\r\n\r\nPUT /a HTTP/1.0\r\n\r\nGET /"
    (serve goOn (fun _ => some .head) .idle (List.replicate 10 10) ⟨Parser.new.init .head, []⟩ m).rest = [] ∧
    serveRounds goOn (fun _ => some .head) (List.replicate 10 10) ⟨Parser.new.init .head, []⟩ m = 50 := by
  decide +kernel

/-- **C117.** Until the message is finished, rejected or used up, at most `72 * length + 72` state functions are called, by a
client that passes at least one of its unread bytes with every call (see C57). -/
theorem C117_total (h : Handler) (w : World) (msg : Bytes) (ks : List Nat) {st : Stage}
    (hr : Reach anyBoundary st w.p) (hs : st = .fresh → msg ≠ []) (hk : ∀ k ∈ ks, 0 < k)
    (hl : 8 * msg.length + 9 ≤ ks.length) :
    ∃ j, (drive h .idle (ks.take j) w msg).complete ∧ driveRounds h (ks.take j) w msg ≤ 72 * msg.length + 72 := by
  obtain ⟨j, hj, hc⟩ := C57_client_finishes h w msg ks hr hs hk hl
  have := C117_client h (ks.take j) w msg
  rw [List.length_take] at this
  exact ⟨j, hc, by omega⟩

/-- One byte at a time, with a pause after every callback. -/
example : let m := b!"GET / HTTP/1.1\r\n\r\n"
    (drive pauses .idle (List.replicate 20 1) ⟨Parser.new, []⟩ m).complete ∧
    driveRounds pauses (List.replicate 20 1) ⟨Parser.new, []⟩ m = 36 := by
  decide +kernel

end Verif.Http1
