import Verif.Http2.Release
import Verif.Http2.FrameSpec

/-!
# Between frames

C119, with and without overflow checks.
-/

namespace Verif.Http2

/-- Calls of `resume` with these handlers and slices, one after the other; no more after a panic. Their results, and what
the parser and the history are then. -/
def calls : List (Handler × Bytes) → World → List Res × World
  | [], w => ([], w)
  | (h, s) :: cs, w =>
    let o := resume h w s
    if o.1 = .panic then ([o.1], o.2) else (o.1 :: (calls cs o.2).1, (calls cs o.2).2)

/-- The same without overflow checks. -/
def Release.calls : List (Handler × Bytes) → World → List Res × World
  | [], w => ([], w)
  | (h, s) :: cs, w =>
    let o := Release.resume h w s
    if o.1 = .panic then ([o.1], o.2) else (o.1 :: (Release.calls cs o.2).1, (Release.calls cs o.2).2)

/-- Two calls had the same effect, except on the number of bytes and on registers that are not looked at again. -/
def Fresh (d : Nat) (a b : Res × World) : Prop :=
  a.1 = b.1 ∧ a.2.log = b.2.log ∧
    (a.2.p.toCore = b.2.p.toCore ∨ (a.2.p.st = .frameLength1 ∧ b.2.p.st = .frameLength1)) ∧
    a.2.p.byteCount = d + b.2.p.byteCount

/-- The first state function of a frame clears the registers. -/
theorem step_fresh {h : Handler} {p q : Core} {x : Ctx} {l : List Ev} (hp : p.st = .frameLength1) (hq : q.st = .frameLength1)
    (hx : x.available ≠ 0) : stepFn h ⟨p, x, l⟩ = stepFn h ⟨q, x, l⟩ := by
  obtain ⟨a, b, c, d, st⟩ := p
  obtain ⟨a', b', c', d', st'⟩ := q
  cases hp
  cases hq
  show frame_length1 _ = frame_length1 _
  unfold frame_length1 exitIfEos
  rw [if_neg hx, if_neg hx]

theorem resume_fresh {h : Handler} {w v : World} {s : Bytes} (hw : w.p.st = .frameLength1) (hv : v.p.st = .frameLength1)
    (hl : w.log = v.log) {d : Nat} (hb : w.p.byteCount = d + v.p.byteCount) :
    Fresh d (resume h w s) (resume h v s) := by
  by_cases h0 : s = []
  · have key : ∀ u : World, u.p.st = .frameLength1 → resume h u [] = (.ok (.eos 0), u) := by
      intro u hu
      obtain ⟨⟨⟨a, b, c, d, st⟩, n⟩, l⟩ := u
      cases hu
      rfl
    rw [h0, key w hw, key v hv]
    exact ⟨rfl, hl, .inr ⟨hw, hv⟩, hb⟩
  · have he : parse h (fuel s.length) ⟨w.p.toCore, Ctx.new s, w.log⟩ = parse h (fuel s.length) ⟨v.p.toCore, Ctx.new s, v.log⟩ ∨
        ∃ l, (parse h (fuel s.length) ⟨w.p.toCore, Ctx.new s, w.log⟩).1 = .panic ∧
          (parse h (fuel s.length) ⟨v.p.toCore, Ctx.new s, v.log⟩).1 = .panic ∧
          (parse h (fuel s.length) ⟨w.p.toCore, Ctx.new s, w.log⟩).2.log = l ∧
          (parse h (fuel s.length) ⟨v.p.toCore, Ctx.new s, v.log⟩).2.log = l := by
      have hx : (Ctx.new s).available ≠ 0 := by
        intro hx
        exact h0 (List.length_eq_zero_iff.mp (by simpa [Ctx.available, Ctx.new] using hx))
      have := step_fresh (h := h) (x := Ctx.new s) (l := v.log) hw hv hx
      obtain ⟨f, hf⟩ : ∃ f, fuel s.length = f + 1 := ⟨fuel s.length - 1, by unfold fuel; omega⟩
      rw [hf, parse, parse, hl, this]
      generalize stepFn h ⟨v.p.toCore, Ctx.new s, v.log⟩ = o
      cases o with
      | cont c => exact .inl rfl
      | exit su c => exact .inl rfl
      | err c => exact .inl rfl
      | panic l => exact .inr ⟨l, rfl, rfl, rfl, rfl⟩
    unfold resume
    rcases he with he | ⟨l, h1, h2, h3, h4⟩
    · rw [he]
      generalize parse h (fuel s.length) ⟨v.p.toCore, Ctx.new s, v.log⟩ = o
      obtain ⟨r, c⟩ := o
      cases r with
      | ok su => cases su <;> exact ⟨rfl, rfl, .inl rfl, by simp only [hb]; omega⟩
      | err => exact ⟨rfl, rfl, .inl rfl, by simp only [hb]; omega⟩
      | panic => exact ⟨rfl, rfl, .inr ⟨hw, hv⟩, hb⟩
      | diverge => exact ⟨rfl, rfl, .inr ⟨hw, hv⟩, hb⟩
    · revert h1 h2 h3 h4
      generalize parse h (fuel s.length) ⟨w.p.toCore, Ctx.new s, w.log⟩ = o
      generalize parse h (fuel s.length) ⟨v.p.toCore, Ctx.new s, v.log⟩ = o'
      obtain ⟨r, c⟩ := o
      obtain ⟨r', c'⟩ := o'
      rintro rfl rfl rfl h4
      exact ⟨rfl, h4.symm, .inr ⟨hw, hv⟩, hb⟩

theorem resume_same {h : Handler} {w v : World} {s : Bytes} (hc : w.p.toCore = v.p.toCore)
    (hl : w.log = v.log) {d : Nat} (hb : w.p.byteCount = d + v.p.byteCount) :
    Fresh d (resume h w s) (resume h v s) := by
  unfold resume
  rw [hc, hl]
  generalize parse h (fuel s.length) ⟨v.p.toCore, Ctx.new s, v.log⟩ = o
  obtain ⟨r, c⟩ := o
  cases r with
  | ok su => cases su <;> exact ⟨rfl, rfl, .inl rfl, by simp only [hb]; omega⟩
  | err => exact ⟨rfl, rfl, .inl rfl, by simp only [hb]; omega⟩
  | panic => exact ⟨rfl, rfl, .inl hc, hb⟩
  | diverge => exact ⟨rfl, rfl, .inl hc, hb⟩

theorem calls_fresh {d : Nat} : ∀ (cs : List (Handler × Bytes)) {w v : World}, w.log = v.log →
    (w.p.toCore = v.p.toCore ∨ (w.p.st = .frameLength1 ∧ v.p.st = .frameLength1)) → w.p.byteCount = d + v.p.byteCount →
    (calls cs w).1 = (calls cs v).1 ∧ (calls cs w).2.log = (calls cs v).2.log ∧
    (calls cs w).2.p.st = (calls cs v).2.p.st ∧ (calls cs w).2.p.byteCount = d + (calls cs v).2.p.byteCount
  | [], w, v, hl, hc, hb => by
    refine ⟨rfl, hl, ?_, hb⟩
    rcases hc with hc | ⟨h1, h2⟩
    · show w.p.toCore.st = v.p.toCore.st
      rw [hc]
    · exact h1.trans h2.symm
  | (h, s) :: cs, w, v, hl, hc, hb => by
    have hf : Fresh d (resume h w s) (resume h v s) := by
      rcases hc with hc | ⟨h1, h2⟩
      · exact resume_same hc hl hb
      · exact resume_fresh h1 h2 hl hb
    unfold calls
    generalize resume h w s = o at hf
    generalize resume h v s = o' at hf
    obtain ⟨r, w'⟩ := o
    obtain ⟨r', v'⟩ := o'
    obtain ⟨h1, h2, h3, h4⟩ := hf
    cases h1
    dsimp only at h2 h3 h4 ⊢
    have hn := calls_fresh cs h2 h3 h4
    split
    · refine ⟨rfl, h2, ?_, h4⟩
      rcases h3 with h3 | ⟨h5, h6⟩
      · show w'.p.toCore.st = v'.p.toCore.st
        rw [h3]
      · exact h5.trans h6.symm
    · exact ⟨by rw [hn.1], hn.2⟩

/-- The first state function of a frame clears the registers. -/
theorem Release.step_fresh {h : Handler} {p q : Core} {x : Ctx} {l : List Ev} (hp : p.st = .frameLength1) (hq : q.st = .frameLength1)
    (hx : x.available ≠ 0) : Release.stepFn h ⟨p, x, l⟩ = Release.stepFn h ⟨q, x, l⟩ := by
  obtain ⟨a, b, c, d, st⟩ := p
  obtain ⟨a', b', c', d', st'⟩ := q
  cases hp
  cases hq
  show frame_length1 _ = frame_length1 _
  unfold frame_length1 exitIfEos
  rw [if_neg hx, if_neg hx]

theorem Release.resume_fresh {h : Handler} {w v : World} {s : Bytes} (hw : w.p.st = .frameLength1) (hv : v.p.st = .frameLength1)
    (hl : w.log = v.log) {d : Nat} (hb : w.p.byteCount = d + v.p.byteCount) :
    Fresh d (Release.resume h w s) (Release.resume h v s) := by
  by_cases h0 : s = []
  · have key : ∀ u : World, u.p.st = .frameLength1 → Release.resume h u [] = (.ok (.eos 0), u) := by
      intro u hu
      obtain ⟨⟨⟨a, b, c, d, st⟩, n⟩, l⟩ := u
      cases hu
      rfl
    rw [h0, key w hw, key v hv]
    exact ⟨rfl, hl, .inr ⟨hw, hv⟩, hb⟩
  · have he : Release.parse h (fuel s.length) ⟨w.p.toCore, Ctx.new s, w.log⟩ = Release.parse h (fuel s.length) ⟨v.p.toCore, Ctx.new s, v.log⟩ ∨
        ∃ l, (Release.parse h (fuel s.length) ⟨w.p.toCore, Ctx.new s, w.log⟩).1 = .panic ∧
          (Release.parse h (fuel s.length) ⟨v.p.toCore, Ctx.new s, v.log⟩).1 = .panic ∧
          (Release.parse h (fuel s.length) ⟨w.p.toCore, Ctx.new s, w.log⟩).2.log = l ∧
          (Release.parse h (fuel s.length) ⟨v.p.toCore, Ctx.new s, v.log⟩).2.log = l := by
      have hx : (Ctx.new s).available ≠ 0 := by
        intro hx
        exact h0 (List.length_eq_zero_iff.mp (by simpa [Ctx.available, Ctx.new] using hx))
      have := Release.step_fresh (h := h) (x := Ctx.new s) (l := v.log) hw hv hx
      obtain ⟨f, hf⟩ : ∃ f, fuel s.length = f + 1 := ⟨fuel s.length - 1, by unfold fuel; omega⟩
      rw [hf, Release.parse, Release.parse, hl, this]
      generalize Release.stepFn h ⟨v.p.toCore, Ctx.new s, v.log⟩ = o
      cases o with
      | cont c => exact .inl rfl
      | exit su c => exact .inl rfl
      | err c => exact .inl rfl
      | panic l => exact .inr ⟨l, rfl, rfl, rfl, rfl⟩
    unfold Release.resume
    rcases he with he | ⟨l, h1, h2, h3, h4⟩
    · rw [he]
      generalize Release.parse h (fuel s.length) ⟨v.p.toCore, Ctx.new s, v.log⟩ = o
      obtain ⟨r, c⟩ := o
      cases r with
      | ok su => cases su <;> exact ⟨rfl, rfl, .inl rfl, by simp only [hb]; omega⟩
      | err => exact ⟨rfl, rfl, .inl rfl, by simp only [hb]; omega⟩
      | panic => exact ⟨rfl, rfl, .inr ⟨hw, hv⟩, hb⟩
      | diverge => exact ⟨rfl, rfl, .inr ⟨hw, hv⟩, hb⟩
    · revert h1 h2 h3 h4
      generalize Release.parse h (fuel s.length) ⟨w.p.toCore, Ctx.new s, w.log⟩ = o
      generalize Release.parse h (fuel s.length) ⟨v.p.toCore, Ctx.new s, v.log⟩ = o'
      obtain ⟨r, c⟩ := o
      obtain ⟨r', c'⟩ := o'
      rintro rfl rfl rfl h4
      exact ⟨rfl, h4.symm, .inr ⟨hw, hv⟩, hb⟩

theorem Release.resume_same {h : Handler} {w v : World} {s : Bytes} (hc : w.p.toCore = v.p.toCore)
    (hl : w.log = v.log) {d : Nat} (hb : w.p.byteCount = d + v.p.byteCount) :
    Fresh d (Release.resume h w s) (Release.resume h v s) := by
  unfold Release.resume
  rw [hc, hl]
  generalize Release.parse h (fuel s.length) ⟨v.p.toCore, Ctx.new s, v.log⟩ = o
  obtain ⟨r, c⟩ := o
  cases r with
  | ok su => cases su <;> exact ⟨rfl, rfl, .inl rfl, by simp only [hb]; omega⟩
  | err => exact ⟨rfl, rfl, .inl rfl, by simp only [hb]; omega⟩
  | panic => exact ⟨rfl, rfl, .inl hc, hb⟩
  | diverge => exact ⟨rfl, rfl, .inl hc, hb⟩

theorem Release.calls_fresh {d : Nat} : ∀ (cs : List (Handler × Bytes)) {w v : World}, w.log = v.log →
    (w.p.toCore = v.p.toCore ∨ (w.p.st = .frameLength1 ∧ v.p.st = .frameLength1)) → w.p.byteCount = d + v.p.byteCount →
    (Release.calls cs w).1 = (Release.calls cs v).1 ∧ (Release.calls cs w).2.log = (Release.calls cs v).2.log ∧
    (Release.calls cs w).2.p.st = (Release.calls cs v).2.p.st ∧ (Release.calls cs w).2.p.byteCount = d + (Release.calls cs v).2.p.byteCount
  | [], w, v, hl, hc, hb => by
    refine ⟨rfl, hl, ?_, hb⟩
    rcases hc with hc | ⟨h1, h2⟩
    · show w.p.toCore.st = v.p.toCore.st
      rw [hc]
    · exact h1.trans h2.symm
  | (h, s) :: cs, w, v, hl, hc, hb => by
    have hf : Fresh d (Release.resume h w s) (Release.resume h v s) := by
      rcases hc with hc | ⟨h1, h2⟩
      · exact Release.resume_same hc hl hb
      · exact Release.resume_fresh h1 h2 hl hb
    unfold Release.calls
    generalize Release.resume h w s = o at hf
    generalize Release.resume h v s = o' at hf
    obtain ⟨r, w'⟩ := o
    obtain ⟨r', v'⟩ := o'
    obtain ⟨h1, h2, h3, h4⟩ := hf
    cases h1
    dsimp only at h2 h3 h4 ⊢
    have hn := Release.calls_fresh cs h2 h3 h4
    split
    · refine ⟨rfl, h2, ?_, h4⟩
      rcases h3 with h3 | ⟨h5, h6⟩
      · show w'.p.toCore.st = v'.p.toCore.st
        rw [h3]
      · exact h5.trans h6.symm
    · exact ⟨by rw [hn.1], hn.2⟩

/-! ## C119 -/

/-- **C119.** A parser whose `state()` is `FrameLength1`, whatever it has read before, behaves as a new one: all later
calls return the same and execute the same callbacks, and `state()` is the same after them; `byte_count()` includes the
bytes counted before. -/
theorem C119_between_frames (w : World) (hs : w.p.st = .frameLength1) (cs : List (Handler × Bytes)) :
    let a := calls cs w
    let b := calls cs ⟨.new, w.log⟩
    a.1 = b.1 ∧ a.2.log = b.2.log ∧ a.2.p.st = b.2.p.st ∧ a.2.p.byteCount = w.p.byteCount + b.2.p.byteCount :=
  calls_fresh cs rfl (.inr ⟨hs, rfl⟩) rfl

/-- The same without overflow checks. -/
theorem Release.C119_release_between_frames (w : World) (hs : w.p.st = .frameLength1) (cs : List (Handler × Bytes)) :
    let a := Release.calls cs w
    let b := Release.calls cs ⟨.new, w.log⟩
    a.1 = b.1 ∧ a.2.log = b.2.log ∧ a.2.p.st = b.2.p.st ∧ a.2.p.byteCount = w.p.byteCount + b.2.p.byteCount :=
  Release.calls_fresh cs rfl (.inr ⟨hs, rfl⟩) rfl

/-- After `reset` a parser is a new one, in any state. -/
theorem C119_reset (w : World) (cs : List (Handler × Bytes)) :
    calls cs ⟨w.p.reset, w.log⟩ = calls cs ⟨.new, w.log⟩ ∧
    Release.calls cs ⟨w.p.reset, w.log⟩ = Release.calls cs ⟨.new, w.log⟩ := ⟨rfl, rfl⟩

/-- After a WINDOW_UPDATE frame the registers still hold what was read; a frame header in two slices follows, the stream id of which is cut. -/
example : let w := (resume ⟨fun _ => true⟩ ⟨.new, []⟩ (header 4 8 0 false 1 ++ be 4 77)).2
    w.p.st = .frameLength1 ∧ w.p.bit32a ≠ 0 ∧ w.p.byteCount = 13 ∧
    (calls [(⟨fun _ => true⟩, []), (⟨fun _ => true⟩, (header 0 4 1 false 5).take 7),
      (⟨fun _ => true⟩, (header 0 4 1 false 5).drop 7)] w).1 = [.ok (.eos 0), .ok (.eos 7), .ok (.eos 2)] := by
  decide +kernel

end Verif.Http2
