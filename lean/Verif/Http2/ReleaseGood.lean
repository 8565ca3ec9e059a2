import Verif.Http2.ReleaseLemmas

/-!
# The arguments of callbacks, without overflow checks (helper lemmas)

As the first part of `Verif.Http2.Total`.
-/

namespace Verif.Http2.Release

variable {h : Handler} {c : Cfg}

theorem good_set16a {x : UInt16} (hl : GoodLog c.log) : GoodLog (set16a c x).log := hl

theorem good_set32a {x : UInt32} (hl : GoodLog c.log) : GoodLog (set32a c x).log := hl

theorem good_dec {n : UInt32} (hl : GoodLog c.log) : GoodLog (decPayload c n).log := hl

theorem sat_payload {k : Kind} (hok : Ok c) (hl : GoodLog c.log) (hs : imm c.p.st = false)
    (h0 : c.ctx.available ≠ 0) : Sat (parsePayloadData h c k) := by
  unfold parsePayloadData
  simp only
  refine sat_ite (fun _ => sat_ite (fun _ => hl) fun _ => sat_callback hl (fun hf => Bool.noConfusion hf) ?_) fun _ =>
    sat_ite (fun _ => hl) fun _ => ?_
  · show imm (if _ then _ else _) = false
    split <;> rfl
  · have hg : GoodLog (c.log ++ [.payload k (c.ctx.jump c.ctx.available).slice false]) := by
      refine hl.add fun _ hnil => ?_
      have h1 : (c.ctx.jump c.ctx.available).slice.length = c.ctx.available := by
        have := hok.mark
        have := hok.le
        simp only [Ctx.slice, Ctx.jump, List.length_drop, List.length_take, Ctx.available]
        omega
      rw [hnil] at h1
      exact h0 h1.symm
    exact sat_ite (fun _ => ⟨hg, hs⟩) fun _ => ⟨hg, hs⟩

theorem sat_step (hok : Ok c) (hl : GoodLog c.log) : Sat (stepFn h c) := by
  have hx := Http2.sat_step (h := h) hok hl
  by_cases hi : imm c.p.st = false
  · have pad : ∀ (f : UInt8 → Cfg → UInt32) (st : St), Sat (exitIfEos c (getU8 c fun b c =>
        transition (decPayload (set32a c (f b c)) 1) st)) := fun _ _ =>
      sat_eos hl hi fun _ => sat_u8 hl fun _ _ hl => sat_transition (good_dec (good_set32a hl))
    have pay : ∀ k, Sat (exitIfEos c (parsePayloadData h c k)) := fun k =>
      sat_eos hl hi fun h0 => sat_payload hok hl hi h0
    unfold stepFn
    split
    · exact sat_eos hl hi fun _ => sat_ite (fun _ => sat_transition hl) fun _ => ⟨hl, hi⟩
    · exact pad _ _
    · exact pay _
    · rename_i hs; rw [hs] at hi; cases hi
    · exact pay _
    · exact pad _ _
    · exact pad _ _
    · exact sat_eos hl hi fun _ => sat_u8 hl fun _ _ hl => sat_transition (good_dec (good_set16a hl))
    · exact pay _
    · exact pay _
    · exact pad _ _
    · exact sat_eos hl hi fun _ => sat_callback hl trivial rfl
    · exact pad _ _
    · exact pay _
    · exact hx
  · cases hs : c.p.st <;> rw [hs] at hi <;> first
      | exact absurd rfl hi
      | (unfold stepFn; rw [hs]; simp only; first
          | exact hx
          | (unfold go_away_callback
             refine sat_callback hl (and_31 _) ?_
             show imm (if _ then _ else _) = false
             split <;> rfl))

theorem parse_good : ∀ (n : Nat) (c : Cfg), Ok c → c.p.st ≠ .dead → c.p.st ≠ .finished → GoodLog c.log →
    GoodLog (parse h n c).2.log
  | 0, _, _, _, _, hl => hl
  | n + 1, c, hok, hd, hf, hl => by
    have hx := step_T (h := h) hok hd hf
    have hg := sat_step (h := h) hok hl
    rw [parse]
    generalize stepFn h c = o at hx hg
    cases o with
    | cont c' => exact parse_good n c' hx.1 hx.2.2.2.1 hx.2.2.2.2 hg
    | exit su c' => exact hg.1
    | err c' => exact hg
    | panic l => exact hg

theorem resume_good {w : World} (s : Bytes) (hd : w.p.st ≠ .dead) (hf : w.p.st ≠ .finished) (hl : GoodLog w.log) :
    GoodLog (resume h w s).2.log := by
  have := parse_good (h := h) (fuel s.length) ⟨w.p.toCore, Ctx.new s, w.log⟩ ⟨rfl, Nat.zero_le _⟩ hd hf hl
  unfold resume
  revert this
  generalize parse h (fuel s.length) ⟨w.p.toCore, Ctx.new s, w.log⟩ = o
  obtain ⟨r, c⟩ := o
  intro this
  cases r with
  | ok su => cases su <;> exact this
  | err => exact this
  | panic => exact this
  | diverge => exact this

end Verif.Http2.Release
