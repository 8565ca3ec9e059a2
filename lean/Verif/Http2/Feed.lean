import Verif.Http2.Pair

/-!
# Calls with a handler that refuses (helper lemmas)
-/

namespace Verif.Http2

variable {h : Handler} {c : Cfg} {pre : Bytes} {y : UInt8}

/-- The history grew, and the handler agreed to every new callback. -/
inductive Went (h : Handler) : List Ev → List Ev → Prop
  | refl {l} : Went h l l
  | snoc {l0 l e} (hw : Went h l0 l) (hr : h.ret (l ++ [e]) = true) : Went h l0 (l ++ [e])

theorem Agreed.went {l0 l : List Ev} (H : Agreed h l0 l) : Went h l0 l := by
  rcases H with rfl | ⟨e, rfl, hr⟩
  · exact .refl
  · exact .snoc .refl hr

theorem Went.trans {l0 l1 l2 : List Ev} (a : Went h l0 l1) (b : Went h l1 l2) : Went h l0 l2 := by
  induction b with
  | refl => exact a
  | snoc _ hr ih => exact .snoc ih hr

theorem shift_mu : mu (shift pre y c) = mu c := by
  unfold mu; rw [shift_available]; rfl

theorem shift_ok (hok : Ok c) : Ok (shift pre y c) := by
  refine ⟨?_, ?_⟩
  · simp only [shift, hok.mark]
  · have := hok.le
    simp only [shift, List.length_append]
    omega

theorem mu_setMark : mu { c with ctx := c.ctx.setMark } = mu c := rfl

theorem step_empty (hi : imm c.p.st = false) (hd : c.p.st ≠ .dead) (hf : c.p.st ≠ .finished)
    (h0 : c.ctx.available = 0) : stepFn h c = exitEos c := by
  cases hs : c.p.st <;> rw [hs] at hi hd hf <;> first
    | (simp only [stepFn, hs]; exact if_pos h0)
    | exact absurd rfl hd
    | exact absurd rfl hf
    | exact absurd hi (by decide)

theorem step_imm (hi : imm c.p.st = true) (s : Success) (a : Cfg) : stepFn yes c ≠ .exit s a := by
  have hcb : ∀ (c' : Cfg) (e : Ev), callback yes c' e ≠ .exit s a := by
    intro c' e
    unfold callback yes
    simp [remark]
  cases hs : c.p.st <;> rw [hs] at hi <;> first | exact Bool.noConfusion hi | skip
  all_goals unfold stepFn; rw [hs]
  · exact hcb _ _
  · show go_away_callback yes c ≠ _
    unfold go_away_callback decPayload
    split
    · exact hcb _ _
    · nofun
  all_goals exact hcb _ _

/-- One run with a handler, and one with the handler that always agrees. -/
def Both (h : Handler) (pre : Bytes) (y : UInt8) (c : Cfg) (m : Nat) : Res × Cfg → Prop
  | (.ok (.eos k), a) => k = a.ctx.idx ∧ a.ctx.stream = c.ctx.stream ∧ k = c.ctx.stream.length ∧
      parse yes m (shift pre y c) = (.ok (.eos (pre.length + k)), shift pre y a) ∧ Went h c.log a.log
  | (.ok (.callback k), a) => k = a.ctx.idx ∧ a.ctx.stream = c.ctx.stream ∧ k ≤ c.ctx.stream.length ∧
      (∃ l, Went h c.log l ∧ Refused h l a.log) ∧ mu a < mu c ∧
      ((a.ctx.available = 0 ∧ parse yes m (shift pre y c) = (.ok (.eos (pre.length + k)), shift pre y a)) ∨
        ∃ m', mu a < m' ∧
          parse yes m (shift pre y c) = parse yes m' (shift pre y { a with ctx := a.ctx.setMark }))
  | (.panic, a) => (∃ b, parse yes m (shift pre y c) = (.panic, b) ∧ b.log = a.log) ∧ Went h c.log a.log
  | _ => False

theorem both : ∀ (n : Nat) (c : Cfg) (m : Nat), mu c < n → mu c < m → Ok c → c.p.st ≠ .dead → c.p.st ≠ .finished →
    Both h pre y c m (parse h n c)
  | 0, _, _, hn, _, _, _, _ => absurd hn (by omega)
  | _ + 1, _, 0, _, hm, _, _, _ => absurd hm (by omega)
  | n + 1, c, m + 1, hn, hm, hok, hd, hf => by
    have hx := step_T (h := h) hok hd hf
    have hy := step_T (h := yes) (shift_ok (pre := pre) (y := y) hok) hd hf
    have hp := pair_step (h := h) (pre := pre) (y := y) (c := c)
    rw [parse]
    generalize hl : stepFn h c = o at hx hp
    generalize hr : stepFn yes (shift pre y c) = o' at hy hp
    cases o with
    | cont a =>
      cases o' with
      | cont b =>
        obtain ⟨rfl, ha⟩ := hp
        obtain ⟨h1, h2, h3, h4, h5⟩ := hx
        have := both n a m (by omega) (by omega) h1 h4 h5
        simp only
        generalize parse h n a = r at this
        have hpar : parse yes (m + 1) (shift pre y c) = parse yes m (shift pre y a) := by rw [parse, hr]
        obtain ⟨r, a'⟩ := r
        cases r with
        | ok su =>
          cases su with
          | eos k =>
            obtain ⟨g1, g2, g3, g4, g5⟩ := this
            exact ⟨g1, g2.trans h2, by rw [g3, h2], by rw [hpar, g4], ha.went.trans g5⟩
          | callback k =>
            obtain ⟨g1, g2, g3, ⟨l, g4, g5⟩, g6, g7⟩ := this
            refine ⟨g1, g2.trans h2, by rw [← h2]; exact g3, ⟨l, ha.went.trans g4, g5⟩, by omega, ?_⟩
            rw [hpar]; exact g7
          | finished k => exact this
        | err => exact this
        | panic =>
          obtain ⟨⟨b, g1, g2⟩, g3⟩ := this
          exact ⟨⟨b, by rw [hpar, g1], g2⟩, ha.went.trans g3⟩
        | diverge => exact this
      | exit su b => cases su <;> exact hp.elim
      | err b => exact hp.elim
      | panic l => exact hp.elim
    | exit su a =>
      cases su with
      | eos k =>
        cases o' with
        | cont b => exact hp.elim
        | exit su' b =>
          cases su' with
          | eos k' =>
            obtain ⟨rfl, rfl, rfl, ha⟩ := hp
            obtain ⟨h1, h2, h3, h4, h5⟩ := hx
            exact ⟨rfl, h1, h3, by rw [parse, hr]; rfl, ha.went⟩
          | callback k' => exact hp.elim
          | finished k' => exact hp.elim
        | err b => exact hp.elim
        | panic l => exact hp.elim
      | callback k =>
        cases o' with
        | cont b =>
          obtain ⟨rfl, rfl, ha⟩ := hp
          obtain ⟨h1, h2, h3, h4, h5⟩ := hx
          obtain ⟨g1, g2, g3, -⟩ := hy
          rw [shift_mu, shift_mu, mu_setMark] at g3
          exact ⟨rfl, h1, h3, ⟨_, .refl, ha⟩, g3, .inr ⟨m, by omega, by rw [parse, hr]⟩⟩
        | exit su' b =>
          cases su' with
          | eos k' =>
            obtain ⟨rfl, rfl, rfl, h0, ha⟩ := hp
            obtain ⟨h1, h2, h3, h4, h5⟩ := hx
            refine ⟨rfl, h1, h3, ⟨_, .refl, ha⟩, ?_, .inl ⟨h0, by rw [parse, hr]; rfl⟩⟩
            have hc : c.ctx.available ≠ 0 := by
              intro hc
              cases hi : imm c.p.st with
              | false => rw [step_empty hi hd hf hc] at hl; simp [exitEos] at hl
              | true => exact step_imm (c := shift pre y c) hi _ _ hr
            have := rank_le a.p.st
            unfold mu
            omega
          | callback k' => exact hp.elim
          | finished k' => exact hp.elim
        | err b => exact hp.elim
        | panic l => exact hp.elim
      | finished k => exact hx.elim
    | err a => exact hx.elim
    | panic l =>
      cases o' with
      | cont b => exact hp.elim
      | exit su' b => cases su' <;> exact hp.elim
      | err b => exact hp.elim
      | panic l' =>
        obtain ⟨rfl, rfl⟩ := hp
        exact ⟨⟨{ shift pre y c with log := c.log }, by rw [parse, hr], rfl⟩, .refl⟩

/-! ## Calls -/

/-- What a call starts with. -/
def start (w : World) (s : Bytes) : Cfg := ⟨w.p.toCore, Ctx.new s, w.log⟩

theorem start_mu (w : World) (s : Bytes) : mu (start w s) = 4 * s.length + rank w.p.st := by
  simp [mu, start, Ctx.available, Ctx.new]

theorem start_fuel (w : World) (s : Bytes) : mu (start w s) < fuel s.length := by
  have := rank_le w.p.st
  rw [start_mu]
  unfold fuel
  omega

/-- One call: what the loop did, and what `resume` makes of it. -/
theorem resume_both {w : World} {s : Bytes} (hd : w.p.st ≠ .dead) (hf : w.p.st ≠ .finished) {m : Nat}
    (hm : mu (start w s) < m) : ∃ r a, Both h pre y (start w s) m (r, a) ∧
      ((∃ k, r = .ok (.eos k) ∨ r = .ok (.callback k)) ∧ resume h w s = (r, ⟨⟨a.p, w.p.byteCount + a.ctx.idx⟩, a.log⟩) ∨
        r = .panic ∧ resume h w s = (.panic, ⟨w.p, a.log⟩)) := by
  have hb := both (h := h) (pre := pre) (y := y) (fuel s.length) (start w s) m (start_fuel w s) hm
    ⟨rfl, Nat.zero_le _⟩ hd hf
  have hr : resume h w s = (match parse h (fuel s.length) (start w s) with
      | (.ok (.finished n), c) => (.ok (.finished n), ⟨⟨{ c.p with st := .finished }, w.p.byteCount + c.ctx.idx⟩, c.log⟩)
      | (.ok su, c) => (.ok su, ⟨⟨c.p, w.p.byteCount + c.ctx.idx⟩, c.log⟩)
      | (.err, c) => (.err, ⟨⟨{ c.p with st := .dead }, w.p.byteCount + c.ctx.idx⟩, c.log⟩)
      | (r, c) => (r, ⟨w.p, c.log⟩)) := by
    unfold resume start
    generalize parse h (fuel s.length) _ = o
    obtain ⟨r, c⟩ := o
    cases r with
    | ok su => cases su <;> rfl
    | err => rfl
    | panic => rfl
    | diverge => rfl
  revert hb hr
  generalize parse h (fuel s.length) (start w s) = o
  obtain ⟨r, a⟩ := o
  intro hb hr
  refine ⟨r, a, hb, ?_⟩
  cases r with
  | ok su =>
    cases su with
    | eos k => exact .inl ⟨⟨k, .inl rfl⟩, hr⟩
    | callback k => exact .inl ⟨⟨k, .inr rfl⟩, hr⟩
    | finished k => exact hb.elim
  | err => exact hb.elim
  | panic => exact .inr ⟨rfl, hr⟩
  | diverge => exact hb.elim

/-- A call with nothing. -/
theorem resume_nil {w : World} (hi : imm w.p.st = false) (hd : w.p.st ≠ .dead) (hf : w.p.st ≠ .finished) :
    resume h w [] = (.ok (.eos 0), w) := by
  have : parse h (fuel 0) (start w []) = (.ok (.eos 0), start w []) := by
    rw [show fuel 0 = 7 + 1 from rfl, parse, step_empty (c := start w []) hi hd hf rfl]
    rfl
  unfold resume
  rw [show parse h (fuel ([] : Bytes).length) ⟨w.p.toCore, Ctx.new [], w.log⟩ = _ from this]
  rfl

/-! ## Passing a slice on -/

/-- How a run that does not pause ends, for a client. -/
def finish (B : Nat) (tot : Bytes) : Res × Cfg → End × World × Bytes
  | (.ok (.callback k), c) => (.callback, ⟨⟨c.p, B + c.ctx.idx⟩, c.log⟩, tot.drop k)
  | (.ok (.eos k), c) => (.eos, ⟨⟨c.p, B + c.ctx.idx⟩, c.log⟩, tot.drop k)
  | (.ok (.finished k), c) => (.finished, ⟨⟨c.p, B + c.ctx.idx⟩, c.log⟩, tot.drop k)
  | (.err, c) => (.err, ⟨⟨c.p, B + c.ctx.idx⟩, c.log⟩, tot)
  | (.panic, c) => (.panic, ⟨⟨c.p, B⟩, c.log⟩, tot)
  | (.diverge, c) => (.diverge, ⟨⟨c.p, B⟩, c.log⟩, tot)

theorem drop_add (pre s : Bytes) (k : Nat) : (pre ++ s).drop (pre.length + k) = s.drop k := by
  rw [← List.drop_drop, List.drop_left']
  rfl

theorem feed_pair : ∀ (N : Nat) (w : World) (s pre : Bytes) (B m : Nat), w.p.st ≠ .dead → w.p.st ≠ .finished →
    GoodLog w.log → w.p.byteCount = B + pre.length → mu (start w s) < N → mu (start w s) < m →
    SameOut (feed h N w s) (finish B (pre ++ s) (parse yes m (shift pre 0 (start w s))))
  | 0, _, _, _, _, _, _, _, _, _, hN, _ => absurd hN (by omega)
  | N + 1, w, s, pre, B, m, hd, hf, hg, hB, hN, hm => by
    have hc := call_T (h := h) (s := s) hd hf hg
    obtain ⟨r, a, hb, hr⟩ := resume_both (h := h) (pre := pre) (y := 0) hd hf hm
    rcases hr with ⟨⟨k, rfl | rfl⟩, hr⟩ | ⟨rfl, hr⟩
    · obtain ⟨rfl, h1, h2, h3, -⟩ := hb
      left
      rw [feed, hr, h3]
      simp only [finish, shift]
      rw [drop_add, hB, Nat.add_assoc]
    · obtain ⟨rfl, h1, h2, -, h4, h5⟩ := hb
      rw [hr] at hc
      obtain ⟨-, -, g1, g2, g3, g4⟩ := hc
      rw [feed, hr]
      simp only
      have ha : a.ctx.available = s.length - a.ctx.idx := by unfold Ctx.available; rw [h1]; rfl
      have hle : a.ctx.idx ≤ s.length := h2
      rcases h5 with ⟨h0, h5⟩ | ⟨m', h5, h6⟩
      · left
        have hs : s.drop a.ctx.idx = [] := List.drop_of_length_le (by omega)
        obtain ⟨N', rfl⟩ : ∃ N', N = N' + 1 := ⟨N - 1, by omega⟩
        rw [hs, feed, resume_nil g2 g3 g4, h5]
        simp only [finish, shift]
        rw [drop_add, hs, hB, Nat.add_assoc]
        rfl
      · have hst : shift (pre ++ s.take a.ctx.idx) 0 (start ⟨⟨a.p, w.p.byteCount + a.ctx.idx⟩, a.log⟩ (s.drop a.ctx.idx)) =
            shift pre 0 { a with ctx := a.ctx.setMark } := by
          simp only [shift, start, Ctx.new, Ctx.setMark, h1, List.append_assoc, List.take_append_drop, List.length_append,
            List.length_take, Nat.min_eq_left hle, Nat.add_zero]
        have hmu : mu (start ⟨⟨a.p, w.p.byteCount + a.ctx.idx⟩, a.log⟩ (s.drop a.ctx.idx)) = mu a := by
          rw [start_mu, mu, ha, List.length_drop]
        have := feed_pair N ⟨⟨a.p, w.p.byteCount + a.ctx.idx⟩, a.log⟩ (s.drop a.ctx.idx) (pre ++ s.take a.ctx.idx) B m'
          g3 g4 g1 (by simp only [List.length_append, List.length_take, Nat.min_eq_left hle, hB]; omega)
          (by omega) (by omega)
        rw [hst, List.append_assoc, List.take_append_drop, ← h6] at this
        exact this
    · obtain ⟨⟨b, h1, h2⟩, -⟩ := hb
      right
      rw [feed, hr, h1]
      exact ⟨rfl, rfl, h2.symm⟩

theorem shift_nil {w : World} {s : Bytes} : shift [] 0 (start w s) = start w s := by
  simp [shift, start, Ctx.new]

theorem feed_same {w : World} {s : Bytes} (hd : w.p.st ≠ .dead) (hf : w.p.st ≠ .finished) (hg : GoodLog w.log)
    {n : Nat} (hn : 4 * s.length + 4 ≤ n) : SameOut (feed h n w s) (feed yes 1 w s) := by
  have hm := start_fuel w s
  have hr := rank_le w.p.st
  have h1 := feed_pair (h := h) n w s [] w.p.byteCount _ hd hf hg rfl (by rw [start_mu]; omega) hm
  rw [shift_nil] at h1
  have hy := both (h := yes) (pre := []) (y := 0) (fuel s.length) (start w s) _ hm hm ⟨rfl, Nat.zero_le _⟩ hd hf
  have hr : resume yes w s = (match parse yes (fuel s.length) (start w s) with
      | (.ok (.finished n), c) => (.ok (.finished n), ⟨⟨{ c.p with st := .finished }, w.p.byteCount + c.ctx.idx⟩, c.log⟩)
      | (.ok su, c) => (.ok su, ⟨⟨c.p, w.p.byteCount + c.ctx.idx⟩, c.log⟩)
      | (.err, c) => (.err, ⟨⟨{ c.p with st := .dead }, w.p.byteCount + c.ctx.idx⟩, c.log⟩)
      | (r, c) => (r, ⟨w.p, c.log⟩)) := by
    unfold resume start
    generalize parse yes (fuel s.length) _ = o
    obtain ⟨r, c⟩ := o
    cases r with
    | ok su => cases su <;> rfl
    | err => rfl
    | panic => rfl
    | diverge => rfl
  rw [feed, hr]
  revert h1 hy
  generalize parse yes (fuel s.length) (start w s) = o
  obtain ⟨r, a⟩ := o
  intro h1 hy
  cases r with
  | ok su =>
    cases su with
    | eos k => exact h1
    | callback k => obtain ⟨-, -, -, ⟨_, _, _, _, hno⟩, -⟩ := hy; cases hno
    | finished k => exact hy.elim
  | err => exact hy.elim
  | panic =>
    rcases h1 with h1 | ⟨h1, -, h3⟩
    · right; rw [h1]; exact ⟨rfl, rfl, rfl⟩
    · right; exact ⟨h1, rfl, h3⟩
  | diverge => exact hy.elim

/-! ## Progress -/

theorem drive_ends : ∀ (N : Nat) (last : End) (sts : List Stop) (w : World) (rem : Bytes) (ks : List Nat),
    w.p.st ≠ .dead → w.p.st ≠ .finished → imm w.p.st = false → GoodLog w.log → (∀ k ∈ ks, 0 < k) →
    4 * rem.length + rank w.p.st ≤ N → N + 1 ≤ ks.length →
    ∃ j ≤ N + 1, (drive h last sts (ks.take j) w rem).complete
  | N, last, sts, w, rem, [], _, _, _, _, _, _, hl => absurd hl (by simp)
  | N, last, sts, w, rem, k :: ks, hd, hf, hi, hg, hk, hN, hl => by
    have hc := call_T (h := h) (s := rem.take k) hd hf hg
    have hk0 := hk k (by simp)
    by_cases h0 : rem = []
    · subst h0
      refine ⟨1, by omega, ?_⟩
      simp only [List.take_succ_cons, List.take_zero, drive, List.take_nil, resume_nil hi hd hf, Outcome.complete,
        List.drop_nil]
    have hpos : 0 < rem.length := List.length_pos_iff.mpr h0
    obtain ⟨r, a, hb, hr⟩ := resume_both (h := h) (pre := []) (y := 0) (w := w) (s := rem.take k) hd hf (Nat.lt_succ_self _)
    rcases hr with ⟨⟨n, rfl | rfl⟩, hr⟩ | ⟨rfl, hr⟩
    · obtain ⟨rfl, h1, h2, h3, -⟩ := hb
      rw [hr] at hc
      obtain ⟨-, -, g1, g2, g3, g4⟩ := hc
      have hlen : a.ctx.idx = min k rem.length := by rw [h2]; exact List.length_take ..
      have hrk := rank_le a.p.st
      obtain ⟨N', rfl⟩ : ∃ N', N = N' + 1 := ⟨N - 1, by omega⟩
      obtain ⟨j, hj, hc⟩ := drive_ends N' .eos (sts ++ [⟨a.p.st, (rem.drop a.ctx.idx).length⟩]) ⟨⟨a.p, w.p.byteCount + a.ctx.idx⟩, a.log⟩
        (rem.drop a.ctx.idx) ks g3 g4 g2 g1 (fun k hk' => hk k (List.mem_cons_of_mem _ hk'))
        (by simp only [List.length_drop]; omega) (by simp only [List.length_cons] at hl; omega)
      refine ⟨j + 1, by omega, ?_⟩
      rw [List.take_succ_cons, drive, hr]
      exact hc
    · obtain ⟨rfl, h1, h2, h3, h4, -⟩ := hb
      rw [hr] at hc
      obtain ⟨-, -, g1, g2, g3, g4⟩ := hc
      have hle : a.ctx.idx ≤ min k rem.length := by
        have : a.ctx.idx ≤ (rem.take k).length := h2
        rwa [List.length_take] at this
      have hmu : 4 * (min k rem.length - a.ctx.idx) + rank a.p.st < 4 * min k rem.length + rank w.p.st := by
        rw [start_mu, List.length_take, mu, Ctx.available, h1] at h4
        simpa [start, Ctx.new, List.length_take] using h4
      obtain ⟨N', rfl⟩ : ∃ N', N = N' + 1 := ⟨N - 1, by omega⟩
      obtain ⟨j, hj, hc⟩ := drive_ends N' .callback (sts ++ [⟨a.p.st, (rem.drop a.ctx.idx).length⟩]) ⟨⟨a.p, w.p.byteCount + a.ctx.idx⟩, a.log⟩
        (rem.drop a.ctx.idx) ks g3 g4 g2 g1 (fun k hk' => hk k (List.mem_cons_of_mem _ hk'))
        (by simp only [List.length_drop]; omega) (by simp only [List.length_cons] at hl; omega)
      refine ⟨j + 1, by omega, ?_⟩
      rw [List.take_succ_cons, drive, hr]
      exact hc
    · refine ⟨1, by omega, ?_⟩
      simp only [List.take_succ_cons, List.take_zero, drive, hr, Outcome.complete]

/-! ## Answers -/

theorem went_split {l0 l : List Ev} (H : Went h l0 l) : ∃ t, l = l0 ++ t ∧
    ∀ a e b, t = a ++ e :: b → h.ret (l0 ++ a ++ [e]) = true := by
  induction H with
  | refl => exact ⟨[], by simp, by simp⟩
  | @snoc l e _ hr ih =>
    obtain ⟨t, rfl, ht⟩ := ih
    refine ⟨t ++ [e], by simp, fun a e' b he => ?_⟩
    rcases List.eq_nil_or_concat b with rfl | ⟨b', x, rfl⟩
    · obtain ⟨rfl, h2⟩ := List.append_inj' he rfl
      cases h2
      exact hr
    · have : t ++ [e] = (a ++ e' :: b') ++ [x] := by rw [he]; simp
      obtain ⟨h1, -⟩ := List.append_inj' this rfl
      exact ht a e' b' h1

end Verif.Http2
