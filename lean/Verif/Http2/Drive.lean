import Verif.Http2.Feed

/-!
# Client runs and the reference machine (helper lemmas)
-/

namespace Verif.Http2

variable {h : Handler} {S : Bool} {m : Bytes}

/-! ## The history grows -/

theorem Went.prefix {l0 l : List Ev} (H : Went h l0 l) : l0 <+: l := by
  obtain ⟨t, rfl, -⟩ := went_split H
  exact List.prefix_append _ _

theorem resume_log {w w' : World} {s : Bytes} {r : Res} (hd : w.p.st ≠ .dead) (hf : w.p.st ≠ .finished)
    (hr : resume h w s = (r, w')) : w.log <+: w'.log := by
  obtain ⟨r0, a, hb, hx⟩ := resume_both (h := h) (pre := []) (y := 0) (s := s) hd hf (Nat.lt_succ_self _)
  have hl : w'.log = a.log := by
    rcases hx with ⟨-, hx⟩ | ⟨-, hx⟩ <;> rw [hr] at hx <;> cases hx <;> rfl
  rw [hl]
  rcases hx with ⟨⟨k, rfl | rfl⟩, -⟩ | ⟨rfl, -⟩
  · exact hb.2.2.2.2.prefix
  · obtain ⟨l, h1, h2⟩ := hb.2.2.2.1
    exact h1.prefix.trans (by obtain ⟨e, h2, -⟩ := h2; rw [h2]; exact List.prefix_append _ _)
  · exact hb.2.prefix

theorem drive_log : ∀ (ks : List Nat) (last : End) (sts : List Stop) (w : World) (rem : Bytes),
    w.p.st ≠ .dead → w.p.st ≠ .finished → GoodLog w.log → w.log <+: (drive h last sts ks w rem).world.log
  | [], _, _, _, _, _, _, _ => List.prefix_refl _
  | k :: ks, last, sts, w, rem, hd, hf, hg => by
    have hc := call_T (h := h) (s := rem.take k) hd hf hg
    rw [drive]
    generalize hr : resume h w (rem.take k) = o at hc
    obtain ⟨r, w'⟩ := o
    have hl := resume_log hd hf hr
    cases r with
    | ok su =>
      cases su with
      | eos n => exact hl.trans (drive_log ks _ _ _ _ hc.2.2.2.2.1 hc.2.2.2.2.2 hc.2.2.1)
      | callback n => exact hl.trans (drive_log ks _ _ _ _ hc.2.2.2.2.1 hc.2.2.2.2.2 hc.2.2.1)
      | finished n => exact hl
    | err => exact hl
    | panic => exact hl
    | diverge => exact hl

/-! ## Fields that are never left -/

/-- The states that are never left. -/
def Stuck (st : St) : Bool :=
  st == .goAwayStreamId2 || st == .goAwayStreamId3 || st == .settingsValue2 || st == .settingsValue3

theorem step_stuck {c : Cfg} (hs : Stuck c.p.st = true) (hok : Ok c) :
    (stepFn h c = .exit (.eos c.ctx.idx) c ∧ c.ctx.idx = c.ctx.stream.length) ∨
      ∃ c', stepFn h c = .cont c' ∧ Stuck c'.p.st = true ∧ Ok c' ∧ c'.ctx.stream = c.ctx.stream ∧
        c'.ctx.available + 1 = c.ctx.available ∧ c'.log = c.log := by
  have key : ∀ (f : UInt8 → Core → Core), (∀ b, Stuck (f b c.p).st = true) →
      ∀ o, o = (exitIfEos c <| getU8 c fun b c => remark { c with p := f b c.p }) →
      (o = .exit (.eos c.ctx.idx) c ∧ c.ctx.idx = c.ctx.stream.length) ∨
      ∃ c', o = .cont c' ∧ Stuck c'.p.st = true ∧ Ok c' ∧ c'.ctx.stream = c.ctx.stream ∧
        c'.ctx.available + 1 = c.ctx.available ∧ c'.log = c.log := by
    rintro f hf o rfl
    have hle := hok.le
    unfold exitIfEos
    split
    · rename_i ha
      refine .inl ⟨rfl, ?_⟩
      unfold Ctx.available at ha
      omega
    · rename_i ha
      obtain ⟨b, g1, g2, g3⟩ := rest_cons ha
      simp only [getU8, g1]
      refine .inr ⟨_, rfl, hf b, ⟨rfl, ?_⟩, rfl, g3, rfl⟩
      simp only [jump, Ctx.jump, Ctx.setMark]
      unfold Ctx.available at ha
      omega
  obtain ⟨⟨a, b, x, y, st⟩, ctx, log⟩ := c
  cases st <;> first | exact absurd hs Bool.false_ne_true | skip
  · exact key (fun b s => { s with bit32b := s.bit32b ||| (b.toUInt32 <<< 16), st := .goAwayStreamId3 }) (fun _ => rfl) _ rfl
  · exact key (fun b s => { s with bit32b := s.bit32b ||| (b.toUInt32 <<< 8), st := .goAwayStreamId3 }) (fun _ => rfl) _ rfl
  · exact key (fun b s => { s with bit32b := s.bit32b ||| (b.toUInt32 <<< 16), st := .settingsValue3 }) (fun _ => rfl) _ rfl
  · exact key (fun b s => { s with bit32b := s.bit32b ||| (b.toUInt32 <<< 8), st := .settingsValue3 }) (fun _ => rfl) _ rfl

theorem parse_stuck : ∀ (n : Nat) (c : Cfg), c.ctx.available < n → Stuck c.p.st = true → Ok c →
    ∃ c', parse h n c = (.ok (.eos c.ctx.stream.length), c') ∧ Stuck c'.p.st = true ∧ c'.log = c.log
  | 0, c, hn, _, _ => absurd hn (by omega)
  | n + 1, c, hn, hs, hok => by
    rw [parse]
    rcases step_stuck (h := h) hs hok with ⟨h1, h2⟩ | ⟨c', h1, h2, h3, h4, h5, h6⟩
    · rw [h1]
      exact ⟨c, by rw [h2], hs, rfl⟩
    · rw [h1]
      obtain ⟨c2, g1, g2, g3⟩ := parse_stuck n c' (by omega) h2 h3
      exact ⟨c2, by simp only [g1, h4], g2, g3.trans h6⟩

theorem resume_stuck {w : World} (hs : Stuck w.p.st = true) (s : Bytes) :
    ∃ w', resume h w s = (.ok (.eos s.length), w') ∧ Stuck w'.p.st = true ∧ w'.log = w.log := by
  obtain ⟨c', h1, h2, h3⟩ := parse_stuck (h := h) (fuel s.length) ⟨w.p.toCore, Ctx.new s, w.log⟩
    (by simp only [fuel, Ctx.available, Ctx.new]; omega) hs ⟨rfl, Nat.zero_le _⟩
  refine ⟨⟨⟨c'.p, w.p.byteCount + c'.ctx.idx⟩, c'.log⟩, ?_, h2, h3⟩
  have hd : w.p.st ≠ .dead := by intro h; rw [h] at hs; cases hs
  have hf : w.p.st ≠ .finished := by intro h; rw [h] at hs; cases hs
  unfold resume
  simp only [h1]
  first | rfl | (split <;> first | contradiction | rfl)

theorem drive_stuck : ∀ (ks : List Nat) (last : End) (sts : List Stop) (w : World) (rem : Bytes), Stuck w.p.st = true →
    last = .idle ∨ last = .callback ∨ last = .eos →
    (drive h last sts ks w rem).world.log = w.log ∧ Stuck (drive h last sts ks w rem).world.p.st = true ∧
      ((drive h last sts ks w rem).last = .idle ∨ (drive h last sts ks w rem).last = .callback ∨
        (drive h last sts ks w rem).last = .eos)
  | [], _, _, _, _, hs, hl => ⟨rfl, hs, hl⟩
  | k :: ks, last, sts, w, rem, hs, hl => by
    obtain ⟨w', h1, h2, h3⟩ := resume_stuck (h := h) hs (rem.take k)
    rw [drive, h1]
    obtain ⟨g1, g2⟩ := drive_stuck ks .eos (sts ++ [⟨w'.p.st, (rem.drop (rem.take k).length).length⟩]) w'
      (rem.drop (rem.take k).length) h2 (.inr (.inr rfl))
    exact ⟨g1.trans h3, g2⟩

/-! ## Client runs -/

/-- The reference machine is within a field after `done`. -/
def Mid (S : Bool) (tr : List Ev) (done : Bytes) : Prop :=
  ∃ s0 : Core, Cut S s0.st = true ∧ ∀ y, Sim S (pred tr s0 y) (predNew (done ++ y))

/-- The bytes of `m` that were processed before a stop. -/
def Stop.done (st : Stop) (m : Bytes) : Bytes := m.take (m.length - st.left)

/-- One of the calls stopped within a field, after the callbacks `l`. -/
def Broke (S : Bool) (m : Bytes) (o : Outcome) : Prop :=
  ∃ st ∈ o.stops, Cut S st.state = true ∧ ∃ l, l <+: o.world.log ∧ Mid S (flat l) (st.done m) ∧
    (inLongField st.state = true → l = o.world.log ∧ o.last ≠ .panic ∧ Stuck o.world.p.st = true)

/-- What a client run over `m` tells. -/
def RunX (S : Bool) (m : Bytes) (o : Outcome) : Prop :=
  match o.last with
  | .idle | .callback | .eos => ∃ done, m = done ++ o.rest ∧ InvX S (o.rest = []) done o.world.log o.world.p.toCore
  | .panic => Sim S (flat o.world.log, .panic) (predNew m)
  | _ => False

theorem drive_stops : ∀ (ks : List Nat) (last : End) (sts : List Stop) (w : World) (rem : Bytes) (st : Stop), st ∈ sts →
    st ∈ (drive h last sts ks w rem).stops
  | [], _, sts, _, _, st, hs => hs
  | k :: ks, _, sts, w, rem, st, hs => by
    rw [drive]
    split <;> first | exact hs | exact List.mem_append_left _ hs |
      exact drive_stops ks _ _ _ _ _ (List.mem_append_left _ hs)

theorem InvX.mono {E E' : Prop} {done : Bytes} {log : List Ev} {s : Core} (hi : InvX S E done log s) (he : E' → E) :
    InvX S E' done log s := by
  obtain ⟨b, h1, h2⟩ := hi
  exact ⟨b, h1, fun y hy => h2 y fun h => he (hy h)⟩

theorem MidX.mid {done : Bytes} {log : List Ev} {st : St} (hi : MidX S done log st) :
    Cut S st = true ∧ Mid S (flat log) done ∧ (inLongField st = true → Stuck st = true) := by
  obtain ⟨h0, s0, h1, h2, h3⟩ := hi
  refine ⟨h0, ⟨s0, h1, fun y => h3 y fun _ => trivial⟩, ?_⟩
  subst h2
  cases s0.st <;> decide

/-- None of the stops is within a last stream id or a settings value. -/
def Whole (sts : List Stop) : Prop := ∀ st ∈ sts, inLongField st.state = false

theorem Whole.add {sts : List Stop} (h1 : Whole sts) {st : Stop} (h2 : inLongField st.state = false) : Whole (sts ++ [st]) := by
  intro x hx
  rcases List.mem_append.mp hx with hx | hx
  · exact h1 x hx
  · rw [List.mem_singleton.mp hx]; exact h2

theorem InvX.whole {E : Prop} {done : Bytes} {log : List Ev} {s : Core} (hi : InvX S E done log s) :
    inLongField s.st = false := by
  obtain ⟨b, h1, -⟩ := hi
  unfold RelX at h1
  split at h1
  · rename_i h; rw [h]; rfl
  · rename_i h; rw [h]; rfl
  · rename_i h; rw [h]; rfl
  · rename_i h; rw [h]; rfl
  · exact h1.2.2

theorem drive_x (m : Bytes) : ∀ (ks : List Nat) (last : End) (sts : List Stop) (w : World)
    (done rem : Bytes), m = done ++ rem → last = .idle ∨ last = .callback ∨ last = .eos → w.p.st ≠ .dead →
    w.p.st ≠ .finished → GoodLog w.log → InvX S (rem = []) done w.log w.p.toCore → Whole sts →
    (RunX S m (drive h last sts ks w rem) ∧ Whole (drive h last sts ks w rem).stops) ∨ Broke S m (drive h last sts ks w rem)
  | [], last, sts, w, done, rem, hm, hl, hd, hf, hg, hi, hw => by
    rcases hl with rfl | rfl | rfl <;> exact .inl ⟨⟨done, hm, hi⟩, hw⟩
  | k :: ks, last, sts, w, done, rem, hm, hl, hd, hf, hg, hi, hw => by
    have hc := call_x (h := h) (S := S) (s := rem.take k) (base := done) (w := w) (D := rem = [] ∨ rem.take k ≠ [])
      .inr (hi.mono fun hx => hx.2.resolve_right (absurd hx.1))
    have ht := call_T (h := h) (s := rem.take k) hd hf hg
    rw [drive]
    generalize resume h w (rem.take k) = o at hc ht
    obtain ⟨r, w'⟩ := o
    have key : ∀ n, n ≤ (rem.take k).length → (InvX S ((rem.take k).drop n = [] ∧ (rem = [] ∨ rem.take k ≠ []))
          (done ++ (rem.take k).take n) w'.log w'.p.toCore ∨ MidX S (done ++ (rem.take k).take n) w'.log w'.p.st) →
        (m = (done ++ rem.take n) ++ rem.drop n ∧ InvX S (rem.drop n = []) (done ++ rem.take n) w'.log w'.p.toCore) ∨
        (Cut S w'.p.st = true ∧ Mid S (flat w'.log) (Stop.done ⟨w'.p.st, (rem.drop n).length⟩ m) ∧
          (inLongField w'.p.st = true → Stuck w'.p.st = true)) := by
      intro n hn hx
      have hnr : n ≤ rem.length := by rw [List.length_take] at hn; omega
      have hnk : n ≤ k := by rw [List.length_take] at hn; omega
      have e1 : (rem.take k).take n = rem.take n := by rw [List.take_take, Nat.min_eq_left hnk]
      have e2 : m = (done ++ rem.take n) ++ rem.drop n := by rw [List.append_assoc, List.take_append_drop]; exact hm
      rw [e1] at hx
      have e3 : m.take (m.length - (rem.drop n).length) = done ++ rem.take n := by
        have : m.length - (rem.drop n).length = (done ++ rem.take n).length := by
          rw [e2]; simp only [List.length_append]; omega
        rw [this]
        conv => lhs; rw [e2]
        exact List.take_left' rfl
      rcases hx with hx | hx
      · refine .inl ⟨e2, hx.mono fun he => ?_⟩
        have hl : rem.length ≤ n := by
          have := congrArg List.length he
          simp only [List.length_drop, List.length_nil] at this
          omega
        refine ⟨List.drop_of_length_le (Nat.le_trans (by rw [List.length_take]; omega) hl), ?_⟩
        cases rem with
        | nil => exact .inl rfl
        | cons b r =>
          refine .inr fun h => ?_
          have := congrArg List.length h
          simp only [List.length_take, List.length_cons, List.length_nil] at this hl
          omega
      · refine .inr ?_
        unfold Stop.done
        simp only [e3]
        exact hx.mid
    cases r with
    | ok su =>
      cases su with
      | eos n =>
        obtain ⟨h1, h2⟩ := hc
        rcases key n (by omega) h2 with ⟨g1, g2⟩ | ⟨g1, g2, g3⟩
        · exact drive_x m ks _ _ _ _ _ g1 (.inr (.inr rfl)) ht.2.2.2.2.1 ht.2.2.2.2.2 ht.2.2.1 g2 (hw.add g2.whole)
        · exact .inr ⟨⟨w'.p.st, (rem.drop n).length⟩, drive_stops ks _ _ _ _ _ (by simp), g1, w'.log,
            drive_log ks _ _ _ _ ht.2.2.2.2.1 ht.2.2.2.2.2 ht.2.2.1, g2, fun hl => by
              obtain ⟨a, b', b⟩ := drive_stuck (h := h) ks .eos (sts ++ [⟨w'.p.st, (rem.drop n).length⟩]) w' (rem.drop n) (g3 hl) (.inr (.inr rfl))
              exact ⟨a.symm, by rcases b with b | b | b <;> rw [b] <;> nofun, b'⟩⟩
      | callback n =>
        obtain ⟨h1, h2⟩ := hc
        rcases key n h1 h2 with ⟨g1, g2⟩ | ⟨g1, g2, g3⟩
        · exact drive_x m ks _ _ _ _ _ g1 (.inr (.inl rfl)) ht.2.2.2.2.1 ht.2.2.2.2.2 ht.2.2.1 g2 (hw.add g2.whole)
        · exact .inr ⟨⟨w'.p.st, (rem.drop n).length⟩, drive_stops ks _ _ _ _ _ (by simp), g1, w'.log,
            drive_log ks _ _ _ _ ht.2.2.2.2.1 ht.2.2.2.2.2 ht.2.2.1, g2, fun hl => by
              obtain ⟨a, b', b⟩ := drive_stuck (h := h) ks .callback (sts ++ [⟨w'.p.st, (rem.drop n).length⟩]) w' (rem.drop n) (g3 hl) (.inr (.inl rfl))
              exact ⟨a.symm, by rcases b with b | b | b <;> rw [b] <;> nofun, b'⟩⟩
      | finished n => exact hc.elim
    | err => exact hc.elim
    | panic =>
      have e : done ++ rem.take k ++ rem.drop k = m := by rw [List.append_assoc, List.take_append_drop]; exact hm.symm
      have := hc (rem.drop k) (fun he => by
        cases rem with
        | nil => exact .inl rfl
        | cons b r =>
          refine .inr fun h => ?_
          have h1 := List.take_append_drop k (b :: r)
          rw [h, he] at h1
          cases h1)
      rw [e] at this
      exact .inl ⟨this, hw⟩
    | diverge => exact hc.elim

theorem run_w (ks : List Nat) : (RunX S m (run h ks m) ∧ Whole (run h ks m).stops) ∨ Broke S m (run h ks m) :=
  drive_x m ks _ _ _ [] _ rfl (.inl rfl) nofun nofun (by simp [GoodLog]) ⟨0, ⟨rfl, trivial, rfl⟩, fun _ _ => .refl _⟩ nofun

theorem run_x (ks : List Nat) : RunX S m (run h ks m) ∨ Broke S m (run h ks m) := (run_w ks).imp_left And.left

theorem InvX.nil {done : Bytes} {s : Core} {log : List Ev} (hi : InvX S True done log s)
    (hn : ∀ b, norm { s with bit32b := b } = .next [] { s with bit32b := b }) :
    Sim S (flat log, .eos) (predNew done) := by
  obtain ⟨b, -, hK⟩ := hi
  have := hK [] fun _ => trivial
  rw [List.append_nil, pred, hn b] at this
  simpa using this

/-! ## Complete runs -/

theorem run_eosX {ks : List Nat} (hb : ¬ Broke S m (run h ks m))
    (hl : (run h ks m).last = .eos) (hr : (run h ks m).rest = []) :
    Sim S (flat (run h ks m).world.log, .eos) (predNew m) := by
  have hx := (run_x (h := h) ks).resolve_right hb
  obtain ⟨-, -, ht⟩ := run_T (h := h) ks m
  unfold RunX at hx
  rw [hl] at hx
  simp only [hr, List.append_nil] at hx
  obtain ⟨done, rfl, hx⟩ := hx
  exact hx.nil fun b => norm_of_imm ht

theorem run_prefixX {ks : List Nat} (hb : ¬ Broke S m (run h ks m)) :
    SimPre S (flat (run h ks m).world.log) (predNew m).1 := by
  have hx := (run_x (h := h) ks).resolve_right hb
  unfold RunX at hx
  split at hx
  any_goals
    obtain ⟨done, e, b, -, hK⟩ := hx
    have := hK _ id
    rw [← e] at this
    exact nears_prefix this.2 (pred_prefix _ _ _)
  · exact ⟨_, List.prefix_rfl, hx.2⟩
  · exact hx.elim

theorem run_panicX {ks : List Nat} (hb : ¬ Broke S m (run h ks m))
    (hl : (run h ks m).last = .panic) : Sim S (flat (run h ks m).world.log, .panic) (predNew m) := by
  have hx := (run_x (h := h) ks).resolve_right hb
  unfold RunX at hx
  rw [hl] at hx
  exact hx

theorem run_eos {ks : List Nat} (hb : ¬ Broke false m (run h ks m))
    (hl : (run h ks m).last = .eos) (hr : (run h ks m).rest = []) :
    predNew m = (flat (run h ks m).world.log, .eos) := (run_eosX hb hl hr).eq.symm

end Verif.Http2
