import Verif.Http2.Drive
import Verif.Http2.RunsAny

/-!
# Client runs and the reference machine that knows the slices (helper lemmas)
-/

set_option linter.unusedSimpArgs false
set_option linter.unusedVariables false

namespace Verif.Http2

theorem predC_prefix {K : Slices} : ∀ (m : Bytes) (tr : List Ev) (s : Core), tr <+: (predC K tr s m).1
  | [], tr, s => by
    rw [predC]
    cases norm s <;> exact List.prefix_append _ _
  | b :: m, tr, s => by
    rw [predC]
    cases norm s with
    | panic es => exact List.prefix_append _ _
    | next es s' =>
      simp only
      split
      · exact List.prefix_append _ _
      · cases bstep s' _ with
        | panic es' => simp [List.append_assoc]
        | next es' s2 => exact (by simp [List.append_assoc] : tr <+: tr ++ es ++ es').trans (predC_prefix m _ _)

namespace Exact

variable {h : Handler} {c : Cfg} {D : Prop} {base : Bytes} {M : Nat → Bool}

/-- The ends of slices are known up to `i`, where this call began, and before `f`. -/
def Know (M : Nat → Bool) (i f : Nat) (K : Slices) : Prop := ∀ p, 0 < p → p ≤ i ∨ p < f → K.cut p = M p

/-- After `done`, the reference machine is in state `s`, as far as that can be seen; if `E`, even when nothing
follows. -/
def RunsC (G : Slices → Prop) (E : Prop) (done : Bytes) (log : List Ev) (s : Core) : Prop :=
  ∀ K, G K → ∀ y, (y = [] → E) → K.total = done.length + y.length →
    predC K (flat log) s y = predC K [] Parser.new.toCore (done ++ y)

/-- The parser agrees with the reference machine. -/
def InvC (M : Nat → Bool) (D : Prop) (base : Bytes) (c : Cfg) : Prop :=
  RelSelf c.p ∧ inLongField c.p.st = false ∧
    RunsC (Know M base.length (base.length + c.ctx.idx)) (Last D c.ctx) (seen base c.ctx) c.log c.p

/-- The same, but for the bytes of a stream id that are lost. -/
def half (s : Core) : Core := { s with bit32b := if s.st = .frameStreamId4 then s.bit32b else 0 }

/-- The position of a stream id, of which some bytes were read. -/
def field (i : Nat) (st : St) : Nat := i - (4 - miss st)

/-- A stream id that is cut by the end of a slice. -/
def SlowC (M : Nat → Bool) (D : Prop) (base : Bytes) (c : Cfg) : Prop :=
  inStreamId c.p.st = true ∧ 4 ≤ base.length + c.ctx.idx + miss c.p.st ∧ (c.ctx.available < miss c.p.st ∨
    ∃ e, field (base.length + c.ctx.idx) c.p.st < e ∧ e ≤ base.length ∧ M e = true) ∧
  RunsC (fun K => Know M base.length (base.length + c.ctx.idx) K ∧
      K.within (field (base.length + c.ctx.idx) c.p.st) = true)
    (Last D c.ctx) (seen base c.ctx) c.log (half c.p)

/-- A field that is never completed. -/
def StuckC (M : Nat → Bool) (base : Bytes) (c : Cfg) : Prop :=
  Stuck c.p.st = true ∧ ∃ f, f < base.length + c.ctx.stream.length ∧ base.length + c.ctx.stream.length < f + 4 ∧
    ∀ K, Know M base.length f K → K.within f = true → ∀ z, K.total = base.length + c.ctx.stream.length + z.length →
      predC K [] Parser.new.toCore (base ++ c.ctx.stream ++ z) = (flat c.log, .eos)

/-- One of the three cases in which a call can be. -/
def CfgC (M : Nat → Bool) (D : Prop) (base : Bytes) (c : Cfg) : Prop :=
  InvC M D base c ∨ SlowC M D base c ∨ StuckC M base c

/-- A panic is predicted. -/
def Panics (M : Nat → Bool) (D : Prop) (m : Bytes) (log : List Ev) : Prop :=
  ∀ K, (∀ p, 0 < p → K.cut p = M p) → ∀ fut, (fut = [] → D) → K.total = m.length + fut.length →
    predC K [] Parser.new.toCore (m ++ fut) = (flat log, .panic)

/-- One step, with all its possible results. -/
def StepC (M : Nat → Bool) (D : Prop) (base : Bytes) (c : Cfg) : Out → Prop
  | .cont c' => Ok c' ∧ c'.ctx.stream = c.ctx.stream ∧ mu c' < mu c ∧ CfgC M D base c'
  | .exit (.eos n) c' => c'.ctx.stream = c.ctx.stream ∧ n = c'.ctx.idx ∧ n = c.ctx.stream.length ∧ CfgC M D base c'
  | .exit (.callback n) c' => c'.ctx.stream = c.ctx.stream ∧ n = c'.ctx.idx ∧ n ≤ c.ctx.stream.length ∧
      InvC M D base c'
  | .panic log => Panics M D (base ++ c.ctx.stream) log
  | _ => False

theorem Know.mono {i f f' : Nat} {K : Slices} (hk : Know M i f' K) (hf : f ≤ f') : Know M i f K :=
  fun p h0 h => hk p h0 (h.imp_right fun h => by omega)

theorem seen_length {x : Ctx} (hx : x.idx ≤ x.stream.length) : (seen base x).length = base.length + x.idx := by
  rw [seen, List.length_append, List.length_take, Nat.min_eq_left hx]

/-- `RunsC` after `u`. -/
theorem RunsC.move {G G' : Slices → Prop} {log log' : List Ev} {s s' : Core} {x x' : Ctx} {u : Bytes}
    (hr : RunsC G (Last D x) (seen base x) log s) (hs : x'.stream = x.stream) (hu : x.rest = u ++ x'.rest)
    (hG : ∀ K, G' K → G K)
    (hp : ∀ K y, G' K → K.total = (seen base x).length + (u ++ y).length → (y = [] → x'.rest = []) →
      predC K (flat log) s (u ++ y) = predC K (flat log') s' y) :
    RunsC G' (Last D x') (seen base x') log' s' := by
  intro K hK y hy ht
  rw [seen_add hs hu, List.length_append, Nat.add_assoc, ← List.length_append] at ht
  rw [seen_add hs hu, List.append_assoc, ← hp K y hK ht fun h => (hy h).1]
  refine hr K (hG K hK) (u ++ y) (fun h => ?_) ht
  obtain ⟨rfl, rfl⟩ := List.append_eq_nil_iff.mp h
  obtain ⟨h1, h2⟩ := hy rfl
  exact ⟨by rw [hu, h1]; rfl, h2⟩

/-- What a step makes of a configuration. -/
def Gives (o : Out) (c' : Cfg) : Prop := o = .cont c' ∨ ∃ s, o = .exit s c'

theorem idx_le {x x' : Ctx} {u : Bytes} (hs : x'.stream = x.stream) (hu : x.rest = u ++ x'.rest)
    (h1 : x.idx ≤ x.stream.length) (h2 : x'.idx ≤ x'.stream.length) : x'.idx = x.idx + u.length := by
  have := congrArg List.length hu
  rw [hs] at h2
  simp only [Ctx.rest, List.length_append, List.length_drop, hs] at this
  omega

theorem stepC_of_ok {P : Slices → Bytes → Prop} (hok : Ok c) (hl : inLongField c.p.st = false)
    (hK : RunsC (Know M base.length (base.length + c.ctx.idx)) (Last D c.ctx) (seen base c.ctx) c.log c.p) {o : Out}
    (hP : ∀ c', Gives o c' → ∀ K r, Know M base.length (base.length + c'.ctx.idx) K →
      K.total = (seen base c.ctx).length + r.length → P K r)
    (hP' : ∀ K r, (∀ p, 0 < p → K.cut p = M p) → K.total = (seen base c.ctx).length + r.length → P K r)
    (ho : StepOK P c o) (hc : ∀ c', o = .cont c' → inLongField c'.p.st = false) : StepC M D base c o := by
  cases o with
  | cont c' =>
    obtain ⟨h1, h2, h3, ⟨u, hu, hp⟩, h5⟩ := ho
    have hi := idx_le h2 hu hok.le h1.le
    exact ⟨h1, h2, h3, .inl ⟨h5, hc c' rfl, hK.move h2 hu (fun K hK => hK.mono (by omega)) fun K y hk ht hy =>
      hp K y (hP c' (.inl rfl) K _ hk ht) hy⟩⟩
  | exit s c' =>
    cases s with
    | eos n =>
      obtain ⟨h1, h2, h3, ⟨u, hu, hp⟩, h5⟩ := ho
      have hi := idx_le h1 hu hok.le (by rw [h1]; omega)
      exact ⟨h1, h2, h3, .inl ⟨h5.1, h5.2 hl, hK.move h1 hu (fun K hK => hK.mono (by omega)) fun K y hk ht hy =>
        hp K y (hP c' (.inr ⟨_, rfl⟩) K _ hk ht) hy⟩⟩
    | callback n =>
      obtain ⟨h1, h2, h3, ⟨u, hu, hp⟩, h5⟩ := ho
      have hi := idx_le h1 hu hok.le (by rw [h1]; omega)
      exact ⟨h1, h2, h3, h5.1, h5.2 hl, hK.move h1 hu (fun K hK => hK.mono (by omega)) fun K y hk ht hy =>
        hp K y (hP c' (.inr ⟨_, rfl⟩) K _ hk ht) hy⟩
    | finished n => exact ho
  | err c' => exact ho
  | panic log =>
    intro K hk fut hD ht
    have ht' : K.total = (seen base c.ctx).length + (c.ctx.rest ++ fut).length := by
      rw [ht, ← seen_rest (base := base) c.ctx]; simp only [List.length_append]; omega
    have h1 := ho K fut (hP' K _ hk ht')
    have := hK K (fun p h0 _ => hk p h0) (c.ctx.rest ++ fut) (fun h => by
      have h := List.append_eq_nil_iff.mp h
      exact ⟨h.1, hD h.2⟩) ht'
    rw [← List.append_assoc, seen_rest, h1] at this
    exact this.symm

/-- Where nothing is special about slices. -/
theorem stepC_plain (hok : Ok c) (hi : InvC M D base c) (hp : Plain c.p.st = true)
    (h1 : c.p.st ≠ .goAwayStreamId1) (h2 : c.p.st ≠ .settingsValue1) : StepC M D base c (stepFn h c) := by
  obtain ⟨g1, g2, g3⟩ := hi
  refine stepC_of_ok (P := fun _ _ => True) hok g2 g3 (fun _ _ _ _ _ _ => trivial) (fun _ _ _ _ => trivial)
    (step_plain hok hp (fun h => (h.elim h1 h2).elim) g1) ?_
  intro c' hc'
  have := nl_step (h := h) g2 h1 h2
  rw [hc'] at this
  exact this

/-- Four bytes that are read at once. -/
theorem stepC_fast (hM : ∀ p, base.length < p → M p = false) (hok : Ok c) (hi : InvC M D base c) {o : Out}
    (h4 : ∀ c', Gives o c' → c'.ctx.idx = c.ctx.idx + 4) (ho : StepOK Clear c o)
    (hc : ∀ c', o = .cont c' → inLongField c'.p.st = false) : StepC M D base c o := by
  obtain ⟨g1, g2, g3⟩ := hi
  have hs := seen_length (base := base) hok.le
  refine stepC_of_ok hok g2 g3 ?_ ?_ ho hc
  · intro c' hg K r hk ht
    have hi := h4 c' hg
    have : ∀ p, base.length + c.ctx.idx < p → p < base.length + c.ctx.idx + 4 → K.cut p = false := fun p hp hp' => by
      rw [hk p (by omega) (.inr (by omega))]; exact hM p (by omega)
    unfold Clear Slices.within
    rw [ht, hs, Nat.add_sub_cancel, this _ (by omega) (by omega), this _ (by omega) (by omega),
      this _ (by omega) (by omega)]
    rfl
  · intro K r hk ht
    have : ∀ p, base.length + c.ctx.idx < p → K.cut p = false := fun p hp => by
      rw [hk p (by omega)]; exact hM p (by omega)
    unfold Clear Slices.within
    rw [ht, hs, Nat.add_sub_cancel, this _ (by omega), this _ (by omega), this _ (by omega)]
    rfl

/-- A state in which one byte is read. -/
theorem byteC (hok : Ok c) (f : UInt8 → Core → Core) {o : Out}
    (ho : o = (exitIfEos c <| getU8 c fun b c => remark { c with p := f b c.p }))
    (h0 : CfgC M D base c)
    (h1 : ∀ b, c.ctx.available ≠ 0 → c.ctx.rest = b :: (c.ctx.jump 1).rest →
      (c.ctx.jump 1).available + 1 = c.ctx.available → CfgC M D base ⟨f b c.p, (c.ctx.jump 1).setMark, c.log⟩) :
    StepC M D base c o := by
  subst ho
  unfold exitIfEos
  split
  · rename_i ha
    refine ⟨rfl, rfl, ?_, h0⟩
    have := hok.le
    unfold Ctx.available at ha
    omega
  · rename_i ha
    obtain ⟨b, g1, g2, g3⟩ := rest_cons ha
    simp only [getU8, g1]
    refine ⟨⟨rfl, ?_⟩, rfl, ?_, h1 b ha g2 g3⟩
    · have := hok.le
      simp only [remark, jump, Ctx.jump, Ctx.setMark]
      unfold Ctx.available at ha
      omega
    · show 4 * (c.ctx.jump 1).available + rank _ < 4 * c.ctx.available + rank _
      have := rank_le (f b c.p).st
      simp only [jump]
      omega

theorem fast_idx {k : UInt32 → Cfg → Out} {i : UInt32} {o : Out} (h4 : c.ctx.available ≥ 4)
    (hk : ∀ x c'', Gives (k x (jump c 4)) c'' → c''.ctx.idx = c.ctx.idx + 4) :
    ∀ c', Gives (exitIfEos c <| if c.ctx.available ≥ 4 then readU32 c i k else o) c' → c'.ctx.idx = c.ctx.idx + 4 := by
  intro c' hc'
  rw [if_pos h4] at hc'
  unfold exitIfEos at hc'
  rw [if_neg (by omega)] at hc'
  obtain ⟨b1, b2, b3, b4, g1, g2, g3, g4, hr, ha⟩ := rest_four h4
  simp only [readU32, g1, g2, g3, g4] at hc'
  exact hk _ _ hc'

/-- The first byte of a field that is never completed. -/
theorem lost_c {st : St} {f : UInt8 → Core → Core} {o : Out} (hok : Ok c) (hi : InvC M D base c)
    (h4 : ¬ c.ctx.available ≥ 4) (hs : c.p.st = .goAwayStreamId1 ∨ c.p.st = .settingsValue1)
    (ho : o = (exitIfEos c <| getU8 c fun b c => remark { c with p := f b c.p }))
    (hf : ∀ b, Stuck (f b c.p).st = true) : StepC M D base c o := by
  refine byteC hok f ho (.inl hi) fun b h0 h1 h2 => .inr (.inr ⟨hf b, base.length + c.ctx.idx, ?_⟩)
  have hle := hok.le
  have ha : c.ctx.available = c.ctx.stream.length - c.ctx.idx := rfl
  have hstr : (c.ctx.jump 1).setMark.stream = c.ctx.stream := rfl
  refine ⟨?_, ?_, ?_⟩
  · show _ < base.length + c.ctx.stream.length; omega
  · show base.length + c.ctx.stream.length < _; omega
  · intro K hk hw z ht
    show predC K [] _ (base ++ c.ctx.stream ++ z) = (flat c.log, .eos)
    have ht : K.total = base.length + c.ctx.stream.length + z.length := ht
    have hsl := seen_length (base := base) hle
    have hr : c.ctx.rest.length = c.ctx.available := by unfold Ctx.rest; rw [List.length_drop]; rfl
    have := hi.2.2 K hk (c.ctx.rest ++ z) (fun h => by rw [h1] at h; cases h) (by
      rw [ht, hsl, List.length_append, hr]; omega)
    rw [← List.append_assoc, seen_rest] at this
    rw [← this, h1]
    have hpos : K.total - (((c.ctx.jump 1).rest ++ z).length + 1) = base.length + c.ctx.idx := by
      have hr' := congrArg List.length h1
      rw [hr, List.length_cons] at hr'
      rw [ht, List.length_append]; omega
    have hn : norm c.p = .next [] c.p := by
      rcases hs with hs | hs <;> simp [norm, hs]
    have hlost : K.lost (base.length + c.ctx.idx) c.p.st = true := by
      rcases hs with hs | hs <;> rw [hs] <;> exact hw
    simp only [List.cons_append, predC, hn, hpos, hlost, if_true, List.append_nil]

theorem go1_c (hM : ∀ p, base.length < p → M p = false) (hok : Ok c) (hs : c.p.st = .goAwayStreamId1)
    (hi : InvC M D base c) : StepC M D base c (go_away_stream_id1 c) := by
  by_cases h4 : c.ctx.available ≥ 4
  · refine stepC_fast hM hok hi (fast_idx h4 ?_) (go_away_stream_id1_ok (fun _ _ h => h) hok hs)
      (nl_four h4 fun _ _ => nl_transition rfl)
    rintro x c'' (h | ⟨s, h⟩) <;> cases h
    rfl
  · exact lost_c (st := .goAwayStreamId2)
      (f := fun b s => { s with bit32b := s.bit32b ||| (b.toUInt32 <<< 24), st := .goAwayStreamId2 }) hok hi h4 (.inl hs)
      (go1_slow h4) fun _ => rfl

theorem val1_c (hM : ∀ p, base.length < p → M p = false) (hok : Ok c) (hs : c.p.st = .settingsValue1)
    (hi : InvC M D base c) : StepC M D base c (settings_value1 c) := by
  by_cases h4 : c.ctx.available ≥ 4
  · refine stepC_fast hM hok hi (fast_idx h4 ?_) (settings_value1_ok (fun _ _ h => h) hok hs)
      (nl_four h4 fun _ _ => nl_transition rfl)
    rintro x c'' (h | ⟨s, h⟩) <;> cases h
    rfl
  · exact lost_c (st := .settingsValue2)
      (f := fun b s => { s with bit32b := s.bit32b ||| (b.toUInt32 <<< 24), st := .settingsValue2 }) hok hi h4 (.inr hs)
      (val1_slow h4) fun _ => rfl

/-! ## Stream ids -/

theorem rest_length (x : Ctx) : x.rest.length = x.available := by unfold Ctx.rest; rw [List.length_drop]; rfl

theorem jump_idx (x : Ctx) : (x.jump 1).setMark.idx = x.idx + 1 := rfl

theorem id1_c (hM : ∀ p, base.length < p → M p = false) (hok : Ok c) (hs : c.p.st = .frameStreamId1)
    (hi : InvC M D base c) : StepC M D base c (frame_stream_id1 c) := by
  obtain ⟨⟨a, b, x, y, st⟩, ctx, log⟩ := c
  subst hs
  have hz : b = 0 := hi.1
  subst hz
  by_cases h4 : ctx.available ≥ 4
  · refine stepC_fast hM hok hi ?_ ?_ ?_
    · unfold frame_stream_id1
      refine fast_idx h4 ?_
      rintro x c'' (h | ⟨s, h⟩) <;> cases h
      rfl
    · unfold frame_stream_id1
      refine eos_ok hok rfl fun _ => ?_
      simp only [if_pos h4]
      refine four_ok hok h4 ⟨a, 0, x, y, .frameStreamId1⟩ rfl (x := fun b1 b2 b3 b4 =>
        ⟨a, ((((0 : UInt32) ||| (b1.toUInt32 <<< 24)) ||| (b2.toUInt32 <<< 16)) ||| (b3.toUInt32 <<< 8)) |||
          b4.toUInt32, x, y, .frameFormatEnd⟩) (fun _ _ _ _ => trivial) ?_ ?_
      · intro K b1 b2 b3 b4 tr r hK
        have hz : K.within (K.total - (r.length + 4)) = false := hK
        have hp : K.total - (r.length + 3) - 1 = K.total - (r.length + 4) := by rw [Nat.sub_sub]
        simp only [predC, Slices.lost, Slices.byte, norm, bstep, or32b, List.length_cons, hp, hz, List.append_nil,
          Bool.false_eq_true, if_false]
      · intro b1 b2 b3 b4 g1 g2 g3 g4
        simp only [readU32, g1, g2, g3, g4]
        rfl
    · intro c' hc'
      have : NL (frame_stream_id1 ⟨⟨a, 0, x, y, .frameStreamId1⟩, ctx, log⟩) := nl_frame_stream_id1
      rw [hc'] at this
      exact this
  · refine byteC hok (fun b s => { s with bit32b := b.toUInt32 <<< 24, st := .frameStreamId2 }) (id1_slow h4)
      (.inl hi) fun b h0 h1 h2 => .inr (.inl ⟨rfl, ?_, .inl ?_, ?_⟩)
    · show 4 ≤ _ + 3
      simp only [jump_idx]; omega
    · show (ctx.jump 1).available < 3
      simp only at h2 h4 ⊢; omega
    · have hsl := seen_length (base := base) hok.le
      simp only at hsl h1
      refine hi.2.2.move (u := [b]) rfl h1 (fun K hK => hK.1.mono (by simp only [jump_idx]; omega)) ?_
      intro K y hK ht _
      have hw : K.within (K.total - (y.length + 1)) = true := by
        have := hK.2
        rw [ht, hsl]
        simp only [field, miss, jump_idx, List.length_append, List.length_cons, List.length_nil] at this ⊢
        rw [← this]; congr 1; omega
      simp only [List.cons_append, List.nil_append, predC, Slices.lost, Slices.byte, norm, bstep, or32b, hw, List.append_nil,
        Bool.false_eq_true, if_false, if_true]
      rfl

/-- A further byte of a stream id. -/
theorem slow_c {st : St} {f : UInt8 → Core → Core} {o : Out} (hok : Ok c) (hi : SlowC M D base c)
    (ho : o = (exitIfEos c <| getU8 c fun b c => remark { c with p := f b c.p }))
    (hf : ∀ b, (f b c.p).st = st) (hs : inStreamId st = true) (hm : miss st + 1 = miss c.p.st)
    (hb : ∀ K b tr y, K.total = base.length + c.ctx.idx + (y.length + 1) →
      K.within (field (base.length + c.ctx.idx) c.p.st) = true →
      predC K tr (half c.p) (b :: y) = predC K tr (half (f b c.p)) y) : StepC M D base c o := by
  refine byteC hok f ho (.inr (.inl hi)) fun b h0 h1 h2 => .inr (.inl ?_)
  obtain ⟨g1, g2, g3, g4⟩ := hi
  have hm4 : miss c.p.st ≤ 3 := by
    generalize c.p.st = st at g1
    cases st <;> first | exact absurd g1 (by decide) | decide
  have he : field (base.length + (c.ctx.jump 1).setMark.idx) (f b c.p).st = field (base.length + c.ctx.idx) c.p.st := by
    rw [hf b, jump_idx]
    unfold field; omega
  have hsl := seen_length (base := base) hok.le
  unfold SlowC
  simp only [he]
  refine ⟨by rw [hf b]; exact hs, by rw [hf b, jump_idx]; omega, ?_, ?_⟩
  · refine g3.imp_left fun h => ?_
    rw [hf b]
    show (c.ctx.jump 1).available < _
    omega
  · refine g4.move (u := [b]) rfl h1 (fun K hK => ⟨hK.1.mono (by rw [jump_idx]; omega), hK.2⟩) ?_
    intro K y hK ht _
    exact hb K b _ y (by rw [ht, hsl]; simp) hK.2

theorem id2_c (hok : Ok c) (hs : c.p.st = .frameStreamId2) (hi : SlowC M D base c) :
    StepC M D base c (frame_stream_id2 c) := by
  obtain ⟨⟨a, b, x, y, st⟩, ctx, log⟩ := c
  subst hs
  refine slow_c (st := .frameStreamId3) (f := fun b s => { s with bit32b := b.toUInt32 <<< 16, st := .frameStreamId3 }) hok hi
    rfl (fun _ => rfl) rfl rfl ?_
  intro K b tr y ht hw
  have hw : K.within (K.total - (y.length + 1) - 1) = true := by
    rw [← hw, ht]; simp only [field, miss]; congr 1; omega
  simp [half, predC, Slices.lost, Slices.byte, norm, bstep, or32b, hw]

theorem id3_c (hok : Ok c) (hs : c.p.st = .frameStreamId3) (hi : SlowC M D base c) :
    StepC M D base c (frame_stream_id3 c) := by
  obtain ⟨⟨a, b, x, y, st⟩, ctx, log⟩ := c
  subst hs
  refine slow_c (st := .frameStreamId4) (f := fun b s => { s with bit32b := b.toUInt32 <<< 8, st := .frameStreamId4 }) hok hi
    rfl (fun _ => rfl) rfl rfl ?_
  intro K b tr y ht hw
  simp [half, predC, Slices.lost, Slices.byte, norm, bstep, or32b]

theorem within_of {K : Slices} {f e : Nat} (h1 : f < e) (h2 : e < f + 4) (h : K.cut e = true) : K.within f = true := by
  unfold Slices.within
  have : e = f + 1 ∨ e = f + 2 ∨ e = f + 3 := by omega
  rcases this with h' | h' | h' <;> rw [← h', h] <;> simp

theorem id4_c (hok : Ok c) (hs : c.p.st = .frameStreamId4) (hi : SlowC M D base c) :
    StepC M D base c (frame_stream_id4 c) := by
  obtain ⟨⟨a, b, x, y, st⟩, ctx, log⟩ := c
  subst hs
  refine byteC hok (fun b s => { s with bit32b := s.bit32b ||| b.toUInt32, st := .frameFormatEnd }) rfl
    (.inr (.inl hi)) fun b h0 h1 h2 => .inl ⟨trivial, rfl, ?_⟩
  obtain ⟨g1, g2, g3, g4⟩ := hi
  have g3 := g3.resolve_left (fun h => by
    have h : ctx.available < 1 := h
    simp only at h0; omega)
  obtain ⟨e, k1, k2, k3⟩ := g3
  simp only [field, miss] at k1 g2 g4
  refine g4.move (u := [b]) rfl h1 (fun K hK => ⟨hK.mono (Nat.le_succ _), ?_⟩) ?_
  · have hc : K.cut e = true := by rw [hK e (by omega) (.inl k2)]; exact k3
    refine within_of k1 ?_ hc
    clear g4 hK hc
    generalize base.length = n at *
    dsimp only at *
    omega
  · intro K y hK ht _
    simp [half, predC, Slices.lost, Slices.byte, norm, bstep, or32b]

/-! ## Calls -/

theorem stuck_c (hok : Ok c) (hi : StuckC M base c) : StepC M D base c (stepFn h c) := by
  rcases step_stuck (h := h) hi.1 hok with ⟨h1, h2⟩ | ⟨c', h1, h2, h3, h4, h5, h6⟩
  · rw [h1]
    exact ⟨rfl, rfl, h2, .inr (.inr hi)⟩
  · rw [h1]
    refine ⟨h3, h4, ?_, .inr (.inr ⟨h2, ?_⟩)⟩
    · have := rank_le c'.p.st
      have := rank_le c.p.st
      unfold mu
      omega
    · rw [h4, h6]; exact hi.2

theorem step_c (hM : ∀ p, base.length < p → M p = false) (hok : Ok c) (hi : CfgC M D base c) :
    StepC M D base c (stepFn h c) := by
  rcases hi with hi | hi | hi
  · by_cases h1 : c.p.st = .frameStreamId1
    · have : stepFn h c = frame_stream_id1 c := by unfold stepFn; rw [h1]
      rw [this]; exact id1_c hM hok h1 hi
    by_cases h5 : c.p.st = .goAwayStreamId1
    · have : stepFn h c = go_away_stream_id1 c := by unfold stepFn; rw [h5]
      rw [this]; exact go1_c hM hok h5 hi
    by_cases h6 : c.p.st = .settingsValue1
    · have : stepFn h c = settings_value1 c := by unfold stepFn; rw [h6]
      rw [this]; exact val1_c hM hok h6 hi
    refine stepC_plain hok hi ?_ h5 h6
    obtain ⟨g2, g3, -⟩ := hi
    revert h1 g2 g3
    generalize c.p = s
    obtain ⟨a, b, x, y, st⟩ := s
    cases st <;> intro h1 g2 g3 <;> first | rfl | contradiction
  · by_cases h2 : c.p.st = .frameStreamId2
    · have : stepFn h c = frame_stream_id2 c := by unfold stepFn; rw [h2]
      rw [this]; exact id2_c hok h2 hi
    by_cases h3 : c.p.st = .frameStreamId3
    · have : stepFn h c = frame_stream_id3 c := by unfold stepFn; rw [h3]
      rw [this]; exact id3_c hok h3 hi
    by_cases h4 : c.p.st = .frameStreamId4
    · have : stepFn h c = frame_stream_id4 c := by unfold stepFn; rw [h4]
      rw [this]; exact id4_c hok h4 hi
    have := hi.1
    simp [inStreamId, h2, h3, h4] at this
  · exact stuck_c hok hi

/-- What is known between calls. -/
def BoundC (M : Nat → Bool) (E : Prop) (done : Bytes) (log : List Ev) (s : Core) : Prop :=
  (RelSelf s ∧ inLongField s.st = false ∧ RunsC (Know M done.length 0) E done log s) ∨
  (inStreamId s.st = true ∧ 4 ≤ done.length + miss s.st ∧
    (∃ e, field done.length s.st < e ∧ e ≤ done.length ∧ M e = true) ∧
    RunsC (Know M done.length 0) E done log (half s)) ∨
  (Stuck s.st = true ∧ ∀ K, Know M done.length 0 K → ∀ z, K.total = done.length + z.length →
    predC K [] Parser.new.toCore (done ++ z) = (flat log, .eos))

/-- One more end of a slice. -/
def more (M : Nat → Bool) (q : Nat) : Nat → Bool := fun p => M p || p == q

theorem RunsC.mono {G G' : Slices → Prop} {E E' : Prop} {done : Bytes} {log : List Ev} {s : Core}
    (hr : RunsC G E done log s) (hG : ∀ K, G' K → G K) (hE : E' → E) : RunsC G' E' done log s :=
  fun K hK y hy ht => hr K (hG K hK) y (fun h => hE (hy h)) ht

theorem know_more {i q : Nat} {K : Slices} (hi : i = 0 ∨ M i = true) (hq : i ≤ q) (hk : Know (more M q) q 0 K) :
    Know M i q K := by
  intro p h0 hp
  rw [hk p h0 (.inl (by omega))]
  unfold more
  by_cases h : p = q
  · have : p = i := by omega
    subst this
    rcases hi with hi | hi
    · omega
    · rw [hi]; rfl
  · rw [beq_eq_false_iff_ne.mpr h, Bool.or_false]

theorem InvC.bound (hb : base.length = 0 ∨ M base.length = true) (hle : c.ctx.idx ≤ c.ctx.stream.length)
    (hi : InvC M D base c) :
    BoundC (more M (base.length + c.ctx.idx)) (Last D c.ctx) (seen base c.ctx) c.log c.p := by
  refine .inl ⟨hi.1, hi.2.1, hi.2.2.mono (fun K hK => ?_) id⟩
  rw [seen_length hle] at hK
  exact know_more hb (by omega) hK

theorem CfgC.bound (hb : base.length = 0 ∨ M base.length = true) (he : c.ctx.idx = c.ctx.stream.length)
    (hi : CfgC M D base c) :
    BoundC (more M (base.length + c.ctx.idx)) (Last D c.ctx) (seen base c.ctx) c.log c.p := by
  have hsl := seen_length (base := base) (x := c.ctx) (by omega)
  have hself : more M (base.length + c.ctx.idx) (base.length + c.ctx.idx) = true := by simp [more]
  rcases hi with hi | ⟨g1, g2, g3, g4⟩ | ⟨g1, f, g2, g3, g4⟩
  · exact hi.bound hb (by omega)
  · have hm : 1 ≤ miss c.p.st ∧ miss c.p.st ≤ 3 := by
      generalize c.p.st = st at g1
      cases st <;> first | exact absurd g1 (by decide) | decide
    refine .inr (.inl ⟨g1, by rw [hsl]; exact g2, ⟨base.length + c.ctx.idx, ?_, Nat.le_of_eq hsl.symm, hself⟩, g4.mono (fun K hK => ?_) id⟩)
    · rw [hsl]; unfold field; omega
    · rw [hsl] at hK
      refine ⟨know_more hb (by omega) hK, within_of (e := base.length + c.ctx.idx) ?_ ?_ ?_⟩
      · unfold field; omega
      · unfold field; omega
      · rw [hK _ (by omega) (.inl (Nat.le_refl _))]; exact hself
  · refine .inr (.inr ⟨g1, fun K hK z ht => ?_⟩)
    have hse : seen base c.ctx = base ++ c.ctx.stream := by
      unfold seen; rw [he, List.take_length]
    rw [hsl] at hK ht
    rw [hse]
    rw [he] at ht hK hself
    refine g4 K ((know_more hb (by omega) hK).mono (by omega)) (within_of g2 g3 ?_) z ht
    rw [hK _ (by omega) (.inl (Nat.le_refl _))]; exact hself

/-- What a call of `resume` with `s` tells. -/
def CallC (M : Nat → Bool) (D : Prop) (base s : Bytes) : Res × World → Prop
  | (.ok (.callback n), w') => n ≤ s.length ∧
      BoundC (more M (base.length + n)) (s.drop n = [] ∧ D) (base ++ s.take n) w'.log w'.p.toCore
  | (.ok (.eos n), w') => n = s.length ∧
      BoundC (more M (base.length + n)) (s.drop n = [] ∧ D) (base ++ s.take n) w'.log w'.p.toCore
  | (.panic, w') => Panics M D (base ++ s) w'.log
  | _ => False

theorem parse_c (hM : ∀ p, base.length < p → M p = false) (hb : base.length = 0 ∨ M base.length = true) (s : Bytes)
    (bc : Nat) (p0 : Parser) : ∀ (n : Nat) (c : Cfg), mu c < n → Ok c → c.ctx.stream = s → CfgC M D base c →
    CallC M D base s (match parse h n c with
      | (.ok (.finished n), c) => (.ok (.finished n), ⟨⟨{ c.p with st := .finished }, bc + c.ctx.idx⟩, c.log⟩)
      | (.ok su, c) => (.ok su, ⟨⟨c.p, bc + c.ctx.idx⟩, c.log⟩)
      | (.err, c) => (.err, ⟨⟨{ c.p with st := .dead }, bc + c.ctx.idx⟩, c.log⟩)
      | (r, c) => (r, ⟨p0, c.log⟩))
  | 0, c, hm, _, _, _ => absurd hm (by omega)
  | n + 1, c, hm, hok, hs, hi => by
    have hx := step_c (h := h) hM hok hi
    rw [parse]
    generalize stepFn h c = o at hx
    cases o with
    | cont c' =>
      obtain ⟨h1, h2, h3, h4⟩ := hx
      exact parse_c hM hb s bc p0 n c' (by omega) h1 (h2.trans hs) h4
    | exit su c' =>
      cases su with
      | eos n =>
        obtain ⟨h1, h2, h3, h4⟩ := hx
        subst h2
        rw [← h1] at h3
        have := h4.bound hb h3
        rw [hs] at h1
        unfold Last seen Ctx.rest at this
        rw [h1] at this h3
        exact ⟨h3, this⟩
      | callback n =>
        obtain ⟨h1, h2, h3, h4⟩ := hx
        subst h2
        rw [← h1] at h3
        have := h4.bound hb h3
        rw [hs] at h1
        unfold Last seen Ctx.rest at this
        rw [h1] at this h3
        exact ⟨h3, this⟩
      | finished n => exact hx
    | err c' => exact hx
    | panic log =>
      unfold StepC at hx
      rw [hs] at hx
      exact hx

theorem call_c (hM : ∀ p, base.length < p → M p = false) (hb : base.length = 0 ∨ M base.length = true) {w : World}
    {s : Bytes} (hi : BoundC M (s = [] ∧ D) base w.log w.p.toCore) : CallC M D base s (resume h w s) := by
  have run : ∀ h0 : CfgC M D base ⟨w.p.toCore, Ctx.new s, w.log⟩, CallC M D base s (resume h w s) := by
    intro h0
    have := parse_c (h := h) hM hb s w.p.byteCount w.p (fuel s.length) ⟨w.p.toCore, Ctx.new s, w.log⟩ ?_
      ⟨rfl, Nat.zero_le _⟩ rfl h0
    · unfold resume
      revert this
      generalize parse h (fuel s.length) ⟨w.p.toCore, Ctx.new s, w.log⟩ = o
      obtain ⟨r, c⟩ := o
      intro this
      cases r with
      | ok su => cases su <;> exact this
      | err => exact this
      | panic => exact this
      | diverge => exact this
    · have := rank_le w.p.st
      simp only [mu, fuel, Ctx.available, Ctx.new]
      omega
  have hkn : ∀ {K}, Know M base.length (base.length + (Ctx.new s).idx) K → Know M base.length 0 K :=
    fun hK => hK.mono (Nat.zero_le _)
  have hseen : seen base (Ctx.new s) = base := by simp [seen, Ctx.new]
  have hlast : Last D (Ctx.new s) → s = [] ∧ D := by simp [Last, Ctx.rest, Ctx.new]
  rcases hi with ⟨g1, g2, g3⟩ | ⟨g1, g2, g3, g4⟩ | ⟨g1, g2⟩
  · refine run (.inl ⟨g1, g2, ?_⟩)
    simp only [hseen]
    exact g3.mono (fun K => hkn) hlast
  · refine run (.inr (.inl ⟨g1, g2, .inr g3, ?_⟩))
    simp only [hseen]
    exact g4.mono (fun K hK => hkn hK.1) hlast
  · obtain ⟨w', h1, h2, h3⟩ := resume_stuck (h := h) g1 s
    rw [h1]
    refine ⟨rfl, .inr (.inr ⟨h2, fun K hK z ht => ?_⟩)⟩
    rw [List.take_length] at hK ht ⊢
    rw [List.length_append] at hK ht
    rw [h3, List.append_assoc]
    refine g2 K ((know_more hb (by omega) hK).mono (Nat.zero_le _)) (s ++ z) ?_
    rw [ht, List.length_append]; omega

/-! ## Client runs -/

/-- The slices of a run. -/
def slices (o : Outcome) (m : Bytes) : Slices := ⟨(o.marks m).contains, m.length⟩

/-- What a client run over `m` tells. -/
def RunC (m : Bytes) (o : Outcome) : Prop :=
  match o.last with
  | .idle | .callback | .eos =>
    (∃ b, predC (slices o m) (flat o.world.log) { o.world.p.toCore with bit32b := b } o.rest =
      predC (slices o m) [] Parser.new.toCore m) ∨
    predC (slices o m) [] Parser.new.toCore m = (flat o.world.log, .eos)
  | .panic => predC (slices o m) [] Parser.new.toCore m = (flat o.world.log, .panic)
  | _ => False

/-- The ends of slices so far. -/
def cuts (m : Bytes) (sts : List Stop) : Nat → Bool := (sts.map fun s => m.length - s.left).contains

theorem cuts_more {m : Bytes} {sts : List Stop} {st : St} {k q : Nat} (h : m.length - k = q) :
    cuts m (sts ++ [⟨st, k⟩]) = more (cuts m sts) q := by
  funext p
  unfold cuts more
  rw [List.map_append, List.contains_append]
  simp only [List.map_cons, List.map_nil, h, List.contains_cons, List.contains_nil, Bool.or_false]

theorem drive_c (m : Bytes) : ∀ (ks : List Nat) (last : End) (sts : List Stop) (w : World) (done rem : Bytes),
    m = done ++ rem → last = .idle ∨ last = .callback ∨ last = .eos →
    (∀ p, done.length < p → cuts m sts p = false) → (done.length = 0 ∨ cuts m sts done.length = true) →
    BoundC (cuts m sts) (rem = []) done w.log w.p.toCore → RunC m (drive h last sts ks w rem)
  | [], last, sts, w, done, rem, hm, hl, hM, hb, hi => by
    have hk : Know (cuts m sts) done.length 0 ⟨cuts m sts, m.length⟩ := fun p _ _ => rfl
    have ht : (⟨cuts m sts, m.length⟩ : Slices).total = done.length + rem.length := by
      show m.length = _; rw [hm, List.length_append]
    have hx : (∃ b, predC ⟨cuts m sts, m.length⟩ (flat w.log) { w.p.toCore with bit32b := b } rem =
          predC ⟨cuts m sts, m.length⟩ [] Parser.new.toCore m) ∨
        predC ⟨cuts m sts, m.length⟩ [] Parser.new.toCore m = (flat w.log, .eos) := by
      rcases hi with ⟨-, -, g⟩ | ⟨-, -, -, g⟩ | ⟨-, g⟩
      · have := g _ hk rem id ht
        rw [← hm] at this
        exact .inl ⟨w.p.bit32b, this⟩
      · have := g _ hk rem id ht
        rw [← hm] at this
        exact .inl ⟨_, this⟩
      · have := g _ hk rem ht
        rw [← hm] at this
        exact .inr this
    rcases hl with rfl | rfl | rfl <;> exact hx
  | k :: ks, last, sts, w, done, rem, hm, hl, hM, hb, hi => by
    have hi' : BoundC (cuts m sts) (rem.take k = [] ∧ (rem = [] ∨ rem.take k ≠ [])) done w.log w.p.toCore := by
      have hE : rem.take k = [] ∧ (rem = [] ∨ rem.take k ≠ []) → rem = [] := fun hx => hx.2.resolve_right (absurd hx.1)
      rcases hi with ⟨g1, g2, g3⟩ | ⟨g1, g2, g3, g4⟩ | g
      · exact .inl ⟨g1, g2, g3.mono (fun _ => id) hE⟩
      · exact .inr (.inl ⟨g1, g2, g3, g4.mono (fun _ => id) hE⟩)
      · exact .inr (.inr g)
    have hc := call_c (h := h) hM hb hi'
    rw [drive]
    generalize resume h w (rem.take k) = o at hc
    obtain ⟨r, w'⟩ := o
    have key : ∀ (last' : End) n, last' = .idle ∨ last' = .callback ∨ last' = .eos → n ≤ (rem.take k).length →
        BoundC (more (cuts m sts) (done.length + n)) ((rem.take k).drop n = [] ∧ (rem = [] ∨ rem.take k ≠ []))
          (done ++ (rem.take k).take n) w'.log w'.p.toCore →
        RunC m (drive h last' (sts ++ [⟨w'.p.st, (rem.drop n).length⟩]) ks w' (rem.drop n)) := by
      intro last' n hl' hn hx
      have hnr : n ≤ rem.length := by rw [List.length_take] at hn; omega
      have hnk : n ≤ k := by rw [List.length_take] at hn; omega
      have e1 : (rem.take k).take n = rem.take n := by rw [List.take_take, Nat.min_eq_left hnk]
      have e2 : m = (done ++ rem.take n) ++ rem.drop n := by rw [List.append_assoc, List.take_append_drop]; exact hm
      have e4 : (done ++ rem.take n).length = done.length + n := by
        rw [List.length_append, List.length_take, Nat.min_eq_left hnr]
      have e3 : m.length - (rem.drop n).length = done.length + n := by
        rw [e2, List.length_append, e4]; omega
      rw [e1] at hx
      rw [← cuts_more (st := w'.p.st) e3] at hx
      refine drive_c m ks last' _ w' (done ++ rem.take n) (rem.drop n) e2 hl' ?_ ?_ ?_
      · intro p hp
        rw [cuts_more e3, more, hM p (by omega), Bool.false_or]
        exact beq_eq_false_iff_ne.mpr (by omega)
      · right
        rw [cuts_more e3, more, e4]; simp
      · have hE : rem.drop n = [] → (rem.take k).drop n = [] ∧ (rem = [] ∨ rem.take k ≠ []) := by
          intro he
          have hl : rem.length ≤ n := by
            have := congrArg List.length he
            simp only [List.length_drop, List.length_nil] at this
            omega
          refine ⟨List.drop_of_length_le (Nat.le_trans (by rw [List.length_take]; omega) hl), ?_⟩
          cases rem with
          | nil => exact .inl rfl
          | cons b r =>
            refine .inr fun h => ?_
            have := congrArg List.length h
            simp only [List.length_take, List.length_cons, List.length_nil] at this hl
            omega
        rcases hx with ⟨g1, g2, g3⟩ | ⟨g1, g2, g3, g4⟩ | g
        · exact .inl ⟨g1, g2, g3.mono (fun _ => id) hE⟩
        · exact .inr (.inl ⟨g1, g2, g3, g4.mono (fun _ => id) hE⟩)
        · exact .inr (.inr g)
    cases r with
    | ok su =>
      cases su with
      | eos n => exact key .eos n (.inr (.inr rfl)) (by have := hc.1; omega) hc.2
      | callback n => exact key .callback n (.inr (.inl rfl)) hc.1 hc.2
      | finished n => exact hc.elim
    | err => exact hc.elim
    | panic =>
      have e : done ++ rem.take k ++ rem.drop k = m := by rw [List.append_assoc, List.take_append_drop]; exact hm.symm
      have := hc ⟨cuts m sts, m.length⟩ (fun _ _ => rfl) (rem.drop k) (fun he => by
        cases rem with
        | nil => exact .inl rfl
        | cons b r =>
          refine .inr fun h => ?_
          have h1 := List.take_append_drop k (b :: r)
          rw [h, he] at h1
          cases h1) (by
            show m.length = _
            rw [← List.length_append, e])
      rw [e] at this
      exact this
    | diverge => exact hc.elim

theorem run_c (ks : List Nat) (m : Bytes) : RunC m (run h ks m) :=
  drive_c m ks _ _ _ [] _ rfl (.inl rfl) (fun _ _ => rfl) (.inl rfl) (.inl ⟨trivial, rfl, fun _ _ _ _ _ => rfl⟩)

theorem new_start (K : Slices) (m : Bytes) : predC K [] Parser.new.toCore m = predC K [] s0 m := predC_start rfl rfl _ _

theorem run_told (ks : List Nat) (m : Bytes) :
    let o := run h ks m
    let t := toldC (o.marks m) m
    flat o.world.log <+: t.1 ∧ (o.last = .panic → t = (flat o.world.log, true)) ∧
      (o.last = .eos → o.rest = [] → t = (flat o.world.log, false)) := by
  intro o t
  have hx := run_c (h := h) ks m
  obtain ⟨-, -, ht⟩ := run_T (h := h) ks m
  have hp : predC (slices o m) [] Parser.new.toCore m = (t.1, if t.2 then .panic else .eos) := by
    rw [new_start]; exact predC_told _ _
  change RunC m o at hx
  change imm o.world.p.st = false at ht
  generalize o = o' at hx ht hp
  unfold RunC at hx
  rw [hp] at hx
  have fin : ∀ {x : List Ev}, ((t.1, if t.2 then Fin.panic else Fin.eos) : List Ev × Fin) = (x, .eos) → t = (x, false) := by
    intro x hx
    injection hx with h1 h2
    refine Prod.ext h1 ?_
    cases h : t.2
    · rfl
    · rw [h] at h2; cases h2
  have side : ((∃ b, predC (slices o' m) (flat o'.world.log) { o'.world.p.toCore with bit32b := b } o'.rest =
        (t.1, if t.2 then .panic else .eos)) ∨ ((t.1, if t.2 then .panic else .eos) : List Ev × Fin) = (flat o'.world.log, .eos)) →
      flat o'.world.log <+: t.1 ∧ (o'.rest = [] → t = (flat o'.world.log, false)) := by
    rintro (⟨b, h⟩ | h)
    · refine ⟨?_, fun hr => ?_⟩
      · have := predC_prefix (K := slices o' m) o'.rest (flat o'.world.log) { o'.world.p.toCore with bit32b := b }
        rwa [h] at this
      · rw [hr, predC, norm_of_imm (s := { o'.world.p.toCore with bit32b := b }) ht] at h
        refine fin ?_
        rw [← h]
        simp only [List.append_nil]
    · have := fin h
      exact ⟨by rw [this]; exact List.prefix_rfl, fun _ => this⟩
  split at hx
  · rename_i hl
    obtain ⟨g1, g2⟩ := side hx
    exact ⟨g1, by rw [hl]; nofun, fun _ => g2⟩
  · rename_i hl
    obtain ⟨g1, g2⟩ := side hx
    exact ⟨g1, by rw [hl]; nofun, fun _ => g2⟩
  · rename_i hl
    obtain ⟨g1, g2⟩ := side hx
    exact ⟨g1, by rw [hl]; nofun, fun _ => g2⟩
  · rename_i hl
    have : t = (flat o'.world.log, true) := by
      injection hx with h1 h2
      refine Prod.ext h1 ?_
      cases h : t.2
      · rw [h] at h2; cases h2
      · rfl
    exact ⟨by rw [this]; exact List.prefix_rfl, fun _ => this, by rw [hl]; nofun⟩
  · exact hx.elim

end Exact

end Verif.Http2
