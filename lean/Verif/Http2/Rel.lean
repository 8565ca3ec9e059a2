import Verif.Http2.Long
import Verif.Util.ByteLemmas
import Mathlib.Data.List.Forall2

/-!
# Calls and client runs of the HTTP/2 parser (helper lemmas)

Without the slow paths that are wrong in the code (a stream id, last stream id or settings value that is cut by the
end of a slice) the parser simulates the reference machine.
-/

set_option linter.unusedSimpArgs false
set_option linter.unusedVariables false

namespace Verif.Http2

variable {h : Handler} {c : Cfg} {S : Bool} {D : Prop} {base : Bytes}

theorem pred_prefix : ∀ (m : Bytes) (tr : List Ev) (s : Core), tr <+: (pred tr s m).1
  | [], tr, s => by
    rw [pred]
    cases norm s <;> exact List.prefix_append _ _
  | b :: m, tr, s => by
    rw [pred]
    cases norm s with
    | panic es => exact List.prefix_append _ _
    | next es s' =>
      simp only
      cases bstep s' b with
      | panic es' => simp [List.append_assoc]
      | next es' s2 => exact (by simp [List.append_assoc] : tr <+: tr ++ es ++ es').trans (pred_prefix m _ _)

/-- Where a wrong slow path is entered. `S`: stream ids are known to be small. -/
def Cut (S : Bool) (st : St) : Bool := inLongField st || (!S && inStreamId st)

/-- What the parser calls the state of the reference machine in a wrong slow path. -/
def nearSt : St → St
  | .goAwayStreamId4 => .goAwayStreamId3
  | .settingsValue4 => .settingsValue3
  | st => st

/-- The number of bytes that are missing there. -/
def miss : St → Nat
  | .frameStreamId2 | .goAwayStreamId2 | .settingsValue2 => 3
  | .frameStreamId3 | .goAwayStreamId3 | .settingsValue3 => 2
  | _ => 1

/-- The parser has state `s` where the reference machine has the same with `bit32b = b`. -/
def RelX (S : Bool) (s : Core) (b : UInt32) : Prop :=
  match s.st with
  | .frameStreamId2 | .frameStreamId3 => S = true ∧ b &&& 0xFFFF = 0
  | .frameStreamId4 => S = true ∧ s.bit32b = b &&& 0xFFFF
  | .frameFormatEnd => s.bit32b = b ∨ (S = true ∧ s.bit32b = b &&& 0xFFFF)
  | st => s.bit32b = b ∧ RelSelf s ∧ inLongField st = false

/-- `e'` is `e`; or, if `S`, `e` without the upper half of the stream id. -/
def Near (S : Bool) (e' e : Ev) : Prop := e' = e ∨ (S = true ∧ e' = e.halfId)

/-- The same result, except for the upper halves of stream ids if `S`. -/
def Sim (S : Bool) (k' k : List Ev × Fin) : Prop := k'.2 = k.2 ∧ List.Forall₂ (Near S) k'.1 k.1

/-- `l'` is the beginning of `l`, except for the upper halves of stream ids if `S`. -/
def SimPre (S : Bool) (l' l : List Ev) : Prop := ∃ x, x <+: l ∧ List.Forall₂ (Near S) l' x

/-- The prediction for a new parser. -/
def predNew (m : Bytes) : List Ev × Fin := pred [] Parser.new.toCore m

/-- After `done`, the reference machine is in state `s`, as far as that can be seen; if `E`, even when nothing
follows. -/
def Runs (S : Bool) (E : Prop) (done : Bytes) (log : List Ev) (s : Core) : Prop :=
  ∀ y, (y = [] → E) → Sim S (pred (flat log) s y) (predNew (done ++ y))

/-- The parser agrees with the reference machine. -/
def InvX (S : Bool) (E : Prop) (done : Bytes) (log : List Ev) (s : Core) : Prop :=
  ∃ b, RelX S s b ∧ Runs S E done log { s with bit32b := b }

/-- The reference machine is within a field, where the parser goes wrong. -/
def MidX (S : Bool) (done : Bytes) (log : List Ev) (st : St) : Prop :=
  Cut S st = true ∧ ∃ s0 : Core, Cut S s0.st = true ∧ st = nearSt s0.st ∧ Runs S True done log s0

/-- The bytes that were processed in this call, after `base`. -/
def seen (base : Bytes) (x : Ctx) : Bytes := base ++ x.stream.take x.idx

/-- It may be that nothing follows. -/
def Last (D : Prop) (x : Ctx) : Prop := x.rest = [] ∧ D

/-- A wrong slow path that will not be left in this call. -/
def CutC (S : Bool) (D : Prop) (base : Bytes) (c : Cfg) : Prop :=
  ∃ s0 : Core, Cut S s0.st = true ∧ c.p.st = nearSt s0.st ∧ c.ctx.available < miss s0.st ∧ D ∧
    Runs S (Last D c.ctx) (seen base c.ctx) c.log s0

/-- `InvX` for a configuration. -/
def InvC (S : Bool) (D : Prop) (base : Bytes) (c : Cfg) : Prop := InvX S (Last D c.ctx) (seen base c.ctx) c.log c.p

/-- `MidX` for a configuration. -/
def MidC (S : Bool) (base : Bytes) (c : Cfg) : Prop := MidX S (seen base c.ctx) c.log c.p.st

/-- One step, with all its possible results. -/
def StepX (S : Bool) (D : Prop) (base : Bytes) (c : Cfg) : Out → Prop
  | .cont c' => Ok c' ∧ c'.ctx.stream = c.ctx.stream ∧ mu c' < mu c ∧ (InvC S D base c' ∨ CutC S D base c')
  | .exit (.eos n) c' => c'.ctx.stream = c.ctx.stream ∧ n = c'.ctx.idx ∧ n = c.ctx.stream.length ∧
      (InvC S D base c' ∨ MidC S base c')
  | .exit (.callback n) c' => c'.ctx.stream = c.ctx.stream ∧ n = c'.ctx.idx ∧ n ≤ c.ctx.stream.length ∧
      (InvC S D base c' ∨ MidC S base c')
  | .panic log => ∀ fut, (fut = [] → D) →
      Sim S (flat log, .panic) (predNew (base ++ c.ctx.stream ++ fut))
  | _ => False

theorem Ev.halfId_halfId (e : Ev) : e.halfId.halfId = e.halfId := by
  cases e <;> simp only [Ev.halfId, UInt32.and_assoc, UInt32.and_self]

theorem Near.refl (e : Ev) : Near S e e := .inl rfl

theorem Near.trans {a b c : Ev} (h1 : Near S a b) (h2 : Near S b c) : Near S a c := by
  rcases h1 with rfl | ⟨hs, rfl⟩
  · exact h2
  · rcases h2 with rfl | ⟨-, rfl⟩
    · exact .inr ⟨hs, rfl⟩
    · exact .inr ⟨hs, Ev.halfId_halfId _⟩

theorem nears_refl : ∀ l : List Ev, List.Forall₂ (Near S) l l
  | [] => .nil
  | e :: l => .cons (.refl e) (nears_refl l)

theorem nears_trans : ∀ {a b c : List Ev}, List.Forall₂ (Near S) a b → List.Forall₂ (Near S) b c →
    List.Forall₂ (Near S) a c
  | _, _, _, .nil, .nil => .nil
  | _, _, _, .cons h1 h2, .cons h3 h4 => .cons (h1.trans h3) (nears_trans h2 h4)

theorem nears_append : ∀ {a b c d : List Ev}, List.Forall₂ (Near S) a b → List.Forall₂ (Near S) c d →
    List.Forall₂ (Near S) (a ++ c) (b ++ d)
  | _, _, _, _, .nil, h => h
  | _, _, _, _, .cons h1 h2, h => .cons h1 (nears_append h2 h)

theorem nears_prefix : ∀ {a b x : List Ev}, List.Forall₂ (Near S) a b → x <+: a → SimPre S x b
  | _, _, x, .nil, h => ⟨[], List.nil_prefix, by rw [List.prefix_nil.mp h]; exact .nil⟩
  | _, _, [], .cons h1 h2, h => ⟨[], List.nil_prefix, .nil⟩
  | _, _, y :: x, .cons (b := b) h1 h2, h => by
    obtain ⟨rfl, hx⟩ := List.cons_prefix_cons.mp h
    obtain ⟨z, h3, h4⟩ := nears_prefix h2 hx
    exact ⟨b :: z, List.cons_prefix_cons.mpr ⟨rfl, h3⟩, .cons h1 h4⟩

theorem nears_eq : ∀ {a b : List Ev}, List.Forall₂ (Near false) a b → a = b
  | _, _, .nil => rfl
  | _, _, .cons (.inl rfl) h => by rw [nears_eq h]
  | _, _, .cons (.inr h) _ => absurd h.1 (by decide)

theorem Sim.refl (k : List Ev × Fin) : Sim S k k := ⟨rfl, nears_refl _⟩

theorem Sim.trans {a b c : List Ev × Fin} (h1 : Sim S a b) (h2 : Sim S b c) : Sim S a c :=
  ⟨h1.1.trans h2.1, nears_trans h1.2 h2.2⟩

theorem Sim.eq {a b : List Ev × Fin} (h : Sim false a b) : a = b := Prod.ext (nears_eq h.2) h.1

theorem SimPre.eq {a b : List Ev} (h : SimPre false a b) : a <+: b := by
  obtain ⟨x, h1, h2⟩ := h
  rw [nears_eq h2]; exact h1

theorem pred_sim : ∀ (m : Bytes) {tr' tr : List Ev} (s : Core), List.Forall₂ (Near S) tr' tr →
    Sim S (pred tr' s m) (pred tr s m)
  | [], tr', tr, s, h => by
    rw [pred, pred]
    cases norm s <;> exact ⟨rfl, nears_append h (nears_refl _)⟩
  | b :: m, tr', tr, s, h => by
    rw [pred, pred]
    cases norm s with
    | panic es => exact ⟨rfl, nears_append h (nears_refl _)⟩
    | next es s' =>
      simp only
      cases bstep s' b with
      | panic es' => exact ⟨rfl, nears_append (nears_append h (nears_refl _)) (nears_refl _)⟩
      | next es' s2 => exact pred_sim m s2 (nears_append (nears_append h (nears_refl _)) (nears_refl _))

theorem seen_add {x x' : Ctx} {u : Bytes} (hs : x'.stream = x.stream) (hu : x.rest = u ++ x'.rest) :
    seen base x' = seen base x ++ u := by
  unfold seen
  rw [List.append_assoc, hs]
  congr 1
  have h1 : x.stream.take x.idx ++ (u ++ x'.rest) = x.stream := by rw [← hu]; exact List.take_append_drop _ _
  have h2 : x.stream.take x'.idx ++ x'.rest = x.stream := by rw [← hs]; exact List.take_append_drop _ _
  rw [← List.append_assoc] at h1
  exact List.append_cancel_right (h2.trans h1.symm)

theorem seen_rest (x : Ctx) : seen base x ++ x.rest = base ++ x.stream := by
  unfold seen Ctx.rest
  rw [List.append_assoc, List.take_append_drop]

/-- `Runs` after `u`, for the reference machine. -/
theorem Runs.move {log log' : List Ev} {s s' : Core} {x x' : Ctx} {u : Bytes}
    (hr : Runs S (Last D x) (seen base x) log s) (hs : x'.stream = x.stream) (hu : x.rest = u ++ x'.rest)
    (hp : ∀ y, (y = [] → x'.rest = []) → pred (flat log) s (u ++ y) = pred (flat log') s' y) :
    Runs S (Last D x') (seen base x') log' s' := by
  intro y hy
  rw [seen_add hs hu, List.append_assoc, ← hp y fun h => (hy h).1]
  refine hr (u ++ y) fun h => ?_
  obtain ⟨rfl, rfl⟩ := List.append_eq_nil_iff.mp h
  obtain ⟨h1, h2⟩ := hy rfl
  exact ⟨by rw [hu, h1]; rfl, h2⟩

theorem inv_of_relSelf {E : Prop} {done : Bytes} {s : Core} {log : List Ev} (hr : RelSelf s) (hp : Runs S E done log s) :
    InvX S E done log s ∨ inLongField s.st = true := by
  cases hl : inLongField s.st with
  | true => exact .inr rfl
  | false =>
    refine .inl ⟨s.bit32b, ?_, hp⟩
    unfold RelX
    obtain ⟨a, b, x, y, st⟩ := s
    cases st <;> first | exact hr.elim | exact .inl rfl | exact ⟨rfl, hr, hl⟩

theorem uncut {l l' : List Ev} {s s' : Core} {u : Bytes} {E : Prop}
    (hp : ∀ K y, Uncut K (u ++ y) → (y = [] → E) → predC K l s (u ++ y) = predC K l' s' y) (y : Bytes) (hy : y = [] → E) :
    pred l s (u ++ y) = pred l' s' y := by
  have := hp .none y rfl hy
  rwa [predC_none, predC_none] at this

theorem stepX_of_ok (hK : Runs S (Last D c.ctx) (seen base c.ctx) c.log c.p) (hl : inLongField c.p.st = false) {o : Out}
    (ho : StepOK Uncut c o) (hc : ∀ c', o = .cont c' → inLongField c'.p.st = true →
      c'.ctx.available < miss c'.p.st ∧ c'.p.st = nearSt c'.p.st ∧ D) : StepX S D base c o := by
  cases o with
  | cont c' =>
    obtain ⟨h1, h2, h3, ⟨u, hu, hp⟩, h5⟩ := ho
    have hr := hK.move h2 hu (uncut hp)
    exact ⟨h1, h2, h3, (inv_of_relSelf h5 hr).imp_right fun hl =>
      ⟨c'.p, by simp [Cut, hl], (hc c' rfl hl).2.1, (hc c' rfl hl).1, (hc c' rfl hl).2.2, hr⟩⟩
  | exit s c' =>
    cases s with
    | eos n =>
      obtain ⟨h1, h2, h3, ⟨u, hu, hp⟩, h5⟩ := ho
      have hr := hK.move h1 hu (uncut hp)
      exact ⟨h1, h2, h3, (inv_of_relSelf h5.1 hr).imp_right fun h => by rw [h5.2 hl] at h; cases h⟩
    | callback n =>
      obtain ⟨h1, h2, h3, ⟨u, hu, hp⟩, h5⟩ := ho
      have hr := hK.move h1 hu (uncut hp)
      exact ⟨h1, h2, h3, (inv_of_relSelf h5.1 hr).imp_right fun h => by rw [h5.2 hl] at h; cases h⟩
    | finished n => exact ho
  | err c' => exact ho
  | panic log =>
    intro fut hD
    have h1 := ho .none fut rfl
    rw [predC_none] at h1
    have := hK (c.ctx.rest ++ fut) (fun h => by
      have h := List.append_eq_nil_iff.mp h
      exact ⟨h.1, hD h.2⟩)
    rw [← List.append_assoc, seen_rest, h1] at this
    exact this

theorem stream_ne {x : Ctx} {b : UInt8} {r : Bytes} (h : x.rest = b :: r) : x.stream ≠ [] := by
  intro e
  rw [Ctx.rest, e, List.drop_nil] at h
  cases h

/-- A state in which one byte is read. -/
theorem byteX (hok : Ok c) (f : UInt8 → Core → Core) {o : Out}
    (ho : o = (exitIfEos c <| getU8 c fun b c => remark { c with p := f b c.p }))
    (h0 : c.ctx.available = 0 → InvC S D base c ∨ MidC S base c)
    (h1 : ∀ b, c.ctx.available ≠ 0 → c.ctx.rest = b :: (c.ctx.jump 1).rest →
      (c.ctx.jump 1).available + 1 = c.ctx.available →
      InvC S D base ⟨f b c.p, (c.ctx.jump 1).setMark, c.log⟩ ∨ CutC S D base ⟨f b c.p, (c.ctx.jump 1).setMark, c.log⟩) :
    StepX S D base c o := by
  subst ho
  unfold exitIfEos
  split
  · rename_i ha
    refine ⟨rfl, rfl, ?_, h0 ha⟩
    have := hok.le
    unfold Ctx.available at ha
    omega
  · rename_i ha
    obtain ⟨b, g1, g2, g3⟩ := rest_cons ha
    simp only [getU8, g1]
    refine ⟨⟨rfl, ?_⟩, rfl, ?_, h1 b ha g2 g3⟩
    · have := hok.le
      simp only [remark, jump, Ctx.jump, Ctx.setMark]
      unfold Ctx.available at ha
      omega
    · show 4 * (c.ctx.jump 1).available + rank _ < 4 * c.ctx.available + rank _
      have := rank_le (f b c.p).st
      simp only [jump]
      omega

/-- One byte, for the reference machine. -/
theorem Runs.byte {log : List Ev} {s s' : Core} {x : Ctx} {b : UInt8} (hr : Runs S (Last D x) (seen base x) log s)
    (hb : x.rest = b :: (x.jump 1).rest) (hs : ∀ tr y, pred tr s (b :: y) = pred tr s' y) :
    Runs S (Last D (x.jump 1).setMark) (seen base (x.jump 1).setMark) log s' :=
  hr.move (u := [b]) rfl hb fun _ _ => hs _ _

theorem and_ffff_hi (b : UInt8) : ((0 : UInt32) ||| (b.toUInt32 <<< 24)) &&& 0xFFFF = 0 := by
  revert b; exact Util.forall_u8 (by decide +kernel)

theorem and_ffff_hi2 (b : UInt8) : (b.toUInt32 <<< 16) &&& 0xFFFF = 0 := by
  revert b; exact Util.forall_u8 (by decide +kernel)

theorem and_ffff_lo2 (b : UInt8) : (b.toUInt32 <<< 8) &&& (0xFFFF : UInt32) = b.toUInt32 <<< 8 := by
  revert b; exact Util.forall_u8 (by decide +kernel)

theorem and_ffff_lo (b : UInt8) : b.toUInt32 &&& 0xFFFF = b.toUInt32 := by
  revert b; exact Util.forall_u8 (by decide +kernel)

theorem or_and (a b c : UInt32) : (a ||| b) &&& c = (a &&& c) ||| (b &&& c) := by
  apply UInt32.toBitVec_inj.mp
  ext i
  simp [Bool.and_or_distrib_right]

theorem mask_swap (b : UInt32) : (b &&& 0xFFFF) &&& 0x7FFFFFFF = (b &&& 0x7FFFFFFF) &&& 0xFFFF := by
  rw [UInt32.and_assoc, UInt32.and_assoc, UInt32.and_comm 0xFFFF]

theorem format_x (hok : Ok c) (hs : c.p.st = .frameFormatEnd)
    (hi : InvC S D base c) : StepX S D base c (stepFn h c) := by
  obtain ⟨b0, hr, hK⟩ := hi
  obtain ⟨⟨a, b, x, y, st⟩, ctx, log⟩ := c
  subst hs
  simp only [RelX] at hr
  simp only at hK
  have hK' : Runs S (Last D ctx) (seen base ctx) log ⟨a, b, x, y, .frameFormatEnd⟩ := by
    intro fut hE
    refine Sim.trans ?_ (hK fut hE)
    rw [pred_imm (s := ⟨a, b0, x, y, .frameFormatEnd⟩) rfl
      (frameState_facts ⟨a, b0, x, y, .frameFormatEnd⟩).2.1, pred_imm (s := ⟨a, b, x, y, .frameFormatEnd⟩) rfl
      (frameState_facts ⟨a, b, x, y, .frameFormatEnd⟩).2.1]
    rcases hr with rfl | ⟨hS, rfl⟩
    · exact .refl _
    · refine pred_sim fut _ (nears_append (nears_refl _) (.cons (.inr ⟨hS, ?_⟩) .nil))
      show Ev.frameFormat _ _ _ _ = Ev.frameFormat _ _ _ _
      rw [Ev.frameFormat.injEq]
      exact ⟨rfl, rfl, rfl, mask_swap b0⟩
  refine stepX_of_ok (c := ⟨⟨a, b, x, y, .frameFormatEnd⟩, ctx, log⟩) hK' rfl (step_plain hok rfl (fun _ => uncut_clear) trivial) ?_
  intro c' hc' hl
  have := nl_step (h := h) (c := ⟨⟨a, b, x, y, .frameFormatEnd⟩, ctx, log⟩) rfl nofun nofun
  rw [hc'] at this
  rw [show inLongField c'.p.st = false from this] at hl
  cases hl

theorem pred_or32b {s s' : Core} {v : UInt32} {b : UInt8} (hn : norm s = .next [] s) {st : St}
    (hb : bstep s b = or32b s v st) (hs : s' = { s with bit32b := s.bit32b ||| v, st := st }) (tr : List Ev)
    (r : Bytes) : pred tr s (b :: r) = pred tr s' r := by
  rw [pred_byte hn (hb.trans rfl), List.append_nil, hs]

theorem id1_slow (h4 : ¬ c.ctx.available ≥ 4) : frame_stream_id1 c = (exitIfEos c <| getU8 c fun b c =>
    remark { c with p := { c.p with bit32b := b.toUInt32 <<< 24, st := .frameStreamId2 } }) := by
  unfold frame_stream_id1
  rw [if_neg h4]
  unfold transition setState set32b
  dsimp only

theorem id1_x (hD : c.ctx.stream ≠ [] → D) (hok : Ok c) (hs : c.p.st = .frameStreamId1)
    (hi : InvC S D base c) : StepX S D base c (frame_stream_id1 c) := by
  obtain ⟨b0, hr, hK⟩ := hi
  obtain ⟨⟨a, b, x, y, st⟩, ctx, log⟩ := c
  subst hs
  obtain ⟨rfl, hz, -⟩ := hr
  have hz : b = 0 := hz
  subst hz
  by_cases h4 : ctx.available ≥ 4
  · unfold frame_stream_id1
    refine stepX_of_ok (c := ⟨⟨a, 0, x, y, .frameStreamId1⟩, ctx, log⟩) hK rfl ?_ ?_
    rotate_left
    · intro c' hc' hl
      have : NL (frame_stream_id1 ⟨⟨a, 0, x, y, .frameStreamId1⟩, ctx, log⟩) := nl_frame_stream_id1
      unfold frame_stream_id1 at this
      rw [hc'] at this
      rw [show inLongField c'.p.st = false from this] at hl
      cases hl
    refine eos_ok hok rfl fun _ => ?_
    simp only [if_pos h4]
    refine four_ok hok h4 ⟨a, 0, x, y, .frameStreamId1⟩ rfl (x := fun b1 b2 b3 b4 =>
      ⟨a, ((((0 : UInt32) ||| (b1.toUInt32 <<< 24)) ||| (b2.toUInt32 <<< 16)) ||| (b3.toUInt32 <<< 8)) |||
        b4.toUInt32, x, y, .frameFormatEnd⟩) (fun _ _ _ _ => trivial)
      (fun K _ _ _ _ _ _ hK => by cases hK; simp [predC_none, pred, norm, bstep, or32b]) ?_
    intro b1 b2 b3 b4 g1 g2 g3 g4
    simp only [readU32, g1, g2, g3, g4]
    rfl
  · refine byteX hok (fun b s => { s with bit32b := b.toUInt32 <<< 24, st := .frameStreamId2 }) (id1_slow h4)
      (fun _ => .inl ⟨0, ⟨rfl, rfl, rfl⟩, hK⟩) fun b h0 h1 h2 => ?_
    simp only at h1 h2 hK
    cases S with
    | true =>
      refine .inl ⟨(0 : UInt32) ||| (b.toUInt32 <<< 24), ⟨rfl, and_ffff_hi b⟩, ?_⟩
      exact hK.byte h1 (pred_or32b (v := (b.toUInt32 <<< 24)) (st := .frameStreamId2) (by rfl) (by rfl) (by rfl))
    | false =>
      refine .inr ⟨⟨a, (0 : UInt32) ||| (b.toUInt32 <<< 24), x, y, .frameStreamId2⟩, rfl, rfl, ?_, hD (stream_ne h1),
        hK.byte h1 (pred_or32b (v := (b.toUInt32 <<< 24)) (st := .frameStreamId2) (by rfl) (by rfl) (by rfl))⟩
      show (ctx.jump 1).available < 3
      omega

theorem id2_x (hok : Ok c) (hs : c.p.st = .frameStreamId2)
    (hi : InvC S D base c) : StepX S D base c (frame_stream_id2 c) := by
  obtain ⟨b0, hr, hK⟩ := hi
  obtain ⟨⟨a, b, x, y, st⟩, ctx, log⟩ := c
  subst hs
  obtain ⟨rfl, hz⟩ := hr
  refine byteX hok (fun b s => { s with bit32b := b.toUInt32 <<< 16, st := .frameStreamId3 }) (by rfl)
    (fun _ => .inl ⟨b0, ⟨rfl, hz⟩, hK⟩) fun b h0 h1 h2 => .inl ?_
  simp only at h1 h2 hK
  refine ⟨b0 ||| (b.toUInt32 <<< 16), ⟨rfl, by rw [or_and, hz, and_ffff_hi2, UInt32.or_zero]⟩, ?_⟩
  exact hK.byte h1 (pred_or32b (v := (b.toUInt32 <<< 16)) (st := .frameStreamId3) (by rfl) (by rfl) (by rfl))

theorem id3_x (hok : Ok c) (hs : c.p.st = .frameStreamId3)
    (hi : InvC S D base c) : StepX S D base c (frame_stream_id3 c) := by
  obtain ⟨b0, hr, hK⟩ := hi
  obtain ⟨⟨a, b, x, y, st⟩, ctx, log⟩ := c
  subst hs
  obtain ⟨rfl, hz⟩ := hr
  refine byteX hok (fun b s => { s with bit32b := b.toUInt32 <<< 8, st := .frameStreamId4 }) (by rfl)
    (fun _ => .inl ⟨b0, ⟨rfl, hz⟩, hK⟩) fun b h0 h1 h2 => .inl ?_
  simp only at h1 h2 hK
  refine ⟨b0 ||| (b.toUInt32 <<< 8), ⟨rfl, by rw [or_and, hz, and_ffff_lo2]; simp⟩, ?_⟩
  exact hK.byte h1 (pred_or32b (v := (b.toUInt32 <<< 8)) (st := .frameStreamId4) (by rfl) (by rfl) (by rfl))

theorem id4_x (hok : Ok c) (hs : c.p.st = .frameStreamId4)
    (hi : InvC S D base c) : StepX S D base c (frame_stream_id4 c) := by
  obtain ⟨b0, hr, hK⟩ := hi
  obtain ⟨⟨a, b, x, y, st⟩, ctx, log⟩ := c
  subst hs
  obtain ⟨rfl, hz⟩ := hr
  refine byteX hok (fun b s => { s with bit32b := s.bit32b ||| b.toUInt32, st := .frameFormatEnd }) (by rfl)
    (fun _ => .inl ⟨b0, ⟨rfl, hz⟩, hK⟩) fun b h0 h1 h2 => .inl ?_
  simp only at h1 h2 hK hz
  refine ⟨b0 ||| b.toUInt32, .inr ⟨rfl, by rw [or_and, and_ffff_lo, hz]⟩, ?_⟩
  exact hK.byte h1 (pred_or32b (v := b.toUInt32) (st := .frameFormatEnd) (by rfl) (by rfl) (by rfl))

theorem go1_slow (h4 : ¬ c.ctx.available ≥ 4) : go_away_stream_id1 c = (exitIfEos c <| getU8 c fun b c =>
    remark { c with p := { c.p with bit32b := c.p.bit32b ||| (b.toUInt32 <<< 24), st := .goAwayStreamId2 } }) := by
  unfold go_away_stream_id1
  rw [if_neg h4]
  unfold transition setState set32b
  dsimp only

theorem val1_slow (h4 : ¬ c.ctx.available ≥ 4) : settings_value1 c = (exitIfEos c <| getU8 c fun b c =>
    remark { c with p := { c.p with bit32b := c.p.bit32b ||| (b.toUInt32 <<< 24), st := .settingsValue2 } }) := by
  unfold settings_value1
  rw [if_neg h4]
  unfold transition setState set32b
  dsimp only

/-- The first byte of a long field. -/
theorem first_x {st : St} {f : UInt8 → Core → Core} {o : Out} (hD : c.ctx.stream ≠ [] → D) (hok : Ok c)
    (hl : inLongField c.p.st = false)
    (ho : c.ctx.available ≥ 4 → ∀ c', o = .cont c' → inLongField c'.p.st = false)
    (hs : ¬ c.ctx.available ≥ 4 → o = (exitIfEos c <| getU8 c fun b c => remark { c with p := f b c.p }))
    (hf : ∀ b, (f b c.p).st = st) (hm : nearSt st = st) (h3 : miss st = 3)
    (hK : Runs S (Last D c.ctx) (seen base c.ctx) c.log c.p) (hOK : StepOK Uncut c o) : StepX S D base c o := by
  refine stepX_of_ok hK hl hOK ?_
  intro c' hc' hl
  by_cases h4 : c.ctx.available ≥ 4
  · rw [ho h4 c' hc'] at hl; cases hl
  · rw [hs h4] at hc'
    unfold exitIfEos at hc'
    split at hc'
    · cases hc'
    · rename_i ha
      obtain ⟨b, g1, g2, g3⟩ := rest_cons ha
      simp only [getU8, g1, remark, Out.cont.injEq] at hc'
      subst hc'
      have e : (f b (jump c 1).p).st = st := hf b
      rw [e, hm, h3]
      refine ⟨?_, rfl, hD (stream_ne g2)⟩
      show (c.ctx.jump 1).available < 3
      omega

theorem nl_four {k : UInt32 → Cfg → Out} {i : UInt32} {o : Out} (h4 : c.ctx.available ≥ 4)
    (hk : ∀ x c', NL (k x c')) : ∀ c', (exitIfEos c <| if c.ctx.available ≥ 4 then readU32 c i k else o) = .cont c' →
    inLongField c'.p.st = false := by
  intro c' hc'
  rw [if_pos h4] at hc'
  have : NL (exitIfEos c (readU32 c i k)) := nl_eos (nl_u32 hk)
  rw [hc'] at this
  exact this

theorem go1_x (hD : c.ctx.stream ≠ [] → D) (hok : Ok c) (hs : c.p.st = .goAwayStreamId1) (hK : Runs S (Last D c.ctx) (seen base c.ctx) c.log c.p) :
    StepX S D base c (go_away_stream_id1 c) :=
  first_x (st := .goAwayStreamId2)
    (f := fun b s => { s with bit32b := s.bit32b ||| (b.toUInt32 <<< 24), st := .goAwayStreamId2 }) hD hok (by rw [hs]; rfl)
    (fun h4 => nl_four h4 fun _ _ => nl_transition rfl) go1_slow (fun _ => rfl) rfl rfl hK
    (go_away_stream_id1_ok uncut_clear hok hs)

theorem val1_x (hD : c.ctx.stream ≠ [] → D) (hok : Ok c) (hs : c.p.st = .settingsValue1) (hK : Runs S (Last D c.ctx) (seen base c.ctx) c.log c.p) :
    StepX S D base c (settings_value1 c) :=
  first_x (st := .settingsValue2)
    (f := fun b s => { s with bit32b := s.bit32b ||| (b.toUInt32 <<< 24), st := .settingsValue2 }) hD hok (by rw [hs]; rfl)
    (fun h4 => nl_four h4 fun _ _ => nl_transition rfl) val1_slow (fun _ => rfl) rfl rfl hK
    (settings_value1_ok uncut_clear hok hs)

/-- A further byte of a field. -/
theorem cut_byte {s0 : Core} {v : UInt8 → UInt32} {st : St} {f : UInt8 → Core → Core} {o : Out} (hok : Ok c)
    (hc : Cut S s0.st = true) (hc' : Cut S c.p.st = true) (he : c.p.st = nearSt s0.st) (hm : c.ctx.available < miss s0.st) (hD : D)
    (hr : Runs S (Last D c.ctx) (seen base c.ctx) c.log s0)
    (ho : o = (exitIfEos c <| getU8 c fun b c => remark { c with p := f b c.p })) (hn : norm s0 = .next [] s0)
    (hb : 1 < miss s0.st → (∀ b, bstep s0 b = or32b s0 (v b) st) ∧ Cut S st = true ∧ (∀ b, (f b c.p).st = nearSt st) ∧
      miss st + 1 = miss s0.st) : StepX S D base c o := by
  refine byteX hok f ho (fun ha => .inr ⟨hc', s0, hc, he, fun y hy => hr y fun _ => ⟨rest_nil ha, hD⟩⟩) fun b h0 h1 h2 => .inr ?_
  obtain ⟨g1, g2, g3, g4⟩ := hb (by omega)
  refine ⟨{ s0 with bit32b := s0.bit32b ||| v b, st := st }, g2, g3 b, ?_, hD,
    hr.byte h1 (pred_or32b hn (g1 b) rfl)⟩
  show (c.ctx.jump 1).available < miss st
  omega

theorem cut_x (hok : Ok c) (hcut : CutC S D base c) : StepX S D base c (stepFn h c) := by
  obtain ⟨⟨a0, b0, x0, y0, st0⟩, hc, hn, hm, hD, hr⟩ := hcut
  obtain ⟨⟨a, b, x, y, st⟩, ctx, log⟩ := c
  simp only at hc hn hm hr
  subst hn
  have last : ∀ st : St, miss st = 1 → ∀ p : Prop, 1 < miss st → p := fun st h p h' => absurd h' (by omega)
  cases st0 <;> first | (cases S <;> exact absurd hc (by decide)) | skip
  · show StepX S D base _ (frame_stream_id2 _)
    exact cut_byte (s0 := ⟨a0, b0, x0, y0, .frameStreamId2⟩) (f := fun b s => { s with bit32b := b.toUInt32 <<< 16, st := .frameStreamId3 })
      (v := fun b => b.toUInt32 <<< 16) hok hc hc rfl hm hD hr rfl rfl fun _ => ⟨fun _ => rfl, by rw [← hc]; rfl, fun _ => rfl, rfl⟩
  · show StepX S D base _ (frame_stream_id3 _)
    exact cut_byte (s0 := ⟨a0, b0, x0, y0, .frameStreamId3⟩) (f := fun b s => { s with bit32b := b.toUInt32 <<< 8, st := .frameStreamId4 })
      (v := fun b => b.toUInt32 <<< 8) hok hc hc rfl hm hD hr rfl rfl fun _ => ⟨fun _ => rfl, by rw [← hc]; rfl, fun _ => rfl, rfl⟩
  · show StepX S D base _ (frame_stream_id4 _)
    exact cut_byte (s0 := ⟨a0, b0, x0, y0, .frameStreamId4⟩) (f := fun b s => { s with bit32b := s.bit32b ||| b.toUInt32, st := .frameFormatEnd })
      (v := fun b => b.toUInt32) (st := .frameFormatEnd) hok hc hc rfl hm hD hr rfl rfl (last _ rfl _)
  · show StepX S D base _ (go_away_stream_id2 _)
    exact cut_byte (s0 := ⟨a0, b0, x0, y0, .goAwayStreamId2⟩) (f := fun b s => { s with bit32b := s.bit32b ||| (b.toUInt32 <<< 16), st := .goAwayStreamId3 })
      (v := fun b => b.toUInt32 <<< 16) hok hc hc rfl hm hD hr rfl rfl fun _ => ⟨fun _ => rfl, by simp [Cut, inLongField], fun _ => rfl, rfl⟩
  · show StepX S D base _ (go_away_stream_id3 _)
    exact cut_byte (s0 := ⟨a0, b0, x0, y0, .goAwayStreamId3⟩) (f := fun b s => { s with bit32b := s.bit32b ||| (b.toUInt32 <<< 8), st := .goAwayStreamId3 })
      (v := fun b => b.toUInt32 <<< 8) hok hc hc rfl hm hD hr rfl rfl fun _ => ⟨fun _ => rfl, by simp [Cut, inLongField], fun _ => rfl, rfl⟩
  · show StepX S D base _ (go_away_stream_id3 _)
    exact cut_byte (s0 := ⟨a0, b0, x0, y0, .goAwayStreamId4⟩) (f := fun b s => { s with bit32b := s.bit32b ||| (b.toUInt32 <<< 8), st := .goAwayStreamId3 })
      (v := fun b => b.toUInt32) (st := .goAwayStreamId3) hok hc hc rfl hm hD hr rfl rfl (last _ rfl _)
  · show StepX S D base _ (settings_value2 _)
    exact cut_byte (s0 := ⟨a0, b0, x0, y0, .settingsValue2⟩) (f := fun b s => { s with bit32b := s.bit32b ||| (b.toUInt32 <<< 16), st := .settingsValue3 })
      (v := fun b => b.toUInt32 <<< 16) hok hc hc rfl hm hD hr rfl rfl fun _ => ⟨fun _ => rfl, by simp [Cut, inLongField], fun _ => rfl, rfl⟩
  · show StepX S D base _ (settings_value3 _)
    exact cut_byte (s0 := ⟨a0, b0, x0, y0, .settingsValue3⟩) (f := fun b s => { s with bit32b := s.bit32b ||| (b.toUInt32 <<< 8), st := .settingsValue3 })
      (v := fun b => b.toUInt32 <<< 8) hok hc hc rfl hm hD hr rfl rfl fun _ => ⟨fun _ => rfl, by simp [Cut, inLongField], fun _ => rfl, rfl⟩
  · show StepX S D base _ (settings_value3 _)
    exact cut_byte (s0 := ⟨a0, b0, x0, y0, .settingsValue4⟩) (f := fun b s => { s with bit32b := s.bit32b ||| (b.toUInt32 <<< 8), st := .settingsValue3 })
      (v := fun b => b.toUInt32) (st := .settingsValue3) hok hc hc rfl hm hD hr rfl rfl (last _ rfl _)

theorem step_x (hD : c.ctx.stream ≠ [] → D) (hok : Ok c) (hi : InvC S D base c ∨ CutC S D base c) : StepX S D base c (stepFn h c) := by
  rcases hi with hi | hcut
  · by_cases hf : c.p.st = .frameFormatEnd
    · exact format_x hok hf hi
    by_cases h1 : c.p.st = .frameStreamId1
    · have : stepFn h c = frame_stream_id1 c := by unfold stepFn; rw [h1]
      rw [this]; exact id1_x hD hok h1 hi
    by_cases h2 : c.p.st = .frameStreamId2
    · have : stepFn h c = frame_stream_id2 c := by unfold stepFn; rw [h2]
      rw [this]; exact id2_x hok h2 hi
    by_cases h3 : c.p.st = .frameStreamId3
    · have : stepFn h c = frame_stream_id3 c := by unfold stepFn; rw [h3]
      rw [this]; exact id3_x hok h3 hi
    by_cases h4 : c.p.st = .frameStreamId4
    · have : stepFn h c = frame_stream_id4 c := by unfold stepFn; rw [h4]
      rw [this]; exact id4_x hok h4 hi
    obtain ⟨b0, hr, hK⟩ := hi
    have : c.p.bit32b = b0 ∧ RelSelf c.p ∧ inLongField c.p.st = false := by
      unfold RelX at hr
      split at hr <;> first | contradiction | exact hr
    obtain ⟨rfl, g2, g3⟩ := this
    by_cases h5 : c.p.st = .goAwayStreamId1
    · have : stepFn h c = go_away_stream_id1 c := by unfold stepFn; rw [h5]
      rw [this]; exact go1_x hD hok h5 hK
    by_cases h6 : c.p.st = .settingsValue1
    · have : stepFn h c = settings_value1 c := by unfold stepFn; rw [h6]
      rw [this]; exact val1_x hD hok h6 hK
    refine stepX_of_ok hK g3 (step_plain hok ?_ (fun _ => uncut_clear) g2) ?_
    · revert hf h1 h2 h3 h4 g2 g3
      generalize c.p = s
      obtain ⟨a, b, x, y, st⟩ := s
      cases st <;> intro hf h1 h2 h3 h4 g2 g3 <;> first | rfl | contradiction | exact g2.elim
    · intro c' hc' hl
      have := nl_step (h := h) g3 h5 h6
      rw [hc'] at this
      rw [show inLongField c'.p.st = false from this] at hl
      cases hl
  · exact cut_x hok hcut

/-! ## Calls -/

/-- What a call of `resume` with `s` tells. -/
def CallX (S : Bool) (D : Prop) (base s : Bytes) : Res × World → Prop
  | (.ok (.callback n), w') => n ≤ s.length ∧
      (InvX S (s.drop n = [] ∧ D) (base ++ s.take n) w'.log w'.p.toCore ∨
        MidX S (base ++ s.take n) w'.log w'.p.st)
  | (.ok (.eos n), w') => n = s.length ∧
      (InvX S (s.drop n = [] ∧ D) (base ++ s.take n) w'.log w'.p.toCore ∨
        MidX S (base ++ s.take n) w'.log w'.p.st)
  | (.panic, w') => ∀ fut, (fut = [] → D) →
      Sim S (flat w'.log, .panic) (predNew (base ++ s ++ fut))
  | _ => False

theorem parse_x (s : Bytes) (hD : s ≠ [] → D) (bc : Nat) (p0 : Parser) : ∀ (n : Nat) (c : Cfg), mu c < n → Ok c → c.ctx.stream = s →
    (InvC S D base c ∨ CutC S D base c) →
    CallX S D base s (match parse h n c with
      | (.ok (.finished n), c) => (.ok (.finished n), ⟨⟨{ c.p with st := .finished }, bc + c.ctx.idx⟩, c.log⟩)
      | (.ok su, c) => (.ok su, ⟨⟨c.p, bc + c.ctx.idx⟩, c.log⟩)
      | (.err, c) => (.err, ⟨⟨{ c.p with st := .dead }, bc + c.ctx.idx⟩, c.log⟩)
      | (r, c) => (r, ⟨p0, c.log⟩))
  | 0, c, hm, _, _, _ => absurd hm (by omega)
  | n + 1, c, hm, hok, hs, hi => by
    have hx := step_x (h := h) (by rw [hs]; exact hD) hok hi
    rw [parse]
    generalize stepFn h c = o at hx
    cases o with
    | cont c' =>
      obtain ⟨h1, h2, h3, h4⟩ := hx
      exact parse_x s hD bc p0 n c' (by omega) h1 (h2.trans hs) h4
    | exit su c' =>
      cases su with
      | eos n =>
        obtain ⟨h1, h2, h3, h4⟩ := hx
        subst h2
        rw [hs] at h1 h3
        unfold InvC MidC Last seen Ctx.rest at h4
        rw [h1] at h4
        exact ⟨h3, h4⟩
      | callback n =>
        obtain ⟨h1, h2, h3, h4⟩ := hx
        subst h2
        rw [hs] at h1 h3
        unfold InvC MidC Last seen Ctx.rest at h4
        rw [h1] at h4
        exact ⟨h3, h4⟩
      | finished n => exact hx
    | err c' => exact hx
    | panic log =>
      unfold StepX at hx
      rw [hs] at hx
      exact hx

theorem call_x {w : World} {s : Bytes} (hD : s ≠ [] → D) (hi : InvX S (s = [] ∧ D) base w.log w.p.toCore) :
    CallX S D base s (resume h w s) := by
  have h0 : InvC S D base ⟨w.p.toCore, Ctx.new s, w.log⟩ := by
    unfold InvC Last seen Ctx.rest Ctx.new
    simpa using hi
  have := parse_x (h := h) s hD w.p.byteCount w.p (fuel s.length) ⟨w.p.toCore, Ctx.new s, w.log⟩ ?_
    ⟨rfl, Nat.zero_le _⟩ rfl (.inl h0)
  · unfold resume
    revert this
    generalize parse h (fuel s.length) ⟨w.p.toCore, Ctx.new s, w.log⟩ = o
    obtain ⟨r, c⟩ := o
    intro this
    cases r with
    | ok su => cases su <;> exact this
    | err => exact this
    | panic => exact this
    | diverge => exact this
  · have := rank_le w.p.st
    simp only [mu, fuel, Ctx.available, Ctx.new]
    omega

end Verif.Http2
