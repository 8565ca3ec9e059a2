import Verif.Http2.ReleaseBody

/-!
# Frames, for the parser without overflow checks (helper lemmas)
-/

set_option linter.unusedSimpArgs false
set_option linter.unusedVariables false

namespace Verif.Http2.Release

variable {h : Handler} {p : Core} {r : Bytes} {L : List Ev}

macro "fields" : tactic =>
  `(tactic| exact fun c hs => ⟨_, by unfold stepFn; rw [hs]; simp only; unfold Http2.stepFn; rw [hs]; rfl⟩)

theorem tells_body {n : Nat} {t fl : UInt8} (hn : n < 2 ^ 24) :
    Tells h ⟨pk n 0, 0, 0, 0, stOf t fl⟩ r (readBody n t fl r) := by
  have pad : ∀ {s1 s2 : St} {F : Nat → Nat → Bytes → Tale}
      (hs : ∀ c : Cfg, c.p.st = s1 → stepFn h c = (exitIfEos c <| getU8 c fun b c =>
        transition (decPayload (set32a c (c.p.bit32a ||| b.toUInt32)) 1) s2)) (h1 : 1 ≤ need s1)
      (hF : ∀ n q r, n < 2 ^ 24 → q < 256 → Tells h ⟨pk n q, 0, 0, 0, s2⟩ r (F n q r)),
      Tells h ⟨pk n 0, 0, 0, 0, if (fl &&& 0x8 == 0x8) = true then s1 else s2⟩ r
        (readPad (fl &&& 0x8 == 0x8) n r F) := by
    intro s1 s2 F hs h1 hF
    cases fl &&& 0x8 == 0x8
    · exact hF n 0 r hn (by decide)
    · exact tells_pad hn hs h1 hF
  unfold stOf readBody
  dsimp only
  split
  · exact pad (fun c hs => by unfold stepFn; rw [hs]; rfl) (by decide) fun n q r hn hq => tells_data hn hq rfl
  · cases fl &&& 0x20 == 0x20
    · cases fl &&& 0x8 == 0x8
      · exact tells_data (h := h) (r := r) (n := n) (q := 0) (b := 0) (x := 0) (y := 0) (st := .headersFragment) hn
          (by decide) rfl
      · exact tells_pad hn (s1 := .headersPadLengthWithoutPriority) (s2 := .headersCallback)
          (fun c hs => by unfold stepFn; rw [hs]; rfl) (by decide) fun n q r hn hq => tells_headers hn hq
    · exact pad (fun c hs => by unfold stepFn; rw [hs]; rfl) (by decide) fun n q r hn hq => tells_prio hn hq
  · exact tells_priority
  · exact tells_field4 (s5 := .rstStreamCallback) (by fields) (by decide) fun c r hc =>
      tells_last rfl (q := ⟨_, _, _, _, .frameLength1⟩) rfl rfl fun ctx log => rfl
  · exact tells_settings
  · refine pad (fun c hs => by unfold stepFn; rw [hs]; rfl) (by decide) fun n q r hn hq => ?_
    exact tells_field4 (s5 := .pushPromiseCallback) (by fields) (by decide) fun x r hx => tells_push hn hq
  · exact tells_data hn (by decide) rfl
  · exact tells_goAway hn
  · exact tells_field4 (s5 := .windowUpdateCallback) (by fields) (by decide) fun c r hc =>
      tells_last rfl (q := ⟨_, _, _, _, .frameLength1⟩) rfl rfl fun ctx log => rfl
  · exact tells_data hn (by decide) rfl
  · have e : readBody n t fl r = readPad (fl &&& 0x8 == 0x8) n r (readData .unsupported) := by
      unfold readBody
      dsimp only
      split <;> first | rfl | contradiction
    have g := pad (s1 := .unsupportedPadLength) (s2 := .unsupportedData) (F := readData .unsupported)
      (fun c hs => by unfold stepFn; rw [hs]; rfl) (by decide) fun n q r hn hq => tells_data hn hq rfl
    rw [← e] at g
    exact g

/-! ## The frame header -/

theorem readFrame_short (hr : r.length < 9) : readFrame r = ([], none) := by
  unfold readFrame readField
  dsimp only
  split
  · rfl
  · split
    · rfl
    · split
      · rfl
      · rw [if_pos]
        simp only [List.length_drop]
        omega

theorem readFrame_cons (a1 a2 a3 t f i1 i2 i3 i4 : UInt8) (r : Bytes) :
    readFrame (a1 :: a2 :: a3 :: t :: f :: i1 :: i2 :: i3 :: i4 :: r) =
      tell [.frameFormat (UInt32.ofNat (num [a1, a2, a3])) t f (UInt32.ofNat (num [i1, i2, i3, i4] % 2 ^ 31))]
        (readBody (num [a1, a2, a3]) t f r) := by
  unfold readFrame readField
  simp [num1]
  rw [if_neg (by omega), if_neg (by omega)]

theorem tells_header {a1 a2 a3 t f i1 i2 i3 i4 : UInt8} (hp : p.st = .frameLength1) :
    Tells h p (a1 :: a2 :: a3 :: t :: f :: i1 :: i2 :: i3 :: i4 :: r)
      (readFrame (a1 :: a2 :: a3 :: t :: f :: i1 :: i2 :: i3 :: i4 :: r)) := by
  rw [readFrame_cons]
  obtain ⟨hn, en⟩ := be_num3 a1 a2 a3
  obtain ⟨hv, ev⟩ := be_num4 i1 i2 i3 i4
  have e1 := pk4 (n := num [a1, a2, a3]) (t := t) hn
  have e2 := be4 hv
  simp only [be, List.cons.injEq, and_true] at en ev
  rw [en.1, en.2.1, en.2.2] at e1
  rw [ev.1, ev.2.1, ev.2.2.1, ev.2.2.2] at e2
  rw [← (word_parts hv).2]
  generalize num [a1, a2, a3] = n at *
  generalize num [i1, i2, i3, i4] = v at *
  have s4 : Tells h ⟨pk n t.toNat, UInt32.ofNat v, f.toUInt16, 0, .frameFormatEnd⟩ r
      (tell [.frameFormat (UInt32.ofNat n) t f (UInt32.ofNat v &&& 0x7FFFFFFF)] (readBody n t f r)) := by
    refine Tells.call (tells_body hn) (fun ctx log g2 g3 => ⟨ctx, ?_, g3, g2⟩) ?_ rfl
    · show frame_format_end h _ = _
      have e3 : (Core.mk (pk n t.toNat) (UInt32.ofNat v) f.toUInt16 0 .frameFormatEnd).payloadLength = UInt32.ofNat n := by
        apply UInt32.toNat_inj.mp
        rw [payload_toNat, pk_hi hn t.toNat_lt, UInt32.toNat_ofNat', Nat.mod_eq_of_lt (by omega)]
      have e4 : frameState ⟨pk n t.toNat, UInt32.ofNat v, f.toUInt16, 0, .frameFormatEnd⟩ = stOf t f := by
        unfold frameState stOf Core.hasFlag
        simp only [pk_and hn, toUInt16_toUInt8]
        rfl
      unfold frame_format_end
      simp only [setState]
      rw [e3, e4]
      simp only [pk_and hn, toUInt16_toUInt8, pk_mask hn]
    · have : rank (stOf t f) ≤ 2 := by
        unfold stOf
        dsimp only
        split <;> (repeat' split) <;> simp [rank]
      show 4 * r.length + rank (stOf t f) < 4 * r.length + 3
      omega
  have s3 : Tells h ⟨pk n t.toNat, 0, f.toUInt16, 0, .frameStreamId1⟩ (i1 :: i2 :: i3 :: i4 :: r)
      (tell [.frameFormat (UInt32.ofNat n) t f (UInt32.ofNat v &&& 0x7FFFFFFF)] (readBody n t f r)) := by
    refine Tells.step s4 ?_
    intro ctx log u L h1 h2 h3 hk
    show EndsO h u L (frame_stream_id1 _)
    unfold frame_stream_id1
    refine eo_eos (fun h0 => by simp only [h3] at h0; cases h0) fun _ => ?_
    rw [if_pos (by rw [← rest_length]; simp only [h3]; simp)]
    refine eo_u32 h3 fun hr => eo_transition ?_
    simp only [e2]
    exact hk _ rfl (jump_le (by rw [h3]; simp) h2) hr
  have s2 : Tells h ⟨pk n t.toNat, 0, 0, 0, .frameFlags⟩ (f :: i1 :: i2 :: i3 :: i4 :: r)
      (tell [.frameFormat (UInt32.ofNat n) t f (UInt32.ofNat v &&& 0x7FFFFFFF)] (readBody n t f r)) := by
    refine Tells.step s3 ?_
    intro ctx log u L h1 h2 h3 hk
    show EndsO h u L (frame_flags _)
    unfold frame_flags
    refine eo_eos (fun h0 => by simp only [h3] at h0; cases h0) fun _ => ?_
    refine eo_u8 h3 fun hr => eo_transition ?_
    exact hk _ rfl (jump_le (by rw [h3]; simp) h2) hr
  refine Tells.step s2 ?_
  intro ctx log u L h1 h2 h3 hk
  have : stepFn h ⟨p, ctx, log⟩ = frame_length1 ⟨p, ctx, log⟩ := by
    unfold stepFn; simp only [hp]; unfold Http2.stepFn; simp only [hp]
  rw [this]
  unfold frame_length1
  refine eo_eos (fun h0 => by simp only [h3] at h0; cases h0) fun _ => ?_
  simp only
  rw [if_pos (by rw [← rest_length, h3]; simp)]
  refine eo_u32 h3 fun hr => eo_transition ?_
  simp only [e1]
  exact hk _ rfl (jump_le (by rw [h3]; simp) h2) hr

theorem tells_frame (hp : p.st = .frameLength1) : Tells h p r (readFrame r) := by
  by_cases hr : r.length < 9
  · rw [readFrame_short hr]
    exact .none (by rw [hp]; exact hr)
  · match r with
    | [] | [_] | [_, _] | [_, _, _] | [_, _, _, _] | [_, _, _, _, _] | [_, _, _, _, _, _] | [_, _, _, _, _, _, _]
    | [_, _, _, _, _, _, _, _] => exact absurd (by simp) hr
    | _ :: _ :: _ :: _ :: _ :: _ :: _ :: _ :: _ :: _ => exact tells_header hp

/-! ## What is left after a frame -/

/-- At most `k` bytes are left. -/
def Leaves (k : Nat) (t : Tale) : Prop := ∀ r', t.2 = some r' → r'.length ≤ k

theorem Leaves.none {k : Nat} {es : List Ev} : Leaves k (es, .none) := nofun

theorem Leaves.some {k : Nat} {es : List Ev} (hr : r.length ≤ k) : Leaves k (es, .some r) := by
  rintro r' ⟨⟩; exact hr

theorem Leaves.tell {k : Nat} {es : List Ev} {t : Tale} (ht : Leaves k t) : Leaves k (tell es t) := ht

theorem Leaves.field {k size : Nat} {F : Nat → Bytes → Tale} (hF : ∀ n r', r'.length + size ≤ r.length → Leaves k (F n r')) :
    Leaves k (readField size r F) := by
  unfold readField
  split
  · exact .none
  · exact hF _ _ (by rw [List.length_drop]; omega)

theorem Leaves.pad {k n : Nat} {b : Bool} {F : Nat → Nat → Bytes → Tale}
    (hF : ∀ n q r', r'.length ≤ r.length → Leaves k (F n q r')) : Leaves k (readPad b n r F) := by
  unfold readPad
  split
  · exact .field fun _ _ h => hF _ _ _ (by omega)
  · exact hF _ _ _ (Nat.le_refl _)

theorem Leaves.data {k n q : Nat} {kind : Kind} (hr : r.length ≤ k) : Leaves k (readData kind n q r) := by
  unfold readData
  dsimp only
  generalize (if q ≤ n then n - q else 2 ^ 32 + n - q) = size
  split
  · exact .none
  · split
    · exact .none
    · exact .some (by rw [List.length_drop]; omega)

theorem leaves_body {n : Nat} {t fl : UInt8} : Leaves r.length (readBody n t fl r) := by
  unfold readBody
  dsimp only
  split
  · exact .pad fun _ _ _ h => .data h
  · refine .pad fun _ _ _ h => ?_
    split
    · exact .field fun _ _ h' => .field fun _ _ h'' => .tell (.data (by omega))
    · exact .tell (.data h)
  · exact .field fun _ _ h => .field fun _ _ h' => .some (by omega)
  · exact .field fun _ _ h => .some (by omega)
  · exact .field fun _ _ h => .field fun _ _ h' => .some (by omega)
  · refine .pad fun _ _ _ h => .field fun _ _ h' => ?_
    split
    · exact .none
    · exact .tell (.data (by omega))
  · exact .data (Nat.le_refl _)
  · refine .field fun _ _ h => .field fun _ _ h' => .tell ?_
    split
    · exact .some (by omega)
    · exact .data (by omega)
  · exact .field fun _ _ h => .some (by omega)
  · exact .data (Nat.le_refl _)
  · exact .pad fun _ _ _ h => .data h

theorem leaves_frame : Leaves (r.length - 9) (readFrame r) := by
  unfold readFrame
  refine .field fun _ _ h1 => .field fun _ _ h2 => .field fun _ _ h3 => .field fun _ r' h4 => .tell ?_
  exact fun r'' h => Nat.le_trans (leaves_body r'' h) (by omega)

/-! ## All frames -/

theorem ends_frames : ∀ (k : Nat) (m : Bytes) (p : Core) (ctx : Ctx) (log : List Ev), m.length ≤ k → p.st = .frameLength1 →
    ctx.mark = ctx.idx → ctx.idx ≤ ctx.stream.length → ctx.rest = m →
    Ends h ⟨p, ctx, log⟩ (flat log ++ readFrames k m)
  | 0, m, p, ctx, log, hk, hp, h1, h2, h3 => by
    have hm : m = [] := List.length_eq_zero_iff.mp (by omega)
    subst hm
    exact Tells.none (r := []) (by rw [hp]; decide) ctx log _ h1 h2 h3 rfl
  | k + 1, m, p, ctx, log, hk, hp, h1, h2, h3 => by
    have ht := tells_frame (h := h) (r := m) hp ctx log
    have hl := leaves_frame (r := m)
    unfold readFrames
    generalize readFrame m = t at ht hl
    obtain ⟨es, _ | r'⟩ := t
    · exact ht _ h1 h2 h3 rfl
    · refine ht _ h1 h2 h3 ?_
      intro s ctx' log' g1 g2 g3 g4 g5
      have := ends_frames k r' s ctx' log' ?_ g1 g2 g3 g4
      · rw [g5, List.append_assoc] at this
        exact this
      · have := hl r' rfl
        by_cases h0 : m.length = 0
        · omega
        · omega

theorem feed_told (h : Handler) (m : Bytes) (n : Nat) (hn : 4 * m.length + 1 ≤ n) :
    (feed h n ⟨.new, []⟩ m).1 = .eos ∧ (feed h n ⟨.new, []⟩ m).2.2 = [] ∧
      flat (feed h n ⟨.new, []⟩ m).2.1.log = told m := by
  refine feed_ends n ⟨.new, []⟩ m ?_ ?_ nofun nofun
  · exact ends_frames m.length m _ (Ctx.new m) [] (Nat.le_refl _) rfl rfl (Nat.zero_le _) rfl
  · show 4 * (m.length - 0) + 0 < n
    omega

end Verif.Http2.Release
