import Verif.Http2.RunsFrames

/-!
# Where a run over frames can be cut within a field (helper lemmas)

Whether the reference machine is within a field can be told from its callbacks: the next one comes when the field is
complete. In a sequence of frames it is known after how many bytes that is.
-/

set_option linter.unusedSimpArgs false
set_option linter.unusedVariables false

namespace Verif.Http2

variable {h : Handler} {S : Bool} {m : Bytes}

/-! ## Prefixes -/

theorem pred_mono (b : Bytes) : ∀ (a : Bytes) (tr : List Ev) (s : Core), (pred tr s a).1 <+: (pred tr s (a ++ b)).1
  | [], tr, s => by
    rw [List.nil_append]
    cases b with
    | nil => exact List.prefix_refl _
    | cons x b =>
      simp only [pred]
      cases norm s with
      | panic es => exact List.prefix_refl _
      | next es s =>
        simp only
        cases bstep s x with
        | panic es' => exact List.prefix_append _ _
        | next es' s' => exact (List.prefix_append _ _).trans (pred_prefix b _ _)
  | x :: a, tr, s => by
    simp only [List.cons_append, pred]
    cases norm s with
    | panic es => exact List.prefix_refl _
    | next es s =>
      simp only
      cases bstep s x with
      | panic es' => exact List.prefix_refl _
      | next es' s' => exact pred_mono b a _ _

theorem pred_eos (b : Bytes) : ∀ (a : Bytes) (tr : List Ev) (s : Core), (pred tr s (a ++ b)).2 = .eos →
    (pred tr s a).2 = .eos
  | [], tr, s, h => by
    rw [List.nil_append] at h
    cases b with
    | nil => exact h
    | cons x b =>
      simp only [pred] at h ⊢
      cases hn : norm s with
      | panic es => rw [hn] at h; exact h
      | next es s => rfl
  | x :: a, tr, s, h => by
    simp only [List.cons_append, pred] at h ⊢
    cases hn : norm s with
    | panic es => rw [hn] at h; exact h
    | next es s' =>
      rw [hn] at h
      simp only at h ⊢
      cases hb : bstep s' x with
      | panic es' => rw [hb] at h; exact h
      | next es' s' => rw [hb] at h; exact pred_eos b a _ _ h

/-! ## Counting callbacks -/

/-- The callback tells a frame header. -/
def isFormat : Ev → Bool
  | .frameFormat .. => true
  | _ => false

/-- The callback tells a GOAWAY frame. -/
def isGoAway : Ev → Bool
  | .goAway .. => true
  | _ => false

/-- The callback tells a setting. -/
def isSettings : Ev → Bool
  | .settings .. => true
  | _ => false

/-- The number of callbacks after `k` bytes. -/
def cnt (x : Ev → Bool) (tr : List Ev) (s : Core) (m : Bytes) (k : Nat) : Nat := (pred tr s (m.take k)).1.countP x

theorem cnt_mono {x : Ev → Bool} {tr : List Ev} {s : Core} {m : Bytes} {k l : Nat} (h : k ≤ l) :
    cnt x tr s m k ≤ cnt x tr s m l := by
  have : m.take l = m.take k ++ (m.drop k).take (l - k) := by rw [← List.take_add]; congr 1; omega
  rw [cnt, cnt, this]
  exact (pred_mono _ _ _ _).sublist.countP_le

theorem cnt_tr {x : Ev → Bool} {tr : List Ev} {s : Core} {m : Bytes} {k : Nat} : tr.countP x ≤ cnt x tr s m k :=
  (pred_prefix _ _ _).sublist.countP_le

/-- When a callback of this kind comes in a frame. -/
def jumpFormat (_ : Frame) : List Nat := [9]
/-- Likewise for GOAWAY. -/
def jumpGoAway (f : Frame) : List Nat :=
  match f.body with
  | .goAway .. => [17]
  | _ => []
/-- Likewise for settings. -/
def jumpSettings (f : Frame) : List Nat :=
  match f.body with
  | .settings .. => [15]
  | _ => []

/-- A rule for the number of callbacks in a frame. -/
def Jumps (x : Ev → Bool) (j : Frame → List Nat) : Prop :=
  (∀ f : Frame, f.OK → ∀ (tr : List Ev) (s : Core), s.st = .frameLength1 → ∀ k ≤ f.write.length,
    cnt x tr s f.write k = tr.countP x + (j f).countP (· ≤ k)) ∧
  ∀ f : Frame, (∀ a ∈ j f, a ≤ f.write.length) ∧ f.events.countP x = (j f).length

theorem write_length (f : Frame) : f.write.length = 9 + f.body.payload.length := by
  simp [Frame.write, be_length, word_length]; omega

theorem full_le {x : Ev → Bool} {f : Frame} (hf : f.OK) {tr : List Ev} {s : Core} (hs : s.st = .frameLength1) {k : Nat} :
    cnt x tr s f.write k ≤ tr.countP x + f.events.countP x := by
  obtain ⟨h1, h2⟩ := pred_frame hf s hs tr []
  have hm : cnt x tr s f.write k ≤ (pred tr s f.write).1.countP x := by
    have := pred_mono (f.write.drop k) (f.write.take k) tr s
    rw [List.take_append_drop] at this
    exact this.sublist.countP_le
  refine Nat.le_trans hm ?_
  cases hw : f.body.waits with
  | false =>
    have := h1 (.inr hw)
    rw [List.append_nil] at this
    rw [this, pred]
    simp [norm, s0]
  | true =>
    rw [h2 hw, List.append_assoc, List.countP_append]
    have := late_eq hw
    rw [← this, List.countP_append (l₂ := f.late), List.countP_append (l₁ := [f.format])]
    omega

theorem quiet8 {tr : List Ev} {s : Core} (hs : s.st = .frameLength1) (b1 b2 b3 b4 b5 b6 b7 b8 : UInt8) :
    pred tr s [b1, b2, b3, b4, b5, b6, b7, b8] = (tr, .eos) := by
  rw [pred_start (s' := s0) hs rfl]
  simp [pred, norm, bstep, or32a, or32b, bStart, s0]

theorem write_take {f : Frame} : ∃ b1 b2 b3 b4 b5 b6 b7 b8, f.write.take 8 = [b1, b2, b3, b4, b5, b6, b7, b8] := by
  simp [Frame.write, be, word]

theorem cnt8 {x : Ev → Bool} {f : Frame} {tr : List Ev} {s : Core} (hs : s.st = .frameLength1) {k : Nat} (hk : k < 9) :
    cnt x tr s f.write k = tr.countP x := by
  obtain ⟨b1, b2, b3, b4, b5, b6, b7, b8, e⟩ := write_take (f := f)
  refine Nat.le_antisymm (Nat.le_trans (cnt_mono (show k ≤ 8 by omega)) ?_) cnt_tr
  rw [cnt, e, quiet8 hs]
  exact Nat.le_refl _

theorem take_more {l r : Bytes} {n k : Nat} (h : l.length = n) : (l ++ r).take (n + k) = l ++ r.take k := by
  rw [← h, List.take_append, List.take_of_length_le (by omega), Nat.add_sub_cancel_left]

theorem header_take {f : Frame} (hf : f.OK) {tr : List Ev} {s : Core} (hs : s.st = .frameLength1) (k : Nat) :
    pred tr s (f.write.take (9 + k)) =
      pred (tr ++ [f.format]) ⟨pk f.body.payload.length 0, 0, 0, 0, stOf f.body.type f.flags⟩ (f.body.payload.take k) := by
  have : f.write.take (9 + k) = be 3 f.body.payload.length ++ [f.body.type, f.flags] ++ word f.reserved f.streamId ++
      f.body.payload.take k := by
    exact take_more (by simp [be_length, word_length])
  rw [this, pred_header hf.2.2.2.1 hf.1 s hs]
  rfl

theorem field_events (f : Frame) (x : Ev → Bool) (hx : ∀ k d b, x (.payload k d b) = false) :
    f.events.countP x = [f.format].countP x + f.body.fieldEvents.countP x := by
  have : f.body.blobEvents.countP x = 0 := by
    rw [List.countP_eq_zero]
    intro e he
    unfold Body.blobEvents at he
    split at he
    · simp only [List.mem_append, List.mem_map, List.mem_singleton] at he
      rcases he with ⟨a, -, rfl⟩ | rfl <;> simp [hx]
    · simp at he
  rw [Frame.events, ← List.singleton_append, List.countP_append, List.countP_append, this]
  omega

theorem jumps_format : Jumps isFormat jumpFormat := by
  have he : ∀ f : Frame, f.events.countP isFormat = 1 := by
    intro f
    rw [field_events f _ (fun _ _ _ => rfl)]
    have : f.body.fieldEvents.countP isFormat = 0 := by
      unfold Body.fieldEvents
      split <;> rfl
    rw [this]
    rfl
  refine ⟨fun f hf tr s hs k hk => ?_, fun f => ⟨?_, he f⟩⟩
  · by_cases h9 : k < 9
    · rw [cnt8 hs h9]
      simp [jumpFormat, h9]
    · refine Nat.le_antisymm (Nat.le_trans (full_le hf hs) (by rw [he]; simp [jumpFormat, Nat.not_lt.mp h9])) ?_
      rw [cnt, show k = 9 + (k - 9) by omega, header_take hf hs]
      refine Nat.le_trans ?_ (pred_prefix _ _ _).sublist.countP_le
      rw [List.countP_append]
      simp [jumpFormat, isFormat, Frame.format]
  · simp [jumpFormat, write_length]

theorem jumps_goAway : Jumps isGoAway jumpGoAway := by
  have he : ∀ f : Frame, f.events.countP isGoAway = (jumpGoAway f).length := by
    intro f
    rw [field_events f _ (fun _ _ _ => rfl)]
    obtain ⟨fl, r, id, b⟩ := f
    cases b with
    | headers p q d => cases p <;> cases q <;> rfl
    | _ => rfl
  refine ⟨fun f hf tr s hs k hk => ?_, fun f => ⟨?_, he f⟩⟩
  · by_cases hj : jumpGoAway f = []
    · refine Nat.le_antisymm ?_ ?_
      · have := full_le (x := isGoAway) hf (tr := tr) hs (k := k)
        rw [he, hj] at this
        rw [hj]
        exact this
      · rw [hj]; exact cnt_tr
    · obtain ⟨fl, r, id, b⟩ := f
      cases b with
      | goAway e l c d =>
        have hj' : jumpGoAway ⟨fl, r, id, .goAway e l c d⟩ = [17] := rfl
        have hpay : ∃ z, (Body.goAway e l c d).payload = word e l ++ be 4 c.toNat ++ z := by
          simp only [Body.payload, Body.padLength, Body.pad, Body.fields, List.nil_append, List.append_assoc]
          exact ⟨_, rfl⟩
        obtain ⟨z, hz⟩ := hpay
        by_cases h17 : k < 17
        · refine Nat.le_antisymm (Nat.le_trans (cnt_mono (show k ≤ 9 + 7 by omega)) ?_) ?_
          · rw [cnt, header_take hf hs]
            simp only [hz]
            simp only [word, be, List.cons_append, List.nil_append, List.take_succ_cons, List.take_zero]
            generalize pk _ 0 = n
            simp [pred, norm, bstep, stOf, Body.type, or32b, or16a, or16b, Frame.format, isGoAway]
          · simp [hj', h17]; exact cnt_tr
        · refine Nat.le_antisymm (Nat.le_trans (full_le hf hs) (by rw [he, hj']; simp [Nat.not_lt.mp h17])) ?_
          rw [cnt, show k = 9 + (8 + (k - 17)) by omega, header_take hf hs]
          have hn : (Body.goAway e l c d).payload.length = z.length + 8 := by
            rw [hz]; simp [word_length, be_length]; omega
          have ht : (Body.goAway e l c d).payload.take (8 + (k - 17)) = word e l ++ be 4 c.toNat ++ z.take (k - 17) := by
            rw [hz]; exact take_more (by simp [word_length, be_length])
          simp only [ht]
          have hlt : z.length + 8 < 2 ^ 24 := by rw [← hn]; exact hf.2.2.2.1
          have := pred_goAway (n := z.length) (b := e) (l := l) (c := c) hlt hf.2.2.2.2
            (tr ++ [Frame.format ⟨fl, r, id, .goAway e l c d⟩]) (z.take (k - 17))
          simp only [hn]
          refine Nat.le_trans ?_ (Nat.le_of_eq (congrArg (fun q => q.1.countP isGoAway) this.symm))
          refine Nat.le_trans ?_ (pred_prefix _ _ _).sublist.countP_le
          simp only [hj', isGoAway, Frame.format, List.countP_append, List.countP_cons, List.countP_nil]
          split <;> simp
      | _ => exact absurd rfl hj
  · obtain ⟨fl, r, id, b⟩ := f
    intro a ha
    rw [write_length]
    cases b <;> simp [jumpGoAway] at ha
    subst ha
    simp [Body.payload, Body.fields, word_length, be_length]
    omega

theorem jumps_settings : Jumps isSettings jumpSettings := by
  have he : ∀ f : Frame, f.events.countP isSettings = (jumpSettings f).length := by
    intro f
    rw [field_events f _ (fun _ _ _ => rfl)]
    obtain ⟨fl, r, id, b⟩ := f
    cases b with
    | headers p q d => cases p <;> cases q <;> rfl
    | _ => rfl
  have hl : ∀ {fl r id i v}, (Frame.mk fl r id (.settings i v)).write.length = 15 := by
    intros
    rw [write_length]
    simp [Body.payload, Body.fields, Body.padLength, Body.pad, Body.blob, be_length]
  refine ⟨fun f hf tr s hs k hk => ?_, fun f => ⟨?_, he f⟩⟩
  · by_cases hj : jumpSettings f = []
    · refine Nat.le_antisymm ?_ ?_
      · have := full_le (x := isSettings) hf (tr := tr) hs (k := k)
        rw [he, hj] at this
        rw [hj]
        exact this
      · rw [hj]; exact cnt_tr
    · obtain ⟨fl, r, id, b⟩ := f
      cases b with
      | settings i v =>
        have hj' : jumpSettings ⟨fl, r, id, .settings i v⟩ = [15] := rfl
        by_cases h15 : k < 15
        · refine Nat.le_antisymm (Nat.le_trans (cnt_mono (show k ≤ 9 + 5 by omega)) ?_) ?_
          · rw [cnt, header_take hf hs]
            generalize pk _ 0 = n
            simp only [Body.payload, Body.fields, Body.padLength, Body.pad, be, List.cons_append, List.nil_append,
              List.take_succ_cons, List.take_zero]
            simp [pred, norm, bstep, stOf, Body.type, or32b, or16a, or16b, Frame.format, isSettings]
          · simp [hj', h15]; exact cnt_tr
        · rw [hl] at hk
          obtain rfl : k = 15 := by omega
          have h1 := (pred_frame hf s hs tr []).1 (.inr rfl)
          rw [List.append_nil] at h1
          rw [cnt, List.take_of_length_le (Nat.le_of_eq hl), h1, pred]
          simp [norm, s0, he, hj']
      | _ => exact absurd rfl hj
  · obtain ⟨fl, r, id, b⟩ := f
    intro a ha
    cases b <;> simp [jumpSettings] at ha
    subst ha
    rw [hl]
    exact Nat.le_refl _

/-- The same for a sequence of frames. -/
def jumps (j : Frame → List Nat) : List Frame → List Nat
  | [] => []
  | f :: fs => j f ++ (jumps j fs).map (· + f.write.length)

theorem cnt_frames {x : Ev → Bool} {j : Frame → List Nat} (hx : Jumps x j) : ∀ (fs : List Frame), (∀ f ∈ fs, f.OK) →
    ∀ (tr : List Ev) (s : Core), s.st = .frameLength1 → ∀ k,
    cnt x tr s (fs.flatMap Frame.write) k = tr.countP x + (jumps j fs).countP (· ≤ k)
  | [], _, tr, s, hs, k => by
    rw [cnt, List.flatMap_nil, List.take_nil, pred, norm_of_imm (by rw [hs]; rfl)]
    simp [jumps]
  | f :: fs, hf, tr, s, hs, k => by
    rw [List.flatMap_cons]
    have h0 : ∀ a ∈ jumps j fs, 0 < a := by
      intro a ha
      have := cnt_frames hx fs (fun e he => hf e (by simp [he])) [] s0 rfl 0
      rw [cnt, List.take_zero, pred] at this
      simp only [norm, s0, List.append_nil, List.countP_nil, Nat.zero_add] at this
      have := List.countP_eq_zero.mp this.symm a ha
      simpa [Nat.pos_iff_ne_zero] using this
    by_cases hk : k ≤ f.write.length
    · have : cnt x tr s (f.write ++ fs.flatMap Frame.write) k = cnt x tr s f.write k := by
        rw [cnt, cnt, List.take_append_of_le_length hk]
      rw [this, hx.1 f (hf f (by simp)) tr s hs k hk, jumps, List.countP_append, List.countP_map]
      have : (jumps j fs).countP ((fun a => decide (a ≤ k)) ∘ fun a => a + f.write.length) = 0 := by
        rw [List.countP_eq_zero]
        intro a ha
        have := h0 a ha
        simp only [Function.comp, decide_eq_true_eq]
        omega
      rw [this]
      omega
    · have hne : (fs.flatMap Frame.write).take (k - f.write.length) ≠ [] ∨ fs = [] := by
        cases fs with
        | nil => exact .inr rfl
        | cons g fs =>
          refine .inl fun h => ?_
          have h1 := congrArg List.length h
          have h2 := write_length g
          simp only [List.flatMap_cons, List.length_take, List.length_append, List.length_nil] at h1
          omega
      have hj : (j f).countP (· ≤ k) = (j f).length := by
        rw [List.countP_eq_length]
        intro a ha
        have := (hx.2 f).1 a ha
        simp only [decide_eq_true_eq]
        omega
      have hm : (jumps j fs).countP ((fun a => decide (a ≤ k)) ∘ fun a => a + f.write.length) =
          (jumps j fs).countP (· ≤ k - f.write.length) := by
        congr 1
        funext a
        simp only [Function.comp]
        congr 1
        rw [eq_iff_iff]
        omega
      rw [jumps, List.countP_append, List.countP_map, hj, hm]
      rcases hne with hne | rfl
      · have h1 := (pred_frame (hf f (by simp)) s hs tr ((fs.flatMap Frame.write).take (k - f.write.length))).1 (.inl hne)
        have := cnt_frames hx fs (fun e he => hf e (by simp [he])) (tr ++ f.events) s0 rfl (k - f.write.length)
        rw [cnt] at this
        rw [cnt, List.take_append, List.take_of_length_le (by omega), h1, this, List.countP_append, (hx.2 f).2]
        omega
      · rw [List.flatMap_nil, List.append_nil]
        have h1 := hx.1 f (hf f (by simp)) tr s hs f.write.length (Nat.le_refl _)
        have hj' : (j f).countP (· ≤ f.write.length) = (j f).length := by
          rw [List.countP_eq_length]
          intro a ha
          simpa using (hx.2 f).1 a ha
        rw [cnt, List.take_of_length_le (Nat.le_refl _), hj'] at h1
        rw [cnt, List.take_of_length_le (by omega), h1]
        simp [jumps]

theorem jump_of_lt {l : List Nat} {k : Nat} (h : l.countP (· ≤ k) < l.countP (· ≤ k + 1)) : k + 1 ∈ l := by
  induction l with
  | nil => simp at h
  | cons a l ih =>
    simp only [List.countP_cons, decide_eq_true_eq] at h
    by_cases ha : a = k + 1
    · rw [ha]; simp
    · refine List.mem_cons_of_mem _ (ih ?_)
      split at h <;> split at h <;> omega

/-! ## Within a field -/

theorem cut_cases {S : Bool} {st : St} (h : Cut S st = true) :
    (S = false ∧ (st = .frameStreamId2 ∨ st = .frameStreamId3 ∨ st = .frameStreamId4)) ∨
    (st = .goAwayStreamId2 ∨ st = .goAwayStreamId3 ∨ st = .goAwayStreamId4) ∨
    (st = .settingsValue2 ∨ st = .settingsValue3 ∨ st = .settingsValue4) := by
  simp only [Cut, inLongField, inStreamId, Bool.or_eq_true, Bool.and_eq_true, Bool.not_eq_true', beq_iff_eq] at h
  tauto

theorem Mid.flat {tr : List Ev} {w : Bytes} (hm : Mid S tr w) : Sim S (tr, .eos) (predNew w) := by
  obtain ⟨s0, hc, hp⟩ := hm
  have := hp []
  rw [List.append_nil, pred, norm_of_imm] at this
  · simpa using this
  · rcases cut_cases hc with ⟨-, h | h | h⟩ | (h | h | h) | (h | h | h) <;> rw [h] <;> rfl

theorem drop_more {M : Bytes} {p : Nat} (h : p + 8 ≤ M.length) :
    ∃ b1 b2 b3 b4 b5 b6 b7 b8 r, M.drop p = b1 :: b2 :: b3 :: b4 :: b5 :: b6 :: b7 :: b8 :: r := by
  have hl : 8 ≤ (M.drop p).length := by rw [List.length_drop]; omega
  rcases hM : M.drop p with _ | ⟨b1, _ | ⟨b2, _ | ⟨b3, _ | ⟨b4, _ | ⟨b5, _ | ⟨b6, _ | ⟨b7, _ | ⟨b8, r⟩⟩⟩⟩⟩⟩⟩⟩
  any_goals (rw [hM] at hl; simp at hl)
  exact ⟨b1, b2, b3, b4, b5, b6, b7, b8, r, rfl⟩

theorem code_jump {tr : List Ev} {s : Core} {b1 b2 b3 b4 : UInt8} (hs : s.st = .goAwayErrorCode1)
    (h : (pred tr s [b1, b2, b3, b4]).2 = .eos) :
    (pred tr s [b1, b2, b3]).1.countP isGoAway < (pred tr s [b1, b2, b3, b4]).1.countP isGoAway := by
  obtain ⟨a, b, x, y, st⟩ := s
  simp only at hs
  subst hs
  rw [pred_byte rfl rfl, pred_byte rfl rfl, pred_byte rfl rfl, pred_byte rfl rfl] at h ⊢
  rw [pred_byte rfl rfl, pred_byte rfl rfl, pred_byte rfl rfl]
  simp only [List.append_nil, pred, norm] at h ⊢
  generalize Core.decPayloadLength _ 8 = q at h ⊢
  cases q with
  | none => cases h
  | some q => simp [isGoAway]

theorem nears_count {x : Ev → Bool} (hx : ∀ e, x e.halfId = x e) : ∀ {a b : List Ev}, List.Forall₂ (Near S) a b →
    a.countP x = b.countP x
  | _, _, .nil => rfl
  | _, _, .cons h1 h2 => by
    rw [List.countP_cons, List.countP_cons, nears_count hx h2]
    rcases h1 with rfl | ⟨-, rfl⟩
    · rfl
    · rw [hx]

theorem Mid.jump {tr : List Ev} {M : Bytes} {p : Nat} (hm : Mid S tr (M.take p)) (hl : p + 8 ≤ M.length)
    (he : ∀ k, (predNew (M.take k)).2 = .eos) :
    ∃ j, 1 ≤ j ∧ j ≤ 3 ∧ (
      (S = false ∧ cnt isFormat [] Parser.new.toCore M (p + j - 1) < cnt isFormat [] Parser.new.toCore M (p + j)) ∨
      cnt isGoAway [] Parser.new.toCore M (p + j + 3) < cnt isGoAway [] Parser.new.toCore M (p + j + 4) ∨
      cnt isSettings [] Parser.new.toCore M (p + j - 1) < cnt isSettings [] Parser.new.toCore M (p + j)) := by
  obtain ⟨s0, hc, hp⟩ := hm
  obtain ⟨b1, b2, b3, b4, b5, b6, b7, b8, r, hM⟩ := drop_more hl
  have key : ∀ i, Sim S (pred tr s0 ((M.drop p).take i)) (predNew (M.take (p + i))) := by
    intro i
    rw [List.take_add]
    exact hp _
  have count : ∀ x : Ev → Bool, (∀ e, x e.halfId = x e) → ∀ i,
      cnt x [] Parser.new.toCore M (p + i) = (pred tr s0 ((M.drop p).take i)).1.countP x := by
    intro x hx i
    rw [nears_count hx (key i).2, cnt]; rfl
  have keyF := count isFormat (fun e => by cases e <;> rfl)
  have keyG := count isGoAway (fun e => by cases e <;> rfl)
  have keyS := count isSettings (fun e => by cases e <;> rfl)
  have key2 : ∀ i, (pred tr s0 ((M.drop p).take i)).2 = .eos := fun i => by rw [(key i).1]; exact he _
  rw [hM] at keyF keyG keyS key2
  obtain ⟨a, b, x, y, st⟩ := s0
  rcases cut_cases hc with ⟨hs, rfl | rfl | rfl⟩ | (rfl | rfl | rfl) | (rfl | rfl | rfl)
  · refine ⟨3, by decide, by decide, .inl ⟨hs, ?_⟩⟩
    rw [show p + 3 - 1 = p + 2 from rfl, keyF, keyF]
    simp [pred, norm, bstep, or32b, isFormat]
  · refine ⟨2, by decide, by decide, .inl ⟨hs, ?_⟩⟩
    rw [show p + 2 - 1 = p + 1 from rfl, keyF, keyF]
    simp [pred, norm, bstep, or32b, isFormat]
  · refine ⟨1, by decide, by decide, .inl ⟨hs, ?_⟩⟩
    rw [show p + 1 - 1 = p + 0 from rfl, keyF, keyF]
    simp [pred, norm, bstep, or32b, isFormat]
  · refine ⟨3, by decide, by decide, .inr (.inl ?_)⟩
    have h2 := key2 7
    rw [show p + 3 + 3 = p + 6 from rfl, show p + 3 + 4 = p + 7 from rfl, keyG, keyG]
    simp only [List.take_succ_cons, List.take_zero] at h2 ⊢
    have e : ∃ (t : List Ev) (q : Core), q.st = .goAwayErrorCode1 ∧ ∀ r, pred tr ⟨a, b, x, y, .goAwayStreamId2⟩ (b1 :: b2 :: b3 :: r) =
        pred t q r := ⟨_, _, rfl, fun r => by rw [pred_byte rfl rfl, pred_byte rfl rfl, pred_byte rfl rfl]⟩
    obtain ⟨t, q, hq, e⟩ := e
    rw [e] at h2
    rw [e, e]
    exact code_jump hq h2
  · refine ⟨2, by decide, by decide, .inr (.inl ?_)⟩
    have h2 := key2 6
    rw [show p + 2 + 3 = p + 5 from rfl, show p + 2 + 4 = p + 6 from rfl, keyG, keyG]
    simp only [List.take_succ_cons, List.take_zero] at h2 ⊢
    have e : ∃ (t : List Ev) (q : Core), q.st = .goAwayErrorCode1 ∧ ∀ r, pred tr ⟨a, b, x, y, .goAwayStreamId3⟩ (b1 :: b2 :: r) =
        pred t q r := ⟨_, _, rfl, fun r => by rw [pred_byte rfl rfl, pred_byte rfl rfl]⟩
    obtain ⟨t, q, hq, e⟩ := e
    rw [e] at h2
    rw [e, e]
    exact code_jump hq h2
  · refine ⟨1, by decide, by decide, .inr (.inl ?_)⟩
    have h2 := key2 5
    rw [show p + 1 + 3 = p + 4 from rfl, show p + 1 + 4 = p + 5 from rfl, keyG, keyG]
    simp only [List.take_succ_cons, List.take_zero] at h2 ⊢
    have e : ∃ (t : List Ev) (q : Core), q.st = .goAwayErrorCode1 ∧ ∀ r, pred tr ⟨a, b, x, y, .goAwayStreamId4⟩ (b1 :: r) =
        pred t q r := ⟨_, _, rfl, fun r => by rw [pred_byte rfl rfl]⟩
    obtain ⟨t, q, hq, e⟩ := e
    rw [e] at h2
    rw [e, e]
    exact code_jump hq h2
  · refine ⟨3, by decide, by decide, .inr (.inr ?_)⟩
    rw [show p + 3 - 1 = p + 2 from rfl, keyS, keyS]
    simp [pred, norm, bstep, or32b, isSettings]
  · refine ⟨2, by decide, by decide, .inr (.inr ?_)⟩
    rw [show p + 2 - 1 = p + 1 from rfl, keyS, keyS]
    simp [pred, norm, bstep, or32b, isSettings]
  · refine ⟨1, by decide, by decide, .inr (.inr ?_)⟩
    rw [show p + 1 - 1 = p + 0 from rfl, keyS, keyS]
    simp [pred, norm, bstep, or32b, isSettings]

/-! ## Sequences of frames -/

theorem jumps_append (j : Frame → List Nat) (gs : List Frame) : ∀ fs : List Frame,
    jumps j (fs ++ gs) = jumps j fs ++ (jumps j gs).map (· + (fs.flatMap Frame.write).length)
  | [] => by simp [jumps]
  | f :: fs => by
    rw [List.cons_append, jumps, jumps_append j gs fs, jumps, List.map_append, List.map_map, List.append_assoc,
      List.flatMap_cons, List.length_append]
    congr 2
    apply List.map_congr_left
    intro a _
    simp only [Function.comp]
    omega

theorem jumps_ids : ∀ (fs : List Frame) {a : Nat}, a ∈ jumps jumpFormat fs → 4 ≤ a ∧ a - 4 ∈ idsAt fs
  | [], a, h => by simp [jumps] at h
  | f :: fs, a, h => by
    rw [jumps, List.mem_append] at h
    rcases h with h | h
    · simp only [jumpFormat, List.mem_singleton] at h
      subst h
      exact ⟨by decide, by simp [idsAt]⟩
    · obtain ⟨b, hb, rfl⟩ := List.mem_map.mp h
      obtain ⟨h1, h2⟩ := jumps_ids fs hb
      refine ⟨by omega, ?_⟩
      rw [idsAt]
      exact List.mem_cons_of_mem _ (List.mem_map.mpr ⟨_, h2, by omega⟩)

theorem jumps_goAways : ∀ (fs : List Frame) {a : Nat}, a ∈ jumps jumpGoAway fs → 8 ≤ a ∧ a - 8 ∈ longAt fs
  | [], a, h => by simp [jumps] at h
  | f :: fs, a, h => by
    rw [jumps, List.mem_append] at h
    rw [longAt, List.mem_append]
    rcases h with h | h
    · obtain ⟨fl, r, id, b⟩ := f
      cases b <;> simp [jumpGoAway] at h
      subst h
      exact ⟨by decide, .inl (by simp [Body.longAt])⟩
    · obtain ⟨b, hb, rfl⟩ := List.mem_map.mp h
      obtain ⟨h1, h2⟩ := jumps_goAways fs hb
      exact ⟨by omega, .inr (List.mem_map.mpr ⟨_, h2, by omega⟩)⟩

theorem jumps_settingss : ∀ (fs : List Frame) {a : Nat}, a ∈ jumps jumpSettings fs → 4 ≤ a ∧ a - 4 ∈ longAt fs
  | [], a, h => by simp [jumps] at h
  | f :: fs, a, h => by
    rw [jumps, List.mem_append] at h
    rw [longAt, List.mem_append]
    rcases h with h | h
    · obtain ⟨fl, r, id, b⟩ := f
      cases b <;> simp [jumpSettings] at h
      subst h
      exact ⟨by decide, .inl (by simp [Body.longAt])⟩
    · obtain ⟨b, hb, rfl⟩ := List.mem_map.mp h
      obtain ⟨h1, h2⟩ := jumps_settingss fs hb
      exact ⟨by omega, .inr (List.mem_map.mpr ⟨_, h2, by omega⟩)⟩

theorem Mid.frames {tr : List Ev} {fs : List Frame} {p : Nat} (hf : ∀ f ∈ fs, f.OK)
    (hp : p ≤ (fs.flatMap Frame.write).length)
    (hm : Mid S tr ((fs.flatMap Frame.write).take p)) :
    (S = false ∧ ∃ a ∈ idsAt fs, a < p ∧ p < a + 4) ∨ ∃ a ∈ longAt fs, a < p ∧ p < a + 4 := by
  let g : Frame := ⟨0, false, 0, .ping [0, 0, 0, 0, 0, 0, 0, 0]⟩
  have hg : g.OK := by decide +kernel
  have hgl : g.write.length = 17 := by decide +kernel
  have hf' : ∀ f ∈ fs ++ [g], f.OK := by
    intro f h
    rcases List.mem_append.mp h with h | h
    · exact hf f h
    · rw [List.mem_singleton.mp h]; exact hg
  have eM : (fs ++ [g]).flatMap Frame.write = fs.flatMap Frame.write ++ g.write := by simp
  have hlen : ((fs ++ [g]).flatMap Frame.write).length = (fs.flatMap Frame.write).length + 17 := by
    rw [eM, List.length_append, hgl]
  have hm' : Mid S tr (((fs ++ [g]).flatMap Frame.write).take p) := by
    rw [eM, List.take_append_of_le_length hp]; exact hm
  obtain ⟨x, hx, -⟩ := pred_frames _ hf' Parser.new.toCore [] rfl
  have hE : ∀ k, (predNew (((fs ++ [g]).flatMap Frame.write).take k)).2 = .eos := fun k =>
    pred_eos (((fs ++ [g]).flatMap Frame.write).drop k) _ _ _ (by rw [List.take_append_drop, hx])
  obtain ⟨j, h1, h3, hj⟩ := hm'.jump (by omega) hE
  rcases hj with ⟨hs, hj⟩ | hj | hj
  · rw [cnt_frames jumps_format _ hf' _ _ rfl, cnt_frames jumps_format _ hf' _ _ rfl] at hj
    have := jump_of_lt (l := jumps jumpFormat (fs ++ [g])) (k := p + j - 1)
      (by rw [show p + j - 1 + 1 = p + j by omega]; simpa using hj)
    rw [jumps_append, List.mem_append] at this
    rcases this with this | this
    · obtain ⟨h4, h5⟩ := jumps_ids fs this
      exact .inl ⟨hs, _, h5, by omega, by omega⟩
    · simp only [jumps, jumpFormat, List.map_nil, List.append_nil, List.map_cons, List.mem_singleton] at this
      omega
  · rw [cnt_frames jumps_goAway _ hf' _ _ rfl, cnt_frames jumps_goAway _ hf' _ _ rfl] at hj
    have := jump_of_lt (l := jumps jumpGoAway (fs ++ [g])) (k := p + j + 3) (by simpa using hj)
    rw [jumps_append, List.mem_append] at this
    rcases this with this | this
    · obtain ⟨h4, h5⟩ := jumps_goAways fs this
      exact .inr ⟨_, h5, by omega, by omega⟩
    · simp [jumps, jumpGoAway, g] at this
  · rw [cnt_frames jumps_settings _ hf' _ _ rfl, cnt_frames jumps_settings _ hf' _ _ rfl] at hj
    have := jump_of_lt (l := jumps jumpSettings (fs ++ [g])) (k := p + j - 1)
      (by rw [show p + j - 1 + 1 = p + j by omega]; simpa using hj)
    rw [jumps_append, List.mem_append] at this
    rcases this with this | this
    · obtain ⟨h4, h5⟩ := jumps_settingss fs this
      exact .inr ⟨_, h5, by omega, by omega⟩
    · simp [jumps, jumpSettings, g] at this

theorem mark_mem {o : Outcome} {st : Stop} (h : st ∈ o.stops) : m.length - st.left ∈ o.marks m :=
  List.mem_map.mpr ⟨st, h, rfl⟩

theorem not_broke {o : Outcome} {fs : List Frame} (hf : ∀ f ∈ fs, f.OK)
    (hs : S = false → Apart (o.marks (fs.flatMap Frame.write)) (idsAt fs))
    (hl : Apart (o.marks (fs.flatMap Frame.write)) (longAt fs)) : ¬ Broke S (fs.flatMap Frame.write) o := by
  rintro ⟨st, h1, -, l, -, h2, -⟩
  rcases h2.frames hf (Nat.sub_le _ _) with ⟨h3, a, h4, h5⟩ | ⟨a, h4, h5⟩
  · exact hs h3 _ (mark_mem h1) a h4 h5
  · exact hl _ (mark_mem h1) a h4 h5

/-! ## The first header -/

theorem len8 : ∀ (w : Bytes), w.length ≤ 8 → predNew w = ([], .eos) := by
  intro w hw
  rcases w with _ | ⟨b1, _ | ⟨b2, _ | ⟨b3, _ | ⟨b4, _ | ⟨b5, _ | ⟨b6, _ | ⟨b7, _ | ⟨b8, _ | ⟨b9, r⟩⟩⟩⟩⟩⟩⟩⟩⟩
  any_goals rfl
  simp only [List.length_cons] at hw
  omega

theorem len9 (w : Bytes) (hw : w.length = 9) : ∃ l t f i, predNew w = ([.frameFormat l t f i], .eos) := by
  rcases w with _ | ⟨b1, _ | ⟨b2, _ | ⟨b3, _ | ⟨b4, _ | ⟨b5, _ | ⟨b6, _ | ⟨b7, _ | ⟨b8, _ | ⟨b9, _ | ⟨b0, r⟩⟩⟩⟩⟩⟩⟩⟩⟩⟩
  any_goals (simp only [List.length_cons, List.length_nil] at hw; omega)
  exact ⟨_, _, _, _, rfl⟩

theorem len10 (w : Bytes) (hw : 9 ≤ w.length) : ∃ l t f i x, (predNew w).1 = .frameFormat l t f i :: x := by
  obtain ⟨l, t, f, i, h⟩ := len9 (w.take 9) (by rw [List.length_take]; omega)
  have := pred_mono (w.drop 9) (w.take 9) [] Parser.new.toCore
  rw [List.take_append_drop] at this
  obtain ⟨x, hx⟩ := this
  refine ⟨l, t, f, i, x, ?_⟩
  unfold predNew at h ⊢
  rw [← hx, h]
  rfl

theorem go_first {tr : List Ev} {s : Core} {b1 b2 b3 b4 : UInt8} (hs : s.st = .goAwayErrorCode1)
    (h : (∃ l t f j, pred tr s [b1, b2, b3, b4] = ([.frameFormat l t f j], .eos)) ∨
      pred tr s [b1, b2, b3, b4] = ([], .eos)) : False := by
  have hc := code_jump (tr := tr) (b1 := b1) (b2 := b2) (b3 := b3) (b4 := b4) hs
  rcases h with ⟨l, t, f, j, h⟩ | h <;> rw [h] at hc <;> simp [isGoAway] at hc

theorem nears_nil {k : List Ev × Fin} {x : Fin} (h : Sim S k ([], x)) : k = ([], x) := by
  obtain ⟨l, y⟩ := k
  obtain ⟨h1, h2⟩ := h
  simp only at h1 h2
  cases h2
  rw [h1]

theorem nears_format {k : List Ev × Fin} {x : Fin} {l : UInt32} {t f : UInt8} {i : UInt32} (h : Sim S k ([.frameFormat l t f i], x)) :
    ∃ l t f i, k = ([.frameFormat l t f i], x) := by
  obtain ⟨a, y⟩ := k
  obtain ⟨h1, h2⟩ := h
  simp only at h1 h2
  subst h1
  cases h2 with
  | cons h3 h4 =>
    cases h4
    rcases h3 with rfl | ⟨-, rfl⟩ <;> exact ⟨_, _, _, _, rfl⟩

theorem Mid.first {tr : List Ev} {W : Bytes} {p : Nat} (hW : W.length = 9) (hp : p ≤ 8)
    (hm : Mid S tr (W.take p)) : S = false ∧ 5 < p := by
  obtain ⟨s0, hc, hq⟩ := hm
  have key : ∀ i, Sim S (pred tr s0 ((W.drop p).take i)) (predNew (W.take (p + i))) := by
    intro i
    rw [List.take_add]
    exact hq _
  have hlen : (W.drop p).length = 9 - p := by rw [List.length_drop, hW]
  have k0 : ∀ i, p + i ≤ 8 → pred tr s0 ((W.drop p).take i) = ([], .eos) := by
    intro i hi
    exact nears_nil (by have := key i; rwa [len8 _ (by rw [List.length_take]; omega)] at this)
  have k9 : ∃ l t f i, pred tr s0 (W.drop p) = ([.frameFormat l t f i], .eos) := by
    have := key (9 - p)
    rw [List.take_of_length_le (by omega), List.take_of_length_le (by omega)] at this
    obtain ⟨l, t, f, j, hj⟩ := len9 W hW
    rw [hj] at this
    exact nears_format this
  have kall : ∀ i, (∃ l t f j, pred tr s0 ((W.drop p).take i) = ([.frameFormat l t f j], .eos)) ∨
      pred tr s0 ((W.drop p).take i) = ([], .eos) := by
    intro i
    by_cases hi : p + i ≤ 8
    · exact .inr (k0 i hi)
    · rw [List.take_of_length_le (by omega)]
      exact .inl k9
  generalize W.drop p = y at *
  obtain ⟨a, b, u, v, st⟩ := s0
  have h0 := k0 0 hp
  rw [List.take_zero] at h0
  rcases cut_cases hc with ⟨hs, rfl | rfl | rfl⟩ | (rfl | rfl | rfl) | (rfl | rfl | rfl)
  · refine ⟨hs, ?_⟩
    by_contra hn
    have := k0 3 (by omega)
    rcases y with _ | ⟨b1, _ | ⟨b2, _ | ⟨b3, r⟩⟩⟩
    any_goals (simp only [List.length_cons, List.length_nil] at hlen; omega)
    simp [pred, norm, bstep, or32b] at this
  · refine ⟨hs, ?_⟩
    by_contra hn
    have := k0 2 (by omega)
    rcases y with _ | ⟨b1, _ | ⟨b2, r⟩⟩
    any_goals (simp only [List.length_cons, List.length_nil] at hlen; omega)
    simp [pred, norm, bstep, or32b] at this
  · refine ⟨hs, ?_⟩
    by_contra hn
    have := k0 1 (by omega)
    rcases y with _ | ⟨b1, r⟩
    any_goals (simp only [List.length_cons, List.length_nil] at hlen; omega)
    simp [pred, norm, bstep, or32b] at this
  · exfalso
    obtain rfl : tr = [] := by simpa [pred, norm] using h0
    have := kall 7
    rcases y with _ | ⟨b1, _ | ⟨b2, _ | ⟨b3, _ | ⟨b4, _ | ⟨b5, _ | ⟨b6, _ | ⟨b7, r⟩⟩⟩⟩⟩⟩⟩
    any_goals (obtain ⟨l, t, f, i, k9⟩ := k9; simp [pred, norm, bstep, or32b, or16a, or16b] at k9; done)
    simp only [List.take_succ_cons, List.take_zero] at this
    have e : ∃ (t : List Ev) (q : Core), q.st = .goAwayErrorCode1 ∧
        ∀ r, pred [] ⟨a, b, u, v, .goAwayStreamId2⟩ (b1 :: b2 :: b3 :: r) = pred t q r :=
      ⟨_, _, rfl, fun r => by rw [pred_byte rfl rfl, pred_byte rfl rfl, pred_byte rfl rfl]⟩
    obtain ⟨t, q, hq', e⟩ := e
    rw [e] at this
    exact go_first hq' this
  · exfalso
    obtain rfl : tr = [] := by simpa [pred, norm] using h0
    have := kall 6
    rcases y with _ | ⟨b1, _ | ⟨b2, _ | ⟨b3, _ | ⟨b4, _ | ⟨b5, _ | ⟨b6, r⟩⟩⟩⟩⟩⟩
    any_goals (obtain ⟨l, t, f, i, k9⟩ := k9; simp [pred, norm, bstep, or32b, or16a, or16b] at k9; done)
    simp only [List.take_succ_cons, List.take_zero] at this
    have e : ∃ (t : List Ev) (q : Core), q.st = .goAwayErrorCode1 ∧
        ∀ r, pred [] ⟨a, b, u, v, .goAwayStreamId3⟩ (b1 :: b2 :: r) = pred t q r :=
      ⟨_, _, rfl, fun r => by rw [pred_byte rfl rfl, pred_byte rfl rfl]⟩
    obtain ⟨t, q, hq', e⟩ := e
    rw [e] at this
    exact go_first hq' this
  · exfalso
    obtain rfl : tr = [] := by simpa [pred, norm] using h0
    have := kall 5
    rcases y with _ | ⟨b1, _ | ⟨b2, _ | ⟨b3, _ | ⟨b4, _ | ⟨b5, r⟩⟩⟩⟩⟩
    any_goals (obtain ⟨l, t, f, i, k9⟩ := k9; simp [pred, norm, bstep, or32b, or16a, or16b] at k9; done)
    simp only [List.take_succ_cons, List.take_zero] at this
    have e : ∃ (t : List Ev) (q : Core), q.st = .goAwayErrorCode1 ∧
        ∀ r, pred [] ⟨a, b, u, v, .goAwayStreamId4⟩ (b1 :: r) = pred t q r :=
      ⟨_, _, rfl, fun r => by rw [pred_byte rfl rfl]⟩
    obtain ⟨t, q, hq', e⟩ := e
    rw [e] at this
    exact go_first hq' this
  · exfalso
    obtain rfl : tr = [] := by simpa [pred, norm] using h0
    have := kall 3
    rcases y with _ | ⟨b1, _ | ⟨b2, _ | ⟨b3, r⟩⟩⟩
    any_goals (obtain ⟨l, t, f, i, k9⟩ := k9; simp [pred, norm, bstep, or32b, or16a, or16b] at k9; done)
    simp only [List.take_succ_cons, List.take_zero] at this
    rcases this with ⟨l, t, f, i, this⟩ | this <;> simp [pred, norm, bstep, or32b] at this
  · exfalso
    obtain rfl : tr = [] := by simpa [pred, norm] using h0
    have := kall 2
    rcases y with _ | ⟨b1, _ | ⟨b2, r⟩⟩
    any_goals (obtain ⟨l, t, f, i, k9⟩ := k9; simp [pred, norm, bstep, or32b, or16a, or16b] at k9; done)
    simp only [List.take_succ_cons, List.take_zero] at this
    rcases this with ⟨l, t, f, i, this⟩ | this <;> simp [pred, norm, bstep, or32b] at this
  · exfalso
    obtain rfl : tr = [] := by simpa [pred, norm] using h0
    have := kall 1
    rcases y with _ | ⟨b1, r⟩
    any_goals (obtain ⟨l, t, f, i, k9⟩ := k9; simp [pred, norm, bstep, or32b, or16a, or16b] at k9; done)
    simp only [List.take_succ_cons, List.take_zero] at this
    rcases this with ⟨l, t, f, i, this⟩ | this <;> simp [pred, norm, bstep, or32b] at this

end Verif.Http2
