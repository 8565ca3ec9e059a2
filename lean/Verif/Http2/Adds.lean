import Verif.Http2.PieceSpec
import Verif.Http2.ReleaseLemmas

/-!
# Where payload data comes from (helper lemmas)

A state function reports at most one piece of data: the bytes between the position before it and the one after it.
-/

namespace Verif.Http2

variable {h : Handler} {b c : Cfg}

/-! ## Pieces -/

theorem Pieces.snoc {s : Bytes} {ds : List Bytes} (hp : Pieces s ds) (d : Bytes) : Pieces (s ++ d) (ds ++ [d]) := by
  induction hp with
  | nil s => simpa using Pieces.cons s d (.nil [])
  | cons skip d' _ ih => rw [List.append_assoc]; exact .cons skip d' ih

theorem Pieces.more {s : Bytes} {ds : List Bytes} (hp : Pieces s ds) (x : Bytes) : Pieces (s ++ x) ds := by
  induction hp with
  | nil s => exact .nil _
  | cons skip d' _ ih => rw [List.append_assoc]; exact .cons skip d' ih

theorem take_split (s : Bytes) {i j : Nat} (hij : i ≤ j) : s.take j = s.take i ++ (s.take j).drop i := by
  conv_lhs => rw [← List.take_append_drop i (s.take j)]
  rw [List.take_take, Nat.min_eq_left hij]

theorem Pieces.take {s : Bytes} {ds : List Bytes} {i j : Nat} (hp : Pieces (s.take i) ds) (hij : i ≤ j) :
    Pieces (s.take j) ds := by
  rw [take_split s hij]
  exact hp.more _

/-! ## State functions -/

/-- Within a state function: nothing was reported yet. -/
structure Pre (b c : Cfg) : Prop where
  stream : c.ctx.stream = b.ctx.stream
  idx : b.ctx.idx ≤ c.ctx.idx
  log : c.log = b.log

/-- After a state function. -/
structure From (b c : Cfg) : Prop where
  stream : c.ctx.stream = b.ctx.stream
  idx : b.ctx.idx ≤ c.ctx.idx
  log : ∃ t, c.log = b.log ++ t ∧ (dataOf t = [] ∨ dataOf t = [(c.ctx.stream.take c.ctx.idx).drop b.ctx.idx])

/-- The results of a state function. -/
def Adds (b : Cfg) : Out → Prop
  | .cont c => From b c
  | .exit su c => From b c ∧ (su = .eos c.ctx.idx ∨ su = .callback c.ctx.idx)
  | .err c => From b c
  | .panic l => l = b.log

theorem Pre.refl : Pre b b := ⟨rfl, Nat.le_refl _, rfl⟩

theorem Pre.keep {c' : Cfg} (hp : Pre b c) (h1 : c'.ctx = c.ctx) (h2 : c'.log = c.log) : Pre b c' :=
  ⟨by rw [h1, hp.stream], by rw [h1]; exact hp.idx, h2.trans hp.log⟩

theorem Pre.jump (hp : Pre b c) (n : Nat) : Pre b (jump c n) := ⟨hp.stream, Nat.le_trans hp.idx (Nat.le_add_right _ _), hp.log⟩

theorem Pre.from (hp : Pre b c) : From b c := ⟨hp.stream, hp.idx, [], by rw [hp.log, List.append_nil], .inl rfl⟩

theorem adds_eos {k : Out} (hp : Pre b c) (hk : Adds b k) : Adds b (exitIfEos c k) := by
  unfold exitIfEos
  split
  · exact ⟨hp.from, .inl rfl⟩
  · exact hk

theorem adds_u8 {k : UInt8 → Cfg → Out} (hp : Pre b c) (hk : ∀ x c', Pre b c' → Adds b (k x c')) : Adds b (getU8 c k) := by
  unfold getU8
  split
  · exact hk _ _ (hp.jump 1)
  · exact hp.log

theorem adds_u16 {k : UInt16 → Cfg → Out} {i : UInt16} (hp : Pre b c) (hk : ∀ x c', Pre b c' → Adds b (k x c')) :
    Adds b (readU16 c i k) := by
  unfold readU16
  split
  · exact hk _ _ (hp.jump 2)
  · exact hp.log

theorem adds_u32 {k : UInt32 → Cfg → Out} {i : UInt32} (hp : Pre b c) (hk : ∀ x c', Pre b c' → Adds b (k x c')) :
    Adds b (readU32 c i k) := by
  unfold readU32
  split
  · exact hk _ _ (hp.jump 4)
  · exact hp.log

theorem adds_dec {k : Cfg → Out} {n : UInt32} (hp : Pre b c) (hk : ∀ c', Pre b c' → Adds b (k c')) :
    Adds b (decPayload c n k) := by
  unfold decPayload
  split
  · exact hk _ (hp.keep rfl rfl)
  · exact hp.log

theorem adds_ite {P : Prop} [Decidable P] {x y : Out} (hx : Adds b x) (hy : Adds b y) : Adds b (if P then x else y) := by
  split
  · exact hx
  · exact hy

theorem adds_transition {st : St} (hp : Pre b c) : Adds b (transition c st) :=
  show From b _ from ⟨hp.stream, hp.idx, [], by rw [List.append_nil]; exact hp.log, .inl rfl⟩

theorem adds_event {e : Ev} {o : Cfg → Out} (hp : Pre b c) (he : e.data = none ∨ e.data = some ((c.ctx.stream.take c.ctx.idx).drop b.ctx.idx))
    (ho : ∀ c', From b c' → Adds b (o c')) : Adds b (o { c with log := c.log ++ [e] }) :=
  ho _ ⟨hp.stream, hp.idx, [e], by rw [hp.log], by
    rcases he with he | he
    · exact .inl (by simp [dataOf, he])
    · exact .inr (by simp [dataOf, he])⟩

theorem adds_told {e : Ev} (hp : Pre b c) (he : e.data = none ∨ e.data = some ((c.ctx.stream.take c.ctx.idx).drop b.ctx.idx)) :
    Adds b (callback h c e) := by
  refine adds_event (o := fun c => if h.ret c.log then remark c else exitCallback c) hp he fun c' hc => adds_ite ?_ ?_
  · exact ⟨hc.stream, hc.idx, hc.log⟩
  · exact ⟨hc, .inr rfl⟩

theorem adds_callback {e : Ev} (hp : Pre b c) (he : e.data = none) : Adds b (callback h c e) := adds_told hp (.inl he)

theorem adds_end {e : Ev} (hp : Pre b c) (he : e.data = some ((c.ctx.stream.take c.ctx.idx).drop b.ctx.idx)) :
    Adds b (if h.ret (c.log ++ [e]) then exitEos { c with log := c.log ++ [e] } else exitCallback { c with log := c.log ++ [e] }) := by
  refine adds_event (o := fun c => if h.ret c.log then exitEos c else exitCallback c) hp (.inr he) fun c' hc => adds_ite ?_ ?_
  · exact ⟨hc, .inl rfl⟩
  · exact ⟨hc, .inr rfl⟩

theorem slice_eq {c' : Cfg} (hok : Ok b) (hm : c'.ctx.mark = b.ctx.mark) :
    some c'.ctx.slice = some ((c'.ctx.stream.take c'.ctx.idx).drop b.ctx.idx) := by
  rw [← hok.mark, ← hm, Ctx.slice, List.drop_take]

theorem adds_payload {k : Kind} (hok : Ok b) : Adds b (parsePayloadData h b k) := by
  unfold parsePayloadData
  split
  · rfl
  · rename_i n _
    refine adds_ite ?_ ?_
    · unfold decPayload
      split
      · exact adds_ite rfl (adds_told ((Pre.refl.jump n.toNat).keep rfl rfl) (.inr (slice_eq hok rfl)))
      · rfl
    · unfold decPayload
      split
      · exact adds_ite rfl (adds_end ((Pre.refl.jump b.ctx.available).keep rfl rfl) (slice_eq hok rfl))
      · rfl

theorem pre_32a {x : UInt32} (hp : Pre b c) : Pre b (set32a c x) := hp.keep rfl rfl

theorem pre_32b {x : UInt32} (hp : Pre b c) : Pre b (set32b c x) := hp.keep rfl rfl

theorem pre_16a {x : UInt16} (hp : Pre b c) : Pre b (set16a c x) := hp.keep rfl rfl

theorem pre_16b {x : UInt16} (hp : Pre b c) : Pre b (set16b c x) := hp.keep rfl rfl

theorem pre_state {st : St} (hp : Pre b c) : Pre b (setState c st) := hp.keep rfl rfl

theorem pre_core {p : Core} (hp : Pre b c) : Pre b ⟨p, c.ctx, c.log⟩ := hp.keep rfl rfl

/-- Go through a state function. -/
macro "adds_tac" : tactic => `(tactic| repeat' first
  | with_reducible assumption
  | with_reducible exact Pre.refl
  | with_reducible apply adds_transition
  | exact adds_payload (by assumption)
  | (refine adds_callback ?_ rfl)
  | with_reducible first
    | apply adds_eos | apply adds_u8 | apply adds_u16 | apply adds_u32 | apply adds_dec | apply adds_ite
    | apply pre_32a | apply pre_32b | apply pre_16a | apply pre_16b | apply pre_state
  | exact pre_core .refl
  | (intro h0))

theorem step_adds (hok : Ok c) (hd : c.p.st ≠ .dead) (hf : c.p.st ≠ .finished) : Adds c (stepFn h c) := by
  unfold stepFn
  split
  · unfold frame_length1; adds_tac
  · unfold frame_length2; adds_tac
  · unfold frame_length3; adds_tac
  · unfold frame_type; adds_tac
  · unfold frame_flags; adds_tac
  · unfold frame_stream_id1; adds_tac
  · unfold frame_stream_id2; adds_tac
  · unfold frame_stream_id3; adds_tac
  · unfold frame_stream_id4; adds_tac
  · exact adds_callback (pre_core (pre_state .refl)) rfl
  · unfold frame_padding
    refine adds_eos .refl (adds_ite (adds_transition (Pre.refl.jump _)) (adds_dec .refl fun c' hc => ?_))
    exact ⟨(hc.jump _).from, .inl rfl⟩
  · unfold data_pad_length; adds_tac
  · unfold data_data; adds_tac
  · unfold go_away_stream_id1; adds_tac
  · unfold go_away_stream_id2; adds_tac
  · unfold go_away_stream_id3; adds_tac
  · unfold go_away_stream_id4; adds_tac
  · unfold go_away_error_code1; adds_tac
  · unfold go_away_error_code2; adds_tac
  · unfold go_away_error_code3; adds_tac
  · unfold go_away_error_code4; adds_tac
  · unfold go_away_callback; adds_tac
  · unfold go_away_debug_data; adds_tac
  · unfold headers_pad_length_with_priority; adds_tac
  · unfold headers_pad_length_without_priority; adds_tac
  · unfold headers_stream_id1; adds_tac
  · unfold headers_stream_id2; adds_tac
  · unfold headers_stream_id3; adds_tac
  · unfold headers_stream_id4; adds_tac
  · unfold headers_weight; adds_tac
  · unfold headers_callback; adds_tac
  · unfold headers_fragment; adds_tac
  · unfold ping_data; adds_tac
  · unfold priority_stream_id1; adds_tac
  · unfold priority_stream_id2; adds_tac
  · unfold priority_stream_id3; adds_tac
  · unfold priority_stream_id4; adds_tac
  · unfold priority_weight; adds_tac
  · unfold push_promise_pad_length; adds_tac
  · unfold push_promise_stream_id1; adds_tac
  · unfold push_promise_stream_id2; adds_tac
  · unfold push_promise_stream_id3; adds_tac
  · unfold push_promise_stream_id4; adds_tac
  · unfold push_promise_callback; adds_tac
  · unfold rst_stream_error_code1; adds_tac
  · unfold rst_stream_error_code2; adds_tac
  · unfold rst_stream_error_code3; adds_tac
  · unfold rst_stream_error_code4; adds_tac
  · unfold rst_stream_callback; adds_tac
  · unfold settings_id1; adds_tac
  · unfold settings_id2; adds_tac
  · unfold settings_value1; adds_tac
  · unfold settings_value2; adds_tac
  · unfold settings_value3; adds_tac
  · unfold settings_value4; adds_tac
  · unfold settings_callback; adds_tac
  · unfold window_update_increment1; adds_tac
  · unfold window_update_increment2; adds_tac
  · unfold window_update_increment3; adds_tac
  · unfold window_update_increment4; adds_tac
  · unfold window_update_callback; adds_tac
  · unfold unsupported_pad_length; adds_tac
  · unfold unsupported_data; adds_tac
  · contradiction
  · contradiction

/-! ## Calls -/

/-- What was reported in a call so far. -/
def Got (l : List Ev) (c : Cfg) : Prop := ∃ t, c.log = l ++ t ∧ Pieces (c.ctx.stream.take c.ctx.idx) (dataOf t)

theorem Got.next {l : List Ev} (hg : Got l b) (hf : From b c) : Got l c := by
  obtain ⟨t, h1, h2⟩ := hg
  obtain ⟨h3, h4, u, h5, h6⟩ := hf
  refine ⟨t ++ u, by rw [h5, h1, List.append_assoc], ?_⟩
  rw [dataOf, List.filterMap_append]
  rw [← h3] at h2
  rcases h6 with h6 | h6 <;> rw [dataOf] at h6 <;> rw [h6]
  · rw [List.append_nil]
    exact h2.take h4
  · rw [take_split _ h4]
    have := h2.snoc ((c.ctx.stream.take c.ctx.idx).drop b.ctx.idx)
    rwa [← take_split _ h4] at this ⊢

/-- What a call has reported. -/
def CallGot (s : Bytes) (l : List Ev) : Res × Cfg → Prop
  | (.ok su, c) => Got l c ∧ c.ctx.stream = s ∧ (su = .eos c.ctx.idx ∨ su = .callback c.ctx.idx)
  | (_, c) => Got l c ∧ c.ctx.stream = s

theorem parse_got (s : Bytes) (l : List Ev) : ∀ (n : Nat) (c : Cfg), Ok c → c.ctx.stream = s → c.p.st ≠ .dead →
    c.p.st ≠ .finished → Got l c → CallGot s l (parse h n c)
  | 0, _, _, hs, _, _, hg => ⟨hg, hs⟩
  | n + 1, c, hok, hs, hd, hf, hg => by
    have hx := step_T (h := h) hok hd hf
    have hy := step_adds (h := h) hok hd hf
    rw [parse]
    generalize stepFn h c = o at hx hy
    cases o with
    | cont c' => exact parse_got s l n c' hx.1 (hx.2.1.trans hs) hx.2.2.2.1 hx.2.2.2.2 (hg.next hy)
    | exit su c' => exact ⟨hg.next hy.1, hy.1.stream.trans hs, hy.2⟩
    | err c' => exact ⟨hg.next hy, hy.stream.trans hs⟩
    | panic l' =>
      obtain ⟨t, h1, h2⟩ := hg
      exact ⟨⟨t, (show l' = c.log from hy).trans h1, h2⟩, hs⟩

/-- What a call of `resume` reported of the payload, and of which bytes. -/
def Taken (w : World) (s : Bytes) (o : Res × World) : Prop :=
  ∃ t, o.2.log = w.log ++ t ∧ Pieces s (dataOf t) ∧
    ∀ k, o.1 = .ok (.eos k) ∨ o.1 = .ok (.callback k) → Pieces (s.take k) (dataOf t)

theorem taken_of {w : World} {s : Bytes} {o : Res × Cfg} {o' : Res × World} (hc : CallGot s w.log o) (h1 : o'.1 = o.1)
    (h2 : o'.2.log = o.2.log) : Taken w s o' := by
  obtain ⟨r, c⟩ := o
  obtain ⟨r', w'⟩ := o'
  cases h1
  have hg : Got w.log c ∧ c.ctx.stream = s := by
    cases r with
    | ok su => exact ⟨hc.1, hc.2.1⟩
    | err => exact hc
    | panic => exact hc
    | diverge => exact hc
  obtain ⟨⟨t, h3, h4⟩, rfl⟩ := hg
  refine ⟨t, h2.trans h3, ?_, fun k hk => ?_⟩
  · have := h4.more (c.ctx.stream.drop c.ctx.idx)
    rwa [List.take_append_drop] at this
  · rcases hk with hk | hk <;> cases hk <;> obtain ⟨-, -, hk | hk⟩ := hc <;> cases hk <;> exact h4

theorem start_got {l : List Ev} {p : Core} {s : Bytes} : Got l ⟨p, Ctx.new s, l⟩ := ⟨[], (List.append_nil l).symm, .nil _⟩

theorem call_taken {w : World} (s : Bytes) (hd : w.p.st ≠ .dead) (hf : w.p.st ≠ .finished) :
    Taken w s (resume h w s) := by
  have := parse_got (h := h) s w.log (fuel s.length) ⟨w.p.toCore, Ctx.new s, w.log⟩ ⟨rfl, Nat.zero_le _⟩ rfl hd hf start_got
  refine taken_of this ?_ ?_ <;> unfold resume <;> generalize parse h (fuel s.length) ⟨w.p.toCore, Ctx.new s, w.log⟩ = o <;>
    obtain ⟨r, c⟩ := o <;> (cases r with
      | ok su => cases su <;> rfl
      | err => rfl
      | panic => rfl
      | diverge => rfl)

end Verif.Http2

/-! ## Without overflow checks -/

namespace Verif.Http2.Release

variable {h : Handler} {b c : Cfg}

theorem pre_dec {n : UInt32} (hp : Pre b c) : Pre b (decPayload c n) := hp.keep rfl rfl

theorem adds_payload {k : Kind} (hok : Ok b) : Adds b (parsePayloadData h b k) := by
  unfold parsePayloadData
  refine adds_ite ?_ ?_
  · exact adds_ite rfl (adds_told (pre_state (pre_dec (Pre.refl.jump _))) (.inr (slice_eq hok rfl)))
  · exact adds_ite rfl (adds_end ((pre_dec .refl).jump _) (slice_eq hok rfl))

theorem step_adds (hok : Ok c) (hd : c.p.st ≠ .dead) (hf : c.p.st ≠ .finished) : Adds c (stepFn h c) := by
  have pad : ∀ (f : UInt8 → Cfg → UInt32) (st : St), Adds c (exitIfEos c (getU8 c fun b c =>
      transition (decPayload (set32a c (f b c)) 1) st)) := fun _ _ =>
    adds_eos .refl (adds_u8 .refl fun _ _ hp => adds_transition (pre_dec (pre_32a hp)))
  have pay : ∀ k, Adds c (exitIfEos c (parsePayloadData h c k)) := fun k => adds_eos .refl (adds_payload hok)
  have hx := Http2.step_adds (h := h) hok hd hf
  unfold stepFn
  split
  · exact adds_eos .refl (adds_ite (adds_transition (Pre.refl.jump _)) ⟨((pre_dec .refl).jump _).from, .inl rfl⟩)
  · exact pad _ _
  · exact pay _
  · exact adds_callback (pre_state (pre_dec .refl)) rfl
  · exact pay _
  · exact pad _ _
  · exact pad _ _
  · exact adds_eos .refl (adds_u8 .refl fun _ _ hp => adds_transition (pre_dec (pre_16a hp)))
  · exact pay _
  · exact pay _
  · exact pad _ _
  · exact adds_eos .refl (adds_callback (pre_state (pre_dec .refl)) rfl)
  · exact pad _ _
  · exact pay _
  · exact hx

theorem parse_got (s : Bytes) (l : List Ev) : ∀ (n : Nat) (c : Cfg), Ok c → c.ctx.stream = s → c.p.st ≠ .dead →
    c.p.st ≠ .finished → Got l c → CallGot s l (parse h n c)
  | 0, _, _, hs, _, _, hg => ⟨hg, hs⟩
  | n + 1, c, hok, hs, hd, hf, hg => by
    have hx := step_T (h := h) hok hd hf
    have hy := step_adds (h := h) hok hd hf
    rw [parse]
    generalize stepFn h c = o at hx hy
    cases o with
    | cont c' => exact parse_got s l n c' hx.1 (hx.2.1.trans hs) hx.2.2.2.1 hx.2.2.2.2 (hg.next hy)
    | exit su c' => exact ⟨hg.next hy.1, hy.1.stream.trans hs, hy.2⟩
    | err c' => exact ⟨hg.next hy, hy.stream.trans hs⟩
    | panic l' =>
      obtain ⟨t, h1, h2⟩ := hg
      exact ⟨⟨t, (show l' = c.log from hy).trans h1, h2⟩, hs⟩

theorem call_taken {w : World} (s : Bytes) (hd : w.p.st ≠ .dead) (hf : w.p.st ≠ .finished) :
    Taken w s (resume h w s) := by
  have := parse_got (h := h) s w.log (fuel s.length) ⟨w.p.toCore, Ctx.new s, w.log⟩ ⟨rfl, Nat.zero_le _⟩ rfl hd hf start_got
  refine taken_of this ?_ ?_ <;> unfold resume <;> generalize parse h (fuel s.length) ⟨w.p.toCore, Ctx.new s, w.log⟩ = o <;>
    obtain ⟨r, c⟩ := o <;> (cases r with
      | ok su => cases su <;> rfl
      | err => rfl
      | panic => rfl
      | diverge => rfl)

end Verif.Http2.Release
