import Verif.Props.Http2ReleaseRounds
import Verif.Props.Http2Release

/-!
# Clients of the HTTP/2 parser without overflow checks make progress

C65 and C117 without overflow checks, and with the number of calls bounded.
-/

namespace Verif.Http2.Release

/-! ## Helper lemmas -/

variable {h : Handler} {c : Cfg} {u : Nat}

/-- A state function that pauses (first argument) would otherwise have continued (second argument), or has used up bytes. -/
def Pauses (u : Nat) (o o' : Out) : Prop :=
  match o with
  | .exit (.callback _) a => (∃ b, o' = .cont b ∧ mu b = mu a) ∨ mu a < u
  | _ => True

theorem pz_ite {P : Prop} [Decidable P] {a b a' b' : Out} (ha : Pauses u a a') (hb : Pauses u b b') :
    Pauses u (if P then a else b) (if P then a' else b') := by
  split
  · exact ha
  · exact hb

theorem pz_callback {e : Ev} : Pauses u (callback h c e) (callback yes c e) := by
  unfold callback
  dsimp only
  split
  · trivial
  · exact .inl ⟨_, rfl, rfl⟩

theorem pz_eos {k k' : Out} (hk : 1 ≤ c.ctx.available → Pauses u k k') : Pauses u (exitIfEos c k) (exitIfEos c k') := by
  unfold exitIfEos
  split
  · trivial
  · exact hk (by omega)

theorem pz_u8 {k k' : UInt8 → Cfg → Out} (hk : ∀ b, Pauses u (k b (jump c 1)) (k' b (jump c 1))) :
    Pauses u (getU8 c k) (getU8 c k') := by
  unfold getU8
  split
  · exact hk _
  · trivial

theorem pz_u16 {k k' : UInt16 → Cfg → Out} {x : UInt16} (hk : ∀ y, Pauses u (k y (jump c 2)) (k' y (jump c 2))) :
    Pauses u (readU16 c x k) (readU16 c x k') := by
  unfold readU16
  split
  · exact hk _
  · trivial

theorem pz_u32 {k k' : UInt32 → Cfg → Out} {x : UInt32} (hk : ∀ y, Pauses u (k y (jump c 4)) (k' y (jump c 4))) :
    Pauses u (readU32 c x k) (readU32 c x k') := by
  unfold readU32
  split
  · exact hk _
  · trivial

theorem pz_payload {k : Kind} (ha : 1 ≤ c.ctx.available) :
    Pauses (mu c) (parsePayloadData h c k) (parsePayloadData yes c k) := by
  unfold parsePayloadData
  simp only
  refine pz_ite (pz_ite trivial pz_callback) (pz_ite trivial ?_)
  split
  · trivial
  · right
    have e : ∀ x : UInt32, (decPayload c x).ctx = c.ctx := fun _ => rfl
    have e' : ∀ x : UInt32, (decPayload c x).p.st = c.p.st := fun _ => rfl
    simp only [mu, jump, e, e', Ctx.jump, Ctx.available] at *
    omega

/-- Go through a state function. -/
macro "pz_tac" : tactic => `(tactic| repeat' first
  | exact trivial
  | refine pz_callback
  | refine pz_payload ?_
  | assumption
  | refine pz_eos fun _ => ?_
  | refine pz_ite ?_ ?_
  | refine pz_u8 fun _ => ?_
  | refine pz_u32 fun _ => ?_
  | refine pz_u16 fun _ => ?_)

theorem step_pauses : Pauses (mu c) (stepFn h c) (stepFn yes c) := by
  cases hs : c.p.st <;> unfold stepFn <;> rw [hs] <;> simp only <;> try (unfold Http2.stepFn; rw [hs]; simp only)
  · unfold dead; pz_tac
  · unfold frame_length1; pz_tac
  · unfold frame_length2; pz_tac
  · unfold frame_length3; pz_tac
  · unfold frame_type; pz_tac
  · unfold frame_flags; pz_tac
  · unfold frame_stream_id1; pz_tac
  · unfold frame_stream_id2; pz_tac
  · unfold frame_stream_id3; pz_tac
  · unfold frame_stream_id4; pz_tac
  · unfold frame_format_end; pz_tac
  · unfold frame_padding; pz_tac
  · unfold data_pad_length; pz_tac
  · unfold data_data; pz_tac
  · unfold go_away_stream_id1; pz_tac
  · unfold go_away_stream_id2; pz_tac
  · unfold go_away_stream_id3; pz_tac
  · unfold go_away_stream_id4; pz_tac
  · unfold go_away_error_code1; pz_tac
  · unfold go_away_error_code2; pz_tac
  · unfold go_away_error_code3; pz_tac
  · unfold go_away_error_code4; pz_tac
  · unfold go_away_callback; pz_tac
  · unfold go_away_debug_data; pz_tac
  · unfold headers_pad_length_with_priority; pz_tac
  · unfold headers_pad_length_without_priority; pz_tac
  · unfold headers_stream_id1; pz_tac
  · unfold headers_stream_id2; pz_tac
  · unfold headers_stream_id3; pz_tac
  · unfold headers_stream_id4; pz_tac
  · unfold headers_weight; pz_tac
  · unfold headers_callback; pz_tac
  · unfold headers_fragment; pz_tac
  · unfold ping_data; pz_tac
  · unfold priority_stream_id1; pz_tac
  · unfold priority_stream_id2; pz_tac
  · unfold priority_stream_id3; pz_tac
  · unfold priority_stream_id4; pz_tac
  · unfold priority_weight; pz_tac
  · unfold push_promise_pad_length; pz_tac
  · unfold push_promise_stream_id1; pz_tac
  · unfold push_promise_stream_id2; pz_tac
  · unfold push_promise_stream_id3; pz_tac
  · unfold push_promise_stream_id4; pz_tac
  · unfold push_promise_callback; pz_tac
  · unfold rst_stream_error_code1; pz_tac
  · unfold rst_stream_error_code2; pz_tac
  · unfold rst_stream_error_code3; pz_tac
  · unfold rst_stream_error_code4; pz_tac
  · unfold rst_stream_callback; pz_tac
  · unfold settings_id1; pz_tac
  · unfold settings_id2; pz_tac
  · unfold settings_value1; pz_tac
  · unfold settings_value2; pz_tac
  · unfold settings_value3; pz_tac
  · unfold settings_value4; pz_tac
  · unfold settings_callback; pz_tac
  · unfold unsupported_pad_length; pz_tac
  · unfold unsupported_data; pz_tac
  · unfold window_update_increment1; pz_tac
  · unfold window_update_increment2; pz_tac
  · unfold window_update_increment3; pz_tac
  · unfold window_update_increment4; pz_tac
  · unfold window_update_callback; pz_tac
  · unfold finished; pz_tac

theorem step_down (hok : Ok c) (hd : c.p.st ≠ .dead) (hf : c.p.st ≠ .finished) {n : Nat} {a : Cfg}
    (he : stepFn h c = .exit (.callback n) a) : mu a < mu c := by
  have h1 := step_pauses (h := h) (c := c)
  rw [he] at h1
  rcases h1 with ⟨b, h1, h2⟩ | h1
  · have h3 := step_T (h := yes) hok hd hf
    rw [h1] at h3
    exact h2 ▸ h3.2.2.1
  · exact h1

theorem parse_down : ∀ (n : Nat) (c : Cfg), Ok c → c.p.st ≠ .dead → c.p.st ≠ .finished →
    ∀ k a, parse h n c = (.ok (.callback k), a) → mu a < mu c
  | 0, c, _, _, _, k, a, he => by cases he
  | n + 1, c, hok, hd, hf, k, a, he => by
    have hx := step_T (h := h) hok hd hf
    rw [parse] at he
    cases hs : stepFn h c with
    | cont b =>
      rw [hs] at hx he
      obtain ⟨h1, h2, h3, h4, h5⟩ := hx
      exact Nat.lt_trans (parse_down n b h1 h4 h5 k a he) h3
    | exit su b =>
      rw [hs] at he
      cases he
      exact step_down hok hd hf hs
    | err b => rw [hs] at he; cases he
    | panic l => rw [hs] at he; cases he

/-- The potential of a client. -/
theorem drive_ends : ∀ (N : Nat) (last : End) (sts : List Stop) (w : World) (rem : Bytes) (ks : List Nat),
    w.p.st ≠ .dead → w.p.st ≠ .finished → (∀ k ∈ ks, 0 < k) → 4 * rem.length + rank w.p.st ≤ N → N + 1 ≤ ks.length →
    ∃ j ≤ N + 1, (drive h last sts (ks.take j) w rem).last = .eos ∧ (drive h last sts (ks.take j) w rem).rest = []
  | N, last, sts, w, rem, [], _, _, _, _, hl => absurd hl (by simp)
  | N, last, sts, w, rem, k :: ks, hd, hf, hk, hN, hl => by
    have hc := call_T (h := h) (s := rem.take k) hd hf
    have hk0 := hk k (by simp)
    have hdn := parse_down (h := h) (fuel (rem.take k).length) (start w (rem.take k)) ⟨rfl, Nat.zero_le _⟩ hd hf
    have hst : Stops (rem.take k) _ := parse_stops h (fuel (rem.take k).length) (start w (rem.take k)) ⟨rfl, Nat.zero_le _⟩ hd hf
    have hres : resume h w (rem.take k) = (let (r, c) := parse h (fuel (rem.take k).length) (start w (rem.take k))
      match r with
      | .ok (.finished n) => (.ok (.finished n), ⟨⟨{ c.p with st := .finished }, w.p.byteCount + c.ctx.idx⟩, c.log⟩)
      | .ok su => (.ok su, ⟨⟨c.p, w.p.byteCount + c.ctx.idx⟩, c.log⟩)
      | .err => (.err, ⟨⟨{ c.p with st := .dead }, w.p.byteCount + c.ctx.idx⟩, c.log⟩)
      | r => (r, ⟨w.p, c.log⟩)) := rfl
    rw [hres] at hc
    generalize hpc : parse h (fuel (rem.take k).length) (start w (rem.take k)) = o at hc hdn hst hres
    obtain ⟨r, a⟩ := o
    cases r with
    | ok su =>
      cases su with
      | eos n =>
        obtain ⟨g1, -, g3, g4⟩ := hc
        rw [List.length_take] at g1
        by_cases h0 : rem.drop n = []
        · refine ⟨1, by omega, ?_⟩
          rw [List.take_succ_cons, List.take_zero, drive, hres]
          exact ⟨rfl, h0⟩
        · have hl0 : n < rem.length := by
            by_contra hh
            exact h0 (List.drop_eq_nil_of_le (by omega))
          have hrk := rank_le a.p.st
          obtain ⟨N', rfl⟩ : ∃ N', N = N' + 1 := ⟨N - 1, by omega⟩
          obtain ⟨j, hj, hc⟩ := drive_ends N' .eos (sts ++ [⟨a.p.st, (rem.drop n).length⟩]) ⟨⟨a.p, w.p.byteCount + a.ctx.idx⟩, a.log⟩
            (rem.drop n) ks g3 g4 (fun k hk' => hk k (List.mem_cons_of_mem _ hk'))
            (by simp only [List.length_drop]; omega) (by simp only [List.length_cons] at hl; omega)
          refine ⟨j + 1, by omega, ?_⟩
          rw [List.take_succ_cons, drive, hres]
          exact hc
      | callback n =>
        obtain ⟨g1, -, g3, g4⟩ := hc
        obtain ⟨g5, g6, g7⟩ := hst
        have hmu := hdn n a rfl
        rw [start_mu, List.length_take, mu, Ctx.available, g7, List.length_take, ← g6] at hmu
        rw [List.length_take] at g1
        obtain ⟨N', rfl⟩ : ∃ N', N = N' + 1 := ⟨N - 1, by omega⟩
        obtain ⟨j, hj, hc⟩ := drive_ends N' .callback (sts ++ [⟨a.p.st, (rem.drop n).length⟩]) ⟨⟨a.p, w.p.byteCount + a.ctx.idx⟩, a.log⟩
          (rem.drop n) ks g3 g4 (fun k hk' => hk k (List.mem_cons_of_mem _ hk'))
          (by simp only [List.length_drop]; omega) (by simp only [List.length_cons] at hl; omega)
        refine ⟨j + 1, by omega, ?_⟩
        rw [List.take_succ_cons, drive, hres]
        exact hc
      | finished n => exact hc.elim
    | err => exact hc.elim
    | panic => exact hc.elim
    | diverge => exact hc.elim

/-! ## C65 -/

/-- **C65**, without overflow checks. Whatever the bytes are and whatever the callbacks answer: a client that passes at least one
of its unread bytes with every call has passed on everything after at most `4 * length + 4` calls. Here there are no panics. -/
theorem C65_release_client_finishes (h : Handler) {w : World} {n : Nat} (hw : Reach w n) (msg : Bytes) (ks : List Nat)
    (hk : ∀ k ∈ ks, 0 < k) (hl : 4 * msg.length + 4 ≤ ks.length) :
    ∃ j ≤ 4 * msg.length + 4, (drive h .idle [] (ks.take j) w msg).last = .eos ∧
      (drive h .idle [] (ks.take j) w msg).rest = [] := by
  have := rank_le w.p.st
  obtain ⟨h1, h2, -⟩ := hw.good
  exact drive_ends (4 * msg.length + 3) .idle [] w msg ks h1 h2 hk (by omega) (by omega)

/-- More padding than payload, one byte at a time, with a pause after every callback. -/
example : let m := header 1 0 8 false 1 ++ [5, 97, 98]
    (drive ⟨fun _ => false⟩ .idle [] (List.replicate 12 1) ⟨.new, []⟩ m).last = .callback ∧
    (drive ⟨fun _ => false⟩ .idle [] (List.replicate 13 1) ⟨.new, []⟩ m).last = .eos ∧
    (drive ⟨fun _ => false⟩ .idle [] (List.replicate 13 1) ⟨.new, []⟩ m).rest = [] := by
  decide +kernel

/-! ## C117 -/

/-- **C117**, without overflow checks: until all bytes are processed, at most `20 * length + 16` state functions are called. -/
theorem C117_release_total (h : Handler) {w : World} {n : Nat} (hw : Reach w n) (msg : Bytes) (ks : List Nat)
    (hk : ∀ k ∈ ks, 0 < k) (hl : 4 * msg.length + 4 ≤ ks.length) :
    ∃ j, (drive h .idle [] (ks.take j) w msg).last = .eos ∧ (drive h .idle [] (ks.take j) w msg).rest = [] ∧
      driveRounds h (ks.take j) w msg ≤ 20 * msg.length + 16 := by
  obtain ⟨j, hj, h1, h2⟩ := C65_release_client_finishes h hw msg ks hk hl
  have := C117_release_client h (ks.take j) w msg
  rw [List.length_take] at this
  exact ⟨j, h1, h2, by omega⟩

example : let m := header 1 0 8 false 1 ++ [5, 97, 98]
    driveRounds ⟨fun _ => false⟩ (List.replicate 13 1) ⟨.new, []⟩ m = 23 := by
  decide +kernel

end Verif.Http2.Release
