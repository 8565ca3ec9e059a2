import Verif.Http2.ReleaseFeed
import Verif.Http2.ReleaseGood
import Verif.Props.Http2Release
import Verif.Props.Http2Calls

/-!
# Pauses of the HTTP/2 parser without overflow checks

C63 (a call stops where a callback answers `false`), C64 (pausing is invisible), C66 (data callbacks without data), C46
(reserved bits) for
`Parser::resume` as a release build compiles it (`Verif.Http2.Release`). Nothing panics there, so these hold for all
bytes. C65 is in `Verif.Props.Http2ReleaseProgress`.
-/

namespace Verif.Http2

/-! ## C63 -/

/-- **C63**, without overflow checks: a call of `resume` pauses, with `Callback(n)`, exactly when one of its callbacks
answered `false`, and this callback is the last one it executed. -/
theorem Release.C63_release_false_stops {w : World} {n : Nat} (hw : Release.Reach w n) (h : Handler) (s : Bytes) (r : Res)
    (w' : World) (hr : Release.resume h w s = (r, w')) :
    ∃ t, w'.log = w.log ++ t ∧
      (∀ a e b, t = a ++ e :: b → h.ret (w.log ++ a ++ [e]) = false → b = [] ∧ ∃ n, r = .ok (.callback n)) ∧
      ∀ n, r = .ok (.callback n) → t ≠ [] ∧ h.ret w'.log = false := by
  obtain ⟨hd, hf, -⟩ := hw.good
  obtain ⟨r', a, hb, h'⟩ := Release.resume_both (h := h) (pre := []) (y := 0) (w := w) (s := s) hd hf (Nat.lt_succ_self _)
  have went : Went h w.log w'.log → (∀ n, r ≠ .ok (.callback n)) → ∃ t, w'.log = w.log ++ t ∧
      (∀ a e b, t = a ++ e :: b → h.ret (w.log ++ a ++ [e]) = false → b = [] ∧ ∃ n, r = .ok (.callback n)) ∧
      ∀ n, r = .ok (.callback n) → t ≠ [] ∧ h.ret w'.log = false := by
    intro H hn
    obtain ⟨t, h1, h2⟩ := went_split H
    refine ⟨t, h1, fun a e b he hf => ?_, fun n h => absurd h (hn n)⟩
    rw [h2 a e b he] at hf
    cases hf
  rcases h' with ⟨⟨k, rfl | rfl⟩, h'⟩ | ⟨rfl, h'⟩ <;> rw [hr] at h' <;> cases h'
  · exact went hb.2.2.2.2 nofun
  · obtain ⟨-, -, -, ⟨l, h1, e, h2, h3⟩, -⟩ := hb
    simp only at h2 h3 ⊢
    obtain ⟨t, rfl, ht⟩ := went_split h1
    refine ⟨t ++ [e], by rw [h2, List.append_assoc]; rfl, fun a e' b he hf => ?_, fun _ _ => ⟨by simp, h3⟩⟩
    rcases List.eq_nil_or_concat b with rfl | ⟨b', x, rfl⟩
    · exact ⟨rfl, _, rfl⟩
    · have : t ++ [e] = (a ++ e' :: b') ++ [x] := by rw [he]; simp
      obtain ⟨h4, -⟩ := List.append_inj' this rfl
      rw [show h.ret (w.log ++ a ++ [e']) = true from ht a e' b' h4] at hf
      cases hf
  · exact went hb.2 nofun

/-- The second callback answers `false`: the data of a frame whose pad length exceeds its payload, so that all bytes
are data. With overflow checks this panics. -/
example : Release.resume ⟨fun l => l.length != 2⟩ ⟨.new, []⟩ (header 2 0 8 false 1 ++ [5] ++ b!"abc") =
    (.ok (.callback 13), ⟨⟨⟨0xFFFFFE05, 0, 0, 0, .dataData⟩, 13⟩, [.frameFormat 2 0 8 1, .payload .data b!"abc" false]⟩) ∧
    (resume ⟨fun l => l.length != 2⟩ ⟨.new, []⟩ (header 2 0 8 false 1 ++ [5] ++ b!"abc")).1 = .panic := by
  decide +kernel

/-! ## C64 -/

/-- **C64**, without overflow checks: whatever the callbacks answer, a client that passes the unprocessed rest of a
slice again after each pause gets the same callbacks in the same order, and the parser ends in the same state, as when
no callback pauses. At most `4 * length + 4` calls are needed. -/
theorem Release.C64_release_pausing_invisible {w : World} {n : Nat} (hw : Release.Reach w n) (h : Handler) (s : Bytes)
    (m : Nat) (hm : 4 * s.length + 4 ≤ m) : Release.feed h m w s = Release.feed yes 1 w s := by
  obtain ⟨hd, hf, -⟩ := hw.good
  rcases Release.feed_same (h := h) hd hf hm with h1 | ⟨-, h1, -⟩
  · exact h1
  · exfalso
    obtain ⟨k, w', -, ⟨h2, -⟩ | ⟨h2, -⟩⟩ := C91_total_partial hw yes s <;> rw [Release.feed, h2] at h1 <;> cases h1

/-- Five pauses; the pad length of the second frame exceeds its payload. -/
example : let m := header 2 1 0x8 false 1 ++ [1] ++ [0] ++ header 1 0 8 false 1 ++ [3] ++ b!"xyz"
    let never : Handler := ⟨fun _ => false⟩
    Release.feed never 6 ⟨.new, []⟩ m = Release.feed yes 1 ⟨.new, []⟩ m ∧
    (Release.feed never 5 ⟨.new, []⟩ m).1 = .callback ∧ (feed never 6 ⟨.new, []⟩ m).1 = .panic ∧
    (Release.feed never 6 ⟨.new, []⟩ m).1 = .eos ∧ (Release.feed never 6 ⟨.new, []⟩ m).2.1.log =
      [.frameFormat 2 1 8 1, .headers false 0 0, .payload .headersFragment [] true, .frameFormat 1 0 8 1,
        .payload .data b!"xyz" false] := by decide +kernel

/-! ## C66 -/

theorem Release.Reach.goodLog {w : World} {n : Nat} (hw : Release.Reach w n) : GoodLog w.log := by
  induction hw with
  | new => exact nofun
  | reset hw ih => exact ih
  | callback hw h s hr ih | eos hw h s hr ih | finished hw h s hr ih | err hw h s hr ih =>
    have := Release.resume_good (h := h) s hw.good.1 hw.good.2.1 ih
    rw [hr] at this
    exact this

/-- **C66**, without overflow checks: a data callback is only passed no data when it is the last one for its frame
(`finished = true`). -/
theorem Release.C66_release_no_empty_data {w : World} {n : Nat} (hw : Release.Reach w n) (k : Kind) (d : Bytes)
    (he : .payload k d false ∈ w.log) : d ≠ [] :=
  hw.goodLog _ he rfl

example : ∃ w, Release.Reach w 13 ∧ .payload .data b!"abc" false ∈ w.log :=
  ⟨_, Release.Reach.new.eos (k := 13) yes (header 2 0 8 false 1 ++ [5] ++ b!"abc") rfl, by decide +kernel⟩

/-! ## C46 -/

/-- **C46**, without overflow checks, for `on_frame_format`, `on_go_away`, `on_headers` and `on_priority`: no reserved
bit was passed on. (Missing: `on_push_promise` and `on_window_update`, see `C46_fails`; those two frames are read in the
same way without overflow checks.) -/
theorem Release.C46_release_ids_partial {w : World} {n : Nat} (hw : Release.Reach w n) :
    ∀ e ∈ w.log, ∀ id ∈ e.ids, id.toNat < 2 ^ 31 := by
  intro e he id hid
  have := hw.goodLog e he
  unfold Ev.ids at hid
  split at hid <;> simp at hid <;> subst hid <;> exact this

/-- A GOAWAY frame that is too short, with the reserved bit in both ids. -/
example : ∃ w, Release.Reach w 17 ∧ w.log = [.frameFormat 0 7 0 0x7fffffff, .goAway 0x7fffffff 2] :=
  ⟨_, Release.Reach.new.eos (k := 17) yes (header 0 7 0 true 0x7fffffff ++ word true 0x7fffffff ++ be 4 2) rfl,
    by decide +kernel⟩

end Verif.Http2
