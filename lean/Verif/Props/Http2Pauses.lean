import Verif.Http2.Feed
import Verif.Props.Http2Calls

/-!
# Pauses of the HTTP/2 parser

C63 (a call stops where a callback answers `false`), C64 (pausing is invisible), C65 (clients get done), C66 (data
callbacks without data). Parsers in any state that a program can bring them into (`Reach`, `Verif.Props.Http2Calls`).
-/

namespace Verif.Http2

/-! ## C63 -/

/-- **C63.** A call of `resume` pauses, with `Callback(n)`, exactly when one of its callbacks answered `false`, and
this callback is the last one it executed. -/
theorem C63_false_stops {w : World} {n : Nat} (hw : Reach w n) (h : Handler) (s : Bytes) (r : Res) (w' : World)
    (hr : resume h w s = (r, w')) :
    ∃ t, w'.log = w.log ++ t ∧
      (∀ a e b, t = a ++ e :: b → h.ret (w.log ++ a ++ [e]) = false → b = [] ∧ ∃ n, r = .ok (.callback n)) ∧
      ∀ n, r = .ok (.callback n) → t ≠ [] ∧ h.ret w'.log = false := by
  obtain ⟨hd, hf, -, -⟩ := hw.good
  obtain ⟨r', a, hb, h'⟩ := resume_both (h := h) (pre := []) (y := 0) (w := w) (s := s) hd hf (Nat.lt_succ_self _)
  have went : Went h w.log w'.log → (∀ n, r ≠ .ok (.callback n)) → ∃ t, w'.log = w.log ++ t ∧
      (∀ a e b, t = a ++ e :: b → h.ret (w.log ++ a ++ [e]) = false → b = [] ∧ ∃ n, r = .ok (.callback n)) ∧
      ∀ n, r = .ok (.callback n) → t ≠ [] ∧ h.ret w'.log = false := by
    intro H hn
    obtain ⟨t, h1, h2⟩ := went_split H
    refine ⟨t, h1, fun a e b he hf => ?_, fun n h => absurd h (hn n)⟩
    rw [h2 a e b he] at hf
    cases hf
  rcases h' with ⟨⟨k, rfl | rfl⟩, h'⟩ | ⟨rfl, h'⟩ <;> rw [hr] at h' <;> cases h'
  · exact went hb.2.2.2.2 nofun
  · obtain ⟨-, -, -, ⟨l, h1, e, h2, h3⟩, -⟩ := hb
    simp only at h2 h3 ⊢
    obtain ⟨t, rfl, ht⟩ := went_split h1
    refine ⟨t ++ [e], by rw [h2, List.append_assoc]; rfl, fun a e' b he hf => ?_, fun _ _ => ⟨by simp, h3⟩⟩
    rcases List.eq_nil_or_concat b with rfl | ⟨b', x, rfl⟩
    · exact ⟨rfl, _, rfl⟩
    · have : t ++ [e] = (a ++ e' :: b') ++ [x] := by rw [he]; simp
      obtain ⟨h4, -⟩ := List.append_inj' this rfl
      rw [show h.ret (w.log ++ a ++ [e']) = true from ht a e' b' h4] at hf
      cases hf
  · exact went hb.2 nofun

/-- The second callback answers `false`: here, the data of a padded frame. -/
example : resume ⟨fun l => l.length != 2⟩ ⟨.new, []⟩ (header 5 0 8 false 1 ++ [2] ++ b!"ab" ++ [0, 0] ++ header 0 4 0 false 0) =
    (.ok (.callback 12), ⟨⟨⟨0x202, 0, 0, 0, .framePadding⟩, 12⟩, [.frameFormat 5 0 8 1, .payload .data b!"ab" true]⟩) := by
  decide +kernel

/-! ## C64 -/

/-- **C64.** Whatever the callbacks answer: a client that passes the unprocessed rest of a slice again after each pause
gets the same callbacks in the same order, and the parser ends in the same state, as when no callback pauses. At most
`4 * length + 4` calls are needed. -/
theorem C64_pausing_invisible {w : World} {n : Nat} (hw : Reach w n) (h : Handler) (s : Bytes) (m : Nat)
    (hm : 4 * s.length + 4 ≤ m) : SameOut (feed h m w s) (feed yes 1 w s) :=
  feed_same hw.good.1 hw.good.2.1 hw.good.2.2.1 hm

/-- Every callback pauses. -/
def never : Handler := ⟨fun _ => false⟩

/-- Five pauses, in two frames, one of which has no data; the second frame is not complete. -/
example : let m := header 2 1 0x8 false 1 ++ [1] ++ [0] ++ header 5 6 0 false 0 ++ b!"1234"
    feed never 6 ⟨.new, []⟩ m = feed yes 1 ⟨.new, []⟩ m ∧ (feed never 5 ⟨.new, []⟩ m).1 = .callback ∧
    (feed never 6 ⟨.new, []⟩ m).1 = .eos ∧ (feed never 6 ⟨.new, []⟩ m).2.1.log =
      [.frameFormat 2 1 8 1, .headers false 0 0, .payload .headersFragment [] true, .frameFormat 5 6 0 0,
        .payload .ping b!"1234" false] := by decide +kernel

/-! ## C65 -/

/-- **C65.** Whatever the bytes are and whatever the callbacks answer: a client that passes at least one of its unread
bytes with every call has passed on everything after at most `4 * length + 4` calls (or the parser panicked, see
C45). -/
theorem C65_client_finishes (h : Handler) {w : World} {n : Nat} (hw : Reach w n) (msg : Bytes) (ks : List Nat)
    (hk : ∀ k ∈ ks, 0 < k) (hl : 4 * msg.length + 4 ≤ ks.length) :
    ∃ j ≤ 4 * msg.length + 4, (drive h .idle [] (ks.take j) w msg).complete := by
  have := rank_le w.p.st
  obtain ⟨h1, h2, h3, -⟩ := hw.good
  exact drive_ends (4 * msg.length + 3) .idle [] w msg ks h1 h2 hw.waits h3 hk (by omega) (by omega)

/-- 13 bytes, one at a time, with a pause after every callback: 13 calls are not enough (the last one paused), 14 are. -/
example : let m := header 4 3 0 false 1 ++ be 4 8
    ¬ (drive never .idle [] (List.replicate 13 1) ⟨.new, []⟩ m).complete ∧
    (drive never .idle [] (List.replicate 14 1) ⟨.new, []⟩ m).complete := by decide +kernel

/-! ## C66 -/

/-- **C66.** A data callback is only passed no data when it is the last one for its frame (`finished = true`). -/
theorem C66_no_empty_data {w : World} {n : Nat} (hw : Reach w n) (k : Kind) (d : Bytes)
    (he : .payload k d false ∈ w.log) : d ≠ [] :=
  hw.good.2.2.1 _ he rfl

/-- The same for a call that panics. -/
theorem C66_no_empty_data_panic {w : World} {n : Nat} (hw : Reach w n) (h : Handler) (s : Bytes) (w' : World)
    (hr : resume h w s = (.panic, w')) (k : Kind) (d : Bytes) (he : .payload k d false ∈ w'.log) : d ≠ [] := by
  obtain ⟨h1, h2, h3, -⟩ := hw.good
  have := call_T (h := h) (s := s) h1 h2 h3
  rw [hr] at this
  exact this _ he rfl

example : ∃ w, Reach w 11 ∧ .payload .data b!"ab" false ∈ w.log :=
  ⟨_, Reach.new.eos (k := 11) yes (header 5 0 0 false 1 ++ b!"ab") rfl, by decide +kernel⟩

end Verif.Http2
