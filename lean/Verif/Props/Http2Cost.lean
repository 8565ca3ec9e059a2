import Verif.Http2.Cost
import Verif.Http2.ReleaseCost
import Verif.Props.Http2Slices
import Verif.Props.Http2ReleaseAny

/-!
# A peer cannot make the HTTP/2 parser do more than it pays for

C98 for HTTP/2: the run of a client over `m` with slices of the lengths `ks`, which need not be complete. `handed` and
`frames` are defined in `Verif.Http2.CostSpec`.
-/

namespace Verif.Http2

/-- **C98.** Whatever the peer sends, the bytes of the frame headers that were reported and the bytes of payload that
were handed over are no more than the bytes received; and for each frame there are at least six bytes more than
callbacks. For every handler, every way of cutting and pausing, and after any number of calls, panics included. -/
theorem C98_http2 (h : Handler) (ks : List Nat) (m : Bytes) :
    let l := (run h ks m).world.log
    handed l + 9 * frames l ≤ m.length ∧ l.length + 6 * frames l ≤ m.length := by
  intro l
  obtain ⟨⟨x, hx⟩, -, -⟩ := C78_every_slicing h ks m
  have key : ∀ a b, b ≤ 2 → a + 2 * b ≤ 9 → wt a b l ≤ m.length := by
    intro a b hb hab
    have h1 := wt_frames (a := a) (b := b) ((run h ks m).marks m) hb hab m.length 0 m
    have h2 : wt a b ((toldC ((run h ks m).marks m) m).1) ≤ m.length := h1
    rw [← hx, wt_append, wt_flat] at h2
    exact Nat.le_trans (Nat.le_add_right _ _) h2
  refine ⟨wt_handed l ▸ key 9 0 (by omega) (by omega), Nat.le_trans (wt_length l ?_) (key 7 1 (by omega) (by omega))⟩
  exact drive_good ks _ _ _ _ (by decide) (by decide) nofun

/-- A padded DATA frame of 3 bytes with 1 byte of padding, and a WINDOW_UPDATE frame, byte by byte. -/
example : let m := header 3 0 8 false 1 ++ [1, 97, 0] ++ header 4 8 0 false 1 ++ [0, 0, 0, 7]
    let l := (run yes (List.replicate 30 1) m).world.log
    m.length = 25 ∧ handed l = 1 ∧ frames l = 2 ∧ l.length = 4 := by decide +kernel

/-- The bounds are met exactly by unpadded data, and by a padded HEADERS frame without content. -/
example : (let m := header 2 0 0 false 1 ++ b!"ab"; let l := (run yes [11] m).world.log
    handed l + 9 * frames l = m.length) ∧
    (let m := header 1 1 8 false 1 ++ [0, 0]; let l := (run yes [11] m).world.log
    l.length + 6 * frames l = 9) := by decide +kernel

/-- **C98** without overflow checks, for input in one slice: a frame can be handed more payload than it announced
(`C100_release`), but all frames together are not handed more than the bytes received. -/
theorem C98_http2_release (h : Handler) (m : Bytes) (n : Nat) (hn : 4 * m.length + 1 ≤ n) :
    let l := (Release.feed h n ⟨.new, []⟩ m).2.1.log
    handed l + 9 * frames l ≤ m.length := by
  intro l
  obtain ⟨-, -, h3⟩ := C95_one_slice h m n hn
  rw [← wt_handed, ← wt_flat]
  exact h3 ▸ Release.Cost.wt_frames m.length m

/-- A DATA frame of one byte that announces two bytes of padding: all that follows is taken for data. -/
example : let m := header 1 0 8 false 1 ++ [2] ++ header 2 0 0 false 1 ++ b!"ab"
    let l := (Release.feed yes 200 ⟨.new, []⟩ m).2.1.log
    4 * m.length + 1 ≤ 200 ∧ m.length = 21 ∧ handed l = 11 ∧ frames l = 1 := by decide +kernel

end Verif.Http2
