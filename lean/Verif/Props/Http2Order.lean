import Verif.Http2.Order
import Verif.Http2.Cost
import Verif.Props.Http2Slices
import Verif.Props.Http2Release

/-!
# The HTTP/2 callbacks come in the documented order

C100: the run of a client over `m` with slices of the lengths `ks`, which need not be complete. `spot` is defined in
`Verif.Http2.OrderSpec`, `handed` and `frames` in `Verif.Http2.CostSpec`.
-/

namespace Verif.Http2

/-- **C100.** Whatever the peer sends: frame headers are only reported between frames; the callback with the fields of a
frame and then the callback for its payload are those for the type that the frame header announced; a frame is never
handed more payload than the header announced, less the fields; and the last piece of a payload without padding
completes the announced length. For every handler, every way of cutting and pausing, and after any number of calls,
panics included. -/
theorem C100_order (h : Handler) (ks : List Nat) (m : Bytes) : ∃ s, spot (run h ks m).world.log = some s := by
  obtain ⟨⟨x, hx⟩, -, -⟩ := C78_every_slicing h ks m
  obtain ⟨u, hu⟩ := o_frames (marks := (run h ks m).marks m) m.length 0 m .start rfl
  have hu : walk .start (toldC ((run h ks m).marks m) m).1 = some u := hu
  rw [← hx] at hu
  obtain ⟨v, hv⟩ := walk_prefix hu
  exact ⟨v, walk_of_flat _ _ _ (drive_good ks _ _ _ _ (by decide) (by decide) nofun) hv⟩

/-- A DATA frame with padding, a PUSH_PROMISE frame, and a GOAWAY frame of which the debug data is cut off. -/
example : spot (run yes [11, 1, 100] (header 3 0 8 false 1 ++ [1, 97, 0] ++ header 6 5 0 false 1 ++
    [0, 0, 0, 2, 98, 99] ++ header 10 7 0 false 0 ++ [0, 0, 0, 1, 0, 0, 0, 2, 100])).world.log =
    some ⟨7, 0, 1, false, false⟩ := by decide +kernel

/-- A history of a parser that confuses frame types, one of a parser that hands over a byte too many, one of a parser
that ends a frame too early, and one of a parser that forgets the fields are not in order. Nor is it in order to end the
debug data of a GOAWAY frame too early because of a flag that has no meaning there, or to make up a priority. -/
example : spot [.frameFormat 1 0 0 1, .payload .headersFragment [97] true] = none ∧
    spot [.frameFormat 1 0 0 1, .payload .data [97, 98] true] = none ∧
    spot [.frameFormat 2 0 0 1, .payload .data [97] true] = none ∧
    spot [.frameFormat 9 7 0 1, .payload .goAwayDebugData [97] true] = none ∧
    spot [.frameFormat 10 7 8 0, .goAway 1 2, .payload .goAwayDebugData [97] true] = none ∧
    spot [.frameFormat 2 1 8 1, .headers false 3 0] = none := by decide

/-- **C100**, the payload: what is handed over between a frame header and the next one is no longer than announced. -/
theorem C100_payload (h : Handler) (ks : List Nat) (m : Bytes) (a b c : List Ev) (n : UInt32) (t f : UInt8) (id : UInt32)
    (hl : (run h ks m).world.log = a ++ .frameFormat n t f id :: b ++ c) (hb : frames b = 0) : handed b ≤ n.toNat := by
  obtain ⟨s, hs⟩ := C100_order h ks m
  have hs : walk .start (run h ks m).world.log = some s := hs
  rw [hl] at hs
  obtain ⟨u, hu⟩ := walk_prefix hs
  rw [walk_append] at hu
  cases ha : walk .start a with
  | none => rw [ha] at hu; cases hu
  | some v =>
    rw [ha, Option.bind_some, walk_cons, Spot.next] at hu
    by_cases ho : v.over = true
    · rw [if_pos ho, Option.bind_some] at hu
      have := walk_left b _ _ hb hu
      simp only [Spot.enter] at this
      omega
    · rw [if_neg ho] at hu; cases hu

/-- Two frames; the second is not complete. -/
example : (run yes [3, 20] (header 2 0 0 false 1 ++ b!"ab" ++ header 9 6 0 false 0 ++ b!"c")).world.log =
    [.frameFormat 2 0 0 1, .payload .data b!"ab" true] ++
      .frameFormat 9 6 0 0 :: [.payload .ping b!"c" false] ++ [] ∧
    frames [.payload .ping b!"c" false] = 0 := by decide +kernel

/-- Without overflow checks this is false: a frame of one byte that announces padding is handed more. -/
theorem C100_release : ∃ (h : Handler) (ks : List Nat) (m : Bytes), spot (Release.run h ks m).world.log = none ∧
    ∃ d, (Release.run h ks m).world.log = [.frameFormat 1 0 8 1, .payload .data d false] ∧ 1 < d.length :=
  ⟨yes, [12], header 1 0 8 false 1 ++ [1, 97, 98], by decide +kernel, b!"ab", by decide +kernel, by decide⟩

end Verif.Http2
