import Verif.Http2.ForwardFrames
import Verif.Http2.ForwardCost
import Verif.Props.Http2Order
import Verif.Props.Http2Any

/-!
# HTTP/2 frames can be passed on

C104: the run of a client over `m` with slices of the lengths `ks`, which need not be complete. `forward`, `Between` and
`Ev.bare` are defined in `Verif.Http2.ForwardSpec`.
-/

namespace Verif.Http2

/-- **C104.** Whatever the peer sends, and however it is cut: the callbacks so far are those of complete frames, `p`, and
those of at most one frame that is not complete, `q`. A handler that writes each frame when it is complete, without
padding, has written `p` and nothing of `q`. Whoever reads this, with any handler, gets the callbacks `p`, except for the
length in frame headers, and the same pieces of payload up to where they are cut; nothing else, and no panic. They may
read it in one slice, or in any slices that do not end within the fields of C41 and C70. (A next byte must have arrived.)
If they pass it on in the same way, they write the same bytes. -/
theorem C104_pass_on (h : Handler) (ks : List Nat) (m : Bytes) : ∃ p q, (run h ks m).world.log = p ++ q ∧
    Between p ∧ (∀ a, a ≠ [] → a <+: q → ¬ Between (p ++ a)) ∧ forward (run h ks m).world.log = forward p ∧
    ∀ (b : UInt8) (h' : Handler),
      (∀ n, 4 * (forward p).length + 8 ≤ n →
        let o := feed h' n ⟨.new, []⟩ (forward p ++ [b])
        o.1 = .eos ∧ o.2.2 = [] ∧ (flat o.2.1.log).map Ev.bare = (flat p).map Ev.bare ∧
          forward o.2.1.log = forward p) ∧
      ∀ ks', let o := run h' ks' (forward p ++ [b])
        NoStopInId o → NoStopInField o → (flat o.world.log).map Ev.bare <+: (flat p).map Ev.bare ∧ o.last ≠ .panic ∧
          (o.last = .eos → o.rest = [] → (flat o.world.log).map Ev.bare = (flat p).map Ev.bare ∧
            forward o.world.log = forward p) := by
  obtain ⟨s, hs⟩ := C100_order h ks m
  have hs : walk .start (run h ks m).world.log = some s := hs
  obtain ⟨⟨x, hx⟩, -, -⟩ := C78_every_slicing h ks m
  have hr : ∀ e ∈ (run h ks m).world.log, e.InRange := inRange_of_flat fun e he =>
    f_frames (marks := (run h ks m).marks m) m.length 0 m e (by
      have : e ∈ (toldC ((run h ks m).marks m) m).1 := by rw [← hx]; exact List.mem_append_left _ he
      exact this)
  generalize (run h ks m).world.log = l at hs hr
  rcases split_open l _ _ hs with ⟨p, q, v, h1, h2, h3, h4⟩ | h1
  · subst h1
    have hq : walk v q = some s := by rw [walk_append, h2, Option.bind_some] at hs; exact hs
    have hf : forward (p ++ q) = forward p := by
      obtain ⟨d', h5⟩ := forward_append p q ⟨0, 0, 0, 0, []⟩
      rw [forward, h5, forward_rest h3 hq h4, List.append_nil, forward]
    refine ⟨p, q, rfl, ⟨v, h2, h3⟩, ?_, hf, ?_⟩
    · rintro a ha hp ⟨w, hw, ho⟩
      have hw : walk .start (p ++ a) = some w := hw
      rw [walk_append, h2, Option.bind_some] at hw
      rw [h4 a ha hp w hw] at ho
      cases ho
    · intro b h'
      obtain ⟨es, j1, j2, j3⟩ := read_forward b p.length (forward p ++ [b]).length p .start v ⟨0, 0, 0, 0, []⟩ (Nat.le_refl _)
        rfl h2 h3 (fun e he => hr e (List.mem_append_left _ he)) (by rw [forward]; simp)
      have ht : told (forward p ++ [b]) = (es, false) := j1
      refine ⟨fun n hn => ?_, fun ks' hi hf => ?_⟩
      · obtain ⟨i1, i2, i3⟩ := (C71_one_slice h' (forward p ++ [b]) n (by simp; omega)).2 (by rw [ht])
        rw [ht] at i3
        exact ⟨i1, i2, by rw [i3]; exact j2, by rw [forward, ← forward_flat, i3]; exact j3 _⟩
      · obtain ⟨i1, i2, i3⟩ := C71_reads_any_input_partial h' ks' (forward p ++ [b]) hi hf
        rw [ht] at i1 i2 i3
        refine ⟨j2 ▸ i1.map _, fun hp => absurd (i2 hp).1 (by simp), fun he hn => ?_⟩
        exact ⟨by rw [(i3 he hn).2]; exact j2, by rw [forward, ← forward_flat, (i3 he hn).2]; exact j3 _⟩
  · exact absurd (h1 [] (List.nil_prefix) .start rfl) (by decide)

/-- A DATA frame with padding in three slices, a HEADERS frame with padding and priority, and a GOAWAY frame of which
the debug data is cut off: two frames are written, without padding. -/
example : forward (run yes [11, 1, 100] (header 4 0 9 false 1 ++ [1, 97, 98, 0] ++ header 9 1 0x2C false 3 ++
    [1, 0x80, 0, 0, 1, 7, 99, 100, 0] ++ header 10 7 0 false 0 ++ [0, 0, 0, 1, 0, 0, 0, 2, 101])).world.log =
    header 3 0 9 false 1 ++ [0, 97, 98] ++ header 8 1 0x2C false 3 ++ [0, 0x80, 0, 0, 1, 7, 99, 100] := by
  decide +kernel

/-- What is read from that. -/
example : let o := feed yes 200 ⟨.new, []⟩ (header 3 0 9 false 1 ++ [0, 97, 98] ++ header 8 1 0x2C false 3 ++
      [0, 0x80, 0, 0, 1, 7, 99, 100] ++ [0])
    o.1 = .eos ∧ o.2.1.log = [.frameFormat 3 0 9 1, .payload .data b!"ab" true, .frameFormat 8 1 0x2C 3,
      .headers true 1 7, .payload .headersFragment b!"cd" true] := by decide +kernel

/-- The same in other slices. -/
example : let o := run yes [3, 7, 1, 100] (header 3 0 9 false 1 ++ [0, 97, 98] ++ header 8 1 0x2C false 3 ++
      [0, 0x80, 0, 0, 1, 7, 99, 100] ++ [0])
    NoStopInId o ∧ NoStopInField o ∧ o.last = .eos ∧ o.rest = [] ∧ o.world.log = [.frameFormat 3 0 9 1,
      .payload .data b!"a" false, .payload .data b!"b" true, .frameFormat 8 1 0x2C 3, .headers true 1 7,
      .payload .headersFragment b!"cd" true] := by decide +kernel

/-- The length that the peer announced cannot be used instead of the one of the bytes written: the frame would swallow
the next ones. -/
example : (feed yes 200 ⟨.new, []⟩ (header 4 0 9 false 1 ++ [0, 97, 98] ++ header 4 8 0 false 1 ++ be 4 7 ++
    [0])).2.1.log = [.frameFormat 4 0 9 1, .payload .data [97, 98, 0] true, .frameFormat 1032 0 0 256,
      .payload .data [0, 0, 7, 0] false] := by decide +kernel

/-- **C104**, the size: what is written is never longer than what was received. -/
theorem C104_size (h : Handler) (ks : List Nat) (m : Bytes) : (forward (run h ks m).world.log).length ≤ m.length := by
  obtain ⟨p, q, h1, ⟨v, h2, h3⟩, -, h4, -⟩ := C104_pass_on h ks m
  obtain ⟨⟨x, hx⟩, -, -⟩ := C78_every_slicing h ks m
  have h5 : szL 0 false (toldC ((run h ks m).marks m) m).1 ≤ m.length := szL_frames _ m.length 0 m 0 false
  have h6 : (forward p).length ≤ szL 0 false p := forward_size p.length p .start v _ 0 false (Nat.le_refl _) rfl h2 h3
  rw [h4]
  calc (forward p).length ≤ szL 0 false p := h6
    _ ≤ szL 0 false (p ++ q) := szL_le ..
    _ = szL 0 false (flat (run h ks m).world.log) := by rw [szL_flat, h1]
    _ ≤ _ := szL_le ..
    _ ≤ m.length := by rw [hx]; exact h5

/-- Frames without padding keep their length. Padding is left out, and so are frames that are not complete. -/
example : (let m := header 6 5 4 false 1 ++ [0, 0, 0, 2, 98, 99] ++ header 9 7 8 false 0 ++ [0, 0, 0, 1, 0, 0, 0, 2, 101]
    forward (run yes [100] m).world.log = m) ∧
    (let m := header 4 0 9 false 1 ++ [3, 0, 0, 0] ++ header 6 5 4 false 1 ++ [0, 0, 0, 2, 98]
    forward (run yes [100] m).world.log = header 1 0 9 false 1 ++ [0]) := by decide +kernel

end Verif.Http2
