import Verif.Http2.Framing
import Verif.Props.Http2Any
import Verif.Props.Http2Release

/-!
# C110: the frames of HTTP/2 input, as seen by others

`framesIn` and `FramesFit` are defined in `Verif.Http2.FramingSpec`.
-/

namespace Verif.Http2

/-- **C110 (partial).** If the lengths of all frames suit their types, then a program that only looks at the lengths
finds the frame headers that the parser reports, and there is no panic. For every input, every handler and every
slicing: at every moment the reported headers are the first ones that the others find, at most without the upper half of
the stream id; when all bytes were processed, none is missing. The two exceptions are those of C44. Missing: frames
whose lengths do not suit (`C110_fails`). -/
theorem C110_same_frames_partial (h : Handler) (ks : List Nat) (m : Bytes) (hm : FramesFit m) :
    let o := run h ks m
    let Same := fun e' e : Ev => e' = e ∨ e' = e.halfId
    o.last ≠ .panic ∧
    (∃ l, l <+: framesIn m ∧ List.Forall₂ Same (o.world.log.filter isFormat) l) ∧
    (NoStopInField o → o.last = .eos → o.rest = [] →
      List.Forall₂ Same (o.world.log.filter isFormat) (framesIn m) ∧
      (NoStopInId o → o.world.log.filter isFormat = framesIn m)) := by
  intro o Same
  obtain ⟨h1, h2⟩ := Framing.told_filter hm
  obtain ⟨⟨l, h3, h4⟩, h5, h6⟩ := C71_every_slicing_partial h ks m
  refine ⟨fun hl => ?_, ⟨l.filter isFormat, ?_, ?_⟩, fun ha hb hc => ⟨?_, fun hd => ?_⟩⟩
  · rw [(h5 hl).1] at h1; cases h1
  · rw [← h2]; exact h3.filter _
  · rw [← Framing.flat_filter]; exact Framing.same_filter h4
  · rw [← h2, ← Framing.flat_filter]; exact Framing.same_filter (h6 ha hb hc).2
  · rw [← h2, ← Framing.flat_filter, ((C71_reads_any_input_partial h ks m hd ha).2.2 hb hc).2]

/-- **C110 (partial)** for input in one slice: no exceptions. -/
theorem C110_one_slice_partial (h : Handler) (m : Bytes) (n : Nat) (hn : 4 * m.length + 4 ≤ n) (hm : FramesFit m) :
    let o := feed h n ⟨.new, []⟩ m
    o.1 = .eos ∧ o.2.2 = [] ∧ o.2.1.log.filter isFormat = framesIn m := by
  obtain ⟨h1, h2⟩ := Framing.told_filter hm
  obtain ⟨h3, h4, h5⟩ := (C71_one_slice h m n hn).2 h1
  exact ⟨h3, h4, by rw [← h2, ← Framing.flat_filter, h5]⟩

/-- **C110 (partial)** for a build without overflow checks: it behaves the same. -/
theorem C110_release_partial (h : Handler) (ks : List Nat) (m : Bytes) (hm : FramesFit m) :
    Release.run h ks m = run h ks m :=
  C91_run_partial h ks m (C110_same_frames_partial h ks m hm).1

/-- Five frames, one with data that looks like a frame header, one of an unknown type, and the last one cut off. -/
def exFit : Bytes :=
  header 12 0 8 false 1 ++ [2] ++ header 4 3 0 false 1 ++ [0, 0] ++ header 5 2 0 false 3 ++ [0, 0, 0, 1, 7] ++
    header 0 1 4 false 5 ++ header 3 99 0 false 7 ++ b!"abc" ++ header 20 7 0 false 0 ++ [0, 0, 0, 9]

example : FramesFit exFit ∧
    framesIn exFit = [.frameFormat 12 0 8 1, .frameFormat 5 2 0 3, .frameFormat 0 1 4 5, .frameFormat 3 99 0 7,
      .frameFormat 20 7 0 0] ∧
    (run yes [9, 40, 100] exFit).world.log.filter isFormat = framesIn exFit ∧ NoStopInId (run yes [9, 40, 100] exFit) ∧
    NoStopInField (run yes [9, 40, 100] exFit) ∧ (run yes [9, 40, 100] exFit).last = .eos ∧
    (run yes [9, 40, 100] exFit).rest = [] := by decide +kernel

/-- The full claim is false. After a SETTINGS frame without settings or with two, and after a PRIORITY frame with a wrong
length, others find another frame; a frame of an unknown type whose flags happen to contain the bit for
padding leads to a panic. -/
theorem C110_fails :
    (let m := header 0 4 1 false 0 ++ header 8 6 0 false 0 ++ b!"12345678"
     (run yes [100] m).world.log.filter isFormat ≠ framesIn m ∧ framesIn m = [.frameFormat 0 4 1 0, .frameFormat 8 6 0 0]) ∧
    (let m := header 12 4 0 false 0 ++ [0, 1, 0, 0, 16, 0] ++ [0, 3, 0, 0, 1, 0] ++ header 8 6 0 false 0 ++ b!"12345678"
     (run yes [100] m).world.log.filter isFormat ≠ framesIn m ∧ framesIn m = [.frameFormat 12 4 0 0, .frameFormat 8 6 0 0]) ∧
    (let m := header 14 2 0 false 1 ++ [0, 0, 0, 0, 0] ++ header 0 0 1 false 1
     (run yes [100] m).world.log.filter isFormat = [.frameFormat 14 2 0 1, .frameFormat 0 0 1 1] ∧
     framesIn m = [.frameFormat 14 2 0 1]) ∧
    (let m := header 2 99 8 false 1 ++ [9, 0] ++ header 8 6 0 false 0
     (run yes [100] m).last = .panic ∧ framesIn m = [.frameFormat 2 99 8 1, .frameFormat 8 6 0 0]) := by
  decide +kernel

end Verif.Http2
