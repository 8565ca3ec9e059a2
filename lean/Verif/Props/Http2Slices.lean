import Verif.Http2.Exact
import Verif.Props.Http2Any

/-!
# What the HTTP/2 parser tells about any bytes in any slices

C78: the callbacks and panics for any byte string in any slicing are exactly those that `toldC`
(`Verif.Http2.CutSpec`) describes. Unlike C71 this has no exceptions: `toldC` knows what becomes of the fields within
which a slice ends.
-/

namespace Verif.Http2

variable {h : Handler}

/-! ## C78 -/

/-- **C78.** Whatever the bytes are, however they are cut into slices, and whatever the callbacks answer; `o.marks m` are
the positions where calls of `resume` stopped: the callbacks of a run are a beginning of those of `toldC`; it only
panics if `toldC` says so, after exactly its callbacks; and when all bytes were processed, then `toldC` does not panic
and exactly its callbacks were executed. -/
theorem C78_every_slicing (h : Handler) (ks : List Nat) (m : Bytes) :
    let o := run h ks m
    let t := toldC (o.marks m) m
    flat o.world.log <+: t.1 ∧ (o.last = .panic → t.2 = true ∧ flat o.world.log = t.1) ∧
    (o.last = .eos → o.rest = [] → t.2 = false ∧ flat o.world.log = t.1) := by
  obtain ⟨h1, h2, h3⟩ := Exact.run_told (h := h) ks m
  refine ⟨h1, fun hl => ?_, fun hl hr => ?_⟩
  · rw [h2 hl]
    exact ⟨rfl, rfl⟩
  have := h3 hl hr
  rw [this]
  exact ⟨rfl, rfl⟩

/-- **C78**, panics: a run that is over (a client always gets there, C65) has ended with a panic exactly when `toldC`
says so. -/
theorem C78_panics_exactly (h : Handler) (ks : List Nat) (m : Bytes) (hc : (run h ks m).complete) :
    let o := run h ks m
    o.last = .panic ↔ (toldC (o.marks m) m).2 = true := by
  obtain ⟨-, h2, h3⟩ := C78_every_slicing h ks m
  intro o
  refine ⟨fun hl => (h2 hl).1, fun ht => ?_⟩
  unfold Outcome.complete at hc
  change match o.last with | .panic => True | .eos => o.rest = [] | _ => False at hc
  split at hc
  · assumption
  · rename_i hl
    rw [(h3 hl hc).1] at ht; cases ht
  · exact hc.elim

/-- A frame header whose stream id is cut, then a PRIORITY frame, then a GOAWAY frame whose last stream id is cut, then
a PING frame. -/
def exSlices : Bytes := header 3 6 0 false 0x01020304 ++ b!"abc" ++ header 5 2 0 false 0x05060708 ++ word true 5 ++ [7] ++
  header 8 7 0 false 0 ++ word false 9 ++ be 4 2 ++ header 1 6 0 false 1 ++ b!"z"

/-- The first stream id has lost its upper half, the second one has not, and there is nothing after the header of the
GOAWAY frame. The same with a handler that pauses the parser at every callback. -/
example : let t : List Ev × Bool := ([.frameFormat 3 6 0 0x0304, .payload .ping b!"a" false, .payload .ping b!"b" false,
      .payload .ping b!"c" false, .payload .ping [] true, .frameFormat 5 2 0 0x05060708, .priority true 5 7,
      .frameFormat 8 7 0 0], false)
    let o := run yes [7, 22, 8, 3, 100] exSlices
    let o' := run never [7, 22, 22, 22, 6, 2, 3, 100, 3, 100] exSlices
    o.last = .eos ∧ o.rest = [] ∧ o.marks exSlices = [7, 29, 37, 40, 53] ∧ toldC [7, 29, 37, 40, 53] exSlices = t ∧
      flat o.world.log = t.1 ∧
    o'.last = .eos ∧ o'.rest = [] ∧ o'.marks exSlices = [7, 9, 12, 21, 26, 28, 31, 35, 38, 53] ∧
      toldC (o'.marks exSlices) exSlices = t ∧ flat o'.world.log = t.1 := by decide +kernel

/-- Without cuts within fields everything is told. -/
example : let o := run yes [9, 12, 14, 100] exSlices
    o.complete ∧ (flat o.world.log).getLast? = some (.payload .ping [] true) ∧
      toldC (o.marks exSlices) exSlices = told exSlices := by decide +kernel

/-- The padding of a DATA frame leads to a panic in every slicing, unless the parser is silent by then. -/
example : let m := header 6 4 0 false 0 ++ be 2 4 ++ be 4 7 ++ exPanic
    (run yes (List.replicate 9 5) m).last = .panic ∧ (toldC ((run yes (List.replicate 9 5) m).marks m) m).2 = true ∧
    (run yes [13, 100] m).last = .eos ∧ (run yes [13, 100] m).rest = [] ∧ toldC [13, 40] m = ([.frameFormat 6 4 0 0], false) := by
  decide +kernel

/-- Where the slices of lengths `ks` of an input of length `n` end, the first of them starting at `pos`. -/
def ends (n : Nat) : Nat → List Nat → List Nat
  | _, [] => []
  | pos, k :: ks => min n (pos + k) :: ends n (min n (pos + k)) ks

theorem drive_ends_yes (hy : ∀ l, h.ret l = true) (m : Bytes) : ∀ (ks : List Nat) (last : End) (sts : List Stop) (w : World)
    (rem : Bytes) (n : Nat), Reach w n → rem.length ≤ m.length → last ≠ .panic →
    let o := drive h last sts ks w rem
    ∃ l, l <+: ends m.length (m.length - rem.length) ks ∧ (o.last ≠ .panic → l = ends m.length (m.length - rem.length) ks) ∧
      o.marks m = sts.map (fun s => m.length - s.left) ++ l
  | [], last, sts, w, rem, _, _, _, _ => ⟨[], List.prefix_rfl, fun _ => rfl, by simp [drive, Outcome.marks]⟩
  | k :: ks, last, sts, w, rem, n, hw, hm, _ => by
    have hc := call_T (h := h) (s := rem.take k) hw.good.1 hw.good.2.1 hw.good.2.2.1
    have hcb := C63_false_stops hw h (rem.take k)
    have he : ∀ j w', resume h w (rem.take k) = (.ok (.eos j), w') → Reach w' (n + j) := fun j w' hr => hw.eos h _ hr
    dsimp only
    rw [drive]
    generalize resume h w (rem.take k) = o at hc hcb he
    obtain ⟨r, w'⟩ := o
    obtain ⟨t, -, -, hcb⟩ := hcb r w' rfl
    cases r with
    | ok su =>
      cases su with
      | callback j =>
        have := (hcb j rfl).2
        rw [hy] at this; cases this
      | eos j =>
        obtain ⟨hj, -⟩ := hc
        rw [List.length_take] at hj
        have e : (rem.drop j).length = rem.length - min k rem.length := by rw [List.length_drop, hj]
        have e2 : m.length - (rem.drop j).length = min m.length (m.length - rem.length + k) := by rw [e]; omega
        obtain ⟨l, h1, h2, h3⟩ := drive_ends_yes hy m ks .eos (sts ++ [⟨w'.p.st, (rem.drop j).length⟩]) w' (rem.drop j) _
          (he _ _ rfl) (by omega) (by decide)
        rw [e2] at h1 h2
        refine ⟨min m.length (m.length - rem.length + k) :: l, ?_, fun h => ?_, ?_⟩
        · rw [ends]; exact (List.prefix_append_right_inj [_]).mpr h1
        · rw [ends, ← h2 h]
        · refine h3.trans ?_
          rw [List.map_append, List.append_assoc]
          simp only [List.map_cons, List.map_nil, e2, List.cons_append, List.nil_append]
      | finished j => exact hc.elim
    | err => exact hc.elim
    | panic => exact ⟨[], List.nil_prefix, fun h => absurd rfl h, by simp [Outcome.marks]⟩
    | diverge => exact hc.elim

/-- **C78** for callbacks that never pause the parser: the calls stop just where the slices end. -/
theorem C78_marks (h : Handler) (hy : ∀ l, h.ret l = true) (ks : List Nat) (m : Bytes) :
    let o := run h ks m
    o.marks m <+: ends m.length 0 ks ∧ (o.last ≠ .panic → o.marks m = ends m.length 0 ks) := by
  obtain ⟨l, h1, h2, h3⟩ := drive_ends_yes hy m ks .idle [] ⟨.new, []⟩ m _ Reach.new (Nat.le_refl _) (by decide)
  rw [Nat.sub_self] at h1 h2
  simp only [List.map_nil, List.nil_append] at h3
  dsimp only [run]
  rw [h3]
  exact ⟨h1, h2⟩

example : (run yes [7, 22, 8, 3, 100] exSlices).marks exSlices = ends exSlices.length 0 [7, 22, 8, 3, 100] := by
  decide +kernel

/-- If no slice ends within the input, then `toldC` is `told`, which C71 is about. -/
theorem C78_whole (m : Bytes) : toldC [] m = told m := toldC_nil m

/-- With slices that end within fields, it is not. -/
example : (told exSlices).2 = false ∧ toldC (ends exSlices.length 0 [7, 22, 8, 3, 100]) exSlices ≠ told exSlices := by
  decide +kernel

end Verif.Http2
