import Verif.Http2.RunsAny
import Verif.Http2.Stuck
import Verif.Props.Http2Frames
import Verif.Props.Http2Pauses

/-!
# What the HTTP/2 parser tells about any bytes

C71: the callbacks for any byte string, whether or not it consists of frames, are those that `told`
(`Verif.Http2.AnySpec`) describes, and a panic happens exactly when `told` says so. The claim fails when a slice ends
within one of the fields that C41 and C70 are about.
-/

namespace Verif.Http2

/-! ## C71 -/

theorem told_panic {m : Bytes} : (predNew m).2 = .panic ↔ (told m).2 = true := by
  rw [pred_told]
  cases (told m).2 <;> simp

theorem Sim.told {S : Bool} {m : Bytes} {l : List Ev} (h : Sim S (l, .eos) (predNew m)) :
    (Http2.told m).2 = false ∧ List.Forall₂ (Near S) l (Http2.told m).1 := by
  have h1 := h.1
  have h2 := h.2
  rw [pred_told] at h1 h2
  refine ⟨?_, h2⟩
  cases hx : (Http2.told m).2
  · rfl
  · rw [hx] at h1; cases h1

theorem near_false {l k : List Ev} (h : List.Forall₂ (Near false) l k) : l = k := by
  induction h with
  | nil => rfl
  | cons h1 h2 ih => rw [ih, h1.resolve_right (fun h => absurd h.1 (by decide))]

/-- **C71** for input that is passed in one slice: no exceptions. Whatever the bytes are, and whatever the callbacks
answer (the client passes the rest again after each pause): when `told m` panics the parser panics, after exactly
the callbacks of `told m`; otherwise it processes all bytes and executes exactly the callbacks of `told m`. -/
theorem C71_one_slice (h : Handler) (m : Bytes) (n : Nat) (hn : 4 * m.length + 4 ≤ n) :
    let o := feed h n ⟨.new, []⟩ m
    ((told m).2 = true → o.1 = .panic ∧ flat o.2.1.log = (told m).1) ∧
    ((told m).2 = false → o.1 = .eos ∧ o.2.2 = [] ∧ flat o.2.1.log = (told m).1) := by
  have key : let o := feed yes 1 ⟨.new, []⟩ m
      ((told m).2 = true → o.1 = .panic ∧ flat o.2.1.log = (told m).1) ∧
      ((told m).2 = false → o.1 = .eos ∧ o.2.2 = [] ∧ flat o.2.1.log = (told m).1) := by
    have hc := call_x (h := yes) (S := false) (D := True) (base := []) (w := ⟨.new, []⟩) (s := m) (fun _ => trivial)
      ⟨0, ⟨rfl, trivial, rfl⟩, fun _ _ => .refl _⟩
    have hy := C63_false_stops Reach.new yes m
    have hw : ∀ k w', resume yes ⟨.new, []⟩ m = (.ok (.eos k), w') → imm w'.p.st = false :=
      fun k w' hr => (Reach.new.eos yes m hr).waits
    rw [feed]
    generalize resume yes ⟨.new, []⟩ m = o at hc hy hw
    obtain ⟨r, w'⟩ := o
    obtain ⟨t, -, -, hcb⟩ := hy r w' rfl
    cases r with
    | err => exact hc.elim
    | diverge => exact hc.elim
    | panic =>
      have h1 := (hc [] (fun _ => trivial)).eq
      rw [List.append_nil, List.nil_append] at h1
      have := told_panic.mp (by rw [← h1])
      rw [pred_told] at h1
      exact ⟨fun _ => ⟨rfl, congrArg Prod.fst h1⟩, fun h => by rw [this] at h; cases h⟩
    | ok su =>
      cases su with
      | finished k => exact hc.elim
      | callback k => exact absurd (hcb k rfl).2 (show ¬ (true = false) by decide)
      | eos k =>
        obtain ⟨rfl, hc⟩ := hc
        have hS : Sim false (flat w'.log, .eos) (predNew m) := by
          rw [List.take_length, List.drop_length, List.nil_append] at hc
          rcases hc with hc | hc
          · have hc : InvX false True m w'.log w'.p.toCore := hc.mono fun _ => ⟨rfl, trivial⟩
            exact hc.nil fun b => norm_of_imm (hw _ _ rfl)
          · exact hc.mid.2.1.flat
        obtain ⟨h1, h2⟩ := hS.told
        refine ⟨fun h => (by rw [h1] at h; cases h), fun _ => ⟨rfl, List.drop_length, near_false h2⟩⟩
  have hs := C64_pausing_invisible Reach.new h m n hn
  dsimp only at key ⊢
  rcases hs with hs | ⟨h1, h2, h3⟩
  · rw [hs]; exact key
  · rw [h1, h3]
    refine ⟨fun h => ⟨rfl, (key.1 h).2⟩, fun h => ?_⟩
    rw [h2] at key
    exact absurd (key.2 h).1 (by decide)

/-- A PRIORITY frame whose header claims a length of 200 (the parser takes 5 bytes all the same), then a frame of an
unknown type, then half a PING frame. A callback that pauses does not change anything. -/
def exMixed : Bytes := header 200 2 0 false 3 ++ word true 5 ++ [7] ++ header 3 77 8 false 9 ++ [1] ++ b!"a" ++ [0] ++
  header 8 6 0 false 0 ++ b!"1234"

example : told exMixed = ([.frameFormat 200 2 0 3, .priority true 5 7, .frameFormat 3 77 8 9,
      .payload .unsupported b!"a" false, .payload .unsupported [] true, .frameFormat 8 6 0 0, .payload .ping b!"1" false,
      .payload .ping b!"2" false, .payload .ping b!"3" false, .payload .ping b!"4" false], false) ∧
    (feed never 200 ⟨.new, []⟩ exMixed).2.1.log = [.frameFormat 200 2 0 3, .priority true 5 7, .frameFormat 3 77 8 9,
      .payload .unsupported b!"a" true, .frameFormat 8 6 0 0, .payload .ping b!"1234" false] := by decide +kernel

/-- A DATA frame with more padding than payload, after a complete frame: a panic. -/
def exPanic : Bytes := header 0 2 0 false 3 ++ word true 5 ++ [7] ++ header 3 0 8 false 9 ++ [7] ++ b!"a"

example : told exPanic = ([.frameFormat 0 2 0 3, .priority true 5 7, .frameFormat 3 0 8 9], true) ∧
    (feed yes 100 ⟨.new, []⟩ exPanic).1 = .panic := by decide +kernel

/-- What `told` says about frames: the callbacks of the frames one after the other; an empty payload at the very end is
still to come (`late`). -/
theorem told_of_frames (fs : List Frame) (hf : ∀ f ∈ fs, f.OK) :
    (told (fs.flatMap Frame.write)).2 = false ∧
      (told (fs.flatMap Frame.write)).1 ++ late fs = fs.flatMap Frame.events := by
  obtain ⟨x, h1, h2⟩ := pred_frames fs hf Parser.new.toCore [] rfl
  have := pred_told (fs.flatMap Frame.write)
  unfold predNew at this
  rw [h1] at this
  simp only [Prod.mk.injEq, List.nil_append] at this
  obtain ⟨h3, h4⟩ := this
  refine ⟨?_, by rw [← h3]; exact h2⟩
  cases hx : (told (fs.flatMap Frame.write)).2
  · rfl
  · rw [hx] at h4; cases h4

/-- **C71** for input in any slices, except for those that end within the fields of C41 and C70. Whatever the bytes
are: the callbacks of a run are a beginning of those of `told m`; it only panics if `told m` does, and after all
callbacks of `told m`; and when all bytes were processed, then `told m` does not panic and all its callbacks were
executed. -/
theorem C71_reads_any_input_partial (h : Handler) (ks : List Nat) (m : Bytes) (hi : NoStopInId (run h ks m))
    (hf : NoStopInField (run h ks m)) :
    let o := run h ks m
    flat o.world.log <+: (told m).1 ∧ (o.last = .panic → (told m).2 = true ∧ flat o.world.log = (told m).1) ∧
    (o.last = .eos → o.rest = [] → (told m).2 = false ∧ flat o.world.log = (told m).1) := by
  have hb := noCut hi hf (m := m)
  refine ⟨?_, fun hl => ?_, fun hl hr => ?_⟩
  · obtain ⟨x, h1, h2⟩ := run_prefixX hb
    rw [near_false h2]
    rwa [pred_told] at h1
  · have h1 := (run_panicX hb hl).eq
    refine ⟨told_panic.mp (by rw [← h1]), ?_⟩
    rw [pred_told] at h1
    exact congrArg Prod.fst h1
  · obtain ⟨h1, h2⟩ := (run_eosX hb hl hr).told
    exact ⟨h1, near_false h2⟩

/-- **C71** for every input in every slicing, without exceptions for the prefix and the panic: every callback of a run
is the one of `told m` at the same place, or at least has only lost the upper half of a stream id; it only panics if
`told m` does, and then no callback is missing. When all bytes were processed and no call stopped within the last stream id of a GOAWAY frame or the
value of a setting, then `told m` does not panic and no callback is missing. -/
theorem C71_every_slicing_partial (h : Handler) (ks : List Nat) (m : Bytes) :
    let o := run h ks m
    let Same := fun e' e : Ev => e' = e ∨ e' = e.halfId
    (∃ l, l <+: (told m).1 ∧ List.Forall₂ Same (flat o.world.log) l) ∧
    (o.last = .panic → (told m).2 = true ∧ List.Forall₂ Same (flat o.world.log) (told m).1) ∧
    (NoStopInField o → o.last = .eos → o.rest = [] →
      (told m).2 = false ∧ List.Forall₂ Same (flat o.world.log) (told m).1) := by
  have hsame : ∀ {l k : List Ev}, List.Forall₂ (Near true) l k → List.Forall₂ (fun e' e : Ev => e' = e ∨ e' = e.halfId) l k :=
    fun h => h.imp fun _ _ h => h.imp_right And.right
  dsimp only
  rcases run_cases (h := h) (m := m) ks with hw | hw
  · obtain ⟨st, h1, h2, h3, h4, h5⟩ := long_stop hw
    have h3 := h3.flat
    refine ⟨?_, fun h => absurd h h4, fun h => ?_⟩
    · obtain ⟨h6, h7⟩ := h3
      have hp : (predNew (st.done m)).1 <+: (predNew m).1 := by
        have := pred_mono (m.drop (m.length - st.left)) (st.done m) [] Parser.new.toCore
        rw [Stop.done, List.take_append_drop] at this
        exact this
      rw [pred_told m] at hp
      exact ⟨_, hp, hsame h7⟩
    · obtain ⟨st, h6, h7⟩ := hw
      rw [h st h6] at h7; cases h7
  · have hb := not_broke_whole (m := m) hw
    refine ⟨?_, fun hl => ?_, fun _ hl hr => ?_⟩
    · obtain ⟨x, h1, h2⟩ := run_prefixX hb
      rw [pred_told] at h1
      exact ⟨x, h1, hsame h2⟩
    · obtain ⟨h1, h2⟩ := run_panicX hb hl
      refine ⟨told_panic.mp h1.symm, ?_⟩
      rw [pred_told] at h2
      exact hsame h2
    · obtain ⟨h1, h2⟩ := (run_eosX hb hl hr).told
      exact ⟨h1, hsame h2⟩

/-- Slices of 5 bytes. -/
example : let o := run yes (List.replicate 8 5) exMixed
    ¬ NoStopInId o ∧ NoStopInField o ∧ o.last = .eos ∧ o.rest = [] ∧ flat o.world.log = (told exMixed).1 := by decide +kernel

/-- Other slices; all stream ids are whole in them. -/
example : let m := header 5 6 0 false 0x01020304 ++ b!"123" ++ [0, 0, 3, 0, 8, 0x81]
    let o := run yes [4, 5, 3, 6] m
    NoStopInId o ∧ NoStopInField o ∧ o.last = .eos ∧ o.rest = [] ∧
      o.world.log = [.frameFormat 5 6 0 0x01020304, .payload .ping b!"123" false, .payload .ping [0, 0] true] ∧
      flat o.world.log = (told m).1 := by decide +kernel

/-- The panic, byte by byte. -/
example : (run yes (List.replicate 40 1) exPanic).last = .panic := by decide +kernel

/-- **C71 does not hold** in all slicings: a setting that is cut within its value is never reported. -/
theorem C71_fails : ∃ (m : Bytes) (ks : List Nat), let o := run yes ks m
    o.last = .eos ∧ o.rest = [] ∧ flat o.world.log ≠ (told m).1 :=
  ⟨header 6 4 0 false 0 ++ be 2 4 ++ be 4 0x01020304, [13, 100], by decide +kernel⟩

end Verif.Http2
