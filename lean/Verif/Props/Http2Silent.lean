import Verif.Http2.Stuck
import Verif.Props.Http2Frames
import Verif.Props.Http2Pauses

/-!
# The HTTP/2 parser and silence

C70 (the parser always goes on). The claim fails in the code when a slice ends within the last stream id of a GOAWAY
frame or within the value of a setting: the slow paths `go_away_stream_id3` and `settings_value3` never go to the next
state. Here it is stated how exactly it fails: from then on the parser consumes every byte without any callback.
-/

namespace Verif.Http2

/-! ## C70 -/

theorem drive_reach {h : Handler} : ∀ (ks : List Nat) (last : End) (sts : List Stop) (w : World) (rem : Bytes) (n : Nat),
    Reach w n → (drive h last sts ks w rem).last ≠ .panic → ∃ n', Reach (drive h last sts ks w rem).world n'
  | [], _, _, _, _, n, hw, _ => ⟨n, hw⟩
  | k :: ks, last, sts, w, rem, n, hw, hl => by
    rw [drive] at hl ⊢
    rcases C45_resume_total_partial hw h (rem.take k) with ⟨j, w', h1, -⟩ | ⟨w', h1⟩ | ⟨w', h1⟩ <;> rw [h1] at hl ⊢ <;>
      simp only at hl ⊢
    · exact drive_reach ks _ _ _ _ _ (hw.callback h _ h1) hl
    · exact drive_reach ks _ _ _ _ _ (hw.eos h _ h1) hl
    · exact absurd rfl hl

/-- **C70**, except for runs in which a call stopped within the last stream id of a GOAWAY frame or within the value of
a setting. After any input in any slices, with any handler, if the parser did not panic: there is a continuation for
which it executes a further callback, or panics. (Missing: slices that end within these fields, where the claim is
false, see `C70_silent` and `C70_fails`.) -/
theorem C70_alive_partial (h : Handler) (ks : List Nat) (m : Bytes) (hs : NoStopInField (run h ks m))
    (hl : (run h ks m).last ≠ .panic) (h' : Handler) :
    ∃ s, (resume h' (run h ks m).world s).1 = .panic ∨
      ∃ e t, (resume h' (run h ks m).world s).2.log = (run h ks m).world.log ++ e :: t := by
  have hx := (run_x (S := true) (h := h) (m := m) ks).resolve_right (noCutS hs)
  obtain ⟨n, hR⟩ := drive_reach (h := h) ks .idle [] ⟨.new, []⟩ m 0 .new hl
  have ht := (run_T (h := h) ks m).1
  change Reach (run h ks m).world n at hR
  generalize run h ks m = o at *
  obtain ⟨last, w, rest, sts⟩ := o
  simp only at *
  have hx : ∃ done, m = done ++ rest ∧ InvX true (rest = []) done w.log w.p.toCore := by
    unfold RunX at hx
    rcases ht with rfl | rfl | rfl | rfl
    · exact hx
    · exact hx
    · exact hx
    · exact absurd rfl hl
  obtain ⟨done, -, hi⟩ := hx
  obtain ⟨b, hr, hK⟩ := hi
  obtain ⟨y, hy, hgrow⟩ := grows_all { w.p.toCore with bit32b := b } (flat w.log)
  refine ⟨y, ?_⟩
  have hK1 := hK y (fun h => absurd h hy)
  have hc := call_x (h := h') (S := true) (s := y) (base := done) (w := w) (D := True) (fun _ => trivial)
    ⟨b, hr, fun z hz => hK z fun h => absurd (hz h).1 hy⟩
  generalize he : resume h' w y = out at hc
  obtain ⟨r, w'⟩ := out
  obtain ⟨t, h1, -, h2⟩ := C63_false_stops hR h' y r w' he
  simp only [h1]
  cases r with
  | panic => exact .inl rfl
  | err => exact hc.elim
  | diverge => exact hc.elim
  | ok su =>
    right
    suffices t ≠ [] by
      cases t with
      | nil => exact absurd rfl this
      | cons e t => exact ⟨e, t, rfl⟩
    cases su with
    | finished k => exact hc.elim
    | callback k => exact (h2 k rfl).1
    | eos k =>
      obtain ⟨rfl, hc⟩ := hc
      have hS : Sim true (flat w'.log, .eos) (predNew (done ++ y)) := by
        rw [List.take_length, List.drop_length] at hc
        rcases hc with hc | hc
        · have hc : InvX true True (done ++ y) w'.log w'.p.toCore := hc.mono fun _ => ⟨rfl, trivial⟩
          have hn := (hR.eos h' y he).waits
          exact hc.nil fun b => norm_of_imm hn
        · exact hc.mid.2.1.flat
      rintro rfl
      rw [List.append_nil] at h1
      rw [h1] at hS
      have e1 := hK1.1.trans hS.1.symm
      have e2 := hK1.2.length_eq.trans hS.2.length_eq.symm
      rcases hgrow with h3 | h3
      · rw [h3] at e1; cases e1
      · exact absurd e2.symm (Nat.ne_of_lt h3)

/-- In the middle of the data of a padded frame, byte by byte and with a handler that refuses every other callback. -/
example : let o := run ⟨fun l => l.length % 2 == 0⟩ (List.replicate 13 1) exData.write
    NoStopInField o ∧ o.last = .eos ∧ o.rest.length = 5 ∧ o.world.log.length = 4 := by decide +kernel

/-- **C70 does not hold**, and this is what the code does instead: once a call of `resume` has stopped within the last
stream id of a GOAWAY frame or within the value of a setting, no further callback is ever executed, and the parser does
not panic, whatever follows and whatever the callbacks would answer; every slice is processed completely. -/
theorem C70_silent (h : Handler) (ks : List Nat) (m : Bytes) (hs : ¬ NoStopInField (run h ks m)) :
    (run h ks m).last ≠ .panic ∧ ∀ (h' : Handler) (ks' : List Nat) (more : Bytes),
      let o := drive h' .eos [] ks' (run h ks m).world more
      o.world.log = (run h ks m).world.log ∧ o.last = .eos ∧ o.rest = more.drop ks'.sum := by
  have hw : ∃ st ∈ (run h ks m).stops, inLongField st.state = true := by
    rcases run_cases (h := h) (m := m) ks with hw | hw
    · exact hw
    · exact absurd hw hs
  obtain ⟨st, -, -, -, h1, h2⟩ := long_stop hw
  refine ⟨h1, fun h' ks' more => ?_⟩
  generalize (run h ks m).world = w at h2 ⊢
  have key : ∀ (ks' : List Nat) (sts : List Stop) (w : World) (more : Bytes), Stuck w.p.st = true →
      let o := drive h' .eos sts ks' w more
      o.world.log = w.log ∧ o.last = .eos ∧ o.rest = more.drop ks'.sum := by
    intro ks'
    induction ks' with
    | nil => intro sts w more _; exact ⟨rfl, rfl, rfl⟩
    | cons k ks' ih =>
      intro sts w more hw
      obtain ⟨w', h3, h4, h5⟩ := resume_stuck (h := h') hw (more.take k)
      obtain ⟨g1, g2, g3⟩ := ih (sts ++ [⟨w'.p.st, (more.drop (more.take k).length).length⟩]) w'
        (more.drop (more.take k).length) h4
      simp only [drive, h3]
      refine ⟨g1.trans h5, g2, g3.trans ?_⟩
      rw [List.drop_drop, List.sum_cons, List.length_take]
      by_cases hk : k ≤ more.length
      · rw [Nat.min_eq_left hk]
      · rw [List.drop_eq_nil_of_le (by omega), List.drop_eq_nil_of_le (by omega)]
  exact key ks' [] w more h2

/-- **C70**: up to there everything is right. If some call stopped within such a field then, for one of these calls, the
callbacks of the whole run are those that a new parser executes for the bytes that were processed before this call
returned, passed in one slice; except that the upper halves of stream ids may be missing and that data may be cut
differently. -/
theorem C70_right_before_silence (h : Handler) (ks : List Nat) (m : Bytes) (hs : ¬ NoStopInField (run h ks m)) :
    ∃ st ∈ (run h ks m).stops, inLongField st.state = true ∧
      let p := m.length - st.left
      let o := run yes [p] (m.take p)
      o.last = .eos ∧ o.rest = [] ∧
      (flat (run h ks m).world.log).map Ev.halfId = (flat o.world.log).map Ev.halfId := by
  have hw : ∃ st ∈ (run h ks m).stops, inLongField st.state = true := by
    rcases run_cases (h := h) (m := m) ks with hw | hw
    · exact hw
    · exact absurd hw hs
  obtain ⟨st, h1, h2, h3, -, -⟩ := long_stop hw
  refine ⟨st, h1, h2, ?_⟩
  have h3 := h3.flat
  change Sim true _ (predNew (m.take (m.length - st.left))) at h3
  have hlen : (m.take (m.length - st.left)).length = m.length - st.left := by rw [List.length_take]; omega
  dsimp only
  generalize m.length - st.left = p at h3 hlen ⊢
  generalize m.take p = u at h3 hlen ⊢
  -- one call with all of it, where no callback pauses
  have hd : (∃ w', resume yes ⟨.new, []⟩ u = (.ok (.eos u.length), w')) ∨ ∃ w', resume yes ⟨.new, []⟩ u = (.panic, w') := by
    rcases C45_resume_total_partial .new yes u with ⟨k, w', h4, -⟩ | h4 | h4
    · obtain ⟨t, -, -, h5⟩ := C63_false_stops .new yes u _ w' h4
      exact absurd (h5 k rfl).2 (by simp [yes])
    · exact .inl h4
    · exact .inr h4
  have hu : u.take p = u := List.take_of_length_le (by omega)
  rcases hd with ⟨w', h4⟩ | ⟨w', h4⟩
  · have ho : run yes [p] u = ⟨.eos, w', [], [⟨w'.p.st, 0⟩]⟩ := by
      rw [run, drive, hu, h4]; simp [drive]
    refine ⟨by rw [ho], by rw [ho], (nears_half h3.2).trans ?_⟩
    rcases Classical.em (Broke true u (run yes [p] u)) with hb | hb
    · rw [ho] at hb ⊢
      obtain ⟨st', h5, h6, l, -, h7, h8⟩ := hb
      rw [List.mem_singleton.mp h5] at h6 h7 h8
      obtain ⟨rfl, -, -⟩ := h8 (by simpa [Cut] using h6)
      have h9 := h7.flat
      rw [Stop.done, Nat.sub_zero, List.take_length] at h9
      exact (nears_half h9.2).symm
    · exact (nears_half (run_eosX hb (by rw [ho]) (by rw [ho])).2).symm
  · exfalso
    have hpan : (run yes [p] u).last = .panic := by rw [run, drive, hu, h4]
    rcases run_w (S := true) (h := yes) (m := u) [p] with ⟨h5, -⟩ | ⟨st', h5, -⟩
    · unfold RunX at h5
      rw [hpan] at h5
      exact absurd (show Fin.eos = .panic from h3.1.trans h5.1.symm) (by decide)
    · rw [run, drive, hu, h4] at h5
      cases h5

/-- **C70** for sequences of frames, in every slicing: the parser does not panic. When all was processed, either the
callbacks are, frame by frame, those for its header, its fields and its data, except that the upper halves of stream
ids may be missing; or one slice ended within the last stream id of a GOAWAY frame or the value of a setting, and the
callbacks are those for the frames before it and for its header, and no others. -/
theorem C70_frames (h : Handler) (ks : List Nat) (fs : List Frame) (hf : ∀ f ∈ fs, f.OK) :
    let o := run h ks (fs.flatMap Frame.write)
    o.last ≠ .panic ∧ (o.last = .eos → o.rest = [] →
      (∃ gs ls, List.Forall₂ Frame.HalfId gs fs ∧ o.world.log ++ late fs = ls.flatten ∧
        List.Forall₂ Frame.Delivered gs ls) ∨
      (∃ before f after gs g ls, fs = before ++ f :: after ∧ List.Forall₂ Frame.HalfId (gs ++ [g]) (before ++ [f]) ∧
        (∃ p ∈ o.marks (fs.flatMap Frame.write), ∃ k ∈ f.body.longAt,
          let a := (before.flatMap Frame.write).length + k
          a < p ∧ p < a + 4) ∧
        o.world.log = ls.flatten ++ [g.format] ∧ List.Forall₂ Frame.Delivered gs ls)) := by
  intro o
  rcases run_cases (h := h) (m := fs.flatMap Frame.write) ks with hw | hw
  · obtain ⟨st, h1, h2, h3, h4, -⟩ := long_stop hw
    refine ⟨h4, fun _ _ => .inr ?_⟩
    have h5 := Mid.frames (p := (fs.flatMap Frame.write).length - st.left) hf (by omega) h3
    rcases h5 with ⟨h5, -⟩ | ⟨a, h5, h6⟩
    · cases h5
    have h7 := h3.flat
    rw [Stop.done] at h7
    have hm := mark_mem (m := fs.flatMap Frame.write) h1
    have hg := (run_T (h := h) ks (fs.flatMap Frame.write)).2.1
    change GoodLog o.world.log at hg
    change _ ∈ o.marks _ at hm
    change Sim true (flat o.world.log, _) _ at h7
    clear_value o
    clear h1 h2 h3 h4 hw
    generalize hp : (fs.flatMap Frame.write).length - st.left = p at *
    clear hp
    obtain ⟨fs1, f, fs2, k, rfl, hk, rfl⟩ := longAt_split h5
    have hfl : 9 ≤ f.write.length := by rw [write_length]; omega
    obtain ⟨q, rfl⟩ : ∃ q, p = (fs1.flatMap Frame.write).length + q := ⟨p - (fs1.flatMap Frame.write).length, by omega⟩
    have hfo : f.OK := hf f (by simp)
    have hlong : k + 4 ≤ f.write.length := by
      rw [write_length]
      unfold Body.longAt at hk
      split at hk
      · rename_i r l c d heq
        simp only [List.mem_singleton] at hk
        subst hk
        simp only [heq, Body.payload, Body.fields, Body.blob, Body.padLength, Body.pad, List.length_append, word_length]
        omega
      · rename_i i v heq
        simp only [List.mem_singleton] at hk
        subst hk
        simp only [heq, Body.payload, Body.fields, Body.blob, Body.padLength, Body.pad, List.length_append, be_length]
        omega
      · cases hk
    have htake : ((fs1 ++ f :: fs2).flatMap Frame.write).take ((fs1.flatMap Frame.write).length + q) =
        fs1.flatMap Frame.write ++ f.write.take q := by
      rw [List.flatMap_append, List.take_append, List.take_of_length_le (by omega), Nat.add_sub_cancel_left,
        List.flatMap_cons, List.take_append_of_le_length (by omega)]
    rw [htake] at h7
    obtain ⟨s', hs', hpr⟩ := pred_before (fs := fs1) (fun g hg => hf g (List.mem_append_left _ hg)) (tr := [])
      (s := Parser.new.toCore) rfl (r := f.write.take q) (by
        intro h
        have := congrArg List.length h
        rw [List.length_take, List.length_nil] at this
        omega)
    unfold predNew at h7
    rw [hpr, pred_in_long hfo hk (by omega) (by omega) hs'] at h7
    have h8 := h7.2
    simp only [List.nil_append] at h8
    obtain ⟨gs, R, h9, h10, h11⟩ : ∃ gs R, List.Forall₂ Frame.HalfId gs fs1 ∧
        flat o.world.log = gs.flatMap Frame.events ++ R ∧ List.Forall₂ (Near true) R [f.format] := by
      generalize [f.format] = R0 at h8
      generalize flat o.world.log = l at h8
      clear * - h8
      induction fs1 generalizing l with
      | nil => exact ⟨[], l, .nil, rfl, h8⟩
      | cons f fs1 ih =>
        rw [List.flatMap_cons, List.append_assoc] at h8
        obtain ⟨g, R', h1, rfl, h2⟩ := nears_events h8
        obtain ⟨gs, R, h3, rfl, h4⟩ := ih _ h2
        exact ⟨g :: gs, R, .cons (h1.imp_right And.right) h3, by simp, h4⟩
    obtain ⟨ls, l', h12, h13, h14, h15⟩ := delivered_before hg h10
    cases h11 with
    | cons he hn =>
      cases hn
      rename_i e
      have : ∃ g : Frame, g.HalfId f ∧ e = g.format := by
        rcases he with rfl | ⟨-, rfl⟩
        · exact ⟨f, .inl rfl, rfl⟩
        · exact ⟨_, .inr rfl, rfl⟩
      obtain ⟨g, hgf, rfl⟩ := this
      obtain ⟨l'', rfl, h16⟩ := uncons (e := g.format) trivial h15 h14
      have := h15.tail.nil_of_flat h16
      subst this
      exact ⟨fs1, f, fs2, gs, g, ls, rfl, List.rel_append h9 (.cons hgf .nil), ⟨_, hm, k, hk, h6⟩, h12, h13⟩
  · obtain ⟨h1, h2⟩ := frames_run (S := true) hf (noCutS hw)
    refine ⟨h1, fun h3 h4 => .inl ?_⟩
    obtain ⟨gs, ls, h5, h6⟩ := h2 h3 h4
    exact ⟨gs, ls, h5.imp fun _ _ h => h.imp_right And.right, h6⟩

/-- Of these four frames only two and the header of the third are reported when the second slice ends within the value of
the setting. -/
def exCut : List Frame := [⟨0, false, 0x01020304, .data none b!"a"⟩, ⟨0, false, 0, .ping b!"12345678"⟩,
  ⟨0, false, 0, .settings 4 0x01020304⟩, ⟨0, false, 3, .data none b!"b"⟩]

example : let o := run yes [6, 34, 20, 1000] (exCut.flatMap Frame.write)
    (∀ f ∈ exCut, f.OK) ∧ ¬ NoStopInField o ∧ o.last = .eos ∧ o.rest = [] ∧
    o.world.log = [.frameFormat 1 0 0 0x0304, .payload .data b!"a" true, .frameFormat 8 6 0 0,
      .payload .ping b!"12345678" true, .frameFormat 6 4 0 0] := by decide +kernel

/-- **C70 does not hold**: a GOAWAY frame that is cut within its last stream id, and anything after it. -/
theorem C70_fails : ∃ (ks : List Nat) (m : Bytes), (run yes ks m).last = .eos ∧ (run yes ks m).rest = [] ∧
    ∀ (h' : Handler) (s : Bytes), ∃ w', resume h' (run yes ks m).world s = (.ok (.eos s.length), w') ∧
      w'.log = (run yes ks m).world.log := by
  refine ⟨[10], header 8 7 0 false 0 ++ [1], by decide +kernel, by decide +kernel, fun h' s => ?_⟩
  obtain ⟨w', h1, -, h2⟩ := resume_stuck (h := h') (w := (run yes [10] (header 8 7 0 false 0 ++ [1])).world)
    (by decide +kernel) s
  exact ⟨w', h1, h2⟩

end Verif.Http2
