import Verif.Props.Http2Any

/-!
# What has been read of HTTP/2 input is final

C84: more bytes change nothing that was already reported.
-/

namespace Verif.Http2

theorem pred_panic_more (x : Bytes) : ∀ (r : Bytes) (tr : List Ev) (s : Core),
    (pred tr s r).2 = .panic → pred tr s (r ++ x) = pred tr s r
  | [], tr, s, h => by
    cases hn : norm s with
    | panic es => cases x <;> simp [pred, hn]
    | next es s' => simp [pred, hn] at h
  | b :: r, tr, s, h => by
    simp only [List.cons_append, pred] at h ⊢
    cases hn : norm s with
    | panic es => rfl
    | next es s' =>
      rw [hn] at h
      dsimp only at h ⊢
      cases hb : bstep s' b with
      | panic es' => rfl
      | next es' s'' => rw [hb] at h; exact pred_panic_more x r _ _ h

/-! ## C84 -/

/-- **C84** for the description of what is read: the callbacks for `m` are a beginning of those for `m ++ x`; and if
`m` makes the parser panic, `x` is not looked at. -/
theorem C84_told (m x : Bytes) : (told m).1 <+: (told (m ++ x)).1 ∧ ((told m).2 = true → told (m ++ x) = told m) := by
  refine ⟨?_, fun h => ?_⟩
  · have := pred_mono x m [] Parser.new.toCore
    have h1 := pred_told m
    have h2 := pred_told (m ++ x)
    unfold predNew at h1 h2
    rw [h1, h2] at this
    exact this
  · have h1 := pred_panic_more x m [] Parser.new.toCore (told_panic.mpr h)
    have h2 := pred_told m
    have h3 := pred_told (m ++ x)
    unfold predNew at h2 h3
    rw [h2, h3] at h1
    simp only [Prod.mk.injEq] at h1
    refine Prod.ext h1.1 ?_
    have h4 := h1.2
    rw [h] at h4 ⊢
    cases hx : (told (m ++ x)).2
    · rw [hx] at h4; simp at h4
    · rfl

/-- **C84**, except for slices that end within the fields of C41 and C70. A client that has processed all of `m` has
seen what every client sees of `m ++ x` before anything else, with any other slices and handler; when the parser panics
over `m`, it panics over `m ++ x` after the same callbacks. -/
theorem C84_final_partial (h h' : Handler) (ks ks' : List Nat) (m x : Bytes)
    (hs : NoStopInId (run h ks m)) (hs' : NoStopInField (run h ks m))
    (ht : NoStopInId (run h' ks' (m ++ x))) (ht' : NoStopInField (run h' ks' (m ++ x)))
    (hc : (run h ks m).complete) (hc' : (run h' ks' (m ++ x)).complete) :
    let o := run h ks m
    let o' := run h' ks' (m ++ x)
    (o.last = .panic → o'.last = .panic ∧ flat o'.world.log = flat o.world.log) ∧
    (o.last = .eos → flat o.world.log <+: flat o'.world.log) := by
  obtain ⟨-, a2, a3⟩ := C71_reads_any_input_partial h ks m hs hs'
  obtain ⟨-, b2, b3⟩ := C71_reads_any_input_partial h' ks' (m ++ x) ht ht'
  obtain ⟨t1, t2⟩ := C84_told m x
  dsimp only
  generalize run h ks m = o at *
  generalize run h' ks' (m ++ x) = o' at *
  unfold Outcome.complete at hc hc'
  refine ⟨fun hl => ?_, fun hl => ?_⟩
  · obtain ⟨h1, h3⟩ := a2 hl
    split at hc'
    · rename_i hl'
      refine ⟨hl', ?_⟩
      rw [(b2 hl').2, h3, t2 h1]
    · rename_i hl'
      have h2 := (b3 hl' hc').1
      rw [t2 h1, h1] at h2
      cases h2
    · exact hc'.elim
  · rw [hl] at hc
    have h1 := (a3 hl hc).2
    rw [h1]
    split at hc'
    · rename_i hl'
      rw [(b2 hl').2]
      exact t1
    · rename_i hl'
      rw [(b3 hl' hc').2]
      exact t1
    · exact hc'.elim

/-- A PING frame and half of a DATA frame; then the rest and a WINDOW_UPDATE frame, in other slices. -/
example : let m := header 8 6 0 false 0 ++ b!"12345678" ++ header 4 0 0 false 1 ++ b!"ab"
    let x := b!"cd" ++ header 4 8 0 false 1 ++ be 4 5
    let o := run yes [100] m
    let o' := run yes [9, 8, 9, 4, 9, 4] (m ++ x)
    NoStopInId o ∧ NoStopInField o ∧ NoStopInId o' ∧ NoStopInField o' ∧ o.last = .eos ∧ o.rest = [] ∧
    o'.last = .eos ∧ o'.rest = [] ∧ o.world.log.length < o'.world.log.length := by decide +kernel

/-- The full C84 fails: of a header whose stream id 65537 is cut after two bytes, id 1 is reported, so what was reported
of it is not what another client is told first. -/
theorem C84_fails :
    let m := header 4 0 0 false 65537 ++ b!"abcd"
    let o := run yes [7, 2, 100] m
    let o' := run yes [100] (m ++ header 8 6 0 false 0)
    o.last = .eos ∧ o.rest = [] ∧ o'.last = .eos ∧ o'.rest = [] ∧ ¬ flat o.world.log <+: flat o'.world.log := by
  decide +kernel

end Verif.Http2
