import Verif.Http2.Adds
import Verif.Props.Http2Calls
import Verif.Props.Http2Release

/-!
# Where the payload data of HTTP/2 callbacks comes from

C118, with and without overflow checks. The parsers are in any state that a program can bring them into (`Reach`,
`Verif.Props.Http2Calls`; `Release.Reach`, `Verif.Props.Http2Release`). `Pieces` is in `Verif.Http2.PieceSpec`.
-/

namespace Verif.Http2

/-- Pieces are what is left when bytes are removed. -/
theorem Pieces.sublist {s : Bytes} {ds : List Bytes} (hp : Pieces s ds) : ds.flatten.Sublist s := by
  induction hp with
  | nil s => exact List.nil_sublist s
  | cons skip d _ ih =>
    rw [List.flatten_cons, List.append_assoc]
    exact ((List.Sublist.refl d).append ih).trans (List.sublist_append_right skip _)

/-- **C118**, one call: the payload data of its callbacks are pieces of the slice that was passed to this call, in order
and without overlap, and of the bytes of it that the call reports as processed. -/
theorem C118_call {w : World} {n : Nat} (hw : Reach w n) (h : Handler) (s : Bytes) :
    ∃ t, (resume h w s).2.log = w.log ++ t ∧ Pieces s (dataOf t) ∧
      ∀ k, (resume h w s).1 = .ok (.eos k) ∨ (resume h w s).1 = .ok (.callback k) → Pieces (s.take k) (dataOf t) :=
  call_taken s hw.good.1 hw.good.2.1

/-- The same without overflow checks. -/
theorem Release.C118_release_call {w : World} {n : Nat} (hw : Release.Reach w n) (h : Handler) (s : Bytes) :
    ∃ t, (Release.resume h w s).2.log = w.log ++ t ∧ Pieces s (dataOf t) ∧
      ∀ k, (Release.resume h w s).1 = .ok (.eos k) ∨ (Release.resume h w s).1 = .ok (.callback k) →
        Pieces (s.take k) (dataOf t) :=
  Release.call_taken s hw.good.1 hw.good.2.1

/-- Two pieces of one slice, the first one followed by padding; a third piece is not there yet. -/
example : let s := header 5 0 8 false 1 ++ [2] ++ b!"ab" ++ [0, 0] ++ header 5 6 0 false 0 ++ b!"123"
    dataOf (resume ⟨fun _ => true⟩ ⟨.new, []⟩ s).2.log = [b!"ab", b!"123"] ∧
    dataOf (Release.resume ⟨fun _ => true⟩ ⟨.new, []⟩ s).2.log = [b!"ab", b!"123"] := by decide +kernel

/-- `Pieces` rules out data that is not in the slice, and data in the wrong order. -/
example : Pieces b!"xaybz" [b!"a", b!"b"] ∧ ¬ Pieces b!"xaybz" [b!"b", b!"a"] := by
  refine ⟨.cons b!"x" b!"a" (r := b!"ybz") (.cons b!"y" b!"b" (r := b!"z") (.nil _)), ?_⟩
  exact fun hp => absurd hp.sublist (by decide +kernel)

/-! ## Clients -/

theorem Pieces.append {a b : Bytes} {ds es : List Bytes} (hp : Pieces a ds) (hq : Pieces b es) :
    Pieces (a ++ b) (ds ++ es) := by
  induction hp with
  | nil s =>
    cases hq with
    | nil => exact .nil _
    | cons skip d h => rw [← List.append_assoc, ← List.append_assoc]; exact .cons (s ++ skip) d h
  | cons skip d _ ih => rw [List.append_assoc]; exact .cons skip d ih

theorem Pieces.of_take {s : Bytes} {ds : List Bytes} {k j : Nat} (hp : Pieces ((s.take k).take j) ds) :
    Pieces (s.take j) ds := by
  rw [List.take_take] at hp
  exact hp.take (Nat.min_le_left _ _)

theorem drive_pieces (h : Handler) : ∀ (ks : List Nat) (last : End) (sts : List Stop) {w : World} {n : Nat} (msg : Bytes),
    Reach w n → ∃ t, (drive h last sts ks w msg).world.log = w.log ++ t ∧ Pieces msg (dataOf t)
  | [], _, _, w, _, msg, _ => ⟨[], (List.append_nil _).symm, .nil _⟩
  | k :: ks, last, sts, w, n, msg, hw => by
    obtain ⟨t, h1, h2, h3⟩ := call_taken (h := h) (msg.take k) hw.good.1 hw.good.2.1
    rw [drive]
    have hstop : Pieces msg (dataOf t) := by
      have := h2.more (msg.drop k)
      rwa [List.take_append_drop] at this
    have hgo : ∀ j (w' : World) u, w'.log = w.log ++ t → Pieces ((msg.take k).take j) (dataOf t) →
        (∃ u', u = w'.log ++ u' ∧ Pieces (msg.drop j) (dataOf u')) → ∃ t', u = w.log ++ t' ∧ Pieces msg (dataOf t') := by
      rintro j w' u h4 h5 ⟨u', rfl, h6⟩
      refine ⟨t ++ u', by rw [h4, List.append_assoc], ?_⟩
      rw [dataOf, List.filterMap_append]
      have := Pieces.append (a := msg.take j) (Pieces.of_take h5) h6
      rwa [List.take_append_drop] at this
    cases hr : resume h w (msg.take k) with
    | mk r w' =>
      rw [hr] at h1 h3
      cases r with
      | ok su =>
        cases su with
        | callback j => exact hgo j w' _ h1 (h3 j (.inr rfl)) (drive_pieces h ks _ _ _ (hw.callback h _ hr))
        | eos j => exact hgo j w' _ h1 (h3 j (.inl rfl)) (drive_pieces h ks _ _ _ (hw.eos h _ hr))
        | finished j => exact ⟨t, h1, hstop⟩
      | err => exact ⟨t, h1, hstop⟩
      | panic => exact ⟨t, h1, hstop⟩
      | diverge => exact ⟨t, h1, hstop⟩

theorem Release.drive_pieces_release (h : Handler) : ∀ (ks : List Nat) (last : End) (sts : List Stop) {w : World} {n : Nat} (msg : Bytes),
    Release.Reach w n → ∃ t, (Release.drive h last sts ks w msg).world.log = w.log ++ t ∧ Pieces msg (dataOf t)
  | [], _, _, w, _, msg, _ => ⟨[], (List.append_nil _).symm, .nil _⟩
  | k :: ks, last, sts, w, n, msg, hw => by
    obtain ⟨t, h1, h2, h3⟩ := Release.call_taken (h := h) (msg.take k) hw.good.1 hw.good.2.1
    rw [Release.drive]
    have hstop : Pieces msg (dataOf t) := by
      have := h2.more (msg.drop k)
      rwa [List.take_append_drop] at this
    have hgo : ∀ j (w' : World) u, w'.log = w.log ++ t → Pieces ((msg.take k).take j) (dataOf t) →
        (∃ u', u = w'.log ++ u' ∧ Pieces (msg.drop j) (dataOf u')) → ∃ t', u = w.log ++ t' ∧ Pieces msg (dataOf t') := by
      rintro j w' u h4 h5 ⟨u', rfl, h6⟩
      refine ⟨t ++ u', by rw [h4, List.append_assoc], ?_⟩
      rw [dataOf, List.filterMap_append]
      have := Pieces.append (a := msg.take j) (Pieces.of_take h5) h6
      rwa [List.take_append_drop] at this
    cases hr : Release.resume h w (msg.take k) with
    | mk r w' =>
      rw [hr] at h1 h3
      cases r with
      | ok su =>
        cases su with
        | callback j => exact hgo j w' _ h1 (h3 j (.inr rfl)) (Release.drive_pieces_release h ks _ _ _ (hw.callback h _ hr))
        | eos j => exact hgo j w' _ h1 (h3 j (.inl rfl)) (Release.drive_pieces_release h ks _ _ _ (hw.eos h _ hr))
        | finished j => exact ⟨t, h1, hstop⟩
      | err => exact ⟨t, h1, hstop⟩
      | panic => exact ⟨t, h1, hstop⟩
      | diverge => exact ⟨t, h1, hstop⟩

/-- **C118**, a client: however it cuts the bytes and whenever callbacks pause, the payload data of all callbacks are
pieces of its bytes, in order and without overlap: no byte is handed over twice. -/
theorem C118_client {w : World} {n : Nat} (hw : Reach w n) (h : Handler) (ks : List Nat) (msg : Bytes) :
    ∃ t, (drive h .idle [] ks w msg).world.log = w.log ++ t ∧ Pieces msg (dataOf t) :=
  drive_pieces h ks .idle [] msg hw

/-- The same without overflow checks. -/
theorem Release.C118_release_client {w : World} {n : Nat} (hw : Release.Reach w n) (h : Handler) (ks : List Nat)
    (msg : Bytes) : ∃ t, (Release.drive h .idle [] ks w msg).world.log = w.log ++ t ∧ Pieces msg (dataOf t) :=
  Release.drive_pieces_release h ks .idle [] msg hw

/-- A frame in slices of 9, 2 and at most 11 bytes, with a pause after every callback. -/
example : let m := header 6 0 8 false 1 ++ [2] ++ b!"abc" ++ [0, 0]
    dataOf (drive ⟨fun _ => false⟩ .idle [] [9, 2, 11] ⟨.new, []⟩ m).world.log = [b!"a", b!"bc"] := by decide +kernel

end Verif.Http2
