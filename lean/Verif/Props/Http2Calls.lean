import Verif.Http2.Total
import Verif.Http2.FrameSpec

/-!
# Calls of the HTTP/2 parser

C45 (`resume` is total), C46 (31-bit numbers), C47 (`byte_count`).
-/

namespace Verif.Http2

/-- The parsers that a program can get hold of with the public functions of `Parser` (src/http2/parser.rs lines
206-280), in any order and with any handlers and slices, together with the history of callbacks, and the number of
bytes that `resume` reported as processed since `new` or the last `reset`. -/
inductive Reach : World → Nat → Prop
  | new : Reach ⟨.new, []⟩ 0
  | reset {w n} (hw : Reach w n) : Reach ⟨w.p.reset, w.log⟩ 0
  | callback {w n} (hw : Reach w n) (h : Handler) (s : Bytes) {k w'}
      (hr : resume h w s = (.ok (.callback k), w')) : Reach w' (n + k)
  | eos {w n} (hw : Reach w n) (h : Handler) (s : Bytes) {k w'}
      (hr : resume h w s = (.ok (.eos k), w')) : Reach w' (n + k)
  | finished {w n} (hw : Reach w n) (h : Handler) (s : Bytes) {k w'}
      (hr : resume h w s = (.ok (.finished k), w')) : Reach w' (n + k)
  | err {w n} (hw : Reach w n) (h : Handler) (s : Bytes) {w'}
      (hr : resume h w s = (.err, w')) : Reach w' (n + (w'.p.byteCount - w.p.byteCount))

theorem Reach.good {w : World} {n : Nat} (hw : Reach w n) :
    w.p.st ≠ .dead ∧ w.p.st ≠ .finished ∧ GoodLog w.log ∧ w.p.byteCount = n := by
  induction hw with
  | new => exact ⟨nofun, nofun, by simp [GoodLog], rfl⟩
  | reset hw ih => exact ⟨nofun, nofun, ih.2.2.1, rfl⟩
  | callback hw h s hr ih =>
    have := call_T (h := h) (s := s) ih.1 ih.2.1 ih.2.2.1
    rw [hr] at this
    exact ⟨this.2.2.2.2.1, this.2.2.2.2.2, this.2.2.1, by rw [this.2.1, ih.2.2.2]⟩
  | eos hw h s hr ih =>
    have := call_T (h := h) (s := s) ih.1 ih.2.1 ih.2.2.1
    rw [hr] at this
    exact ⟨this.2.2.2.2.1, this.2.2.2.2.2, this.2.2.1, by rw [this.2.1, ih.2.2.2]⟩
  | finished hw h s hr ih =>
    have := call_T (h := h) (s := s) ih.1 ih.2.1 ih.2.2.1
    rw [hr] at this
    exact this.elim
  | err hw h s hr ih =>
    have := call_T (h := h) (s := s) ih.1 ih.2.1 ih.2.2.1
    rw [hr] at this
    exact this.elim

theorem Reach.waits {w : World} {n : Nat} (hw : Reach w n) : imm w.p.st = false := by
  induction hw with
  | new => rfl
  | reset hw ih => rfl
  | callback hw h s hr ih =>
    have := call_T (h := h) (s := s) hw.good.1 hw.good.2.1 hw.good.2.2.1
    rw [hr] at this
    exact this.2.2.2.1
  | eos hw h s hr ih =>
    have := call_T (h := h) (s := s) hw.good.1 hw.good.2.1 hw.good.2.2.1
    rw [hr] at this
    exact this.2.2.2.1
  | finished hw h s hr ih =>
    have := call_T (h := h) (s := s) hw.good.1 hw.good.2.1 hw.good.2.2.1
    rw [hr] at this
    exact this.elim
  | err hw h s hr ih =>
    have := call_T (h := h) (s := s) hw.good.1 hw.good.2.1 hw.good.2.2.1
    rw [hr] at this
    exact this.elim

/-! ## C45 -/

/-- **C45**, except for panics. In every state that a program can bring a parser into, for every slice and handler,
`resume` terminates, without an error, with `Eos(n)` where `n` is the length of the slice, or with `Callback(n)` where
`n` is at most that, or it panics. (It can panic: `C45_fails`. For well-formed frames it does not: `C43_frames_partial`,
`C43_frames_small_ids_partial`.) -/
theorem C45_resume_total_partial {w : World} {n : Nat} (hw : Reach w n) (h : Handler) (s : Bytes) :
    (∃ k w', resume h w s = (.ok (.callback k), w') ∧ k ≤ s.length) ∨
    (∃ w', resume h w s = (.ok (.eos s.length), w')) ∨
    (∃ w', resume h w s = (.panic, w')) := by
  obtain ⟨h1, h2, h3, -⟩ := hw.good
  have := call_T (h := h) (s := s) h1 h2 h3
  generalize resume h w s = o at this
  obtain ⟨r, w'⟩ := o
  cases r with
  | ok su =>
    cases su with
    | callback k => exact .inl ⟨k, w', rfl, this.1⟩
    | eos k => exact .inr (.inl ⟨w', by rw [this.1]⟩)
    | finished k => exact this.elim
  | err => exact this.elim
  | panic => exact .inr (.inr ⟨w', rfl⟩)
  | diverge => exact this.elim

/-- A parser that has read half of a frame, and another one that stopped in a callback. -/
example : ∃ w, Reach w 11 ∧ w.p.st = .dataData :=
  ⟨_, Reach.new.eos (k := 11) ⟨fun _ => true⟩ (header 5 0 0 false 1 ++ b!"ab") rfl, by decide +kernel⟩

example : ∃ w, Reach w 9 ∧ w.log = [.frameFormat 5 0 0 1] :=
  ⟨_, Reach.new.callback (k := 9) ⟨fun _ => false⟩ (header 5 0 0 false 1 ++ b!"ab") rfl, by decide +kernel⟩

/-- **C45 does not hold**: frames that are too short for their fields or their padding make the parser panic
(with overflow checks; without them it goes on with a payload length of almost 2^24). DATA with PADDED flag and an
empty payload; DATA with more padding than payload; HEADERS with PRIORITY flag and an empty payload; PUSH_PROMISE and
GOAWAY with an empty payload. -/
theorem C45_fails : ∀ m ∈ [header 0 0 8 false 1 ++ [0], header 1 0 8 false 1 ++ [5, 0],
      header 0 1 0x20 false 1 ++ [0, 0, 0, 0, 0], header 0 5 0 false 1 ++ [0, 0, 0, 0, 0],
      header 0 7 0 false 1 ++ [0, 0, 0, 0, 0, 0, 0, 0]],
    (resume ⟨fun _ => true⟩ ⟨.new, []⟩ m).1 = .panic := by decide +kernel

/-! ## C46 -/

/-- The stream ids and dependencies that a callback receives, except those of `on_push_promise`, and except the
increment of `on_window_update`. -/
def Ev.ids : Ev → List UInt32
  | .frameFormat _ _ _ id => [id]
  | .goAway id _ => [id]
  | .headers _ id _ => [id]
  | .priority _ id _ => [id]
  | _ => []

/-- **C46** for `on_frame_format`, `on_go_away`, `on_headers` and `on_priority`: whatever happened, no reserved bit
was passed on. (Missing: `on_push_promise` and `on_window_update`, see `C46_fails`.) -/
theorem C46_ids_partial {w : World} {n : Nat} (hw : Reach w n) : ∀ e ∈ w.log, ∀ id ∈ e.ids, id.toNat < 2 ^ 31 := by
  intro e he id hid
  have := hw.good.2.2.1 e he
  unfold Ev.ids at hid
  split at hid <;> simp at hid <;> subst hid <;> exact this

/-- The same for a call that panics. -/
theorem C46_ids_panic_partial {w : World} {n : Nat} (hw : Reach w n) (h : Handler) (s : Bytes) (w' : World)
    (hr : resume h w s = (.panic, w')) : ∀ e ∈ w'.log, ∀ id ∈ e.ids, id.toNat < 2 ^ 31 := by
  intro e he id hid
  obtain ⟨h1, h2, h3, -⟩ := hw.good
  have := call_T (h := h) (s := s) h1 h2 h3
  rw [hr] at this
  have := this e he
  unfold Ev.ids at hid
  split at hid <;> simp at hid <;> subst hid <;> exact this

/-- A header with the reserved bit. -/
example : ∃ w, Reach w 9 ∧ w.log = [.frameFormat 5 0 0 0x7fffffff] :=
  ⟨_, Reach.new.eos (k := 9) ⟨fun _ => true⟩ (header 5 0 0 true 0x7fffffff) rfl, by decide +kernel⟩

/-- **C46 does not hold** for `on_window_update` and `on_push_promise`. -/
theorem C46_fails : (∃ w n, Reach w n ∧ .windowUpdate 0x80000001 ∈ w.log) ∧
    (∃ w n, Reach w n ∧ .pushPromise 0x80000001 ∈ w.log) :=
  ⟨⟨_, _, Reach.new.eos (k := 13) ⟨fun _ => true⟩ (header 4 8 0 false 1 ++ word true 1) rfl, by decide +kernel⟩,
   ⟨_, _, Reach.new.eos (k := 14) ⟨fun _ => true⟩ (header 5 5 0 false 1 ++ word true 1 ++ [0]) rfl, by decide +kernel⟩⟩

/-! ## C47 -/

/-- **C47.** `byte_count()` is the number of bytes that `resume` reported as processed since the parser was created
or reset. -/
theorem C47_byte_count {w : World} {n : Nat} (hw : Reach w n) : w.p.byteCount = n := hw.good.2.2.2

/-- A call that ends in a callback, and one for the rest of the slice. -/
example : ∃ w, Reach w (9 + 2) ∧ w.log.length = 2 :=
  ⟨_, (Reach.new.callback (k := 9) (w' := ⟨⟨⟨0x500, 0, 0, 0, .dataData⟩, 9⟩, [.frameFormat 5 0 0 1]⟩) ⟨fun _ => false⟩
    (header 5 0 0 false 1 ++ b!"ab") (by decide +kernel)).eos (k := 2) ⟨fun _ => true⟩ b!"ab" rfl, by decide +kernel⟩

end Verif.Http2
