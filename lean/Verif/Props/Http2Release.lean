import Verif.Http2.ReleaseSwallow
import Verif.Http2.FrameSpec

/-!
# The HTTP/2 parser without overflow checks

C91. `Release.resume` is `Parser::resume` as a release build compiles it (src/http2/parser.rs lines 255-280, with
wrapping subtraction in lines 44-56); `resume` is the one with overflow checks.
-/

namespace Verif.Http2

/-- The parsers that a program compiled without overflow checks can get hold of with the public functions of `Parser`
(src/http2/parser.rs lines 206-280), in any order and with any handlers and slices, together with the history of
callbacks, and the number of bytes that `resume` reported as processed since `new` or the last `reset`. -/
inductive Release.Reach : World → Nat → Prop
  | new : Reach ⟨.new, []⟩ 0
  | reset {w n} (hw : Reach w n) : Reach ⟨w.p.reset, w.log⟩ 0
  | callback {w n} (hw : Reach w n) (h : Handler) (s : Bytes) {k w'}
      (hr : Release.resume h w s = (.ok (.callback k), w')) : Reach w' (n + k)
  | eos {w n} (hw : Reach w n) (h : Handler) (s : Bytes) {k w'}
      (hr : Release.resume h w s = (.ok (.eos k), w')) : Reach w' (n + k)
  | finished {w n} (hw : Reach w n) (h : Handler) (s : Bytes) {k w'}
      (hr : Release.resume h w s = (.ok (.finished k), w')) : Reach w' (n + k)
  | err {w n} (hw : Reach w n) (h : Handler) (s : Bytes) {w'}
      (hr : Release.resume h w s = (.err, w')) : Reach w' (n + (w'.p.byteCount - w.p.byteCount))

theorem Release.Reach.good {w : World} {n : Nat} (hw : Release.Reach w n) :
    w.p.st ≠ .dead ∧ w.p.st ≠ .finished ∧ w.p.byteCount = n := by
  induction hw with
  | new => exact ⟨nofun, nofun, rfl⟩
  | reset hw ih => exact ⟨nofun, nofun, rfl⟩
  | callback hw h s hr ih =>
    have := Release.call_T (h := h) (s := s) ih.1 ih.2.1
    rw [hr] at this
    exact ⟨this.2.2.1, this.2.2.2, by rw [this.2.1, ih.2.2]⟩
  | eos hw h s hr ih =>
    have := Release.call_T (h := h) (s := s) ih.1 ih.2.1
    rw [hr] at this
    exact ⟨this.2.2.1, this.2.2.2, by rw [this.2.1, ih.2.2]⟩
  | finished hw h s hr ih =>
    have := Release.call_T (h := h) (s := s) ih.1 ih.2.1
    rw [hr] at this
    exact this.elim
  | err hw h s hr ih =>
    have := Release.call_T (h := h) (s := s) ih.1 ih.2.1
    rw [hr] at this
    exact this.elim

/-! ## C91 -/

/-- **C91**, no panics: in every state that a program can bring a parser into, for every slice and handler, `resume`
returns, without an error, `Eos(n)` where `n` is the length of the slice, or `Callback(n)` where `n` is at most that,
and `byte_count` grows by `n`. -/
theorem C91_total_partial {w : World} {n : Nat} (hw : Release.Reach w n) (h : Handler) (s : Bytes) :
    ∃ k w', w'.p.byteCount = n + k ∧ ((Release.resume h w s = (.ok (.callback k), w') ∧ k ≤ s.length) ∨
      (Release.resume h w s = (.ok (.eos k), w') ∧ k = s.length)) := by
  obtain ⟨h1, h2, h3⟩ := hw.good
  have := Release.call_T (h := h) (s := s) h1 h2
  generalize Release.resume h w s = o at this
  obtain ⟨r, w'⟩ := o
  cases r with
  | ok su =>
    cases su with
    | callback k => exact ⟨k, w', by rw [this.2.1, h3], .inl ⟨rfl, this.1⟩⟩
    | eos k => exact ⟨k, w', by rw [this.2.1, h3], .inr ⟨rfl, this.1⟩⟩
    | finished k => exact this.elim
  | err => exact this.elim
  | panic => exact this.elim
  | diverge => exact this.elim

/-- A parser that has just read a frame with more padding than payload. -/
example : ∃ w, Release.Reach w 11 ∧ w.p.st = .dataData :=
  ⟨_, Release.Reach.new.eos (k := 11) yes (header 1 0 8 false 1 ++ [5, 0]) rfl, by decide +kernel⟩

/-- **C91**, calls: for every parser (whatever its fields), handler and slice, if the call does not panic with
overflow checks, then without them it does exactly the same. -/
theorem C91_call_partial (h : Handler) (w : World) (s : Bytes) (hp : (resume h w s).1 ≠ .panic) :
    Release.resume h w s = resume h w s :=
  (Release.agree_resume w s).resolve_left hp

example : (resume yes ⟨.new, []⟩ (header 5 0 8 false 1 ++ [2] ++ b!"ab" ++ [0, 0])).1 ≠ .panic := by decide +kernel

/-- **C91**, runs: so every theorem about runs that do not panic holds without overflow checks as well; for well-formed
frames, C43. -/
theorem C91_run_partial (h : Handler) (ks : List Nat) (m : Bytes) (hp : (run h ks m).last ≠ .panic) :
    Release.run h ks m = run h ks m :=
  (Release.agree_drive ks _ _ _ _).resolve_left hp

example : (run ⟨fun l => l.length % 2 == 0⟩ [9, 2, 1, 20]
    (header 5 0 8 false 1 ++ [2] ++ b!"ab" ++ [0, 0] ++ header 0 4 1 false 0)).last ≠ .panic := by decide +kernel

/-- **C91 does not hold** for what follows a DATA frame with more padding than payload (where a parser with overflow
checks panics): for every handler and however the rest is cut into slices, all bytes after the pad length, up to
2^24 + length - 1 - padding of them, become data of that frame. No other frame is reported, and there is no error. -/
theorem C91_swallows (h : Handler) (k : Nat) (ks : List Nat) (length : Nat) (flags padding : UInt8) (r : Bool)
    (id : UInt32) (x : Bytes) (hf : flags &&& 8 = 8) (hid : id < 0x80000000) (hl : length < 1 + padding.toNat)
    (hx : x.length < 2 ^ 24 + length - 1 - padding.toNat) (hk : 9 ≤ k) :
    let o := Release.run h (k :: ks) (header length 0 flags r id ++ padding :: x)
    (o.last = .callback ∨ o.last = .eos) ∧
    (o.rest = [] → flat o.world.log =
      .frameFormat (UInt32.ofNat length) 0 flags id :: x.map fun b => .payload .data [b] false) := by
  obtain ⟨h1, y, h2, h3⟩ := Release.run_short (h := h) (k := k) (ks := ks) (r := r) hf hid hl hx hk
  refine ⟨h1, fun h0 => ?_⟩
  rw [h0] at h2
  rcases h2 with ⟨h2, -⟩ | h2
  · cases h2
  · rw [h3, h2, List.append_nil]; rfl

/-- A PING frame after such a frame: 17 bytes of data. -/
example : (8 : UInt8) &&& 8 = 8 ∧ (1 : UInt32) < 0x80000000 ∧ 1 < 1 + (5 : UInt8).toNat ∧
    (header 8 6 0 false 0 ++ b!"01234567").length < 2 ^ 24 + 1 - 1 - (5 : UInt8).toNat ∧
    (Release.run yes [9, 4, 30] (header 1 0 8 false 1 ++ 5 :: (header 8 6 0 false 0 ++ b!"01234567"))).rest = [] := by
  decide +kernel

/-- The callbacks for a PING frame. -/
def Ev.isPing : Ev → Bool
  | .frameFormat _ t _ _ => t == 6
  | .payload k _ _ => k == .ping
  | _ => false

/-- The same for the other frames that are too short (see `C45_fails`): a PING frame after them is not reported. -/
theorem C91_fails : ∀ m ∈ [header 0 0 8 false 1 ++ [0], header 1 0 8 false 1 ++ [5, 0],
      header 0 1 0x20 false 1 ++ [0, 0, 0, 0, 0], header 0 5 0 false 1 ++ [0, 0, 0, 0, 0],
      header 0 7 0 false 1 ++ [0, 0, 0, 0, 0, 0, 0, 0]],
    let o := Release.run yes [100] (m ++ header 8 6 0 false 0 ++ b!"01234567")
    o.last = .eos ∧ o.rest = [] ∧ o.world.log ≠ [] ∧ ∀ e ∈ o.world.log, e.isPing = false := by decide +kernel

/-- Alone it is. -/
example : (Release.run yes [100] (header 8 6 0 false 0 ++ b!"01234567")).world.log =
    [.frameFormat 8 6 0 0, .payload .ping b!"01234567" true] := by decide +kernel

end Verif.Http2
