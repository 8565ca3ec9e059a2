import Verif.Http2.ReleaseDeep
import Verif.Http2.ReleaseFollows
import Verif.Http2.FrameSpec

/-!
# Any bytes for the HTTP/2 parser without overflow checks

C95. `Release.told` (`Verif.Http2.ReleaseSpec`) describes frame by frame which callbacks a parser has to execute whose
subtractions wrap around; `told` (`Verif.Http2.AnySpec`) does that for a parser with overflow checks, and also says
whether it panics.
-/

namespace Verif.Http2

/-- **C95**: whatever the bytes are, and whatever the callbacks answer (the client passes the rest again after each
pause): a parser compiled without overflow checks processes all bytes and executes exactly the callbacks of
`Release.told m`. -/
theorem C95_one_slice (h : Handler) (m : Bytes) (n : Nat) (hn : 4 * m.length + 1 ≤ n) :
    let o := Release.feed h n ⟨.new, []⟩ m
    o.1 = .eos ∧ o.2.2 = [] ∧ flat o.2.1.log = Release.told m :=
  Release.feed_told h m n hn

/-- A DATA frame with more padding than payload, and a PING frame: every second callback pauses the parser. -/
example : let m := header 6 0 8 false 1 ++ [2] ++ b!"ab" ++ [0, 0, 0] ++ header 1 0 8 false 1 ++ [5] ++
      header 8 6 0 false 0 ++ b!"01234567"
    let o := Release.feed ⟨fun l => l.length % 2 == 0⟩ 200 ⟨.new, []⟩ m
    4 * m.length + 1 ≤ 200 ∧ o.1 = .eos ∧
    Release.told m = [.frameFormat 6 0 8 1] ++ [97, 98, 0].map (.payload .data [·] false) ++
      [.payload .data [] true, .frameFormat 1 0 8 1] ++
      (header 8 6 0 false 0 ++ b!"01234567").map (.payload .data [·] false) ∧
    flat o.2.1.log = Release.told m := by decide +kernel

/-- **C95**, compared with a parser with overflow checks. Input that does not make that one panic is reported in the
same way, and up to the place of the panic all other input is. After that place no frame is reported any more and no
payload ends, for input of up to 2^24 - 265 bytes (with more, the payload that wrapped around can come to an end). -/
theorem C95_after_panic (m : Bytes) (hm : m.length < 2 ^ 24 - 264) :
    ∃ es, Release.told m = (told m).1 ++ es ∧ (∀ e ∈ es, e.inside = true) ∧ ((told m).2 = false → es = []) :=
  Release.follows_frames m.length m hm

/-- A GOAWAY frame that is too short, then a PING frame: all after the error code is debug data. -/
example : let m := header 8 6 0 false 0 ++ b!"01234567" ++ header 3 7 0 false 0 ++ [0, 0, 0, 1, 0, 0, 0, 2] ++
      header 8 6 0 false 0 ++ b!"01234567"
    m.length < 2 ^ 24 - 264 ∧ (told m).2 = true ∧
    Release.told m = (told m).1 ++ ([.goAway 1 2] ++
      (header 8 6 0 false 0 ++ b!"01234567").map (.payload .goAwayDebugData [·] false)) := by decide +kernel

/-- Both together: for a parser without overflow checks, in one slice. -/
theorem C95_lost_frames (h : Handler) (m : Bytes) (n : Nat) (hn : 4 * m.length + 1 ≤ n) (hm : m.length < 2 ^ 24 - 264) :
    let o := Release.feed h n ⟨.new, []⟩ m
    o.1 = .eos ∧ o.2.2 = [] ∧
    ∃ es, flat o.2.1.log = (told m).1 ++ es ∧ (∀ e ∈ es, e.inside = true) ∧ ((told m).2 = false → es = []) := by
  obtain ⟨h1, h2, h3⟩ := C95_one_slice h m n hn
  obtain ⟨es, h4⟩ := C95_after_panic m hm
  exact ⟨h1, h2, es, by rw [h3]; exact h4⟩

example : let m := header 1 1 0x28 false 3 ++ [0, 0x80, 0, 0, 1, 7] ++ header 8 6 0 false 0 ++ b!"01234567"
    4 * m.length + 1 ≤ 200 ∧ m.length < 2 ^ 24 - 264 ∧ (told m).2 = true ∧
    flat (Release.feed yes 200 ⟨.new, []⟩ m).2.1.log = (told m).1 ++ (.headers true 1 7 ::
      (header 8 6 0 false 0 ++ b!"01234567").map (.payload .headersFragment [·] false)) := by decide +kernel

/-- **C95** for every slicing, every handler and all its pauses, compared with a parser with overflow checks: where that
one does not panic, everything is the same, including the positions where the calls stop. Where it panics, the parser
without overflow checks executes the same callbacks up to that place; all calls after it are fine too, but no frame is
reported any more and no payload ends, for input of up to 2^24 - 265 bytes. -/
theorem C95_every_slicing (h : Handler) (ks : List Nat) (m : Bytes) (hm : m.length < 2 ^ 24 - 264) :
    let o := run h ks m
    let r := Release.run h ks m
    (o.last ≠ .panic → r = o) ∧
    (o.last = .panic → (r.last = .callback ∨ r.last = .eos) ∧
      ∃ es, r.world.log = o.world.log ++ es ∧ ∀ e ∈ es, e.inside = true) :=
  ⟨fun hp => (Release.agree_drive ks _ _ _ _).resolve_left hp,
    fun hp => Release.panic_drive ks .idle [] ⟨.new, []⟩ m hm nofun nofun nofun hp⟩

/-- A HEADERS frame that is too short for its priority, byte by byte, then a PING frame that is taken for headers; the
first callback pauses the parser. -/
example : let m := header 3 1 0x20 false 3 ++ [0x80, 0, 0, 1, 7] ++ header 8 6 0 false 0 ++ b!"01234567"
    let h : Handler := ⟨fun l => 1 < l.length⟩
    let o := run h (List.replicate 40 1) m
    let r := Release.run h (List.replicate 40 1) m
    m.length < 2 ^ 24 - 264 ∧ o.last = .panic ∧ r.last = .eos ∧ r.rest = [] ∧
    r.world.log = o.world.log ++ (.headers true 1 7 ::
      (header 8 6 0 false 0 ++ b!"01234567").map (.payload .headersFragment [·] false)) := by decide +kernel

end Verif.Http2
