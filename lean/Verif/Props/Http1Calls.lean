import Verif.Http1.Twin
import Verif.Http1.Reach
import Verif.Http1.UrlCount
import Verif.Http1.Lengths

/-!
# Properties of single calls and of histories of calls of the HTTP/1 parser

C11 (termination), C12 (no panic), C13 (consumed counts), C14 (byte_count), C15 (dead parsers),
C16 (finished parsers), C17 (pausing), C22 (state()), C23 (reset and init).

`World` is a parser together with the history of its callbacks; `resume h w s` is one call of
`resume` with the slice `s`; `Reach` says what parsers a program can get hold of.
-/

namespace Verif.Http1

/-- A handler that always goes on; no content lengths. -/
def goOn : Handler := ⟨fun _ => true, fun _ => none⟩
/-- A handler that always pauses. -/
def pauses : Handler := ⟨fun _ => false, fun _ => none⟩

/-! ## C11 -/

/-- **C11.** `resume` returns (it may panic, see C12, but it does not loop), for every parser, slice
and handler. -/
theorem C11_resume_returns (h : Handler) (w : World) (s : Bytes) : (resume h w s).1 ≠ .diverge := by
  have nd : ∀ (p : Parser) (s : Bytes) (l : List Ev) c,
      parse h (fuel s.length) ⟨p, Ctx.new s, l⟩ ≠ (.diverge, c) := by
    intro p s l c e
    have hok := parse_new_ok h p s l
    rw [e] at hok
    exact hok
  by_cases hp : w.p.ptype = .urlEncoded
  · rw [resume_urlPost (p := w.p) (l := w.log) hp]
    have := nd w.p (s.take w.p.length) w.log
    revert this
    generalize parse h _ _ = rc
    obtain ⟨r, c⟩ := rc
    intro hr
    cases r with
    | ok su =>
      cases su with
      | callback k => simp only [urlPost]; split <;> simp
      | eos k =>
        simp only [urlPost]
        rw [parse_bodyFinished (Nat.le_refl 2) rfl]
        split
        · simp
        · split
          · dsimp only; split <;> simp
          · simp
      | finished k => simp [urlPost]
    | err e => simp [urlPost]
    | panic => simp [urlPost]
    | ub => simp [urlPost]
    | diverge => exact absurd rfl (hr c)
  · rw [resume_plain hp]
    intro e
    have := nd w.p s w.log (parse h (fuel s.length) ⟨w.p, Ctx.new s, w.log⟩).2
    simp only at e
    exact this (by rw [← e])

/-- **C11.** The parser loop makes at most `8 * length + 8` calls of state functions. -/
theorem C11_linear (h : Handler) (p : Parser) (s : Bytes) (l : List Ev) (n : Nat)
    (hn : 8 * s.length + 8 ≤ n) : (parse h n ⟨p, Ctx.new s, l⟩).1 ≠ .diverge := by
  have hm : meas (⟨p, Ctx.new s, l⟩ : Cfg) < n :=
    Nat.lt_of_lt_of_le (meas_new p s l) (by simpa [fuel] using hn)
  have hok := parse_ok h n ⟨p, Ctx.new s, l⟩ (ctxOK_new s) hm
  intro e
  revert hok e
  generalize parse h n _ = rc
  obtain ⟨r, c⟩ := rc
  rintro hok rfl
  exact hok

/-- A request that needs many state functions: 21 bytes, at most 176 calls. -/
example : (parse goOn 176 ⟨Parser.new, Ctx.new b!"PUT / HTTP/1.0\r\na:b\r\n", []⟩).1 ≠ .diverge :=
  C11_linear _ _ _ _ _ (by decide)

/-! ## C12 -/

/-- **C12 (partial).** `resume` returns `Ok` or `Err`: it does not panic and does not read outside
the slice. Missing: the property is claimed for all bytes and all histories; it fails in the four
situations excluded here, each of which is shown to fail below. -/
theorem C12_no_panic_partial (h : Handler) (w : World) (s : Bytes) {st : Stage}
    (hr : Reach properBoundary st w.p) (hs : st = .fresh → s ≠ []) (hb : 255 ∉ s)
    (hm : w.p.ptype = .multipart → w.p.boundary ≠ none) :
    (∃ r w', resume h w s = (.ok r, w')) ∨ ∃ e w', resume h w s = (.err e, w') := by
  have h1 := reach_mode hr
  by_cases hd : w.p.fn = .dead
  · exact .inr ⟨_, _, resume_dead hd⟩
  have h2 := safe_resume (h := h) (s := s) (mp := True) h1.1
    (fun _ => ((reach_mp hr).1).resolve_left hd)
  have h3 := C11_resume_returns h w s
  revert h2 h3
  rcases hh : resume h w s with ⟨r, w'⟩
  intro h2 h3
  cases r with
  | ok r => exact .inl ⟨r, w', rfl⟩
  | err e => exact .inr ⟨e, w', rfl⟩
  | panic =>
    rcases h2 with h2 | h2 | h2
    · exact absurd h2 hb
    · exact absurd trivial h2
    · exact absurd h2.2 (hm h2.1)
  | ub =>
    obtain ⟨h2, h4⟩ := h2
    by_cases hst : st = .fresh
    · exact absurd h4 (hs hst)
    · exact absurd h2 (h1.2.1 hst).1
  | diverge => exact absurd rfl h3

/-- **C12 (partial).** Outside multipart mode `set_boundary` may be used in any way. -/
theorem C12_no_panic_other_types_partial (h : Handler) (w : World) (s : Bytes) {st : Stage}
    (hr : Reach anyBoundary st w.p) (hs : st = .fresh → s ≠ []) (hb : 255 ∉ s)
    (hm : w.p.ptype ≠ .multipart) :
    (∃ r w', resume h w s = (.ok r, w')) ∨ ∃ e w', resume h w s = (.err e, w') := by
  have h1 := reach_mode hr
  have h2 := safe_resume (h := h) (s := s) (mp := True) h1.1 (fun _ hp => absurd hp hm)
  have h3 := C11_resume_returns h w s
  revert h2 h3
  rcases hh : resume h w s with ⟨r, w'⟩
  intro h2 h3
  cases r with
  | ok r => exact .inl ⟨r, w', rfl⟩
  | err e => exact .inr ⟨e, w', rfl⟩
  | panic =>
    rcases h2 with h2 | h2 | h2
    · exact absurd h2 hb
    · exact absurd trivial h2
    · exact absurd h2.1 hm
  | ub =>
    obtain ⟨h2, h4⟩ := h2
    by_cases hst : st = .fresh
    · exact absurd h4 (hs hst)
    · exact absurd h2 (h1.2.1 hst).1
  | diverge => exact absurd rfl h3

/-- A multipart parser in the middle of a part. -/
def midPart : World :=
  (resume goOn ⟨(Parser.new.init .multipart).setBoundary b!"XyZ", []⟩ b!"--XyZ\r\na: b\r\n\r\nda").2

theorem reach_midPart : Reach properBoundary .running midPart.p :=
  .resumeOk (w := ⟨(Parser.new.init .multipart).setBoundary b!"XyZ", []⟩)
    (.setBoundary (.init .new _) _ ⟨by decide, by decide⟩) goOn b!"--XyZ\r\na: b\r\n\r\nda"
    (r := .eos 17) (by decide +kernel)

example : (∃ r w', resume goOn midPart b!"ta\r\n--X" = (.ok r, w')) ∨
    ∃ e w', resume goOn midPart b!"ta\r\n--X" = (.err e, w') :=
  C12_no_panic_partial _ _ _ reach_midPart (by decide) (by decide) (by decide +kernel)

/-- A head parser in the middle of a URL that was given an impossible boundary. -/
example : let w := (resume goOn ⟨Parser.new.init .head, []⟩ b!"GET /a").2
    Reach anyBoundary .running (w.p.setBoundary b!"\r") ∧ 255 ∉ b!"b HTTP/1.1\r\n" ∧ (w.p.setBoundary b!"\r").ptype ≠ .multipart :=
  ⟨.setBoundary (.resumeOk (w := ⟨Parser.new.init .head, []⟩) (.init .new .head) goOn b!"GET /a" (r := .eos 6) (by decide +kernel))
    _ trivial, by decide, by decide +kernel⟩

/-- The full C12 fails: byte 0xFF in a header value panics. -/
theorem C12_fails_byte_255 : Reach properBoundary .ready (Parser.new.init .head) ∧
    (resume goOn ⟨Parser.new.init .head, []⟩ (b!"GET / HTTP/1.1\r\na: b" ++ [255])).1 = .panic :=
  ⟨.init .new _, by decide +kernel⟩

/-- The full C12 fails: a new parser given an empty slice reads outside it. -/
theorem C12_fails_empty_slice : Reach properBoundary .fresh Parser.new ∧
    (resume goOn ⟨Parser.new, []⟩ []).1 = .ub := ⟨.new, by decide +kernel⟩

/-- The full C12 fails: a multipart parser without boundary panics. -/
theorem C12_fails_no_boundary : Reach properBoundary .ready (Parser.new.init .multipart) ∧
    (resume goOn ⟨Parser.new.init .multipart, []⟩ b!"--X").1 = .panic :=
  ⟨.init .new _, by decide +kernel⟩

/-- The full C12 fails: a shorter boundary set while a boundary is being compared panics. -/
theorem C12_fails_boundary_changed : ∃ p, Reach anyBoundary .running p ∧
    (resume goOn ⟨p, []⟩ b!"d").1 = .panic :=
  ⟨(resume goOn ⟨(Parser.new.init .multipart).setBoundary b!"abcd", []⟩ b!"--abc").2.p.setBoundary b!"ab",
    .setBoundary (.resumeOk (w := ⟨(Parser.new.init .multipart).setBoundary b!"abcd", []⟩)
      (.setBoundary (.init .new _) _ trivial) goOn b!"--abc" (r := .eos 5) (by decide +kernel)) _ trivial,
    by decide +kernel⟩

/-! ## C13 -/

/-- **C13.** `Eos(n)` is returned only with `n` the length of the slice. -/
theorem C13_eos_count (h : Handler) (w w' : World) (s : Bytes) {st : Stage} {n : Nat}
    (hr : Reach anyBoundary st w.p) (he : resume h w s = (.ok (.eos n), w')) : n = s.length := by
  have h1 := callOK (h := h) (w := w) (s := s)
    (fun hp => urlSt_of_mode (by have := (reach_mode hr).1; rwa [hp] at this))
  rw [he] at h1
  exact h1.1

/-- **C13.** `Callback(n)` is returned only with `n` at most the length of the slice. -/
theorem C13_callback_count (h : Handler) (w w' : World) (s : Bytes) {st : Stage} {n : Nat}
    (hr : Reach anyBoundary st w.p) (he : resume h w s = (.ok (.callback n), w')) : n ≤ s.length := by
  have h1 := callOK (h := h) (w := w) (s := s)
    (fun hp => urlSt_of_mode (by have := (reach_mode hr).1; rwa [hp] at this))
  rw [he] at h1
  exact h1.1

/-- **C13.** `Finished(n)` is returned only with `n` at most the length of the slice. -/
theorem C13_finished_count (h : Handler) (w w' : World) (s : Bytes) {st : Stage} {n : Nat}
    (hr : Reach anyBoundary st w.p) (he : resume h w s = (.ok (.finished n), w')) : n ≤ s.length := by
  have h1 := callOK (h := h) (w := w) (s := s)
    (fun hp => urlSt_of_mode (by have := (reach_mode hr).1; rwa [hp] at this))
  rw [he] at h1
  exact h1.1

example : resume pauses ⟨Parser.new, []⟩ b!"GET / HTTP/1.1\r\n" =
    (.ok (.callback 4), ⟨{ Parser.new with byteCount := 4, state := .requestUrl1, fn := .requestUrl1 },
      [.method b!"GET"]⟩) := by decide +kernel
example : 4 ≤ b!"GET / HTTP/1.1\r\n".length :=
  C13_callback_count pauses ⟨Parser.new, []⟩ (resume pauses ⟨Parser.new, []⟩ b!"GET / HTTP/1.1\r\n").2 _ .new
    (by decide +kernel)

/-- The other two results. -/
example : (resume goOn ⟨Parser.new.init .chunked, []⟩ b!"3;a").1 = .ok (.eos 3) ∧
    (resume goOn ⟨Parser.new.init .chunked, []⟩ b!"0\r\n\r\nrest").1 = .ok (.finished 5) := by decide +kernel

/-! ## C17 -/

/-- **C17** (and the second half of **C13**). Whatever the callbacks answer: when `resume` is called
again with the unprocessed bytes after each pause, then after finitely many calls everything is as
after one call with a handler that never pauses: the same result, the same callbacks with the same
arguments in the same order, the same unprocessed bytes and the same parser (`SameOut`). -/
theorem C17_pausing_invisible (h : Handler) (w : World) (s : Bytes) {st : Stage}
    (hr : Reach anyBoundary st w.p) :
    ∃ N, ∀ n, N ≤ n → SameOut (feed h n w s) (feed h.yes 1 w s) :=
  feed_same (fun hp => urlSt_of_mode (by have := (reach_mode hr).1; rwa [hp] at this))

/-- Seven pauses on the way. -/
example : feed pauses 8 ⟨Parser.new, []⟩ b!"GET /x HTTP/1.1\r\na: b\r\n\r\nBODY" =
      feed pauses.yes 1 ⟨Parser.new, []⟩ b!"GET /x HTTP/1.1\r\na: b\r\n\r\nBODY" ∧
    (feed pauses 7 ⟨Parser.new, []⟩ b!"GET /x HTTP/1.1\r\na: b\r\n\r\nBODY").last = .callback ∧
    (feed pauses 8 ⟨Parser.new, []⟩ b!"GET /x HTTP/1.1\r\na: b\r\n\r\nBODY").rest = b!"BODY" ∧
    (feed pauses 8 ⟨Parser.new, []⟩ b!"GET /x HTTP/1.1\r\na: b\r\n\r\nBODY").world.log =
      [.method b!"GET", .url b!"/x", .version 1 1, .initialFinished, .headerName b!"a",
        .headerValue b!"b", .headersFinished] := by decide +kernel

theorem went_split {h : Handler} {l0 l : List Ev} (H : Went h l0 l) : ∃ t, l = l0 ++ t ∧
    ∀ a e b, t = a ++ e :: b → h.ret (l0 ++ a ++ [e]) = true := by
  induction H with
  | refl => exact ⟨[], by simp, by simp⟩
  | @snoc l e _ hr ih =>
    obtain ⟨t, rfl, ht⟩ := ih
    refine ⟨t ++ [e], by simp, fun a e' b he => ?_⟩
    rcases List.eq_nil_or_concat b with rfl | ⟨b', x, rfl⟩
    · obtain ⟨rfl, h2⟩ := List.append_inj' he rfl
      cases h2
      exact hr
    · have : t ++ [e] = (a ++ e' :: b') ++ [x] := by rw [he]; simp
      obtain ⟨h1, -⟩ := List.append_inj' this rfl
      exact ht a e' b' h1

/-- **C17**, its first sentence, for every parser and every slice: if `resume` returns (a success or an error), then it
pauses, with `Callback(n)`, exactly when one of its callbacks answered `false`, and this callback is the last one it
executed. -/
theorem C17_false_stops (h : Handler) (w w' : World) (s : Bytes) (r : Res) (hr : resume h w s = (r, w'))
    (hok : (∃ su, r = .ok su) ∨ ∃ e, r = .err e) :
    ∃ t, w'.log = w.log ++ t ∧
      (∀ a e b, t = a ++ e :: b → h.ret (w.log ++ a ++ [e]) = false → b = [] ∧ ∃ n, r = .ok (.callback n)) ∧
      ∀ n, r = .ok (.callback n) → t ≠ [] ∧ h.ret w'.log = false := by
  have H := answered (h := h) (w := w) (s := s)
  rw [hr] at H
  have went : Went h w.log w'.log → (∀ n, r ≠ .ok (.callback n)) → ∃ t, w'.log = w.log ++ t ∧
      (∀ a e b, t = a ++ e :: b → h.ret (w.log ++ a ++ [e]) = false → b = [] ∧ ∃ n, r = .ok (.callback n)) ∧
      ∀ n, r = .ok (.callback n) → t ≠ [] ∧ h.ret w'.log = false := by
    intro H hn
    obtain ⟨t, h1, h2⟩ := went_split H
    refine ⟨t, h1, fun a e b he hf => ?_, fun n h => absurd h (hn n)⟩
    rw [h2 a e b he] at hf
    cases hf
  rcases hok with ⟨su, rfl⟩ | ⟨e, rfl⟩
  · cases su with
    | callback n =>
      obtain ⟨l, e, h1, h2, h3⟩ := H
      obtain ⟨t, rfl, ht⟩ := went_split h1
      refine ⟨t ++ [e], by rw [h2, List.append_assoc], fun a e' b he hf => ?_, fun _ _ => ⟨by simp, h3⟩⟩
      rcases List.eq_nil_or_concat b with rfl | ⟨b', x, rfl⟩
      · exact ⟨rfl, n, rfl⟩
      · have : t ++ [e] = (a ++ e' :: b') ++ [x] := by rw [he]; simp
        obtain ⟨h4, -⟩ := List.append_inj' this rfl
        rw [ht a e' b' h4] at hf
        cases hf
    | eos n => exact went H nofun
    | finished n => exact went H nofun
  · exact went H nofun

/-- The second callback answers `false`. -/
example : resume ⟨fun l => l.length != 2, fun _ => none⟩ ⟨Parser.new, []⟩ b!"GET /x HTTP/1.1\r\n" =
    (.ok (.callback 7), ⟨{ Parser.new with byteCount := 7, state := .requestHttp1, fn := .requestHttp1 },
      [.method b!"GET", .url b!"/x"]⟩) := by decide +kernel

/-! ## C14 -/

/-- **C14 (partial).** `byte_count()` is the sum of what the past calls of `resume` processed;
`reset` and the `init` functions do not change it. Missing: calls that finish a URL-encoded body
(see `C14_fails`). -/
theorem C14_byte_count_partial {p : Parser} {lo hi : Nat} (ht : Tally p lo hi) :
    lo ≤ p.byteCount ∧ p.byteCount ≤ hi := by
  suffices (lo ≤ p.byteCount ∧ p.byteCount ≤ hi) ∧ ∃ st, Reach anyBoundary st p from this.1
  induction ht with
  | new => exact ⟨⟨Nat.le_refl _, Nat.le_refl _⟩, _, .new⟩
  | @reset p lo hi _ ih =>
    obtain ⟨h1, st, h2⟩ := ih
    refine ⟨?_, _, .reset h2⟩
    have : p.reset.byteCount = p.byteCount := by
      obtain ⟨a, b, c, e, t, s, f⟩ := p; cases t <;> rfl
    rw [this]; exact h1
  | @init p lo hi _ t ih =>
    obtain ⟨h1, st, h2⟩ := ih
    refine ⟨?_, _, .init h2 t⟩
    have : (p.init t).byteCount = p.byteCount := by
      obtain ⟨a, b, c, e, t', s, f⟩ := p; cases t <;> rfl
    rw [this]; exact h1
  | setBoundary _ b ih =>
    obtain ⟨h1, st, h2⟩ := ih
    exact ⟨h1, _, .setBoundary h2 b trivial⟩
  | setLength _ n ih =>
    obtain ⟨h1, st, h2⟩ := ih
    exact ⟨h1, _, .setLength h2 n⟩
  | @resumeOk p lo hi _ h l s r w' hr hu ih =>
    obtain ⟨h1, st, h2⟩ := ih
    refine ⟨?_, _, .resumeOk (w := ⟨p, l⟩) h2 h s hr⟩
    have h3 := callOK (h := h) (w := ⟨p, l⟩) (s := s)
      (fun hp => urlSt_of_mode (by have := (reach_mode h2).1; rwa [show p.ptype = _ from hp] at this))
    have h4 := reach_mode (Reach.resumeOk (ok := anyBoundary) (w := ⟨p, l⟩) h2 h s hr)
    rw [hr] at h3
    cases r with
    | callback k =>
      obtain ⟨-, h5, -⟩ := h3
      rcases h5 with h5 | ⟨h5, h6, -⟩
      · simp only [Success.count, h5]; omega
      · exact absurd ((h4.2.1 (by decide)).2.trans h6) (hu h5)
    | eos k =>
      obtain ⟨-, h5, -⟩ := h3
      simp only [Success.count, h5]; omega
    | finished k =>
      obtain ⟨-, h5, -, -, h6, -⟩ := h3
      rcases h5 with h5 | ⟨h5, -⟩
      · simp only [Success.count, h5]; omega
      · exact absurd h6 (hu h5)
  | @resumeErr p lo hi _ h l s e w' hr ih =>
    obtain ⟨h1, st, h2⟩ := ih
    refine ⟨?_, _, .resumeErr (w := ⟨p, l⟩) h2 h s hr⟩
    have h3 := callOK (h := h) (w := ⟨p, l⟩) (s := s)
      (fun hp => urlSt_of_mode (by have := (reach_mode h2).1; rwa [show p.ptype = _ from hp] at this))
    rw [hr] at h3
    obtain ⟨h5, h6, -⟩ := h3
    simp only at h5 h6
    omega

/-- Two calls with 4 and 3 bytes processed. -/
def twoCalls : Parser × Parser :=
  let p := (resume pauses ⟨Parser.new, []⟩ b!"GET / HTTP/1.1\r\n").2.p
  (p, (resume goOn ⟨p, []⟩ b!"/ab").2.p)

example : Tally twoCalls.2 7 7 ∧ twoCalls.2.byteCount = 7 :=
  ⟨Tally.resumeOk (p := twoCalls.1) (lo := 4) (hi := 4) (r := .eos 3) (w' := ⟨twoCalls.2, [.url b!"/ab"]⟩)
      (Tally.resumeOk (lo := 0) (hi := 0) (r := .callback 4) (w' := ⟨twoCalls.1, [.method b!"GET"]⟩) .new
        pauses [] b!"GET / HTTP/1.1\r\n" (by decide +kernel) (by decide)) goOn [] b!"/ab"
      (by decide +kernel) (by decide +kernel),
    by decide +kernel⟩

/-- **C14**, one call, without exceptions: whatever the parser's past, a call that succeeds adds to
`byte_count()` what it says it processed, but a call that ends a URL-encoded body adds it twice. -/
theorem C14_one_call {st : Stage} {p : Parser} (hp : Reach anyBoundary st p) (h : Handler) (l : List Ev)
    (s : Bytes) (r : Success) (w' : World) (hr : resume h ⟨p, l⟩ s = (.ok r, w')) :
    w'.p.byteCount = p.byteCount +
      (if p.ptype = .urlEncoded ∧ w'.p.state = .finished then 2 * r.count else r.count) := by
  have hu : p.ptype = .urlEncoded → UrlSt p.fn ∨ p.fn = .dead := fun hp' =>
    urlSt_of_mode (by have := (reach_mode hp).1; rwa [hp'] at this)
  have h3 := callOK (h := h) (w := ⟨p, l⟩) (s := s) hu
  have h4 := reach_mode (Reach.resumeOk (ok := anyBoundary) (w := ⟨p, l⟩) hp h s hr)
  have hsf : w'.p.state = w'.p.fn := (h4.2.1 (by decide)).2
  split
  · rename_i hc
    rcases hu hc.1 with hs | hd
    · have h5 := call_doubled (h := h) (w := ⟨p, l⟩) (s := s) hc.1 hs
      rw [hr] at h5
      have h6 := h5 (hsf ▸ hc.2)
      dsimp only at h6
      omega
    · rw [resume_dead (w := ⟨p, l⟩) hd] at hr
      simp at hr
  · rename_i hc
    rw [hr] at h3
    cases r with
    | callback k =>
      obtain ⟨-, h5, -⟩ := h3
      rcases h5 with h5 | ⟨h5, h6, -⟩
      · exact h5
      · exact absurd ⟨h5, hsf.trans h6⟩ hc
    | eos k => exact h3.2.1
    | finished k =>
      obtain ⟨-, h5, -, -, h6, -⟩ := h3
      rcases h5 with h5 | ⟨h5, -⟩
      · exact h5
      · exact absurd ⟨h5, h6⟩ hc

/-- A call that ends a URL-encoded body of three bytes, and one that reads three bytes of a longer one. -/
example :
    let p (n : Nat) := (Parser.new.init .urlEncoded).setLength n
    Reach anyBoundary .ready (p 3) ∧ Reach anyBoundary .ready (p 4) ∧
    (resume goOn ⟨p 3, []⟩ b!"a=b").1 = .ok (.finished 3) ∧ (resume goOn ⟨p 3, []⟩ b!"a=b").2.p.byteCount = 6 ∧
    (resume goOn ⟨p 4, []⟩ b!"a=b").1 = .ok (.eos 3) ∧ (resume goOn ⟨p 4, []⟩ b!"a=b").2.p.byteCount = 3 :=
  ⟨.setLength (.init .new _) _, .setLength (.init .new _) _, by decide +kernel, by decide +kernel, by decide +kernel, by decide +kernel⟩

/-- The full C14 fails: the bytes of the call that finishes a URL-encoded body are counted twice. -/
theorem C14_fails : ∃ w', resume goOn ⟨(Parser.new.init .urlEncoded).setLength 3, []⟩ b!"a=b" =
    (.ok (.finished 3), w') ∧ w'.p.byteCount = 6 := ⟨_, rfl, by decide +kernel⟩

/-! ## C62 -/

/-- Data callbacks without data. -/
def emptyData : List Ev :=
  [.method [], .url [], .status [], .headerName [], .headerValue [], .chunkData [], .chunkExtensionName [],
    .chunkExtensionValue [], .multipartData [], .urlEncodedName [], .urlEncodedValue []]

/-- **C62.** Whatever the parser's past, the slice and the handler: a call of `resume`, whether it returns or panics, only
adds callbacks to the history, and none of its data callbacks is passed empty data. -/
theorem C62_no_empty_data (h : Handler) (w : World) (s : Bytes) :
    ∃ t, (resume h w s).2.log = w.log ++ t ∧ ∀ e ∈ t, e ∉ emptyData := by
  obtain ⟨t, h1, h2⟩ := resume_grew h w s
  refine ⟨t, h1, fun e he hm => h2 e he ?_⟩
  simp only [emptyData, List.mem_cons, List.not_mem_nil, or_false] at hm
  rcases hm with rfl | rfl | rfl | rfl | rfl | rfl | rfl | rfl | rfl | rfl | rfl <;> rfl

/-- A call that panics in a header name, after its callbacks. -/
example : (resume goOn ⟨.new, []⟩ (b!"GET / HTTP/1.1\r\nA:b\r\nB" ++ [255])).1 = .panic ∧
    (resume goOn ⟨.new, []⟩ (b!"GET / HTTP/1.1\r\nA:b\r\nB" ++ [255])).2.log =
      [.method b!"GET", .url b!"/", .version 1 1, .initialFinished, .headerName b!"a", .headerValue b!"b", .headerName b!"b"] := by
  decide +kernel

/-- The empty value of `a=&b=c`: no callback for it at all. -/
example : resume goOn ⟨(Parser.new.init .urlEncoded).setLength 6, []⟩ b!"a=&b=c" =
    (.ok (.finished 6), (resume goOn ⟨(Parser.new.init .urlEncoded).setLength 6, []⟩ b!"a=&b=c").2) ∧
    (resume goOn ⟨(Parser.new.init .urlEncoded).setLength 6, []⟩ b!"a=&b=c").2.log =
      [.urlEncodedBegin, .urlEncodedName b!"a", .urlEncodedBegin, .urlEncodedName b!"b", .urlEncodedValue b!"c", .bodyFinished] := by
  decide +kernel

/-! ## C15 and C16 -/

theorem later_dead {p q : Parser} (hl : Later p q) (h1 : p.state = .dead) (h2 : p.fn = .dead) :
    q.state = .dead ∧ q.fn = .dead := by
  induction hl with
  | refl => exact ⟨h1, h2⟩
  | setBoundary b _ ih => exact ih
  | setLength n _ ih => exact ih
  | @resumeOk q h l s r w' hr _ ih => rw [resume_dead ih.2] at hr; cases hr
  | @resumeErr q h l s e w' hr _ ih => rw [resume_dead ih.2] at hr; cases hr; exact ⟨rfl, ih.2⟩

theorem later_finished {p q : Parser} (hl : Later p q) (h1 : p.state = .finished)
    (h2 : p.fn = .finished) : q.state = .finished ∧ q.fn = .finished := by
  induction hl with
  | refl => exact ⟨h1, h2⟩
  | setBoundary b _ ih => exact ih
  | setLength n _ ih => exact ih
  | @resumeOk q h l s r w' hr _ ih => rw [resume_finished ih.2] at hr; cases hr; exact ⟨rfl, ih.2⟩
  | @resumeErr q h l s e w' hr _ ih => rw [resume_finished ih.2] at hr; cases hr

/-- **C15.** After an error and until `reset` or an `init` function is called, `state()` is `Dead`
and every call of `resume` returns `Err(Dead)` and changes nothing: no byte is processed, no callback
is executed. -/
theorem C15_dead_stays_dead (h : Handler) (w w' : World) (s : Bytes) {st : Stage} {e : PErr}
    (hr : Reach anyBoundary st w.p) (he : resume h w s = (.err e, w')) {q : Parser}
    (hq : Later w'.p q) :
    q.state = .dead ∧ ∀ h' l t, resume h' ⟨q, l⟩ t = (.err .dead, ⟨q, l⟩) := by
  have h1 := callOK (h := h) (w := w) (s := s)
    (fun hp => urlSt_of_mode (by have := (reach_mode hr).1; rwa [hp] at this))
  rw [he] at h1
  obtain ⟨-, -, -, -, h2, h3, -⟩ := h1
  obtain ⟨h4, h5⟩ := later_dead hq h2 h3
  refine ⟨h4, fun h' l t => ?_⟩
  rw [resume_dead h5]
  cases q
  simp only at h4
  rw [h4]

example : ∃ w', resume goOn ⟨Parser.new, []⟩ b!"GET / HTTP/1.1\r\n(\r\n" = (.err (.headerName (c! '(')), w') ∧
    Later w'.p (w'.p.setLength 7) := ⟨_, rfl, .setLength _ (.refl _)⟩

/-- **C16.** After `Finished` and until `reset` or an `init` function is called, `state()` is
`Finished` and every call of `resume` returns `Finished(0)` and changes nothing. -/
theorem C16_finished_stays_finished (h : Handler) (w w' : World) (s : Bytes) {st : Stage} {n : Nat}
    (hr : Reach anyBoundary st w.p) (he : resume h w s = (.ok (.finished n), w')) {q : Parser}
    (hq : Later w'.p q) :
    q.state = .finished ∧ ∀ h' l t, resume h' ⟨q, l⟩ t = (.ok (.finished 0), ⟨q, l⟩) := by
  have h1 := callOK (h := h) (w := w) (s := s)
    (fun hp => urlSt_of_mode (by have := (reach_mode hr).1; rwa [hp] at this))
  rw [he] at h1
  obtain ⟨-, -, -, -, h2, h3, -⟩ := h1
  obtain ⟨h4, h5⟩ := later_finished hq h2 h3
  refine ⟨h4, fun h' l t => ?_⟩
  rw [resume_finished h5]
  cases q
  simp only at h4
  rw [h4]

example : ∃ w', resume goOn ⟨Parser.new, []⟩ b!"GET / HTTP/1.1\r\n\r\nrest" = (.ok (.finished 18), w') ∧
    Later w'.p (w'.p.setBoundary b!"x") := ⟨_, rfl, .setBoundary _ (.refl _)⟩

/-! ## C22 -/

/-- **C22 (partial).** `state()` is the state whose function processes the next byte (`fn`).
Missing: new parsers that were neither initialised nor resumed. -/
theorem C22_state_partial {st : Stage} {p : Parser} (hr : Reach anyBoundary st p)
    (hs : st ≠ .fresh) : p.state = p.fn :=
  ((reach_mode hr).2.1 hs).2

example : Reach anyBoundary .running (resume pauses ⟨Parser.new, []⟩ b!"GET / HTTP/1.1\r\n").2.p :=
  .resumeOk (w := ⟨Parser.new, []⟩) .new pauses b!"GET / HTTP/1.1\r\n" (r := .callback 4)
    (by decide +kernel)

/-- The full C22 fails: a new parser reports `StripDetect`, but is in `Detect1`: unlike a parser that
really is in `StripDetect` it does not skip blanks. -/
theorem C22_fails : Reach anyBoundary .fresh Parser.new ∧ Parser.new.state = .stripDetect ∧
    (resume goOn ⟨Parser.new, []⟩ b!"\r\nGET / HTTP/1.1\r\n\r\n").1 = .err (.method 13) ∧
    (resume goOn ⟨{ Parser.new with fn := Parser.new.state }, []⟩ b!"\r\nGET / HTTP/1.1\r\n\r\n").1 =
      .ok (.finished 20) := ⟨.new, by decide +kernel⟩

/-! ## C23 -/

/-- **C23.** After an `init` function a parser with any past behaves as a new parser after the same
`init` function: for every sequence of later calls, `resume` returns the same, the same callbacks are
executed, and the parser is the same except that `byte_count()` includes the bytes counted before. -/
theorem C23_init_is_new (p : Parser) (t : PType) (ops : List Op) (l : List Ev) :
    (run ops ⟨p.init t, l⟩).1 = (run ops ⟨Parser.new.init t, l⟩).1 ∧
    (run ops ⟨p.init t, l⟩).2.log = (run ops ⟨Parser.new.init t, l⟩).2.log ∧
    (run ops ⟨p.init t, l⟩).2.p = (run ops ⟨Parser.new.init t, l⟩).2.p.bump p.byteCount := by
  have e : p.init t = (Parser.new.init t).bump p.byteCount := by
    obtain ⟨a, b, c, d, t', s, f⟩ := p
    cases t <;> simp only [Parser.init, Parser.reset, Parser.new, Parser.bump, setLower14] <;> simp
  rw [e]
  obtain ⟨h1, h2⟩ := bump_run (d := p.byteCount) ops (Parser.new.init t) l
  rw [h2]
  exact ⟨h1, rfl, rfl⟩

/-- **C23.** The same for `reset`, which keeps the parser type. -/
theorem C23_reset_is_new (p : Parser) (ops : List Op) (l : List Ev) :
    (run ops ⟨p.reset, l⟩).1 = (run ops ⟨Parser.new.init p.ptype, l⟩).1 ∧
    (run ops ⟨p.reset, l⟩).2.log = (run ops ⟨Parser.new.init p.ptype, l⟩).2.log ∧
    (run ops ⟨p.reset, l⟩).2.p = (run ops ⟨Parser.new.init p.ptype, l⟩).2.p.bump p.byteCount := by
  have e : p.reset = p.init p.ptype := by cases p; rfl
  rw [e]
  exact C23_init_is_new p p.ptype ops l

/-- A parser in the middle of a multipart body becomes a head parser. -/
example : (run [.resume goOn b!"GET /", .resume goOn b!" HTTP/1.1\r\n\r\n"] ⟨midPart.p.init .head, []⟩).1 =
    [.ok (.eos 5), .ok (.finished 13)] := by decide +kernel

/-- The same parser after `reset`, which takes another boundary and reads another body. -/
example : (run [.setBoundary b!"Q", .resume goOn b!"--Q--"] ⟨midPart.p.reset, []⟩).1 = [.ok (.finished 5)] := by decide +kernel

end Verif.Http1
