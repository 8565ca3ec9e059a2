import Verif.Http1.Stops
import Verif.Props.Http1Chunked
import Verif.Props.Http1Multipart

/-!
# C86: reading a message call by call

Which callbacks have been executed after the first, the second, ... call, when a handler stops the parser and the client
calls `resume` again with the bytes that were not processed (`feed`).
-/

namespace Verif.Http1

/-- **C86.** Let `t` be the callbacks that one call of `resume` executes when it is never stopped. A handler that answers
`false` to some of them gets the same callbacks in several calls: the call that ends with the `i`-th of these answers is
the `i`-th one, it returns `Callback`, and exactly the callbacks up to this one have been executed. After one call
more than there are such answers, everything is as after the one call. -/
theorem C86_call_by_call (h : Handler) (w : World) (s : Bytes) {st : Stage} (hr : Reach anyBoundary st w.p)
    (t : List Ev) (hb : Back (feed h.yes 1 w s)) (ht : (feed h.yes 1 w s).world.log = w.log ++ t) :
    (∀ a e b, t = a ++ e :: b → h.ret (w.log ++ a ++ [e]) = false →
      (feed h (stops h w.log (a ++ [e])) w s).last = .callback ∧
      (feed h (stops h w.log (a ++ [e])) w s).world.log = w.log ++ a ++ [e]) ∧
    ∀ n, stops h w.log t < n → SameOut (feed h n w s) (feed h.yes 1 w s) := by
  obtain ⟨N, hN⟩ := C17_pausing_invisible h w s hr
  have hNb : ∀ n, N ≤ n → Back (feed h n w s) ∧ (feed h n w s).world.log = w.log ++ t := by
    intro n hn
    rcases hN n hn with h1 | ⟨h1, h2⟩ | ⟨h1, h2, h3, h4, -⟩
    · rw [h1]; exact ⟨hb, ht⟩
    · rw [h1] at h2
      rcases h2 with h2 | h2
      · exact absurd h2 hb.1
      · exact absurd h2 hb.2.1
    · exact ⟨by unfold Back; rw [h1]; exact hb, by rw [h4, ht]⟩
  -- the calls on the way
  have hi : ∀ i, Back (feed h i w s) ∧ ((feed h i w s).last = .callback → ∃ u, (feed h i w s).world.log = w.log ++ u ∧
      u <+: t ∧ stops h w.log u = i ∧ (0 < i → AtStop h w.log u)) ∧
      ((feed h i w s).last ≠ .callback → stops h w.log t < i ∧ feed h i w s = feed h (i + N) w s) := by
    intro i
    obtain ⟨hb1, hl1⟩ := hNb (i + N) (by omega)
    by_cases hl : (feed h i w s).last = .callback
    · have hb2 : Back (feed h i w s) := by unfold Back; rw [hl]; exact ⟨nofun, nofun, nofun⟩
      refine ⟨hb2, fun _ => ?_, fun h => absurd hl h⟩
      obtain ⟨u, h1, h2, -⟩ := feed_stops i w s hb2
      obtain ⟨h3, h4⟩ := h2 hl
      refine ⟨u, h1, ?_, h3, h4⟩
      have h5 := feed_add i N w s hl
      rw [h5] at hb1 hl1
      obtain ⟨v, h6, -⟩ := feed_stops N _ _ hb1
      rw [hl1, h1, List.append_assoc, List.append_cancel_left_eq] at h6
      exact ⟨v, h6.symm⟩
    · have h1 := feed_end i N w s hl
      rw [h1] at hb1 hl1
      refine ⟨hb1, fun h => absurd h hl, fun _ => ⟨?_, h1.symm⟩⟩
      obtain ⟨u, h2, -, h3⟩ := feed_stops i w s hb1
      have h4 := h3 hl
      rw [hl1, List.append_cancel_left_eq] at h2
      rwa [h2]
  constructor
  · intro a e b he hf
    have hs : AtStop h w.log (a ++ [e]) := ⟨by simp, by rwa [← List.append_assoc]⟩
    obtain ⟨a', e', -, h1⟩ := hs.last
    obtain ⟨-, h2, h3⟩ := hi (stops h w.log (a ++ [e]))
    have hp : a ++ [e] <+: t := ⟨b, by rw [he]; simp⟩
    by_cases hl : (feed h (stops h w.log (a ++ [e])) w s).last = .callback
    · obtain ⟨u, h4, h5, h6, h7⟩ := h2 hl
      refine ⟨hl, ?_⟩
      rw [h4, stop_unique h5 hp (h7 (by omega)) hs h6, List.append_assoc]
    · have h4 := (h3 hl).1
      obtain ⟨c, hc⟩ := hp
      rw [← hc, stops_append] at h4
      omega
  · intro n hn
    obtain ⟨-, h2, h3⟩ := hi n
    by_cases hl : (feed h n w s).last = .callback
    · obtain ⟨u, -, ⟨c, hc⟩, h6, -⟩ := h2 hl
      rw [← hc, stops_append] at hn
      omega
    · rw [(h3 hl).2]
      exact hN _ (by omega)

/-- The second and the third callback of a request are answered with `false`. -/
example :
    let h : Handler := ⟨fun l => l.length != 2 && l.length != 3, fun _ => none⟩
    let s := b!"GET / HTTP/1.1\r\n\r\nrest"
    Reach anyBoundary .fresh Parser.new ∧ Back (feed h.yes 1 ⟨.new, []⟩ s) ∧
    (feed h.yes 1 ⟨.new, []⟩ s).world.log = [.method b!"GET", .url b!"/", .version 1 1, .initialFinished, .headersFinished] ∧
    stops h [] [.method b!"GET", .url b!"/"] = 1 ∧ (feed h 1 ⟨.new, []⟩ s).world.log = [.method b!"GET", .url b!"/"] ∧
    stops h [] [.method b!"GET", .url b!"/", .version 1 1, .initialFinished, .headersFinished] = 2 ∧
    (feed h 3 ⟨.new, []⟩ s).last = .finished ∧ (feed h 2 ⟨.new, []⟩ s).last = .callback :=
  ⟨.new, ⟨by decide +kernel, by decide +kernel, by decide +kernel⟩, by decide +kernel, by decide +kernel, by decide +kernel,
    by decide +kernel, by decide +kernel, by decide +kernel⟩

/-! ## One part, one chunk at a time -/

theorem goOn_one {w : World} {s : Bytes} {st : Stage} (hr : Reach anyBoundary st w.p)
    (hu : (drive goOn .idle [s.length] w s).last ≠ .ub) :
    feed goOn 1 w s = drive goOn .idle [s.length] w s ∧ (drive goOn .idle [s.length] w s).complete := by
  have hd := C11_resume_returns goOn w s
  simp only [drive, List.take_length] at hu ⊢
  rw [feed]
  rcases h1 : resume goOn w s with ⟨r, w'⟩
  rw [h1] at hu hd
  rcases r with (k | k | k) | e | _ | _ | _
  · obtain ⟨t, -, -, h2⟩ := C17_false_stops goOn w w' s _ h1 (.inl ⟨_, rfl⟩)
    exact absurd (h2 k rfl).2 (by simp [goOn])
  · refine ⟨rfl, ?_⟩
    have := C13_eos_count goOn w w' s hr h1
    show s.drop k = []
    rw [this, List.drop_length]
  · exact ⟨rfl, trivial⟩
  · exact ⟨rfl, trivial⟩
  · exact ⟨rfl, trivial⟩
  · exact absurd rfl hu
  · exact absurd rfl hd

/-- A client that stops where something begins: after `i` calls, everything before the next beginning was read. -/
theorem begins {e : Ev} (hd : isData e = false) {p : Parser} {s : Bytes} {st : Stage} (hr : Reach anyBoundary st p)
    {F : List Ev} {rest : Bytes} (h1 : (feed goOn 1 ⟨p, []⟩ s).last = .finished)
    (h2 : (feed goOn 1 ⟨p, []⟩ s).rest = rest) (h3 : flat (feed goOn 1 ⟨p, []⟩ s).world.log = flat F) :
    (∀ X Y, F = X ++ e :: Y → 0 < X.count e → (feed (pausesAt e) (X.count e) ⟨p, []⟩ s).last = .callback ∧
      flat (feed (pausesAt e) (X.count e) ⟨p, []⟩ s).world.log = flat (X ++ [e])) ∧
    ∀ n, F.count e ≤ n → 0 < n → (feed (pausesAt e) n ⟨p, []⟩ s).last = .finished ∧
      (feed (pausesAt e) n ⟨p, []⟩ s).rest = rest ∧ flat (feed (pausesAt e) n ⟨p, []⟩ s).world.log = flat F := by
  have hg : (pausesAt e).yes = goOn := rfl
  have e1 : flatEv e = [e] := by cases e <;> first | rfl | cases hd
  obtain ⟨H1, H2⟩ := C86_call_by_call (pausesAt e) ⟨p, []⟩ s hr (feed goOn 1 ⟨p, []⟩ s).world.log
    (by rw [hg]; unfold Back; rw [h1]; exact ⟨nofun, nofun, nofun⟩) (by rw [hg]; rfl)
  constructor
  · intro X Y hF hc
    have h4 : flat F = flat X ++ e :: flat Y := by rw [hF]; simp [flat, e1]
    rw [h4] at h3
    obtain ⟨a, b, h4, h5, h6⟩ := flat_nonempty_split hd h3
    have h7 : a.count e = X.count e := by rw [← count_flat hd a, h5, count_flat hd]
    have h8 := stops_count (e := e) (a ++ [e]) []
    simp only [List.nil_append, List.count_append, List.count_nil, List.count_singleton_self, h7] at h8
    have := H1 a e b h4 (by
      simp only [pausesAt, Bool.not_eq_false', Bool.and_eq_true, decide_eq_true_eq, List.nil_append, List.count_append,
        List.count_singleton_self, h7]
      exact ⟨by simp, by omega⟩)
    rw [show stops (pausesAt e) (⟨p, []⟩ : World).log (a ++ [e]) = X.count e from h8.trans (by omega)] at this
    refine ⟨this.1, ?_⟩
    rw [this.2, List.nil_append]
    show flat (a ++ [e]) = flat (X ++ [e])
    simp only [flat, List.flatMap_append]
    exact congrArg (· ++ _) h5
  · intro n hn h0
    have h8 := stops_count (e := e) (feed goOn 1 ⟨p, []⟩ s).world.log []
    rw [List.nil_append, ← count_flat hd, h3, count_flat hd] at h8
    have := H2 n (by
      show stops (pausesAt e) [] _ < n
      rw [h8]; simp; omega)
    rw [hg] at this
    rcases this with h4 | ⟨h4, h5⟩ | ⟨h4, -, -, h5, h6, -⟩
    · rw [h4]; exact ⟨h1, h2, h3⟩
    · rw [h4, h1] at h5
      rcases h5 with h5 | h5 <;> cases h5
    · rw [h4, h5, h6]; exact ⟨h1, h2, h3⟩

theorem count_headers (ys : List Header) {e : Ev} (h : e = .multipartBegin ∨ e = .chunkBegin) :
    (ys.flatMap Header.events).count e = 0 := by
  rw [List.count_eq_zero]
  intro hm
  obtain ⟨y, -, hm⟩ := List.mem_flatMap.1 hm
  rcases h with rfl | rfl <;> simp [Header.events] at hm

theorem partsOK_none (bd : Bytes) : ∀ (ps : List Part) (l : List Ev),
    (∀ x ∈ ps, (∀ y ∈ x.headers, y.OK) ∧ Delimited bd x.data) → PartsOK (fun _ => none) bd l ps
  | [], _, _ => trivial
  | x :: ps, l, h =>
    ⟨(h x (by simp)).1, fun _ _ => ⟨nofun, fun _ => (h x (by simp)).2⟩, partsOK_none bd ps _ fun y hy => h y (by simp [hy])⟩

theorem count_parts : ∀ (ps : List Part), (ps.flatMap Part.events).count .multipartBegin = ps.length
  | [] => rfl
  | x :: ps => by
    have h1 := count_headers x.headers (e := .multipartBegin) (.inl rfl)
    have h2 := count_parts ps
    simp only [List.flatMap_cons, List.count_append, Part.events, Part.headEvents, List.count_cons, h1, h2]
    simp; omega

/-- **C86**, multipart: a handler that stops when a part begins, except for the first (as in tests/http1_multipart.rs),
reads one part per call: the `i`-th call returns `Callback` when exactly `i` parts have been read and the next one
begins, and the call for the last part returns `Finished`.
Missing: well-formed bodies with data that hides the boundary (`C36_line_end_before_boundary`), where
the code does not see the next part; boundaries with CR or of 2^14 bytes or more. -/
theorem C86_multipart_partial {st : Stage} (q : Parser) (hq : Reach anyBoundary st q) (bd : Bytes) (hb : bd.length < 16384)
    (hb' : c! '\r' ∉ bd) (ps : List Part) (hp : ∀ x ∈ ps, (∀ y ∈ x.headers, y.OK) ∧ Delimited bd x.data) (rest : Bytes)
    (i : Nat) (hi : 0 < i) :
    let o := feed (pausesAt .multipartBegin) i ⟨(q.init .multipart).setBoundary bd, []⟩ (writeParts bd ps ++ rest)
    if i < ps.length then
      o.last = .callback ∧ flat o.world.log = flat ((ps.take i).flatMap Part.events ++ [.multipartBegin])
    else o.last = .finished ∧ o.rest = rest ∧ flat o.world.log = flat (ps.flatMap Part.events ++ [.bodyFinished]) := by
  intro o
  have hr : Reach anyBoundary .ready ((q.init .multipart).setBoundary bd) := .setBoundary (.init hq _) _ trivial
  have hu : (drive goOn .idle [(writeParts bd ps ++ rest).length] ⟨(q.init .multipart).setBoundary bd, []⟩
      (writeParts bd ps ++ rest)).last ≠ .ub := by
    obtain ⟨cl, cl', -, -, -, H⟩ := multipart_sim goOn q [] bd hb hb' (writeParts bd ps ++ rest).length []
      (writeParts bd ps ++ rest)
    intro h
    simp only [DriveSim, h] at H
  obtain ⟨h1, h2⟩ := goOn_one hr hu
  obtain ⟨h3, h4, h5⟩ := C36_multipart_round_trip_partial goOn q [] bd hb hb' ps (partsOK_none bd ps [] hp) rest _ [] h2
  rw [← h1] at h3 h4 h5
  rw [List.nil_append] at h5
  obtain ⟨H1, H2⟩ := begins (e := .multipartBegin) rfl hr h3 h4 h5
  split
  · rename_i hlt
    have h6 : ps.drop i = ps[i] :: ps.drop (i + 1) := List.drop_eq_getElem_cons hlt
    have h9 : ps.flatMap Part.events = (ps.take i).flatMap Part.events ++ (ps[i] :: ps.drop (i + 1)).flatMap Part.events := by
      rw [← List.flatMap_append, ← h6, List.take_append_drop]
    have h7 := count_parts (ps.take i)
    rw [List.length_take, Nat.min_eq_left (by omega)] at h7
    have h8 := H1 ((ps.take i).flatMap Part.events) _ (by
      rw [h9]
      simp only [List.flatMap_cons, Part.events, Part.headEvents, List.cons_append, List.append_assoc]; rfl) (by omega)
    rw [h7] at h8
    exact h8
  · rename_i hge
    exact H2 i (by rw [List.count_append, count_parts]; simp; omega) hi

theorem exParts_two : ∀ x ∈ [(⟨[⟨b!"A", b!" ", b!"b", []⟩], b!"x\r\n--Xy"⟩ : Part), ⟨[], b!"more"⟩],
    (∀ y ∈ x.headers, y.OK) ∧ Delimited b!"XyZ" x.data := by
  intro x hx
  simp only [List.mem_cons, List.not_mem_nil, or_false] at hx
  rcases hx with rfl | rfl
  · refine ⟨?_, by decide, by decide, by decide, by decide⟩
    intro y hy
    simp only [List.mem_singleton] at hy
    subst hy
    exact ⟨⟨by decide, by decide⟩, by decide, .byte (by decide) (by decide) .nil, ⟨_, _, rfl, by decide⟩, by simp⟩
  · exact ⟨by simp, by decide, by decide, by decide, by decide⟩

/-- Two parts in two calls. -/
example :
    let o i := feed (pausesAt .multipartBegin) i ⟨(Parser.new.init .multipart).setBoundary b!"XyZ", []⟩
      (writeParts b!"XyZ" [⟨[⟨b!"A", b!" ", b!"b", []⟩], b!"x\r\n--Xy"⟩, ⟨[], b!"more"⟩] ++ b!"rest")
    Reach anyBoundary .fresh .new ∧ (o 1).last = .callback ∧ (o 2).last = .finished ∧ (o 2).rest = b!"rest" :=
  ⟨.new, by decide +kernel⟩

/-! ## Chunks -/

theorem count_chunks : ∀ (cs : List Chunk), (cs.flatMap Chunk.events).count .chunkBegin = cs.length
  | [] => rfl
  | x :: cs => by
    have h1 : (x.extensions.flatMap Extension.events).count .chunkBegin = 0 := by
      rw [List.count_eq_zero]
      intro hm
      obtain ⟨y, -, hm⟩ := List.mem_flatMap.1 hm
      cases h : y.value <;> simp [Extension.events, h] at hm
    have h2 := count_chunks cs
    simp only [List.flatMap_cons, List.count_append, Chunk.events, List.count_cons, h1, h2]
    simp; omega

/-- **C86**, chunked: a handler that stops when a chunk begins, except for the first (as in tests/http1_chunk_encoded.rs),
reads one chunk per call: the `i`-th call returns `Callback` when exactly `i` chunks have been read and the next one
(maybe the last, empty one) begins, and the call for the last, empty chunk and the trailers returns `Finished`.
Missing: well-formed bodies that the code does not accept (`C32_fails`, `C35_fails`). -/
theorem C86_chunked_partial {st : Stage} (q : Parser) (hq : Reach anyBoundary st q) (x : ChunkedBody) (hx : x.OK) (rest : Bytes)
    (i : Nat) (hi : 0 < i) :
    let o := feed (pausesAt .chunkBegin) i ⟨q.init .chunked, []⟩ (x.write ++ rest)
    if i ≤ x.chunks.length then
      o.last = .callback ∧ flat o.world.log = flat ((x.chunks.take i).flatMap Chunk.events ++ [.chunkBegin])
    else o.last = .finished ∧ o.rest = rest ∧ flat o.world.log = flat x.events := by
  intro o
  have hr : Reach anyBoundary .ready (q.init .chunked) := .init hq _
  have hu : (drive goOn .idle [(x.write ++ rest).length] ⟨q.init .chunked, []⟩ (x.write ++ rest)).last ≠ .ub := by
    have H := chunked_sim goOn q [] (x.write ++ rest).length [] (x.write ++ rest)
    intro h
    simp only [DriveSim, h] at H
  obtain ⟨h1, h2⟩ := goOn_one hr hu
  obtain ⟨h3, h4, h5⟩ := C32_chunked_round_trip_partial goOn q [] x hx rest _ [] h2
  rw [← h1] at h3 h4 h5
  rw [List.nil_append] at h5
  obtain ⟨H1, H2⟩ := begins (e := .chunkBegin) rfl hr h3 h4 h5
  split
  · rename_i hle
    have h7 := count_chunks (x.chunks.take i)
    rw [List.length_take, Nat.min_eq_left (by omega)] at h7
    have h9 : ∃ Y, x.events = (x.chunks.take i).flatMap Chunk.events ++ .chunkBegin :: Y := by
      rcases Nat.lt_or_ge i x.chunks.length with hlt | hge
      · have h6 : x.chunks.drop i = x.chunks[i] :: x.chunks.drop (i + 1) := List.drop_eq_getElem_cons hlt
        have h9 : x.chunks.flatMap Chunk.events = (x.chunks.take i).flatMap Chunk.events ++
            (x.chunks[i] :: x.chunks.drop (i + 1)).flatMap Chunk.events := by
          rw [← List.flatMap_append, ← h6, List.take_append_drop]
        refine ⟨x.chunks[i].events.tail ++ (x.chunks.drop (i + 1)).flatMap Chunk.events ++ [.chunkBegin, .chunkLength 0] ++
          x.trailers.flatMap Header.events ++ [.headersFinished, .bodyFinished], ?_⟩
        rw [ChunkedBody.events, h9]
        simp only [List.flatMap_cons, Chunk.events, List.cons_append, List.append_assoc, List.tail_cons, List.nil_append]
      · refine ⟨.chunkLength 0 :: (x.trailers.flatMap Header.events ++ [.headersFinished, .bodyFinished]), ?_⟩
        rw [ChunkedBody.events, List.take_of_length_le hge]
        simp
    obtain ⟨Y, h9⟩ := h9
    have h8 := H1 _ Y h9 (by omega)
    rw [h7] at h8
    exact h8
  · rename_i hge
    refine H2 i ?_ hi
    rw [ChunkedBody.events]
    simp only [List.count_append, count_chunks, count_headers x.trailers (e := .chunkBegin) (.inr rfl)]
    simp; omega

/-- The body of C32: two chunks and the trailers in three calls. -/
example : exBody.OK ∧
    let o i := feed (pausesAt .chunkBegin) i ⟨Parser.new.init .chunked, []⟩ (exBody.write ++ b!"rest")
    (o 1).last = .callback ∧ (o 2).last = .callback ∧ (o 3).last = .finished ∧ (o 3).rest = b!"rest" ∧
    (o 1).world.log = [.chunkBegin, .chunkLength 5, .chunkExtensionsFinished, .chunkData b!"hello", .chunkBegin] :=
  ⟨exBody_ok, by decide +kernel⟩

end Verif.Http1
