import Verif.Props.Http1Pauses
import Verif.Props.Http1AcceptChunked
import Verif.Props.Http1AcceptMultipart

/-!
# C86 for every accepted body

One part, one chunk at a time, for every body that the parser accepts (the grammars of C52 and C67).
-/

namespace Verif.Http1

theorem count_lines (ys : List Line) {e : Ev} (h : e = .multipartBegin ∨ e = .chunkBegin) :
    (ys.flatMap Line.events).count e = 0 := by
  rw [List.count_eq_zero]
  intro hm
  obtain ⟨y, -, hm⟩ := List.mem_flatMap.1 hm
  rcases h with rfl | rfl <;> cases y <;> simp [Line.events] at hm

theorem count_loose : ∀ (ps : List LoosePart), (ps.flatMap LoosePart.events).count .multipartBegin = ps.length
  | [] => rfl
  | x :: ps => by
    have h1 := count_lines x.lines (e := .multipartBegin) (.inl rfl)
    have h2 := count_loose ps
    simp only [List.flatMap_cons, List.count_append, LoosePart.events, LoosePart.headEvents, List.count_cons, h1, h2]
    simp; omega

/-- **C86**, every accepted multipart body: a handler that stops when a part begins, except for the first, reads one part
per call: the `i`-th call returns `Callback` when exactly `i` parts have been read and the next one begins, and the call
for the last part returns `Finished`.
Missing: as for `C86_multipart_partial`. -/
theorem C86_any_multipart_partial {st : Stage} (q : Parser) (hq : Reach anyBoundary st q) (bd : Bytes) (hb : bd.length < 16384)
    (hb' : c! '\r' ∉ bd) (ps : List LoosePart) (hp : LooseParts (fun _ => none) bd [] ps) (rest : Bytes)
    (i : Nat) (hi : 0 < i) :
    let o := feed (pausesAt .multipartBegin) i ⟨(q.init .multipart).setBoundary bd, []⟩ (writeLoose bd ps ++ rest)
    if i < ps.length then
      o.last = .callback ∧ flat o.world.log = flat ((ps.take i).flatMap LoosePart.events ++ [.multipartBegin])
    else o.last = .finished ∧ o.rest = rest ∧ flat o.world.log = flat (ps.flatMap LoosePart.events ++ [.bodyFinished]) := by
  intro o
  have hr : Reach anyBoundary .ready ((q.init .multipart).setBoundary bd) := .setBoundary (.init hq _) _ trivial
  have hu : (drive goOn .idle [(writeLoose bd ps ++ rest).length] ⟨(q.init .multipart).setBoundary bd, []⟩
      (writeLoose bd ps ++ rest)).last ≠ .ub := by
    obtain ⟨cl, cl', -, -, -, H⟩ := multipart_sim goOn q [] bd hb hb' (writeLoose bd ps ++ rest).length []
      (writeLoose bd ps ++ rest)
    intro h
    simp only [DriveSim, h] at H
  obtain ⟨h1, h2⟩ := goOn_one hr hu
  have hps : ∀ cl, CanTell goOn [] cl → LooseParts cl bd [] ps := by
    intro cl hc
    obtain rfl : cl = fun _ => none := by
      funext es
      obtain ⟨p, -, h⟩ := hc es
      rw [h]; rfl
    exact hp
  obtain ⟨h3, h4, h5⟩ := C67_all_multipart_accepted goOn q [] bd hb hb' ps hps rest _ [] h2
  unfold mpRun at h3 h4 h5
  rw [← h1] at h3 h4 h5
  rw [List.nil_append] at h5
  obtain ⟨H1, H2⟩ := begins (e := .multipartBegin) rfl hr h3 h4 h5
  split
  · rename_i hlt
    have h6 : ps.drop i = ps[i] :: ps.drop (i + 1) := List.drop_eq_getElem_cons hlt
    have h7 := count_loose (ps.take i)
    rw [List.length_take, Nat.min_eq_left (by omega)] at h7
    have h9 : ps.flatMap LoosePart.events = (ps.take i).flatMap LoosePart.events ++
        (ps[i] :: ps.drop (i + 1)).flatMap LoosePart.events := by
      rw [← List.flatMap_append, ← h6, List.take_append_drop]
    have h8 := H1 ((ps.take i).flatMap LoosePart.events)
      (ps[i].events.tail ++ (ps.drop (i + 1)).flatMap LoosePart.events ++ [.bodyFinished])
      (by
        rw [h9]
        simp only [List.flatMap_cons, LoosePart.events, LoosePart.headEvents, List.cons_append, List.append_assoc, List.tail_cons])
      (by omega)
    rw [h7] at h8
    exact h8
  · rename_i hge
    refine H2 i ?_ hi
    rw [List.count_append, count_loose]
    simp; omega

/-- Two parts: folded lines, a field without a name, and data with pieces of delimiters. -/
def exTwoParts : List LoosePart :=
  [⟨[.fold (c! ' ') b!"x", .field b!"" b!"" b!"v"], b!"a\r\r\n-b\r\n--Xy\r\n--X"⟩, ⟨[], b!"z"⟩]

theorem exTwoParts_ok : LooseParts (fun _ => none) b!"XyZ" [] exTwoParts := by
  refine ⟨?_, nofun, ?_, ?_, nofun, ?_, trivial⟩
  · intro y hy
    simp only [List.mem_cons, List.not_mem_nil, or_false] at hy
    rcases hy with rfl | rfl
    · exact ⟨.inl rfl, .byte (by decide) (by decide) .nil⟩
    · exact ⟨by decide, by decide, .byte (by decide) (by decide) .nil, _, _, rfl, by decide⟩
  · intro _
    exact .byte (by decide) (.cr (b := c! '\r') (by decide) (.byte (by decide) (.byte (by decide) (.byte (by decide)
      (.bound (bd := b!"XyZ") (i := 2) (d := b!"\r\n--X") (by decide) (by decide)
        (.bound (bd := b!"XyZ") (i := 1) (d := []) (by decide) (by decide) .nil))))))
  · simp
  · exact fun _ => .byte (by decide) .nil

example : LooseParts (fun _ => none) b!"XyZ" [] exTwoParts ∧
    let o i := feed (pausesAt .multipartBegin) i ⟨(Parser.new.init .multipart).setBoundary b!"XyZ", []⟩
      (writeLoose b!"XyZ" exTwoParts ++ b!"rest")
    (o 1).last = .callback ∧ (o 2).last = .finished ∧ (o 2).rest = b!"rest" :=
  ⟨exTwoParts_ok, by decide +kernel⟩

/-- **C86**, every accepted chunked body: a handler that stops when a chunk begins, except for the first, reads one chunk
per call: the `i`-th call returns `Callback` when exactly `i` chunks have been read and the next one (maybe the last,
empty one) begins, and the call for the last, empty chunk and the trailers returns `Finished`.
Missing: as for `C86_chunked_partial`. -/
theorem C86_any_chunked_partial {st : Stage} (q : Parser) (hq : Reach anyBoundary st q) (x : LooseBody) (hx : x.OK) (rest : Bytes)
    (i : Nat) (hi : 0 < i) :
    let o := feed (pausesAt .chunkBegin) i ⟨q.init .chunked, []⟩ (x.write ++ rest)
    if i ≤ x.chunks.length then
      o.last = .callback ∧ flat o.world.log = flat ((x.chunks.take i).flatMap Chunk.events ++ [.chunkBegin])
    else o.last = .finished ∧ o.rest = rest ∧ flat o.world.log = flat x.events := by
  intro o
  have hr : Reach anyBoundary .ready (q.init .chunked) := .init hq _
  have hu : (drive goOn .idle [(x.write ++ rest).length] ⟨q.init .chunked, []⟩ (x.write ++ rest)).last ≠ .ub := by
    have H := chunked_sim goOn q [] (x.write ++ rest).length [] (x.write ++ rest)
    intro h
    simp only [DriveSim, h] at H
  obtain ⟨h1, h2⟩ := goOn_one hr hu
  obtain ⟨h3, h4, h5⟩ := C52_all_chunked_accepted goOn q [] x hx rest _ [] h2
  rw [← h1] at h3 h4 h5
  rw [List.nil_append] at h5
  obtain ⟨H1, H2⟩ := begins (e := .chunkBegin) rfl hr h3 h4 h5
  split
  · rename_i hle
    have h7 := count_chunks (x.chunks.take i)
    rw [List.length_take, Nat.min_eq_left (by omega)] at h7
    have h9 : ∃ Y, x.events = (x.chunks.take i).flatMap Chunk.events ++ .chunkBegin :: Y := by
      rcases Nat.lt_or_ge i x.chunks.length with hlt | hge
      · have h6 : x.chunks.drop i = x.chunks[i] :: x.chunks.drop (i + 1) := List.drop_eq_getElem_cons hlt
        have h9 : x.chunks.flatMap Chunk.events = (x.chunks.take i).flatMap Chunk.events ++
            (x.chunks[i] :: x.chunks.drop (i + 1)).flatMap Chunk.events := by
          rw [← List.flatMap_append, ← h6, List.take_append_drop]
        refine ⟨x.chunks[i].events.tail ++ (x.chunks.drop (i + 1)).flatMap Chunk.events ++ [.chunkBegin, .chunkLength 0] ++
          x.trailer.flatMap Line.events ++ [.headersFinished, .bodyFinished], ?_⟩
        rw [LooseBody.events, h9]
        simp only [List.flatMap_cons, Chunk.events, List.cons_append, List.append_assoc, List.tail_cons, List.nil_append]
      · refine ⟨.chunkLength 0 :: (x.trailer.flatMap Line.events ++ [.headersFinished, .bodyFinished]), ?_⟩
        rw [LooseBody.events, List.take_of_length_le hge]
        simp
    obtain ⟨Y, h9⟩ := h9
    have h8 := H1 _ Y h9 (by omega)
    rw [h7] at h8
    exact h8
  · rename_i hge
    refine H2 i ?_ hi
    rw [LooseBody.events]
    simp only [List.count_append, count_chunks, count_lines x.trailer (e := .chunkBegin) (.inr rfl)]
    simp; omega

/-- The body of C52: a chunk with odd extensions, an empty one with an extension, and a folded trailer. -/
example : exLoose.OK ∧
    let o i := feed (pausesAt .chunkBegin) i ⟨Parser.new.init .chunked, []⟩ (exLoose.write ++ b!"rest")
    (o 1).last = .callback ∧ (o 2).last = .callback ∧ (o 3).last = .finished ∧ (o 3).rest = b!"rest" :=
  ⟨exLoose_ok, by decide +kernel⟩

end Verif.Http1
