import Verif.Http1.ChunkProgramRun
import Verif.Http1.JoinRun
import Verif.Props.Http1Accept
import Verif.Props.Http1PausesAny

/-!
# What the test programs do with any bytes (helper lemmas)
-/

namespace Verif.Http1

/-! ## Heads -/

theorem head_length {x : Head} (hx : x.OK) : 9 ≤ x.write.length := by
  have h := hx.start
  rcases x with ⟨x | x, ls⟩
  · obtain ⟨⟨h1, -⟩, ⟨h2, -⟩, -⟩ := h
    have h1 := List.length_pos_iff.2 h1
    have h2 := List.length_pos_iff.2 h2
    simp only [Head.write, StartLine.write, List.length_append]
    simp
    omega
  · obtain ⟨-, -, ⟨h1, -⟩, -⟩ := h
    simp only [Head.write, StartLine.write, List.length_append]
    simp
    omega

theorem ready_new {d : Bytes} (h : 9 ≤ d.length) : Ready .new d d.length := by
  refine .inr ⟨rfl, ?_, .inl ?_⟩
  · rw [List.take_length]; intro h'; rw [h'] at h; simp at h
  · rw [List.take_length]; exact h

/-- A call that finishes, as a run. -/
theorem drive_one {w w' : World} {d : Bytes} {k : Nat} {h : Handler} (hr : resume h w d = (.ok (.finished k), w')) :
    drive h .idle [d.length] w d = ⟨.finished, w', d.drop k⟩ := by
  simp only [drive, List.take_length, hr]

/-- One call for a whole accepted head. -/
theorem any_head_call (x : Head) (hx : x.OK) (rest : Bytes) : ∃ k w,
    resume goOn ⟨.new, []⟩ (x.write ++ rest) = (.ok (.finished k), w) ∧ (x.write ++ rest).drop k = rest := by
  have hr := ready_new (d := x.write ++ rest) (by have := head_length hx; rw [List.length_append]; omega)
  have hu : (drive goOn .idle [(x.write ++ rest).length] ⟨.new, []⟩ (x.write ++ rest)).last ≠ .ub := by
    have H := run_sim bdOK_none (clOK_of (by decide)) (h := goOn) (x.write ++ rest).length [] (hr.start [])
    intro h
    simp only [DriveSim, h] at H
  obtain ⟨h1, h2⟩ := goOn_one (w := ⟨.new, []⟩) .new hu
  obtain ⟨h3, h4, -⟩ := C50_all_heads_accepted goOn .new [] [] x rest (by simp) (fun _ => rfl) hx _ [] hr h2
  simp only [List.nil_append] at h3 h4
  rw [← h1] at h3 h4
  rw [feed] at h3 h4
  rcases hres : resume goOn ⟨.new, []⟩ (x.write ++ rest) with ⟨r, w⟩
  rw [hres] at h3 h4
  rcases r with (k | k | k) | e | _ | _ | _
  · cases h3
  · cases h3
  · exact ⟨k, w, rfl, h4⟩
  all_goals cases h3

/-- What a call that finishes has read. -/
theorem any_head_inv {d : Bytes} (hd : 9 ≤ d.length) {k : Nat} {w : World}
    (hr : resume goOn ⟨.new, []⟩ d = (.ok (.finished k), w)) : ∃ x : Head, x.OK ∧ d = x.write ++ d.drop k := by
  have h1 := drive_one hr
  obtain ⟨bl, x, -, h2, h3, h4, -⟩ := C50_only_heads_accepted_partial goOn .new [] d d.length [] (ready_new hd) (by rw [h1])
  rw [h1] at h4
  rw [h2 rfl, List.nil_append] at h4
  exact ⟨x, h3, h4⟩

/-! ## The header fields -/

namespace Form

open Doc (put get_put)

theorem collect_more (s : Collect) (v : Bytes) (l : List Ev) :
    s.onAll (flatEv (.headerValue v) ++ l) =
      Collect.onAll { s with state := if v = [] then s.state else .headerValue, valueBuf := s.valueBuf ++ v } l := by
  by_cases hv : v = []
  · subst hv; simp [flatEv]
  · rw [collect_append, collect_flat s (.headerValue v) ⟨nofun, by simpa using hv⟩]
    simp [Collect.on, hv]

theorem collect_lines : ∀ (ls : List Line) (s : Collect), (∀ y ∈ ls, y.OK) →
    (s.state ≠ .headerValue → s.nameBuf = [] ∧ s.valueBuf = []) →
    let r := s.onAll (flat (ls.flatMap Line.events ++ [.headersFinished]))
    r.headers = put (Collect.flush { s with valueBuf := s.valueBuf ++ (joined ls).1 }).headers (joined ls).2 ∧
    r.nameBuf = [] ∧ r.valueBuf = []
  | [], s, _, hs => by
    simp only [joined, List.append_nil]
    exact ⟨rfl, rfl, rfl⟩
  | .fold b v :: ls, s, hy, hs => by
    rw [show flat ((Line.fold b v :: ls).flatMap Line.events ++ [.headersFinished]) =
      flatEv (.headerValue v) ++ flat (ls.flatMap Line.events ++ [.headersFinished]) from rfl, collect_more]
    have H := collect_lines ls { s with state := if v = [] then s.state else .headerValue, valueBuf := s.valueBuf ++ v }
      (fun y h => hy y (by simp [h])) (by
        by_cases hv : v = []
        · subst hv; simpa using hs
        · simp [hv])
    simp only [List.append_assoc] at H
    exact H
  | .field n bl v :: ls, s, hy, hs => by
    obtain ⟨hn, -, -, b0, w0, e0, -⟩ := hy (.field n bl v) (by simp)
    have hv : v ≠ [] := by rw [e0]; simp
    rw [show flat ((Line.field n bl v :: ls).flatMap Line.events ++ [.headersFinished]) =
      flatEv (.headerName (Verif.lower n)) ++ (flatEv (.headerValue v) ++
        flat (ls.flatMap Line.events ++ [.headersFinished])) from by simp [flat, Line.events]]
    by_cases hn0 : n = []
    · subst hn0
      rw [show flatEv (.headerName (Verif.lower [])) = [] from rfl, List.nil_append, collect_more]
      have H := collect_lines ls { s with state := if v = [] then s.state else .headerValue, valueBuf := s.valueBuf ++ v }
        (fun y h => hy y (by simp [h])) (by simp [hv])
      simp only [List.append_assoc] at H
      exact H
    · have hl : Verif.lower n ≠ [] := fun h => hn0 (List.map_eq_nil_iff.1 h)
      have h1 : s.on (.headerName (Verif.lower n)) = { s.flush with nameBuf := Verif.lower n, state := .headerName } := by
        simp only [Collect.on]
        by_cases h : s.state = .headerValue
        · rw [if_pos h]; simp [Collect.flush]
        · obtain ⟨h1, h2⟩ := hs h
          rw [if_neg h]; simp [Collect.flush, h1, h2]
      rw [collect_append, collect_flat s (.headerName (Verif.lower n)) ⟨by simpa using hl, nofun⟩, h1, collect_more]
      obtain ⟨H1, H2, H3⟩ := collect_lines ls
        ⟨s.flush.headers, Verif.lower n, if v = [] then .headerName else .headerValue, s.flush.valueBuf ++ v⟩
        (fun y h => hy y (by simp [h])) (by simp [hv])
      refine ⟨H1.trans ?_, H2, H3⟩
      simp only [joined, if_neg hn0, List.append_nil]
      have hp : (Verif.lower n).length > 0 ∧ (v ++ (joined ls).1).length > 0 :=
        ⟨List.length_pos_iff.2 hl, by rw [e0]; simp⟩
      have e : s.flush.valueBuf = [] := rfl
      rw [e, List.nil_append]
      conv_lhs => rw [Collect.flush]
      simp only [if_pos hp]
      rfl

end Form

/-! ## Chunked bodies -/

namespace Chunks

open Form (Collect Solid solid_of_flat collect_lines feed_one_callback feed_one_finished)

/-- What the program stores for the last chunk. -/
def ReadsEnd (r : State) (ys : List Line) : Prop :=
  r.length = 0 ∧ r.data = [] ∧ r.extensions = [] ∧ ∀ n, r.fields.headers.get n = lastOf (joined ys).2 n

theorem any_last_read (st : State) (hst : st.Clear) (ys : List Line) (hy : ∀ y ∈ ys, y.OK) (t : List Ev)
    (ht : ∀ e ∈ t, flatEv e ≠ []) (pre : List Ev) (hp : pre = [] ∨ pre = [.chunkBegin])
    (he : flat t = flat (pre ++ [.chunkLength 0] ++ (ys.flatMap Line.events ++ [.headersFinished]) ++ [.bodyFinished])) :
    ReadsEnd (st.onAll t) ys := by
  obtain ⟨h1, h2, h3, h4, h5, h6⟩ := hst
  obtain ⟨g1, g2, g3⟩ := collect_lines ys st.fields hy fun _ => ⟨h5, h6⟩
  have h8 : (Collect.flush { st.fields with valueBuf := st.fields.valueBuf ++ (joined ys).1 }).headers = [] := by
    simp [Collect.flush, h4, h5]
  have key : ∃ c, st.onAll t = ⟨c, [], [], 0, st.fields.onAll (flat (ys.flatMap Line.events ++ [.headersFinished]))⟩ := by
    have fa : ∀ a b : List Ev, flat (a ++ b) = flat a ++ flat b := fun a b => List.flatMap_append
    rw [← flat_all t st fun e h => solid_of_flat (ht e h), he, fa, fa]
    have e1 : ∃ c, st.onAll (flat (pre ++ [.chunkLength 0])) = ⟨c, [], [], 0, st.fields⟩ := by
      rcases hp with rfl | rfl
      · exact ⟨st.count, by simp [flat, flatEv, State.onAll, State.on, h1, h2]⟩
      · exact ⟨st.count + 1, by simp [flat, flatEv, State.onAll, State.on, h1, h2]⟩
    obtain ⟨c, e1⟩ := e1
    refine ⟨c, ?_⟩
    have e2 : ∀ e ∈ flat (ys.flatMap Line.events ++ [.headersFinished]), ∀ s, State.on s e = { s with fields := s.fields.on e } := by
      intro e hm s
      obtain ⟨e', hm', hm⟩ := List.mem_flatMap.1 hm
      rcases List.mem_append.1 hm' with hm' | hm'
      · obtain ⟨y, -, hm'⟩ := List.mem_flatMap.1 hm'
        cases y <;> simp only [Line.events, List.mem_cons, List.not_mem_nil, or_false] at hm'
        · rcases hm' with rfl | rfl <;>
            (simp only [flatEv, List.mem_map] at hm; obtain ⟨b, -, rfl⟩ := hm; rfl)
        · subst hm'
          simp only [flatEv, List.mem_map] at hm; obtain ⟨b, -, rfl⟩ := hm; rfl
      · rw [List.mem_singleton] at hm'; subst hm'
        simp only [flatEv, List.mem_singleton] at hm; subst hm; rfl
    rw [append, append, e1, fields_all _ _ e2]
    rfl
  obtain ⟨c, hc⟩ := key
  rw [hc]
  refine ⟨rfl, rfl, rfl, fun n => ?_⟩
  show (st.fields.onAll _).headers.get n = _
  rw [g1, h8, Doc.get_put]
  cases lastOf (joined ys).2 n <;> rfl

theorem any_entries_read (x : LooseBody) (hx : x.OK) (rest : Bytes) :
    let o i := feed handler i ⟨Parser.new.init .chunked, []⟩ (x.write ++ rest)
    ∀ (j i n : Nat) (st : State), i + j = x.chunks.length → j < n → st.Clear →
      ∃ L r, entries n (o i).world (o i).rest st = some (L ++ [r]) ∧ List.Forall₂ Reads L (x.chunks.drop i) ∧
        ReadsEnd r x.trailer := by
  intro o j
  have hC : ∀ i, 0 < i → if i ≤ x.chunks.length then
      (o i).last = .callback ∧ flat (o i).world.log = flat ((x.chunks.take i).flatMap Chunk.events ++ [.chunkBegin])
      else (o i).last = .finished ∧ (o i).rest = rest ∧ flat (o i).world.log = flat x.events := by
    intro i hi
    have := C86_any_chunked_partial Parser.new .new x hx rest i hi
    rw [← handler_eq] at this
    exact this
  have fa : ∀ a b : List Ev, flat (a ++ b) = flat a ++ flat b := fun a b => List.flatMap_append
  have hcb : ∀ i, i ≤ x.chunks.length → (o i).last = .callback := by
    intro i hle
    rcases Nat.eq_zero_or_pos i with rfl | hi
    · rfl
    · have := hC i hi; rw [if_pos hle] at this; exact this.1
  have hlog : ∀ i, i ≤ x.chunks.length → (i = 0 ∧ (o i).world.log = []) ∨
      flat (o i).world.log = flat ((x.chunks.take i).flatMap Chunk.events ++ [.chunkBegin]) := by
    intro i hle
    rcases Nat.eq_zero_or_pos i with rfl | hi
    · exact .inl ⟨rfl, rfl⟩
    · have := hC i hi; rw [if_pos hle] at this; exact .inr this.2
  have hpiece : ∀ i, i ≤ x.chunks.length → feed handler 1 (o i).world (o i).rest = o (i + 1) ∧
      ∃ t, (o (i + 1)).world.log = (o i).world.log ++ t ∧ ∀ e ∈ t, flatEv e ≠ [] := by
    intro i hle
    have hstep : feed handler 1 (o i).world (o i).rest = o (i + 1) := (feed_add i 1 _ _ (hcb i hle)).symm
    refine ⟨hstep, ?_⟩
    have hB : Back (o (i + 1)) := by
      have := hC (i + 1) (by omega)
      split at this
      · unfold Back; rw [this.1]; exact ⟨nofun, nofun, nofun⟩
      · unfold Back; rw [this.1]; exact ⟨nofun, nofun, nofun⟩
    obtain ⟨t, ht, -⟩ := feed_stops 1 (o i).world (o i).rest (by rw [hstep]; exact hB)
    rw [hstep] at ht
    exact ⟨t, ht, fun e he => feed_data (i + 1) _ _ (by simp) hB e (by
      show e ∈ (o (i + 1)).world.log
      rw [ht]; simp [he])⟩
  induction j with
  | zero =>
    intro i n st hij hn hst
    obtain ⟨n, rfl⟩ : ∃ m, n = m + 1 := ⟨n - 1, by omega⟩
    obtain ⟨hstep, t, ht, htd⟩ := hpiece i (by omega)
    have hdrop : (o (i + 1)).world.log.drop (o i).world.log.length = t := by rw [ht, List.drop_left]
    have hc := hC (i + 1) (by omega)
    rw [if_neg (by omega)] at hc
    obtain ⟨k, hk1⟩ := feed_one_finished hstep hc.1
    refine ⟨[], st.onAll t, ?_, ?_, ?_⟩
    · rw [entries, hk1]
      simp only
      rw [hdrop]
      rfl
    · rw [List.drop_of_length_le (by omega)]; exact .nil
    · have h1 := hc.2.2
      have e1 : x.events = x.chunks.flatMap Chunk.events ++ ([.chunkBegin] ++ ([.chunkLength 0] ++
          (x.trailer.flatMap Line.events ++ [.headersFinished]) ++ [.bodyFinished])) := by
        simp [LooseBody.events]
      rw [ht, e1] at h1
      rcases hlog i (by omega) with ⟨h2, h3⟩ | h2
      · have h4 : x.chunks = [] := List.length_eq_zero_iff.1 (by omega)
        rw [h3, h4] at h1
        exact any_last_read st hst x.trailer hx.trailer t htd _ (.inr rfl) (by
          simpa only [List.flatMap_nil, List.nil_append, List.append_assoc] using h1)
      · rw [List.take_of_length_le (by omega)] at h2
        rw [fa, h2, ← List.append_assoc, fa (_ ++ [_]), List.append_cancel_left_eq] at h1
        exact any_last_read st hst x.trailer hx.trailer t htd _ (.inl rfl) (by
          simpa only [List.nil_append] using h1)
  | succ j ih =>
    intro i n st hij hn hst
    obtain ⟨n, rfl⟩ : ∃ m, n = m + 1 := ⟨n - 1, by omega⟩
    have hlt : i < x.chunks.length := by omega
    obtain ⟨hstep, t, ht, htd⟩ := hpiece i (by omega)
    have hdrop : (o (i + 1)).world.log.drop (o i).world.log.length = t := by rw [ht, List.drop_left]
    have hc := hC (i + 1) (by omega)
    rw [if_pos (by omega)] at hc
    obtain ⟨k, hk1, hk2⟩ := feed_one_callback hstep hc.1
    have htake : (x.chunks.take (i + 1)).flatMap Chunk.events = (x.chunks.take i).flatMap Chunk.events ++ x.chunks[i].events := by
      rw [List.take_succ_eq_append_getElem hlt, List.flatMap_append]; simp [List.flatMap_cons]
    have he : flat t = flat (x.chunks[i].events ++ [.chunkBegin]) ∨ flat t = flat (x.chunks[i].events.tail ++ [.chunkBegin]) := by
      have h1 := hc.2
      rw [ht, htake] at h1
      rcases hlog i (by omega) with ⟨h2, h3⟩ | h2
      · left
        have h01 : x.chunks.take i = [] := by rw [h2]; rfl
        rw [h3, h01] at h1
        exact h1
      · right
        have e1 : x.chunks[i].events = [.chunkBegin] ++ x.chunks[i].events.tail := rfl
        rw [fa, h2, e1, ← List.append_assoc, List.append_assoc (_ ++ [Ev.chunkBegin]), fa (_ ++ [_]) (_ ++ _),
          List.append_cancel_left_eq] at h1
        exact h1
    obtain ⟨h1, h2⟩ := chunk_read st hst x.chunks[i] t htd he
    obtain ⟨L, r, h3, h4, h5⟩ := ih (i + 1) n (st.onAll t).clear (by omega) (by omega) h2
    refine ⟨st.onAll t :: L, r, ?_, ?_, h5⟩
    · rw [entries, hk1]
      simp only
      rw [hk2, hdrop, h3]
      rfl
    · rw [List.drop_eq_getElem_cons hlt]
      exact .cons h1 h4

/-- When the loop of calls comes to its end, the parser has finished. -/
theorem entries_finish : ∀ (n : Nat) (w : World) (s : Bytes) (st : State) (L : List State),
    entries n w s st = some L → ∃ m, (feed handler m w s).last = .finished
  | 0, _, _, _, _, h => by cases h
  | n + 1, w, s, st, L, h => by
    rw [entries] at h
    rcases hr : resume handler w s with ⟨r, w'⟩
    rw [hr] at h
    rcases r with (k | k | k) | e | _ | _ | _
    · simp only [Option.map_eq_some_iff] at h
      obtain ⟨L', h, -⟩ := h
      obtain ⟨m, hm⟩ := entries_finish n w' _ _ L' h
      exact ⟨m + 1, by rw [feed, hr]; exact hm⟩
    · cases h
    · exact ⟨1, by rw [feed, hr]⟩
    all_goals cases h

end Chunks

/-- A client that stops now and then and comes to the end would have come to the same end without the stops. -/
theorem finish_without {h : Handler} {w : World} {s : Bytes} {st : Stage} (hr : Reach anyBoundary st w.p) {m : Nat}
    (hm : (feed h m w s).last = .finished) : (feed h.yes 1 w s).last = .finished := by
  obtain ⟨N, hN⟩ := C17_pausing_invisible h w s hr
  have hs : ∀ (n m : Nat) (w : World) (s : Bytes), (feed h m w s).last = .finished → feed h (m + n) w s = feed h m w s := by
    intro n m
    induction m with
    | zero => intro w s h; cases h
    | succ m ih =>
      intro w s hl
      rw [show m + 1 + n = (m + n) + 1 by omega, feed, feed]
      rw [feed] at hl
      rcases hres : resume h w s with ⟨r, w'⟩
      rw [hres] at hl
      rcases r with (k | k | k) | e | _ | _ | _
      · exact ih w' _ hl
      all_goals rfl
  have h1 := hN (m + N) (by omega)
  rw [hs N m w s hm] at h1
  rcases h1 with h1 | ⟨h1, h2⟩ | ⟨h1, -⟩
  · rw [← h1, hm]
  · rw [hm] at h2; rcases h2 with h2 | h2 <;> cases h2
  · rw [← h1, hm]

end Verif.Http1
