import Verif.Http1.ChunkProgram
import Verif.Http1.MultipartProgramRun

/-!
# What the program that reads a chunk-encoded body does (helper lemmas)
-/

namespace Verif.Http1.Chunks

open Form (Collect Solid solid_of_flat collect_flat collect_headers feed_one_callback feed_one_finished)

theorem append (s : State) (l m : List Ev) : s.onAll (l ++ m) = (s.onAll l).onAll m := List.foldl_append

theorem fields_all : ∀ (l : List Ev) (s : State), (∀ e ∈ l, ∀ s, State.on s e = { s with fields := s.fields.on e }) →
    s.onAll l = { s with fields := s.fields.onAll l }
  | [], _, _ => rfl
  | e :: l, s, h => by
    show (s.on e).onAll l = _
    rw [h e (by simp), fields_all l _ fun e he => h e (by simp [he])]
    rfl

theorem pile {f : Bytes → Ev} (h0 : ∀ s, State.on s (f []) = s) (h1 : ∀ s a b, (State.on s (f a)).on (f b) = s.on (f (a ++ b))) :
    ∀ (d : Bytes) (s : State), s.onAll (d.map fun b => f [b]) = s.on (f d)
  | [], s => (h0 s).symm
  | b :: d, s => by
    show (s.on (f [b])).onAll _ = _
    rw [pile h0 h1 d, h1]
    rfl

theorem flat_one (s : State) (e : Ev) (he : Solid e) : s.onAll (flatEv e) = s.on e := by
  have skip : ∀ (f : Bytes → Ev), (∀ s d, State.on s (f d) = { s with fields := s.fields.on (f d) }) →
      ∀ d, flatEv (f d) = d.map (fun b => f [b]) → Solid (f d) → s.onAll (flatEv (f d)) = s.on (f d) := by
    intro f hf d h1 h2
    rw [fields_all _ _ (by
      intro e he
      rw [h1, List.mem_map] at he
      obtain ⟨b, -, rfl⟩ := he
      exact fun s => hf s _), collect_flat _ _ h2, hf]
  cases e with
  | chunkData d => exact pile (f := .chunkData) (by simp [State.on]) (by simp [State.on]) d s
  | chunkExtensionName d => exact pile (f := .chunkExtensionName) (by simp [State.on]) (by simp [State.on]) d s
  | chunkExtensionValue d => exact pile (f := .chunkExtensionValue) (by simp [State.on]) (by simp [State.on]) d s
  | headerName d => exact skip .headerName (fun _ _ => rfl) d rfl he
  | headerValue d => exact skip .headerValue (fun _ _ => rfl) d rfl he
  | method d => exact skip .method (fun _ _ => rfl) d rfl he
  | url d => exact skip .url (fun _ _ => rfl) d rfl he
  | status d => exact skip .status (fun _ _ => rfl) d rfl he
  | multipartData d => exact skip .multipartData (fun _ _ => rfl) d rfl he
  | urlEncodedName d => exact skip .urlEncodedName (fun _ _ => rfl) d rfl he
  | urlEncodedValue d => exact skip .urlEncodedValue (fun _ _ => rfl) d rfl he
  | _ => rfl

theorem flat_all : ∀ (l : List Ev) (s : State), (∀ e ∈ l, Solid e) → s.onAll (flat l) = s.onAll l
  | [], _, _ => rfl
  | e :: l, s, h => by
    show s.onAll (flatEv e ++ flat l) = _
    rw [append, flat_one s e (h e (by simp)), flat_all l _ fun e he => h e (by simp [he])]
    rfl

theorem count_all : ∀ (l : List Ev) (s : State), (s.onAll l).count = s.count + l.count .chunkBegin
  | [], s => rfl
  | e :: l, s => by
    show ((s.on e).onAll l).count = _
    rw [count_all l]
    cases e <;> simp [State.on, List.count_cons, Nat.add_comm, Nat.add_left_comm]

theorem handler_eq : handler = pausesAt .chunkBegin := by
  unfold handler pausesAt
  congr 1
  funext l
  rw [count_all]
  simp only [State.new, Nat.zero_add]
  by_cases h : l.getLast? = some .chunkBegin
  · rw [h, if_pos rfl, decide_not]
    simp only [beq_self_eq_true, Bool.true_and, gt_iff_lt]
  · simp [h]

/-- What the program stores for an extension. -/
theorem extension_all : ∀ (es : List Extension) (s : State), s.onAll (es.flatMap Extension.events) =
    { s with extensions := s.extensions ++ es.flatMap fun e => Verif.lower e.name ++ (e.value.elim [] ExtValue.meaning) }
  | [], s => by simp [State.onAll]
  | e :: es, s => by
    rw [List.flatMap_cons, append, extension_all es]
    cases h : e.value <;> simp [Extension.events, h, State.onAll, State.on, Collect.on]

/-- Nothing is left over from the chunk before. -/
def State.Clear (s : State) : Prop :=
  s.data = [] ∧ s.extensions = [] ∧ s.length = 0 ∧ s.fields.headers = [] ∧ s.fields.nameBuf = [] ∧ s.fields.valueBuf = []

/-- What the program stores for a chunk. -/
def Reads (r : State) (x : Chunk) : Prop :=
  r.length = x.data.length ∧ r.data = x.data ∧ r.fields.headers = [] ∧
  r.extensions = x.extensions.flatMap fun e => Verif.lower e.name ++ (e.value.elim [] ExtValue.meaning)

/-- What the program stores for the last chunk. -/
def ReadsLast (r : State) (ys : List Header) : Prop :=
  r.length = 0 ∧ r.data = [] ∧ r.extensions = [] ∧ ∀ n, r.fields.headers.get n = lastText ys n

theorem chunk_solid {x : Chunk} : ∀ e ∈ x.events, Solid e := by
  intro e he
  simp only [Chunk.events, List.mem_append, List.mem_cons, List.not_mem_nil, or_false, List.mem_flatMap] at he
  rcases he with ((rfl | rfl) | ⟨y, -, hm⟩) | rfl | rfl
  · exact ⟨nofun, nofun⟩
  · exact ⟨nofun, nofun⟩
  · cases h : y.value <;> simp [Extension.events, h] at hm
    · rcases hm with rfl | rfl <;> exact ⟨nofun, nofun⟩
    · rcases hm with rfl | rfl | rfl <;> exact ⟨nofun, nofun⟩
  · exact ⟨nofun, nofun⟩
  · exact ⟨nofun, nofun⟩

theorem chunk_all (s : State) (x : Chunk) : s.onAll (x.events.tail ++ [.chunkBegin]) = ⟨s.count + 1, s.data ++ x.data,
    s.extensions ++ x.extensions.flatMap fun e => Verif.lower e.name ++ (e.value.elim [] ExtValue.meaning),
    x.data.length, s.fields⟩ := by
  have e : x.events.tail ++ [.chunkBegin] = [.chunkLength x.data.length] ++ (x.extensions.flatMap Extension.events ++
      [.chunkExtensionsFinished, .chunkData x.data, .chunkBegin]) := by
    simp [Chunk.events]
  rw [e, append, append, extension_all]
  rfl

theorem chunk_read (st : State) (hst : st.Clear) (x : Chunk) (t : List Ev) (ht : ∀ e ∈ t, flatEv e ≠ [])
    (he : flat t = flat (x.events ++ [.chunkBegin]) ∨ flat t = flat (x.events.tail ++ [.chunkBegin])) :
    Reads (st.onAll t) x ∧ (st.onAll t).clear.Clear := by
  obtain ⟨h1, h2, h3, h4, h5, h6⟩ := hst
  have key : ∃ c, st.onAll t = ⟨c, x.data,
      x.extensions.flatMap fun e => Verif.lower e.name ++ (e.value.elim [] ExtValue.meaning), x.data.length, st.fields⟩ := by
    rw [← flat_all t st fun e h => solid_of_flat (ht e h)]
    rcases he with he | he <;> rw [he, flat_all]
    · refine ⟨st.count + 2, ?_⟩
      have e : x.events ++ [.chunkBegin] = [.chunkBegin] ++ (x.events.tail ++ [.chunkBegin]) := rfl
      rw [e, append, chunk_all]
      simp [State.onAll, State.on, h1, h2]
    · intro e hm
      rcases List.mem_append.1 hm with hm | hm
      · exact chunk_solid e hm
      · rw [List.mem_singleton] at hm; subst hm; exact ⟨nofun, nofun⟩
    · refine ⟨st.count + 1, ?_⟩
      rw [chunk_all, h1, h2]
      rfl
    · intro e hm
      rcases List.mem_append.1 hm with hm | hm
      · exact chunk_solid e (List.mem_of_mem_tail hm)
      · rw [List.mem_singleton] at hm; subst hm; exact ⟨nofun, nofun⟩
  obtain ⟨c, hc⟩ := key
  rw [hc]
  exact ⟨⟨rfl, rfl, h4, rfl⟩, rfl, rfl, rfl, rfl, h5, h6⟩

theorem last_read (st : State) (hst : st.Clear) (ys : List Header) (hy : ∀ y ∈ ys, y.OK) (t : List Ev)
    (ht : ∀ e ∈ t, flatEv e ≠ []) (pre : List Ev) (hp : pre = [] ∨ pre = [.chunkBegin])
    (he : flat t = flat (pre ++ [.chunkLength 0] ++ (ys.flatMap Header.events ++ [.headersFinished]) ++ [.bodyFinished])) :
    ReadsLast (st.onAll t) ys := by
  obtain ⟨h1, h2, h3, h4, h5, h6⟩ := hst
  obtain ⟨g1, g2, g3⟩ := collect_headers ys st.fields hy fun _ => ⟨h5, h6⟩
  have h8 : st.fields.flush.headers = [] := by simp [Collect.flush, h4, h5]
  have key : ∃ c, st.onAll t = ⟨c, [], [], 0, st.fields.onAll (ys.flatMap Header.events ++ [.headersFinished])⟩ := by
    rw [← flat_all t st fun e h => solid_of_flat (ht e h), he, flat_all]
    · have e1 : ∃ c, st.onAll (pre ++ [.chunkLength 0]) = ⟨c, [], [], 0, st.fields⟩ := by
        rcases hp with rfl | rfl
        · exact ⟨st.count, by simp [State.onAll, State.on, h1, h2]⟩
        · exact ⟨st.count + 1, by simp [State.onAll, State.on, h1, h2]⟩
      obtain ⟨c, e1⟩ := e1
      refine ⟨c, ?_⟩
      have e2 : ∀ e ∈ ys.flatMap Header.events ++ [.headersFinished], ∀ s, State.on s e = { s with fields := s.fields.on e } := by
        intro e hm s
        rcases List.mem_append.1 hm with hm | hm
        · obtain ⟨y, -, hm⟩ := List.mem_flatMap.1 hm
          simp only [Header.events, List.mem_cons, List.not_mem_nil, or_false] at hm
          rcases hm with rfl | rfl <;> rfl
        · rw [List.mem_singleton] at hm; subst hm; rfl
      rw [append, append, e1, fields_all _ _ e2]
      rfl
    · intro e hm
      simp only [List.mem_append, List.mem_cons, List.not_mem_nil, or_false] at hm
      rcases hm with ((hm | rfl) | (hm | rfl)) | rfl
      · rcases hp with rfl | rfl
        · simp at hm
        · rw [List.mem_singleton] at hm; subst hm; exact ⟨nofun, nofun⟩
      · exact ⟨nofun, nofun⟩
      · exact solid_of_flat (Doc.headers_data hy e hm)
      · exact ⟨nofun, nofun⟩
      · exact ⟨nofun, nofun⟩
  obtain ⟨c, hc⟩ := key
  rw [hc]
  refine ⟨rfl, rfl, rfl, fun n => ?_⟩
  show (st.fields.onAll _).headers.get n = _
  rw [g1, h8, Doc.get_store]
  cases lastText ys n <;> rfl

theorem entries_read (x : ChunkedBody) (hx : x.OK) (rest : Bytes) :
    let o i := feed handler i ⟨Parser.new.init .chunked, []⟩ (x.write ++ rest)
    ∀ (j i n : Nat) (st : State), i + j = x.chunks.length → j < n → st.Clear →
      ∃ L r, entries n (o i).world (o i).rest st = some (L ++ [r]) ∧ List.Forall₂ Reads L (x.chunks.drop i) ∧
        ReadsLast r x.trailers := by
  intro o j
  have hC : ∀ i, 0 < i → if i ≤ x.chunks.length then
      (o i).last = .callback ∧ flat (o i).world.log = flat ((x.chunks.take i).flatMap Chunk.events ++ [.chunkBegin])
      else (o i).last = .finished ∧ (o i).rest = rest ∧ flat (o i).world.log = flat x.events := by
    intro i hi
    have := C86_chunked_partial Parser.new .new x hx rest i hi
    rw [← handler_eq] at this
    exact this
  have fa : ∀ a b : List Ev, flat (a ++ b) = flat a ++ flat b := fun a b => List.flatMap_append
  have hcb : ∀ i, i ≤ x.chunks.length → (o i).last = .callback := by
    intro i hle
    rcases Nat.eq_zero_or_pos i with rfl | hi
    · rfl
    · have := hC i hi; rw [if_pos hle] at this; exact this.1
  have hlog : ∀ i, i ≤ x.chunks.length → (i = 0 ∧ (o i).world.log = []) ∨
      flat (o i).world.log = flat ((x.chunks.take i).flatMap Chunk.events ++ [.chunkBegin]) := by
    intro i hle
    rcases Nat.eq_zero_or_pos i with rfl | hi
    · exact .inl ⟨rfl, rfl⟩
    · have := hC i hi; rw [if_pos hle] at this; exact .inr this.2
  have hpiece : ∀ i, i ≤ x.chunks.length → feed handler 1 (o i).world (o i).rest = o (i + 1) ∧
      ∃ t, (o (i + 1)).world.log = (o i).world.log ++ t ∧ ∀ e ∈ t, flatEv e ≠ [] := by
    intro i hle
    have hstep : feed handler 1 (o i).world (o i).rest = o (i + 1) := (feed_add i 1 _ _ (hcb i hle)).symm
    refine ⟨hstep, ?_⟩
    have hB : Back (o (i + 1)) := by
      have := hC (i + 1) (by omega)
      split at this
      · unfold Back; rw [this.1]; exact ⟨nofun, nofun, nofun⟩
      · unfold Back; rw [this.1]; exact ⟨nofun, nofun, nofun⟩
    obtain ⟨t, ht, -⟩ := feed_stops 1 (o i).world (o i).rest (by rw [hstep]; exact hB)
    rw [hstep] at ht
    exact ⟨t, ht, fun e he => feed_data (i + 1) _ _ (by simp) hB e (by
      show e ∈ (o (i + 1)).world.log
      rw [ht]; simp [he])⟩
  induction j with
  | zero =>
    intro i n st hij hn hst
    obtain ⟨n, rfl⟩ : ∃ m, n = m + 1 := ⟨n - 1, by omega⟩
    obtain ⟨hstep, t, ht, htd⟩ := hpiece i (by omega)
    have hdrop : (o (i + 1)).world.log.drop (o i).world.log.length = t := by rw [ht, List.drop_left]
    have hc := hC (i + 1) (by omega)
    rw [if_neg (by omega)] at hc
    obtain ⟨k, hk1⟩ := feed_one_finished hstep hc.1
    refine ⟨[], st.onAll t, ?_, ?_, ?_⟩
    · rw [entries, hk1]
      simp only
      rw [hdrop]
      rfl
    · rw [List.drop_of_length_le (by omega)]; exact .nil
    · have h1 := hc.2.2
      have e1 : x.events = x.chunks.flatMap Chunk.events ++ ([.chunkBegin] ++ ([.chunkLength 0] ++
          (x.trailers.flatMap Header.events ++ [.headersFinished]) ++ [.bodyFinished])) := by
        simp [ChunkedBody.events]
      rw [ht, e1] at h1
      rcases hlog i (by omega) with ⟨h2, h3⟩ | h2
      · have h4 : x.chunks = [] := List.length_eq_zero_iff.1 (by omega)
        rw [h3, h4] at h1
        exact last_read st hst x.trailers hx.trailers t htd _ (.inr rfl) (by
          simpa only [List.flatMap_nil, List.nil_append, List.append_assoc] using h1)
      · rw [List.take_of_length_le (by omega)] at h2
        rw [fa, h2, ← List.append_assoc, fa (_ ++ [_]), List.append_cancel_left_eq] at h1
        exact last_read st hst x.trailers hx.trailers t htd _ (.inl rfl) (by
          simpa only [List.nil_append] using h1)
  | succ j ih =>
    intro i n st hij hn hst
    obtain ⟨n, rfl⟩ : ∃ m, n = m + 1 := ⟨n - 1, by omega⟩
    have hlt : i < x.chunks.length := by omega
    obtain ⟨hstep, t, ht, htd⟩ := hpiece i (by omega)
    have hdrop : (o (i + 1)).world.log.drop (o i).world.log.length = t := by rw [ht, List.drop_left]
    have hc := hC (i + 1) (by omega)
    rw [if_pos (by omega)] at hc
    obtain ⟨k, hk1, hk2⟩ := feed_one_callback hstep hc.1
    have htake : (x.chunks.take (i + 1)).flatMap Chunk.events = (x.chunks.take i).flatMap Chunk.events ++ x.chunks[i].events := by
      rw [List.take_succ_eq_append_getElem hlt, List.flatMap_append]; simp [List.flatMap_cons]
    have he : flat t = flat (x.chunks[i].events ++ [.chunkBegin]) ∨ flat t = flat (x.chunks[i].events.tail ++ [.chunkBegin]) := by
      have h1 := hc.2
      rw [ht, htake] at h1
      rcases hlog i (by omega) with ⟨h2, h3⟩ | h2
      · left
        have h01 : x.chunks.take i = [] := by rw [h2]; rfl
        rw [h3, h01] at h1
        exact h1
      · right
        have e1 : x.chunks[i].events = [.chunkBegin] ++ x.chunks[i].events.tail := rfl
        rw [fa, h2, e1, ← List.append_assoc, List.append_assoc (_ ++ [Ev.chunkBegin]), fa (_ ++ [_]) (_ ++ _),
          List.append_cancel_left_eq] at h1
        exact h1
    obtain ⟨h1, h2⟩ := chunk_read st hst x.chunks[i] t htd he
    obtain ⟨L, r, h3, h4, h5⟩ := ih (i + 1) n (st.onAll t).clear (by omega) (by omega) h2
    refine ⟨st.onAll t :: L, r, ?_, ?_, h5⟩
    · rw [entries, hk1]
      simp only
      rw [hk2, hdrop, h3]
      rfl
    · rw [List.drop_eq_getElem_cons hlt]
      exact .cons h1 h4

end Verif.Http1.Chunks
