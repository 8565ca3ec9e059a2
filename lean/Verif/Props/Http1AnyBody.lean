import Verif.Http1.AnyShort
import Verif.Http1.GlueRun
import Verif.Props.Http1ChunkProgram
import Verif.Props.Http1UrlProgram

/-!
# C94: the test programs that read chunk-encoded and URL-encoded bodies, on any bytes
-/

namespace Verif.Http1

theorem loose_count (x : LooseBody) : x.chunks.length ≤ x.write.length := by
  have : ∀ cs : List Chunk, cs.length ≤ (cs.flatMap Chunk.write).length := by
    intro cs
    induction cs with
    | nil => simp
    | cons c cs ih =>
      rw [List.flatMap_cons, List.length_append, List.length_cons]
      have : 1 ≤ c.write.length := by simp [Chunk.write]; omega
      omega
  have := this x.chunks
  simp only [LooseBody.write, List.length_append]
  omega

/-- The program on every accepted head and body. -/
theorem chunks_any (x : Head) (hx : x.OK) (y : LooseBody) (hy : y.OK) (rest : Bytes) :
    ∃ L r, Chunks.program (x.write ++ (y.write ++ rest)) = some (L ++ [r]) ∧ List.Forall₂ Chunks.Reads L y.chunks ∧
      Chunks.ReadsEnd r y.trailer := by
  obtain ⟨k, w, h1, h2⟩ := any_head_call x hx (y.write ++ rest)
  have hn := loose_count y
  obtain ⟨L, r, h3, h4, h5⟩ := Chunks.any_entries_read y hy rest y.chunks.length 0
    ((x.write ++ (y.write ++ rest)).length + 1) .new (by omega) (by simp only [List.length_append]; omega)
    ⟨rfl, rfl, rfl, rfl, rfl, rfl⟩
  refine ⟨L, r, ?_, h4, h5⟩
  unfold Chunks.program
  rw [h1]
  simp only
  rw [h2]
  exact h3

/-- **C94.** For any input: the program panics exactly if the input does not begin with an accepted
head and an accepted chunked body. If it does, the program has stored after each call for a chunk the length, the data and
the extensions of exactly this chunk and no trailers, and after the last call exactly the trailers, each name with its
last value; folded lines and trailers without a name are part of the one before. -/
theorem C94_chunk_program (d : Bytes) :
    match Chunks.program d with
    | none => ¬ ∃ (x : Head) (y : LooseBody) (rest : Bytes), x.OK ∧ y.OK ∧ d = x.write ++ (y.write ++ rest)
    | some S => (∃ (x : Head) (y : LooseBody) (rest : Bytes), x.OK ∧ y.OK ∧ d = x.write ++ (y.write ++ rest)) ∧
        ∀ (x : Head) (y : LooseBody) (rest : Bytes), x.OK → y.OK → d = x.write ++ (y.write ++ rest) → ∃ L r, S = L ++ [r] ∧
          List.Forall₂ (fun s c => s.length = c.data.length ∧ s.data = c.data ∧ s.fields.headers = [] ∧
            s.extensions = c.extensions.flatMap Extension.text) L y.chunks ∧
          r.length = 0 ∧ r.data = [] ∧ r.extensions = [] ∧
          ∀ n, r.fields.headers.get n = lastOf (joined y.trailer).2 n := by
  cases hp : Chunks.program d with
  | none =>
    rintro ⟨x, y, rest, hx, hy, rfl⟩
    obtain ⟨L, r, h, -⟩ := chunks_any x hx y hy rest
    rw [h] at hp
    cases hp
  | some S =>
    have h0 := hp
    unfold Chunks.program at h0
    rcases hr : resume goOn ⟨.new, []⟩ d with ⟨r, w⟩
    rw [hr] at h0
    rcases r with (k | k | k) | e | _ | _ | _
    · cases h0
    · cases h0
    · simp only at h0
      obtain ⟨x, hx, h1⟩ := any_head_of hr
      obtain ⟨m, hm⟩ := Chunks.entries_finish _ _ _ _ _ h0
      have hf := finish_without (w := ⟨Parser.new.init .chunked, []⟩)
        (show Reach anyBoundary .ready (Parser.new.init .chunked) from .init .new _) hm
      have hy : Chunks.handler.yes = goOn := rfl
      rw [hy, feed] at hf
      rcases hr' : resume goOn ⟨Parser.new.init .chunked, []⟩ (d.drop k) with ⟨r, w'⟩
      rw [hr'] at hf
      rcases r with (k' | k' | k') | e | _ | _ | _
      · cases hf
      · cases hf
      · have h2 := drive_one hr'
        obtain ⟨y, hy, h3, -⟩ := C52_only_chunked_accepted_partial goOn .new [] (d.drop k) (d.drop k).length [] (by rw [h2])
        rw [h2] at h3
        simp only at h3
        refine ⟨⟨x, y, _, hx, hy, by rw [← h3]; exact h1⟩, ?_⟩
        rintro x y rest hx hy rfl
        obtain ⟨L, r, h4, h5, h6⟩ := chunks_any x hx y hy rest
        rw [hp] at h4
        exact ⟨L, r, Option.some.inj h4, h5, h6⟩
      all_goals cases hf
    all_goals cases h0

/-- A request with a field without a name, a chunk with odd extensions, an empty one with an extension, and a trailer
that goes on. -/
example : (Chunks.program (b!"A / HTTP/1.1\r\n: x\r\n\r\n" ++ (exLoose.write ++ b!"rest"))).map
      (·.map fun s => (s.length, s.data, s.extensions)) = some [(5, b!"hello", b!"av"), (0, [], b!"x"), (0, [], [])] ∧
    (Chunks.program (b!"A / HTTP/1.1\r\n: x\r\n\r\n" ++ (exLoose.write ++ b!"rest"))).map
      (·.map fun s => s.fields.headers) = some [[], [], [(b!"t", b!"vw")]] ∧
    Chunks.program (b!"A / HTTP/1.1\r\n: x\r\n\r\n" ++ b!"5\r\nhell\r\n0\r\n\r\n") = none := by
  refine ⟨?_, ?_, ?_⟩ <;> decide +kernel

/-! ## URL-encoded bodies -/

theorem any_url_call (y : LooseUrl) (hy : y.OK) (rest : Bytes) : ∃ k w,
    resume goOn ⟨(Parser.new.init .urlEncoded).setLength y.write.length, []⟩ (y.write ++ rest) = (.ok (.finished k), w) ∧
    flat w.log = flat (y.pairs.flatMap Pair.events ++ [.bodyFinished]) ∧ ∀ e ∈ w.log, flatEv e ≠ [] := by
  have hu : (drive goOn .idle [(y.write ++ rest).length] ⟨(Parser.new.init .urlEncoded).setLength y.write.length, []⟩
      (y.write ++ rest)).last ≠ .ub := by
    obtain ⟨I, H⟩ := url_sim goOn .new [] y.write.length (y.write ++ rest).length [] (y.write ++ rest)
    intro h
    unfold urlRun at H
    simp only [DriveSim, h] at H
  obtain ⟨h1, h2⟩ := goOn_one (w := ⟨(Parser.new.init .urlEncoded).setLength y.write.length, []⟩) (.setLength (.init .new _) _) hu
  obtain ⟨h3, h4, h5⟩ := C54_all_bodies_accepted goOn .new [] y hy rest _ [] h2
  unfold urlRun at h3 h4 h5
  rw [← h1] at h3 h4 h5
  have hd := feed_data (h := goOn) 1 ⟨(Parser.new.init .urlEncoded).setLength y.write.length, []⟩ (y.write ++ rest) (by simp)
    (by unfold Back; rw [h3]; exact ⟨nofun, nofun, nofun⟩)
  have e : y.events = y.pairs.flatMap Pair.events := by
    unfold LooseUrl.events LooseUrl.allEvents LooseUrl.pairs
    split <;> simp [List.flatMap_map]
  rw [List.nil_append, e] at h5
  rw [feed] at h3 h4 h5 hd
  rcases hres : resume goOn ⟨(Parser.new.init .urlEncoded).setLength y.write.length, []⟩ (y.write ++ rest) with ⟨r, w⟩
  rw [hres] at h3 h4 h5 hd
  rcases r with (k | k | k) | e | _ | _ | _
  · cases h3
  · cases h3
  · exact ⟨k, w, rfl, h5, hd⟩
  all_goals cases h3

/-- The program on every accepted head and body. -/
theorem url_any (x : Head) (hx : x.OK) (y : LooseUrl) (hy : y.OK) (rest : Bytes) (hr : rest.length = 2) :
    ∃ m, UrlForm.program (x.write ++ (y.write ++ rest)) = some m ∧ ∀ n, m.get n = lastOf (glued y.pairs).2 n := by
  obtain ⟨k, w, h1, h2⟩ := any_head_call x hx (y.write ++ rest)
  obtain ⟨k', w', h3, h4, h5⟩ := any_url_call y hy rest
  refine ⟨(UrlForm.State.new.onAll w'.log).parameters, ?_, fun n => ?_⟩
  · unfold UrlForm.program
    rw [h1]
    simp only
    rw [h2, List.length_append, hr, if_neg (by omega), Nat.add_sub_cancel, h3]
  · rw [← UrlForm.flat_all _ _ fun e he => UrlForm.solid_of_flat (h5 e he), h4, (UrlForm.any_pairs _ _).2 (by decide) rfl]
    show (UrlForm.after [] [] _).get n = _
    rw [UrlForm.after_nil, Doc.get_put]
    cases lastOf (glued y.pairs).2 n <;> rfl

/-- **C94.** For any input: the program panics exactly if the input is not an accepted head, an
accepted URL-encoded body, and two more bytes. If it is, the program has stored for every name the value of the last field
with it, and nothing else; but a field without a value is part of the name of the next, and a field without a name is part
of the value of the one before. -/
theorem C94_url_program (d : Bytes) :
    match UrlForm.program d with
    | none => ¬ ∃ (x : Head) (y : LooseUrl) (rest : Bytes), x.OK ∧ y.OK ∧ rest.length = 2 ∧ d = x.write ++ (y.write ++ rest)
    | some m =>
        (∃ (x : Head) (y : LooseUrl) (rest : Bytes), x.OK ∧ y.OK ∧ rest.length = 2 ∧ d = x.write ++ (y.write ++ rest)) ∧
        ∀ (x : Head) (y : LooseUrl) (rest : Bytes), x.OK → y.OK → rest.length = 2 → d = x.write ++ (y.write ++ rest) →
          ∀ n, m.get n = lastOf (glued y.pairs).2 n := by
  cases hp : UrlForm.program d with
  | none =>
    rintro ⟨x, y, rest, hx, hy, hr, rfl⟩
    obtain ⟨m, h, -⟩ := url_any x hx y hy rest hr
    rw [h] at hp
    cases hp
  | some m =>
    have h0 := hp
    unfold UrlForm.program at h0
    rcases hr : resume goOn ⟨.new, []⟩ d with ⟨r, w⟩
    rw [hr] at h0
    rcases r with (k | k | k) | e | _ | _ | _
    · cases h0
    · cases h0
    · simp only at h0
      split at h0
      · cases h0
      rename_i hlen
      obtain ⟨x, hx, h1⟩ := any_head_of hr
      rcases hr' : resume goOn ⟨(Parser.new.init .urlEncoded).setLength ((d.drop k).length - 2), []⟩ (d.drop k) with ⟨r, w'⟩
      rw [hr'] at h0
      rcases r with (k' | k' | k') | e | _ | _ | _
      · cases h0
      · cases h0
      · have h2 := drive_one hr'
        obtain ⟨y, hy, h3, h4, -⟩ := C54_accepted_bodies_partial goOn .new [] ((d.drop k).length - 2) (d.drop k)
          (d.drop k).length [] (by unfold urlRun; rw [h2])
        unfold urlRun at h3
        rw [h2] at h3
        simp only at h3
        have hl : ((d.drop k).drop k').length = 2 := by
          have := congrArg List.length h3
          rw [List.length_append, h4] at this
          omega
        refine ⟨⟨x, y, _, hx, hy, hl, by rw [← h3]; exact h1⟩, ?_⟩
        rintro x y rest hx hy hl2 rfl
        obtain ⟨m', h5, h6⟩ := url_any x hx y hy rest hl2
        rw [hp] at h5
        cases h5
        exact h6
      all_goals cases h0
    all_goals cases h0

/-- Fields without names and without values, an escape that is cut off, and an escape that is none. -/
example : UrlForm.program (b!"A / HTTP/1.1\r\n\r\n" ++ b!"=x&a&b=c&=d;e&f=%4\r\n") = some [(b!"ab", b!"cd")] ∧
    glued [⟨[], [], some (b!"x", b!"x")⟩, ⟨b!"a", b!"a", none⟩, ⟨b!"b", b!"b", some (b!"c", b!"c")⟩,
      ⟨[], [], some (b!"d", b!"d")⟩, ⟨b!"e", b!"e", none⟩, ⟨b!"f", b!"f", some ([], [])⟩] = (b!"x", [(b!"ab", b!"cd")]) ∧
    UrlForm.program (b!"A / HTTP/1.1\r\n\r\n" ++ b!"a=%4x\r\n") = none := by
  refine ⟨?_, ?_, ?_⟩ <;> decide +kernel

end Verif.Http1
