import Verif.Http1.UrlProgramRun
import Verif.Props.Http1Form

/-!
# C89: the program that reads a URL-encoded form

The program of tests/http1_url_encoded.rs, on every well-formed request with a URL-encoded body.
-/

namespace Verif.Http1

/-- One call for a whole well-formed URL-encoded body. -/
theorem url_call (y : UrlBody) (hy : y.OK) (rest : Bytes) : ∃ k w,
    resume goOn ⟨(Parser.new.init .urlEncoded).setLength y.write.length, []⟩ (y.write ++ rest) = (.ok (.finished k), w) ∧
    flat w.log = flat (y.events ++ [.bodyFinished]) ∧ ∀ e ∈ w.log, flatEv e ≠ [] := by
  have hu : (drive goOn .idle [(y.write ++ rest).length] ⟨(Parser.new.init .urlEncoded).setLength y.write.length, []⟩
      (y.write ++ rest)).last ≠ .ub := by
    obtain ⟨I, H⟩ := url_sim goOn .new [] y.write.length (y.write ++ rest).length [] (y.write ++ rest)
    intro h
    unfold urlRun at H
    simp only [DriveSim, h] at H
  obtain ⟨h1, h2⟩ := goOn_one (w := ⟨(Parser.new.init .urlEncoded).setLength y.write.length, []⟩) (.setLength (.init .new _) _) hu
  obtain ⟨h3, h4, h5⟩ := C38_url_encoded_round_trip goOn .new [] y hy rest _ [] h2
  unfold urlRun at h3 h4 h5
  rw [← h1] at h3 h4 h5
  have hd := feed_data (h := goOn) 1 ⟨(Parser.new.init .urlEncoded).setLength y.write.length, []⟩ (y.write ++ rest) (by simp)
    (by unfold Back; rw [h3]; exact ⟨nofun, nofun, nofun⟩)
  rw [feed] at h3 h4 h5 hd
  rcases hres : resume goOn ⟨(Parser.new.init .urlEncoded).setLength y.write.length, []⟩ (y.write ++ rest) with ⟨r, w⟩
  rw [hres] at h3 h4 h5 hd
  rcases r with (k | k | k) | e | _ | _ | _
  · cases h3
  · cases h3
  · exact ⟨k, w, rfl, h5, hd⟩
  all_goals cases h3

/-- **C89 (partial).** For every well-formed request and URL-encoded body in which every field has a name and a value,
neither of them empty, followed by two more bytes, the program does not panic and stores for every name the decoded value
of the last field with that name, and nothing else. Missing: the heads of C25; for fields without a name or a value the
claim is false, see `C89_fails`. -/
theorem C89_url_encoded_partial (x : Request) (hx : x.OK) (y : UrlBody) (hy : y.OK)
    (hf : ∀ p ∈ y.pairs, p.nameMeaning ≠ [] ∧ ∃ v, p.value = some v ∧ v.2 ≠ []) (rest : Bytes) (hr : rest.length = 2) :
    ∃ m, UrlForm.program (x.write ++ (y.write ++ rest)) = some m ∧ ∀ n, m.get n = lastValue y.pairs n := by
  obtain ⟨k, w, h1, h2, -, -⟩ := head_call x hx (y.write ++ rest)
  obtain ⟨k', w', h3, h4, h5⟩ := url_call y hy rest
  refine ⟨(UrlForm.State.new.onAll w'.log).parameters, ?_, fun n => ?_⟩
  · unfold UrlForm.program
    rw [h1]
    simp only
    rw [h2, List.length_append, hr, if_neg (by omega), Nat.add_sub_cancel, h3]
  · have e : y.events = y.pairs.flatMap Pair.events := by
      simp only [UrlBody.events, UrlBody.pairs, List.flatMap_cons, List.flatMap_map]
    rw [← UrlForm.flat_all _ _ fun e he => UrlForm.solid_of_flat (h5 e he), h4, e, UrlForm.flat_all,
      UrlForm.pairs_read _ _ hf (fun _ => ⟨rfl, rfl⟩)]
    · cases lastValue y.pairs n <;> rfl
    · intro e he
      rcases List.mem_append.1 he with he | he
      · obtain ⟨p, hp, he⟩ := List.mem_flatMap.1 he
        exact UrlForm.full_solid (hf p hp) e he
      · rw [List.mem_singleton] at he; subst he; exact ⟨nofun, nofun⟩

/-- `a%20b=c+d&a=e&a=f` -/
def exUrlForm : UrlBody :=
  { first := ⟨b!"a%20b", b!"a b", some (b!"c+d", b!"c d")⟩,
    more := [(c! '&', ⟨b!"a", b!"a", some (b!"e", b!"e")⟩), (c! '&', ⟨b!"a", b!"a", some (b!"f", b!"f")⟩)] }

example : exForm.OK ∧ exUrlForm.OK ∧
    (∀ p ∈ exUrlForm.pairs, p.nameMeaning ≠ [] ∧ ∃ v, p.value = some v ∧ v.2 ≠ []) ∧
    UrlForm.program (exForm.write ++ (exUrlForm.write ++ b!"\r\n")) = some [(b!"a", b!"f"), (b!"a b", b!"c d")] := by
  refine ⟨exForm_ok, ⟨exUrlBody_ok.first, ?_⟩, ?_, by decide +kernel⟩
  · intro y hy
    simp only [exUrlForm, List.mem_cons, List.not_mem_nil, or_false] at hy
    rcases hy with rfl | rfl <;>
      refine ⟨.inl rfl, ⟨.literal (by decide) .nil, by decide⟩, ?_, .inl (by decide)⟩ <;>
      · rintro v ⟨⟩
        exact ⟨.literal (by decide) .nil, by decide⟩
  · intro p hp
    simp only [exUrlForm, UrlBody.pairs, List.map_cons, List.map_nil, List.mem_cons, List.not_mem_nil, or_false] at hp
    rcases hp with rfl | rfl | rfl <;> exact ⟨by decide, _, rfl, by decide⟩

/-- The full C89 fails: a field without a value is glued to the name of the next field, a field without a name to the value
of the field before; the program panics when the head is not followed by two bytes. -/
theorem C89_fails :
    UrlForm.program (exForm.write ++ b!"a&b=c\r\n") = some [(b!"ab", b!"c")] ∧
    UrlForm.program (exForm.write ++ b!"a=&b=c\r\n") = some [(b!"ab", b!"c")] ∧
    UrlForm.program (exForm.write ++ b!"a=b&=c\r\n") = some [(b!"a", b!"bc")] ∧
    UrlForm.program (exForm.write ++ b!"") = none := by
  refine ⟨?_, ?_, ?_, ?_⟩ <;> decide +kernel

end Verif.Http1
