import Verif.Http1.InvUrl
import Verif.Props.Http1Url

/-!
# Which URL-encoded bodies are accepted

C54 (what is accepted, and what is reported for it), C55 (what is rejected). The grammar is in
`Verif.Http1.UrlLoose`.
-/

namespace Verif.Http1

/-- All that can happen with a body. -/
theorem url_cases (l : List Ev) (n : Nat) (msg : Bytes) :
    ∃ x : LooseUrl, x.OK ∧
      ((msg.take n = x.write ∧ endU n msg (pred urlEnv (flat l) .uFirst (msg.take n)) =
        if n ≤ msg.length then (flat (l ++ x.events ++ [.bodyFinished]), .finished (msg.drop n))
        else (flat (l ++ x.events), .eos)) ∨
      ∃ y b r, x.cut = [] ∧ UrlOffence y b ∧ msg = x.write ++ y ++ r ∧ (x.write ++ y).length ≤ n ∧
        endU n msg (pred urlEnv (flat l) .uFirst (msg.take n)) = (flat (l ++ x.allEvents),
          .err (if x.last.value = none then .urlEncodedName b else .urlEncodedValue b) r)) := by
  obtain ⟨x, hx, ⟨h1, h2⟩ | ⟨y, b, r, hc, h1, h2, h3⟩⟩ := url_text (env := urlEnv) _ (msg.take n) (Nat.le_refl _) (flat l)
  · refine ⟨x, hx, .inl ⟨h1, ?_⟩⟩
    rw [h2]
    simp only [endU]
    split <;> simp [flat, flatEv]
  · refine ⟨x, hx, .inr ⟨y, b, r ++ msg.drop n, hc, h1, ?_, ?_, ?_⟩⟩
    · rw [← List.append_assoc, ← h2, List.take_append_drop]
    · have := congrArg List.length h2
      simp only [List.length_append, List.length_take] at this ⊢
      omega
    · rw [h3]
      simp [endU, flat]

/-! ## C54 -/

/-- **C54 (partial).** When a run over a URL-encoded body of declared length `n` ends with `Finished`, the
first `n` bytes are a body of the grammar, all of them were read, and the callbacks are what the body
means. Missing: the grammar lets a body end inside an escape (`C40_fails`). -/
theorem C54_accepted_bodies_partial (h : Handler) (q : Parser) (l : List Ev) (n : Nat) (msg : Bytes) (k : Nat)
    (ks : List Nat) (hc : (urlRun h q l n (k :: ks) msg).last = .finished) :
    let o := urlRun h q l n (k :: ks) msg
    ∃ x : LooseUrl, x.OK ∧ msg = x.write ++ o.rest ∧ x.write.length = n ∧
      flat o.world.log = flat (l ++ x.events ++ [.bodyFinished]) := by
  intro o
  obtain ⟨I, H⟩ := url_sim h q l n k ks msg
  obtain ⟨x, hx, ⟨h1, h2⟩ | ⟨y, b, r, -, -, -, -, h2⟩⟩ := url_cases l n msg
  · unfold DriveSim at H
    rw [hc] at H
    simp only [h2] at H
    split at H
    · rename_i hn
      simp only [Prod.mk.injEq, Fin.finished.injEq] at H
      refine ⟨x, hx, ?_, ?_, H.1.symm⟩
      · rw [← h1, ← H.2, List.take_append_drop]
      · rw [← h1, List.length_take, Nat.min_eq_left hn]
    · simp at H
  · unfold DriveSim at H
    rw [hc] at H
    simp [h2] at H

/-- Every body of the grammar is accepted: the grammar is exact. -/
theorem C54_all_bodies_accepted (h : Handler) (q : Parser) (l : List Ev) (x : LooseUrl) (hx : x.OK) (rest : Bytes)
    (k : Nat) (ks : List Nat) (hc : (urlRun h q l x.write.length (k :: ks) (x.write ++ rest)).complete) :
    let o := urlRun h q l x.write.length (k :: ks) (x.write ++ rest)
    o.last = .finished ∧ o.rest = rest ∧ flat o.world.log = flat (l ++ x.events ++ [.bodyFinished]) := by
  intro o
  obtain ⟨I, H⟩ := url_sim h q l x.write.length k ks (x.write ++ rest)
  obtain ⟨h1, h2, h3⟩ := complete_fin (tr := flat (l ++ x.events ++ [.bodyFinished])) (r := rest) H hc
    (by rw [List.take_left' rfl, pred_looseUrl hx]; simp [endU, flat, flatEv])
  exact ⟨h1, h3, h2⟩

/-- `&a&;=b&c=%4`: empty fields, a field without name, and a cut escape. -/
def exLooseUrl : LooseUrl :=
  { fields := [(⟨[], [], none⟩, c! '&'), (⟨b!"a", b!"a", none⟩, c! '&'), (⟨[], [], none⟩, c! ';'),
      (⟨[], [], some (b!"b", b!"b")⟩, c! '&')],
    last := ⟨b!"c", b!"c", some ([], [])⟩, cut := b!"%4" }

theorem exLooseUrl_ok : exLooseUrl.OK where
  fields := by
    intro y hy
    simp only [exLooseUrl, List.mem_cons, List.not_mem_nil, or_false] at hy
    rcases hy with rfl | rfl | rfl | rfl
    · exact ⟨⟨⟨.nil, by decide⟩, nofun⟩, .inl rfl⟩
    · exact ⟨⟨⟨.literal (by decide) .nil, by decide⟩, nofun⟩, .inl rfl⟩
    · exact ⟨⟨⟨.nil, by decide⟩, nofun⟩, .inr rfl⟩
    · refine ⟨⟨⟨.nil, by decide⟩, ?_⟩, .inl rfl⟩
      rintro v ⟨⟩
      exact ⟨.literal (by decide) .nil, by decide⟩
  last := by
    refine ⟨⟨.literal (by decide) .nil, by decide⟩, ?_⟩
    rintro v ⟨⟩
    exact ⟨.nil, by decide⟩
  cut := .inr (.inr ⟨c! '4', 4, by decide, rfl⟩)

example : exLooseUrl.write = b!"&a&;=b&c=%4" ∧
    exLooseUrl.events = [.urlEncodedBegin, .urlEncodedName b!"", .urlEncodedBegin, .urlEncodedName b!"a",
      .urlEncodedBegin, .urlEncodedName b!"", .urlEncodedBegin, .urlEncodedName b!"", .urlEncodedValue b!"b",
      .urlEncodedBegin, .urlEncodedName b!"c", .urlEncodedValue b!""] ∧
    (urlRun pauses .new [] 11 (List.replicate 40 3) (exLooseUrl.write ++ b!"more")).complete ∧
    (urlRun pauses .new [] 11 (List.replicate 40 3) (exLooseUrl.write ++ b!"more")).last = .finished := by
  decide +kernel

/-! ## C55 -/

/-- **C55.** When a run over a URL-encoded body ends with an error, the bytes that were read lie within
the declared length; they are fields of the grammar and then something that has no place in such a body;
the error names the byte that is to blame, and whether it is part of a name or of a value; and what was
reported is what the fields before it mean (the last bytes of data may not have been delivered). -/
theorem C55_rejected_bodies (h : Handler) (q : Parser) (l : List Ev) (n : Nat) (msg : Bytes) (k : Nat)
    (ks : List Nat) (e : PErr) (hc : (urlRun h q l n (k :: ks) msg).last = .err e) :
    let o := urlRun h q l n (k :: ks) msg
    ∃ (x : LooseUrl) (y : Bytes) (b : UInt8), x.OK ∧ x.cut = [] ∧ UrlOffence y b ∧ msg = x.write ++ y ++ o.rest ∧
      (x.write ++ y).length ≤ n ∧ e = (if x.last.value = none then .urlEncodedName b else .urlEncodedValue b) ∧
      ∃ d, isData d = true ∧ flat (o.world.log ++ [d]) = flat (l ++ x.allEvents) := by
  intro o
  obtain ⟨I, H⟩ := url_sim h q l n k ks msg
  obtain ⟨x, hx, ⟨h1, h2⟩ | ⟨y, b, r, hcut, hy, h3, h4, h2⟩⟩ := url_cases l n msg
  · unfold DriveSim at H
    rw [hc] at H
    simp only [h2] at H
    split at H <;> simp at H
  · unfold DriveSim at H
    rw [hc] at H
    rcases H with ⟨d, hd, H⟩ | ⟨H, -⟩
    · rw [h2] at H
      simp only [Prod.mk.injEq, Fin.err.injEq] at H
      obtain ⟨h5, rfl, rfl⟩ := H
      exact ⟨x, y, b, hx, hcut, hy, h3, h4, rfl, d, hd, by rw [h5]; simp [flat, o]⟩
    · rw [h2] at H
      simp at H

/-- Conversely, such a body is rejected. -/
theorem C55_offences_rejected (h : Handler) (q : Parser) (l : List Ev) (n : Nat) (x : LooseUrl) (hx : x.OK)
    (hcut : x.cut = []) (y : Bytes) (b : UInt8) (hy : UrlOffence y b) (rest : Bytes) (hn : (x.write ++ y).length ≤ n)
    (k : Nat) (ks : List Nat) (hc : (urlRun h q l n (k :: ks) (x.write ++ y ++ rest)).complete) :
    let o := urlRun h q l n (k :: ks) (x.write ++ y ++ rest)
    o.last = .err (if x.last.value = none then .urlEncodedName b else .urlEncodedValue b) ∧ o.rest = rest ∧
      ∃ d, isData d = true ∧ flat (o.world.log ++ [d]) = flat (l ++ x.allEvents) := by
  intro o
  obtain ⟨I, H⟩ := url_sim h q l n k ks (x.write ++ y ++ rest)
  have e1 : (x.write ++ y ++ rest).take n = x.write ++ y ++ rest.take (n - (x.write ++ y).length) := by
    rw [List.take_append, List.take_of_length_le hn]
  have e2 : (x.write ++ y ++ rest).drop n = rest.drop (n - (x.write ++ y).length) := by
    rw [List.drop_append, List.drop_of_length_le hn, List.nil_append]
  obtain ⟨h1, h2, d, h3, h4⟩ := complete_err (tr := flat l ++ flat x.allEvents) (r := rest)
    (e := if x.last.value = none then .urlEncodedName b else .urlEncodedValue b) H hc
    (by rw [e1, pred_offence hx hcut hy]; simp only [endU]; rw [e2, List.take_append_drop])
  refine ⟨h1, h2, d, h3, ?_⟩
  rw [show flat (l ++ x.allEvents) = flat l ++ flat x.allEvents by simp [flat], ← h4]
  simp [flat, o]

example : (urlRun pauses .new [] 9 (List.replicate 40 2) b!"a=b&c d=e").last = .err (.urlEncodedName (c! ' ')) ∧
    (urlRun goOn .new [] 9 [100] b!"a=b&c=%x4").last = .err (.urlEncodedValue (c! 'x')) ∧
    (urlRun goOn .new [] 9 [100] b!"a=b&c=%x4").rest = b!"4" := by decide +kernel

example : UrlOffence b!" " (c! ' ') := .inl ⟨rfl, by decide⟩

end Verif.Http1
