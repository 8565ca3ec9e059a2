import Verif.Http1.AnyRun
import Verif.Props.Http1Detect

/-!
# Inputs of fewer than nine bytes

The parser takes a first word in `H` for something else when fewer than nine bytes are passed (C72); but with so few bytes a
head is never finished.
-/

namespace Verif.Http1

theorem not_short {d : Bytes} (hd : d.length < 9) {k : Nat} {w : World}
    (hr : resume goOn ⟨.new, []⟩ d = (.ok (.finished k), w)) : False := by
  have h1 := drive_one hr
  by_cases h0 : d = []
  · subst h0
    have h2 := congrArg (fun x => match x.1 with | .ok (.finished _) => true | _ => false) hr
    exact absurd (h2.trans (b := true) rfl) (by decide)
  have ht : d.take d.length = d := List.take_length
  by_cases hw : d.head? ≠ some (c! 'H') ∨ b!"HTTP/" <+: d ∨ d <+: b!"HTTP/"
  · obtain ⟨bl, x, -, h2, h3, h4, -⟩ := C50_only_heads_accepted_partial goOn .new [] d d.length []
      (.inr ⟨rfl, by rw [ht]; exact h0, .inr hw⟩) (by rw [h1])
    rw [h1] at h4
    have := congrArg List.length h4
    have := head_length h3
    simp only [List.length_append] at *
    omega
  · simp only [not_or, not_not] at hw
    obtain ⟨w1, w2, w3⟩ := hw
    obtain ⟨t, rfl⟩ : ∃ t, d = c! 'H' :: t := by
      cases d with
      | nil => cases w1
      | cons a t => cases w1; exact ⟨t, rfl⟩
    have hl : (c! 'H' :: t).dropWhile lead = c! 'H' :: t := by rw [List.dropWhile_cons_of_neg (by decide)]
    have hhw : HWord (c! 'H' :: t) := ⟨by rw [hl]; rfl, by rw [hl]; exact w2, by rw [hl]; exact w3⟩
    obtain ⟨p, b, r, e, hdf⟩ := exists_differs hhw.1 hhw.2.1 hhw.2.2
    rw [hl] at e
    have hbg : Begins .new (c! 'H' :: t) [(c! 'H' :: t).length] :=
      .inr ⟨rfl, _, c! 'H', rfl, by rw [ht]; rfl, by decide⟩
    have hts : (tokenSlice [(c! 'H' :: t).length] (c! 'H' :: t)).length < 9 := by
      rw [tokenSlice, ht, hl, if_neg (by simp)]
      exact hd
    have hc : (drive goOn .idle [(c! 'H' :: t).length] ⟨.new, []⟩ (c! 'H' :: t)).complete := by rw [h1]; trivial
    by_cases hb : b = c! ' '
    · subst hb
      have := (C72_whole_word_is_rejected goOn .new [] [] p r (by simp) hdf [(c! 'H' :: t).length]
        (by rw [List.nil_append, ← e]; exact hbg) (by rw [List.nil_append, ← e]; exact hts)
        (by rw [List.nil_append, ← e]; exact hc)).1
      rw [List.nil_append, ← e, h1] at this
      cases this
    · obtain ⟨N, hN⟩ := C72_runs_complete goOn .new [] (c! 'X' :: b :: r)
      have c1 := hN (List.replicate (N + 1) 1) (by simp) (by simp)
      have hL := C72_reads_like_another_word goOn goOn (Parser.new.init .head) .new [] [] [] p [] (c! 'X') b r (by simp) (by simp)
        (by simp [UpperByte]) (by decide) hdf hb (List.replicate (N + 1) 1) [(c! 'H' :: t).length] (.inl ⟨_, rfl⟩)
        (by rw [List.nil_append, ← e]; exact hbg) (by rw [List.nil_append, ← e]; exact hts) c1
        (by rw [List.nil_append, ← e]; exact hc)
      rw [List.nil_append, List.nil_append, ← e, h1] at hL
      have hf : (drive goOn .idle (List.replicate (N + 1) 1) ⟨Parser.new.init .head, []⟩ (c! 'X' :: b :: r)).last = .finished := by
        simp only [List.cons_append, List.nil_append] at hL
        generalize drive goOn .idle (List.replicate (N + 1) 1) ⟨Parser.new.init .head, []⟩ (c! 'X' :: b :: r) = o at hL
        unfold Loses at hL
        cases h : o.last <;> simp_all
      obtain ⟨bl, x, -, -, h3, h4, -⟩ := C50_only_heads_accepted_partial goOn (Parser.new.init .head) [] (c! 'X' :: b :: r) 1
        (List.replicate N 1) (.inl ⟨⟨_, rfl⟩, .inr (.inl (by
          rw [List.dropWhile_cons_of_neg (by decide)]; simp))⟩) hf
      have := congrArg List.length h4
      have := head_length h3
      have := congrArg List.length e
      have := List.length_pos_iff.2 hdf.ne
      simp only [List.length_append, List.length_cons] at *
      omega

/-- What a call that finishes has read, whatever its length. -/
theorem any_head_of {d : Bytes} {k : Nat} {w : World}
    (hr : resume goOn ⟨.new, []⟩ d = (.ok (.finished k), w)) : ∃ x : Head, x.OK ∧ d = x.write ++ d.drop k := by
  rcases Nat.lt_or_ge d.length 9 with hd | hd
  · exact (not_short hd hr).elim
  · exact any_head_inv hd hr

end Verif.Http1
