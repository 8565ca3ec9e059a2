import Verif.Http1.ConnScanSpec
import Verif.Http1.HeadScan
import Verif.Props.Http1Forward
import Verif.Props.Http1Framing

/-!
# Lemmas for C114: one message of a connection as others read it
-/

namespace Verif.Http1

/-- A head in any slicing: others find the same, except for letters of a method in `H`. -/
theorem head_told (h : Handler) {p : Parser} {l : List Ev} {msg : Bytes} {ks : List Nat} (hp : Begins p msg ks)
    (hf : (drive h .idle ks ⟨p, l⟩ msg).last = .finished) :
    ∃ (x : Head) (gone t : List Ev), x.OK ∧ msg.dropWhile lead = x.write ++ (drive h .idle ks ⟨p, l⟩ msg).rest ∧
      flat x.events = gone ++ t ∧ flat (drive h .idle ks ⟨p, l⟩ msg).world.log = flat l ++ t ∧
      (gone = [] ∨ Short msg ks ∧ ∃ w : Bytes, w <+: b!"HTTP" ∧ gone = w.map fun c => .method [c]) := by
  have hc : (drive h .idle ks ⟨p, l⟩ msg).complete := by unfold Outcome.complete; rw [hf]; trivial
  have k := begins_exact h hp hc
  by_cases hs : Short msg ks
  · have k := (k.1 hs).fin hf
    obtain ⟨bl, w, b, r, -, -, hd, h1, h2⟩ := short_pred hs.1 (flat l)
    by_cases hb : b = c! ' '
    · rw [h1 hb] at k; exact absurd (congrArg Prod.snd k) nofun
    · obtain ⟨t, f, -, h3, h4⟩ := h2 hb
      rw [h4, Prod.mk.injEq] at k
      obtain ⟨k1, rfl⟩ := k
      obtain ⟨x, h5, h6, h7⟩ := fin_means h3
      rw [List.append_assoc, List.append_cancel_left_eq] at h7
      exact ⟨x, _, t, h5, h6, h7.symm, k1.symm, .inr ⟨hs, w, hd.like, rfl⟩⟩
  · obtain ⟨x, h5, h6, h7⟩ := fin_means ((k.2 hs).fin hf)
    exact ⟨x, [], _, h5, h6, rfl, h7, .inl rfl⟩

theorem skip_scan (split : Bytes → Option (Bytes × Bytes)) (val : Bytes → Bytes) (msg : Bytes) :
    scanHead split val msg = scanHead split val (msg.dropWhile lead) := by
  have e : (msg.dropWhile lead).dropWhile lead = msg.dropWhile lead := by
    induction msg with
    | nil => rfl
    | cons b m ih =>
      by_cases hb : lead b = true
      · rw [List.dropWhile_cons_of_pos hb]; exact ih
      · rw [List.dropWhile_cons_of_neg hb, List.dropWhile_cons_of_neg hb]
  unfold scanHead
  rw [e]

theorem scan_told {split : Bytes → Option (Bytes × Bytes)} (hs : TakesLines split) {msg r : Bytes} {x : Head} (hx : x.OK)
    (h : msg.dropWhile lead = x.write ++ r) : scanHead split id msg = some (x.events, r) := by
  rw [skip_scan, h]
  exact scan_head hs (bl := []) (by simp) hx (fun y _ => by cases y <;> rfl) r

/-! ## The history -/

theorem flat_end {e : Ev} (he : isEnd e = true) : ∀ l : List Ev, e ∈ flat l → e ∈ l := by
  intro l h
  obtain ⟨a, h1, h2⟩ := List.mem_flatMap.1 h
  have : a = e := by
    unfold isEnd at he
    cases a <;> simp only [flatEv, List.mem_map, List.mem_singleton] at h2
    all_goals first
      | exact h2.symm
      | (obtain ⟨_, -, rfl⟩ := h2; cases he)
  exact this ▸ h1

theorem head_ends (x : Head) : ∃ t0, flat x.events = t0 ++ [.headersFinished] ∧ ∀ e ∈ t0, isEnd e = false := by
  refine ⟨flat (x.start.events ++ x.lines.flatMap Line.events), by simp [Head.events, flat, flatEv], fun e he => ?_⟩
  by_contra hb
  have hb : isEnd e = true := by simpa using hb
  have h1 := flat_end hb _ he
  rcases List.mem_append.1 h1 with h1 | h1
  · obtain ⟨st, ls⟩ := x
    cases st <;> simp only [StartLine.events, List.mem_cons, List.not_mem_nil, or_false] at h1 <;>
      rcases h1 with rfl | rfl | rfl | rfl <;> cases hb
  · obtain ⟨y, _, h1⟩ := List.mem_flatMap.1 h1
    cases y with
    | field n bl v =>
      simp only [Line.events, List.mem_cons, List.not_mem_nil, or_false] at h1
      rcases h1 with rfl | rfl <;> cases hb
    | fold b v =>
      simp only [Line.events, List.mem_cons, List.not_mem_nil, or_false] at h1
      subst h1; cases hb

theorem told_ends {x : Head} {gone t : List Ev} (h : flat x.events = gone ++ t) (hg : ∀ e ∈ gone, isMethod e = true) :
    ∃ t0, t = t0 ++ [.headersFinished] ∧ ∀ e ∈ t0, isEnd e = false := by
  obtain ⟨u, h1, h2⟩ := head_ends x
  rw [h1] at h
  rcases List.append_eq_append_iff.1 h with ⟨a, h3, h4⟩ | ⟨a, h3, h4⟩
  · cases a with
    | nil => exact ⟨[], by simpa using h4.symm, by simp⟩
    | cons e a =>
      exfalso
      rw [List.cons_append] at h4
      injection h4 with h5 _
      have := hg e (by rw [h3]; simp)
      rw [← h5] at this
      cases this
  · exact ⟨a, h4, fun e he => h2 e (by rw [h3]; simp [he])⟩

theorem last_message {s t0 : List Ev} {e : Ev} (hs : s = [] ∨ ∃ s0 e', s = s0 ++ [e'] ∧ isEnd e' = true)
    (ht : ∀ e ∈ t0, isEnd e = false) : lastMessage (s ++ (t0 ++ [e])) = t0 ++ [e] := by
  have h1 : (s ++ (t0 ++ [e])).dropLast = s ++ t0 := by rw [← List.append_assoc, List.dropLast_concat]
  have h2 : (s ++ (t0 ++ [e])).drop ((s ++ (t0 ++ [e])).length - 1) = [e] := by
    have : (s ++ (t0 ++ [e])).length - 1 = (s ++ t0).length := by
      simp only [List.length_append, List.length_cons, List.length_nil]; omega
    rw [this, ← List.append_assoc, List.drop_left]
  have h3 : ((s ++ t0).reverse.takeWhile fun e => !isEnd e) = t0.reverse := by
    rw [List.reverse_append, List.takeWhile_append_of_pos (by simpa using ht)]
    rcases hs with rfl | ⟨s0, e', rfl, he⟩
    · simp
    · rw [List.reverse_append, List.reverse_singleton, List.singleton_append, List.takeWhile_cons_of_neg (by simp [he]),
        List.append_nil]
  unfold lastMessage
  rw [h1, h2, h3, List.reverse_reverse]

theorem without_same {es gone t : List Ev} (h : flat es = gone ++ t) (hg : ∀ e ∈ gone, isMethod e = true) (ht : flat t = t) :
    withoutMethod t = withoutMethod es := by
  unfold withoutMethod
  rw [h, ht, List.dropWhile_append_of_pos hg]

end Verif.Http1
