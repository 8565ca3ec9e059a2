import Verif.Http1.PauseSpec
import Verif.Props.Http1Calls

/-!
# Where a client that pauses gets to (helper lemmas)
-/

namespace Verif.Http1

variable {h : Handler}

theorem stops_append : ∀ (t l u : List Ev), stops h l (t ++ u) = stops h l t + stops h (l ++ t) u
  | [], l, u => by simp [stops]
  | e :: t, l, u => by
    simp only [List.cons_append, stops]
    rw [stops_append t, Nat.add_assoc, List.append_assoc]
    rfl

theorem stops_zero : ∀ {t l : List Ev}, (∀ a e b, t = a ++ e :: b → h.ret (l ++ a ++ [e]) = true) → stops h l t = 0
  | [], _, _ => rfl
  | e :: t, l, H => by
    rw [stops, stops_zero (l := l ++ [e])]
    · have := H [] e t rfl
      rw [List.append_nil] at this
      simp [this]
    · intro a e' b he
      have := H (e :: a) e' b (by rw [he]; rfl)
      simpa using this

/-- A list of callbacks that ends with one that was answered with `false`. -/
def AtStop (h : Handler) (l t : List Ev) : Prop := t ≠ [] ∧ h.ret (l ++ t) = false

theorem AtStop.last {l t : List Ev} (H : AtStop h l t) : ∃ t' e, t = t' ++ [e] ∧ stops h l t = stops h l t' + 1 := by
  obtain ⟨h1, h2⟩ := H
  rcases List.eq_nil_or_concat t with rfl | ⟨t', e, rfl⟩
  · exact absurd rfl h1
  · refine ⟨t', e, by simp, ?_⟩
    rw [List.concat_eq_append, stops_append]
    rw [List.concat_eq_append] at h2
    simp [stops, h2]

/-- Two beginnings that end at a stop, with the same number of stops, are the same. -/
theorem stop_unique {l t a b : List Ev} (ha : a <+: t) (hb : b <+: t) (sa : AtStop h l a) (sb : AtStop h l b)
    (he : stops h l a = stops h l b) : a = b := by
  have key : ∀ {a b : List Ev}, a <+: b → AtStop h l b → stops h l a = stops h l b → a = b := by
    intro a b hp sb he
    obtain ⟨b', e, rfl, h2⟩ := sb.last
    rcases List.prefix_concat_iff.1 hp with h3 | h3
    · simpa using h3
    · obtain ⟨c, rfl⟩ := h3
      rw [h2, stops_append] at he
      omega
  rcases List.prefix_or_prefix_of_prefix ha hb with hp | hp
  · exact key hp sb he
  · exact (key hp sa he.symm).symm

theorem feed_stops : ∀ (n : Nat) (w : World) (s : Bytes), Back (feed h n w s) →
    ∃ t, (feed h n w s).world.log = w.log ++ t ∧
      ((feed h n w s).last = .callback → stops h w.log t = n ∧ (0 < n → AtStop h w.log t)) ∧
      ((feed h n w s).last ≠ .callback → stops h w.log t < n)
  | 0, w, s, _ => ⟨[], by simp [feed], fun _ => ⟨rfl, fun h => absurd h (by omega)⟩, fun h => absurd rfl h⟩
  | n + 1, w, s, hb => by
    rcases hr : resume h w s with ⟨r, w'⟩
    have quiet : ((∃ su, r = .ok su) ∨ ∃ e, r = .err e) → (∀ k, r ≠ .ok (.callback k)) →
        ∃ t, w'.log = w.log ++ t ∧ stops h w.log t < n + 1 := by
      intro hok hn
      obtain ⟨t, h1, h2, -⟩ := C17_false_stops h w w' s r hr hok
      refine ⟨t, h1, ?_⟩
      rw [stops_zero]
      · omega
      · intro a e b he
        by_contra hf
        obtain ⟨-, k, hk⟩ := h2 a e b he (by simpa using hf)
        exact hn k hk
    rw [feed, hr] at hb ⊢
    rcases r with (k | k | k) | e | _ | _ | _
    · obtain ⟨t, h1, h2, h3⟩ := C17_false_stops h w w' s _ hr (.inl ⟨_, rfl⟩)
      obtain ⟨h4, h5⟩ := h3 k rfl
      have ht : AtStop h w.log t := ⟨h4, by rw [← h1]; exact h5⟩
      have h6 : stops h w.log t = 1 := by
        obtain ⟨t', e, rfl, h7⟩ := ht.last
        rw [h7, stops_zero]
        intro a e' b he
        by_contra hf
        obtain ⟨h8, -⟩ := h2 a e' (b ++ [e]) (by rw [he]; simp) (by simpa using hf)
        simp at h8
      simp only at hb ⊢
      obtain ⟨u, h7, h8, h9⟩ := feed_stops n w' (s.drop k) hb
      refine ⟨t ++ u, by rw [h7, h1, List.append_assoc], fun hl => ?_, fun hl => ?_⟩
      · obtain ⟨h10, h11⟩ := h8 hl
        rw [stops_append, ← h1, h10, h6]
        refine ⟨by omega, fun _ => ?_⟩
        rcases Nat.eq_zero_or_pos n with rfl | hn
        · have : u = [] := by
            have : w'.log ++ u = w'.log := by rw [← h7]; rfl
            simpa using this
          rw [this, List.append_nil]
          exact ht
        · obtain ⟨h12, h13⟩ := h11 hn
          refine ⟨by simp [h12], ?_⟩
          rw [← List.append_assoc, ← h1]
          exact h13
      · have := h9 hl
        rw [stops_append, ← h1, h6]
        omega
    · obtain ⟨t, h1, h2⟩ := quiet (.inl ⟨_, rfl⟩) nofun
      exact ⟨t, h1, nofun, fun _ => h2⟩
    · obtain ⟨t, h1, h2⟩ := quiet (.inl ⟨_, rfl⟩) nofun
      exact ⟨t, h1, nofun, fun _ => h2⟩
    · obtain ⟨t, h1, h2⟩ := quiet (.inr ⟨_, rfl⟩) nofun
      exact ⟨t, h1, nofun, fun _ => h2⟩
    · exact absurd rfl hb.1
    · exact absurd rfl hb.2.1
    · exact absurd rfl hb.2.2

/-- After a pause, the loop goes on. -/
theorem feed_add : ∀ (n m : Nat) (w : World) (s : Bytes), (feed h n w s).last = .callback →
    feed h (n + m) w s = feed h m (feed h n w s).world (feed h n w s).rest
  | 0, m, w, s, _ => by rw [Nat.zero_add]; rfl
  | n + 1, m, w, s, hl => by
    rw [show n + 1 + m = (n + m) + 1 by omega]
    rcases hr : resume h w s with ⟨r, w'⟩
    rw [feed, hr] at hl ⊢
    rw [feed, hr]
    rcases r with (k | k | k) | e | _ | _ | _
    · exact feed_add n m w' (s.drop k) hl
    all_goals cases hl

/-- Otherwise, it has ended. -/
theorem feed_end : ∀ (n m : Nat) (w : World) (s : Bytes), (feed h n w s).last ≠ .callback →
    feed h (n + m) w s = feed h n w s
  | 0, m, w, s, hl => absurd rfl hl
  | n + 1, m, w, s, hl => by
    rw [show n + 1 + m = (n + m) + 1 by omega]
    rcases hr : resume h w s with ⟨r, w'⟩
    rw [feed, hr] at hl ⊢
    rw [feed, hr]
    rcases r with (k | k | k) | e | _ | _ | _
    · exact feed_end n m w' (s.drop k) hl
    all_goals rfl

/-! ## Stopping where something begins -/

theorem flat_nonempty_split {e : Ev} (hd : isData e = false) : ∀ {l x y : List Ev}, flat l = x ++ e :: y →
    ∃ a b, l = a ++ e :: b ∧ flat a = x ∧ flat b = y
  | [], x, y, h => by simp [flat] at h
  | e' :: l, x, y, h => by
    rw [show flat (e' :: l) = flatEv e' ++ flat l from rfl] at h
    by_cases hd' : isData e' = true
    · have hm : e ∉ flatEv e' := by
        intro hm
        cases e' <;> simp only [isData, Bool.false_eq_true] at hd' <;> simp only [flatEv, List.mem_map] at hm <;>
          obtain ⟨b, -, rfl⟩ := hm <;> simp [isData] at hd
      rcases List.append_eq_append_iff.1 h with ⟨as, h1, h2⟩ | ⟨cs, h1, h2⟩
      · obtain ⟨a, b, rfl, h3, h4⟩ := flat_nonempty_split hd h2
        exact ⟨e' :: a, b, rfl, by rw [h1, ← h3]; rfl, h4⟩
      · cases cs with
        | nil =>
          rw [List.nil_append] at h2
          obtain ⟨a, b, rfl, h3, h4⟩ := flat_nonempty_split (x := []) hd h2.symm
          refine ⟨e' :: a, b, rfl, ?_, h4⟩
          rw [show flat (e' :: a) = flatEv e' ++ flat a from rfl, h3, h1]; simp
        | cons c cs =>
          simp only [List.cons_append, List.cons.injEq] at h2
          rw [h1, h2.1] at hm
          simp at hm
    · have e1 : flatEv e' = [e'] := by cases e' <;> first | rfl | exact absurd rfl hd'
      rw [e1] at h
      cases x with
      | nil =>
        simp only [List.nil_append, List.cons_append, List.cons.injEq] at h
        obtain ⟨rfl, h2⟩ := h
        exact ⟨[], l, rfl, rfl, h2⟩
      | cons z x =>
        simp only [List.nil_append, List.cons_append, List.cons.injEq] at h
        obtain ⟨rfl, h2⟩ := h
        obtain ⟨a, b, rfl, h3, h4⟩ := flat_nonempty_split hd h2
        refine ⟨e' :: a, b, rfl, ?_, h4⟩
        rw [show flat (e' :: a) = flatEv e' ++ flat a from rfl, h3, e1]; rfl

theorem stops_count {e : Ev} : ∀ (t l : List Ev),
    stops (pausesAt e) l t = ((l ++ t).count e - 1) - (l.count e - 1)
  | [], l => by simp [stops]
  | x :: t, l => by
    rw [stops, stops_count t]
    have h1 : ((l ++ [x]) ++ t).count e = (l ++ x :: t).count e := by simp
    have h2 : (l ++ [x]).count e ≤ (l ++ x :: t).count e := by
      rw [← h1, List.count_append (l₁ := l ++ [x])]; omega
    rw [h1]
    have h3 : (l ++ [x]).count e = l.count e + if x = e then 1 else 0 := by
      rw [List.count_append, List.count_singleton]; simp
    by_cases hx : x = e
    · rw [if_pos hx] at h3
      by_cases h4 : 0 < l.count e
      · rw [if_pos (by simp only [pausesAt, Bool.not_eq_false', Bool.and_eq_true, decide_eq_true_eq]; exact ⟨by simp [hx], by omega⟩)]
        omega
      · rw [if_neg (by
          simp only [pausesAt, Bool.not_eq_false', Bool.and_eq_true, decide_eq_true_eq, not_and]; intro _; omega)]
        omega
    · rw [if_neg hx] at h3
      rw [if_neg (by
        simp only [pausesAt, Bool.not_eq_false', Bool.and_eq_true, decide_eq_true_eq, not_and]
        intro h; simp [hx] at h)]
      omega

theorem count_flat {e : Ev} (hd : isData e = false) : ∀ (l : List Ev), (flat l).count e = l.count e
  | [] => rfl
  | x :: l => by
    rw [show flat (x :: l) = flatEv x ++ flat l from rfl, List.count_append, count_flat hd l, List.count_cons]
    by_cases hx : isData x = true
    · have h0 : (flatEv x).count e = 0 := by
        rw [List.count_eq_zero]
        intro hm
        cases x <;> simp only [isData, Bool.false_eq_true] at hx <;> simp only [flatEv, List.mem_map] at hm <;>
          obtain ⟨b, -, rfl⟩ := hm <;> simp [isData] at hd
      have h1 : (x == e) = false := by
        rw [beq_eq_false_iff_ne]; rintro rfl; rw [hd] at hx; cases hx
      rw [h0, h1]; simp
    · have e1 : flatEv x = [x] := by cases x <;> first | rfl | exact absurd rfl hx
      rw [e1, List.count_singleton, Nat.add_comm]

end Verif.Http1
