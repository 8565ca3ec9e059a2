import Verif.Http1.HeadScanSpec
import Verif.Http1.Framing
import Verif.Util.ByteLemmas

/-!
# Lemmas for C112: heads of the grammar as others read them
-/

namespace Verif.Http1

theorem cut_at {c : UInt8} {w : Bytes} (h : ∀ b ∈ w, b ≠ c) (r : Bytes) : cutAt c (w ++ c :: r) = (w, r) := by
  have h' : ∀ b ∈ w, decide (b ≠ c) = true := fun b hb => decide_eq_true (h b hb)
  unfold cutAt
  rw [List.takeWhile_append_of_pos h', List.dropWhile_append_of_pos h']
  simp

theorem digits_ne {s : Bytes} {n : Nat} (h : Digits s n) {c : UInt8} (hc : ¬ (c! '0' ≤ c ∧ c ≤ c! '9')) : ∀ b ∈ s, b ≠ c := by
  rintro b hb rfl
  exact hc (h.2.2.1 b hb)

theorem scan_version {ma mi : Bytes} {n : Nat} (h : Digits ma n) :
    scanVersion (ma ++ c! '.' :: mi) = .version (decVal ma) (decVal mi) := by
  rw [scanVersion, cut_at (digits_ne h (by decide))]

theorem scan_start {y : StartLine} (h : y.OK) : scanStart y.text = y.events := by
  cases y with
  | request m u ma mi =>
    obtain ⟨⟨h1, h2⟩, ⟨-, h3⟩, ⟨_, h4⟩, -⟩ := h
    have hm : ∀ b ∈ m, b ≠ c! ' ' := by
      rintro b hb rfl
      exact absurd (h2 _ hb) (by decide)
    have hu : ∀ b ∈ u, b ≠ c! ' ' := by
      rintro b hb rfl
      exact absurd (h3 _ hb) (by unfold VisibleByte; decide)
    have e : StartLine.text (.request m u ma mi) = m ++ c! ' ' :: (u ++ c! ' ' :: (b!"HTTP/" ++ (ma ++ c! '.' :: mi))) := by
      simp [StartLine.text]
    have hn : (StartLine.text (.request m u ma mi)).take 5 ≠ b!"HTTP/" := by
      intro he
      have h5 : c! '/' ∈ (StartLine.text (.request m u ma mi)).take 5 := by rw [he]; decide
      have h6 : c! ' ' ∉ (StartLine.text (.request m u ma mi)).take 5 := by rw [he]; decide
      rw [e] at h5 h6
      by_cases hl : 5 ≤ m.length
      · rw [List.take_append_of_le_length hl] at h5
        exact absurd (h2 _ (List.mem_of_mem_take h5)) (by decide)
      · refine h6 ?_
        rw [List.take_append, List.mem_append]
        right
        obtain ⟨k, hk⟩ : ∃ k, 5 - m.length = k + 1 := ⟨5 - m.length - 1, by omega⟩
        rw [hk, List.take_succ_cons]
        exact List.mem_cons_self
    rw [scanStart, if_neg hn, e]
    simp only [cut_at hm, cut_at hu]
    rw [show (b!"HTTP/" ++ (ma ++ c! '.' :: mi)).drop 5 = ma ++ c! '.' :: mi from rfl, scan_version h4]
    rfl
  | response ma mi c re =>
    obtain ⟨⟨_, h1⟩, ⟨_, h2⟩, ⟨-, _, h3⟩, -, h4⟩ := h
    have e : StartLine.text (.response ma mi c re) = b!"HTTP/" ++ ((ma ++ c! '.' :: mi) ++ c! ' ' :: (c ++ c! ' ' :: re)) := by
      simp [StartLine.text]
    have hv : ∀ b ∈ ma ++ c! '.' :: mi, b ≠ c! ' ' := by
      intro b hb
      rcases List.mem_append.1 hb with hb | hb
      · exact digits_ne h1 (by decide) b hb
      · rcases List.mem_cons.1 hb with rfl | hb
        · decide
        · exact digits_ne h2 (by decide) b hb
    have e5 : (b!"HTTP/" ++ ((ma ++ c! '.' :: mi) ++ c! ' ' :: (c ++ c! ' ' :: re))).take 5 = b!"HTTP/" := rfl
    rw [scanStart, e, if_pos e5, show (b!"HTTP/" ++ ((ma ++ c! '.' :: mi) ++ c! ' ' :: (c ++ c! ' ' :: re))).drop 5 =
      (ma ++ c! '.' :: mi) ++ c! ' ' :: (c ++ c! ' ' :: re) from rfl]
    simp only [cut_at hv, cut_at (digits_ne h3 (c := c! ' ') (by decide)), scan_version h1]
    rfl

/-- `val` leaves the value of a line as it is. -/
def Line.Kept (val : Bytes → Bytes) : Line → Prop
  | .field _ _ v => val v = v
  | .fold _ v => val v = v

theorem token_not_blank : ∀ b : UInt8, TokenByte b → ¬ Blank b ∧ b ≠ c! ':' :=
  Util.forall_u8 (by decide +kernel)

theorem visible_not_blank {b : UInt8} (h : VisibleByte b) : ¬ Blank b := by
  rintro (rfl | rfl) <;> exact absurd h (by unfold VisibleByte; decide)

theorem scan_line {val : Bytes → Bytes} {y : Line} (h : y.OK) (hv : y.Kept val) : scanLine val y.text = y.events := by
  cases y with
  | field n bl v =>
    obtain ⟨h1, h2, -, b, w, rfl, h4⟩ := h
    have e : Line.text (.field n bl (b :: w)) = n ++ c! ':' :: (bl ++ b :: w) := by simp [Line.text]
    have hc := cut_at (c := c! ':') (fun b hb => (token_not_blank b (h1 b hb)).2) (bl ++ b :: w)
    have hd : (bl ++ b :: w).dropWhile (fun b => decide (Blank b)) = b :: w := by
      rw [List.dropWhile_append_of_pos fun b hb => decide_eq_true (h2 b hb),
        List.dropWhile_cons_of_neg (by simpa using visible_not_blank h4)]
    have hf : ∃ a t, n ++ c! ':' :: (bl ++ b :: w) = a :: t ∧ ¬ Blank a := by
      cases n with
      | nil => exact ⟨_, _, rfl, by decide⟩
      | cons a n => exact ⟨_, _, rfl, (token_not_blank a (h1 a (by simp))).1⟩
    obtain ⟨a, t, ht, ha⟩ := hf
    have hv' : val (b :: w) = b :: w := hv
    rw [e, ht, scanLine, if_neg ha, ← ht]
    simp only [hc, hd, hv']
    rfl
  | fold b v =>
    have hv' : val v = v := hv
    rw [Line.text, scanLine, if_pos h.1, hv']
    rfl

/-- `split` takes off lines that end with CR LF. -/
def TakesLines (split : Bytes → Option (Bytes × Bytes)) : Prop :=
  ∀ s, Unbroken s → ∀ r, split (s ++ 13 :: 10 :: r) = some (s, r)

theorem head_lines {split : Bytes → Option (Bytes × Bytes)} (hs : TakesLines split) (r : Bytes) :
    ∀ (ls : List Bytes), (∀ s ∈ ls, Unbroken s ∧ s ≠ []) → ∀ n, ls.length < n →
      headLines split n (ls.flatMap (· ++ [13, 10]) ++ 13 :: 10 :: r) = some (ls, r)
  | [], _, n + 1, _ => by
    have := hs [] (fun _ hb => absurd hb (by simp)) r
    rw [List.nil_append] at this
    rw [List.flatMap_nil, List.nil_append, headLines, this]
  | s :: ls, h, n + 1, hn => by
    obtain ⟨h1, h2⟩ := h s (by simp)
    have ih := head_lines hs r ls (fun t ht => h t (by simp [ht])) n (by simp only [List.length_cons] at hn; omega)
    rw [List.flatMap_cons, List.append_assoc, List.append_assoc, headLines]
    simp only [List.cons_append, List.nil_append]
    rw [hs s h1]
    cases s with
    | nil => exact absurd rfl h2
    | cons b s => simp only [ih, Option.map_some]

theorem skip_lead_head {bl : Bytes} (hb : ∀ b ∈ bl, b ∈ b!" \t\r\n") {x : Head} (hx : x.OK) (r : Bytes) :
    (bl ++ x.write ++ r).dropWhile lead = x.write ++ r := by
  obtain ⟨b, t, h1, h2⟩ := Head.starts hx
  rw [List.append_assoc, List.dropWhile_append_of_pos fun b h => by unfold lead; exact decide_eq_true (hb b h), h1,
    List.cons_append, List.dropWhile_cons_of_neg (by rw [h2]; decide)]

theorem lines_of_head {split : Bytes → Option (Bytes × Bytes)} (hs : TakesLines split) {x : Head} (hx : x.OK) (r : Bytes) :
    headLines split (x.write ++ r).length (x.write ++ r) = some (x.start.text :: x.lines.map Line.text, r) := by
  have e : x.write ++ r = (x.start.text :: x.lines.map Line.text).flatMap (· ++ [13, 10]) ++ 13 :: 10 :: r := by
    rw [Head.write_eq, List.append_assoc]; rfl
  have := lines_short (x.start.text :: x.lines.map Line.text)
  rw [e]
  refine head_lines hs r _ (Head.lines_ok hx) _ ?_
  rw [List.length_append, List.length_cons (as := 10 :: r)]
  omega

theorem scan_head {split : Bytes → Option (Bytes × Bytes)} (hs : TakesLines split) {val : Bytes → Bytes} {bl : Bytes}
    (hb : ∀ b ∈ bl, b ∈ b!" \t\r\n") {x : Head} (hx : x.OK) (hv : ∀ y ∈ x.lines, y.Kept val) (r : Bytes) :
    scanHead split val (bl ++ x.write ++ r) = some (x.events, r) := by
  have hl : ∀ ls : List Line, (∀ y ∈ ls, y.OK) → (∀ y ∈ ls, y.Kept val) →
      (ls.map Line.text).flatMap (scanLine val) = ls.flatMap Line.events := by
    intro ls
    induction ls with
    | nil => intros; rfl
    | cons y ls ih =>
      intro h1 h2
      rw [List.map_cons, List.flatMap_cons, List.flatMap_cons, scan_line (h1 y (by simp)) (h2 y (by simp)),
        ih (fun z hz => h1 z (by simp [hz])) fun z hz => h2 z (by simp [hz])]
  unfold scanHead
  simp only [skip_lead_head hb hx, lines_of_head hs hx, scan_start hx.start, hl _ hx.lines hv]
  rfl

theorem takes_crlf : TakesLines splitLine := fun _ h r => split_line h r
theorem takes_lf : TakesLines lfLine := fun _ h r => lf_line h r

theorem trim_end {v : Bytes} (h : ∀ b, v.getLast? = some b → ¬ Blank b) : trimEnd v = v := by
  unfold trimEnd
  rw [← List.head?_reverse] at h
  cases hv : v.reverse with
  | nil => rw [List.reverse_eq_nil_iff.1 hv]; rfl
  | cons b t =>
    rw [List.dropWhile_cons_of_neg (by simpa using h b (by rw [hv]; rfl)), ← hv, List.reverse_reverse]

theorem kept_trim {y : Line} (hy : y.OK) (h : ∀ b, y.text.getLast? = some b → ¬ Blank b) : y.Kept trimEnd := by
  cases y with
  | field n bl v =>
    refine trim_end fun b hb => h b ?_
    rw [Line.text, List.getLast?_append, hb]; rfl
  | fold b v =>
    refine trim_end fun c hc => h c ?_
    rw [Line.text, List.getLast?_cons, hc]; rfl

end Verif.Http1
