import Verif.Util.FieldItemsSpec
import Verif.Util.FieldLooseSpec
import Verif.Util.ByteLemmas

/-!
# Lemmas for C113: fields of the grammar as others read them
-/

namespace Verif.Util

theorem quoted_string {q v : Bytes} (h : Quoted q v) (r : Bytes) : quotedString (q ++ c! '"' :: r) = (v, r) := by
  induction h with
  | nil => cases r <;> rfl
  | @plain b q v hb _ _ ih =>
    have h1 : b ≠ c! '"' := by rintro rfl; exact absurd hb (by decide)
    obtain ⟨a, t, ht⟩ : ∃ a t, q ++ c! '"' :: r = a :: t := by cases q <;> exact ⟨_, _, rfl⟩
    rw [List.cons_append]
    rw [ht] at ih ⊢
    rw [quotedString, if_neg h1, if_neg hb.2, ih]
  | @escaped b q v _ ih =>
    rw [List.cons_append, List.cons_append, quotedString, if_neg (by decide), if_pos rfl, ih]

theorem after_next {d : UInt8} {w : Bytes} (h : ∀ b ∈ w, b ≠ d) (r : Bytes) : afterNext d (w ++ d :: r) = r := by
  unfold afterNext
  rw [List.dropWhile_append_of_pos fun b hb => decide_eq_true (h b hb)]
  simp

/-- The bytes of a name. -/
def Plain (d : UInt8) (w : Bytes) : Prop := ∀ b ∈ w, b ≠ c! '=' ∧ b ≠ d

theorem raw_nil (d : UInt8) (n : Nat) : rawItems d n [] = [] := by cases n <;> rfl

theorem raw_end {d : UInt8} {w : Bytes} (hw : Plain d w) (hne : w ≠ []) (n : Nat) (hn : w.length ≤ n) :
    rawItems d n w = [(w, [])] := by
  obtain ⟨b, t, rfl⟩ := List.exists_cons_of_ne_nil hne
  obtain ⟨n, rfl⟩ : ∃ k, n = k + 1 := ⟨n - 1, by simp only [List.length_cons] at hn; omega⟩
  have h' : ∀ c ∈ b :: t, decide (c ≠ c! '=' ∧ c ≠ d) = true := fun c hc => decide_eq_true (hw c hc)
  have h1 := List.takeWhile_append_of_pos (l₂ := []) h'
  have h2 := List.dropWhile_append_of_pos (l₂ := []) h'
  rw [List.append_nil] at h1 h2
  rw [rawItems, h1, h2]
  simp

theorem raw_name {d : UInt8} {w : Bytes} (hw : Plain d w) (r : Bytes) (n : Nat) :
    rawItems d (n + 1) (w ++ d :: r) = (w, []) :: rawItems d n r := by
  have h' : ∀ c ∈ w, decide (c ≠ c! '=' ∧ c ≠ d) = true := fun c hc => decide_eq_true (hw c hc)
  have h1 := List.takeWhile_append_of_pos (l₂ := d :: r) h'
  have h2 := List.dropWhile_append_of_pos (l₂ := d :: r) h'
  rw [List.takeWhile_cons_of_neg (by simp), List.append_nil] at h1
  rw [List.dropWhile_cons_of_neg (by simp)] at h2
  obtain ⟨b, t, ht⟩ : ∃ b t, w ++ d :: r = b :: t := by cases w <;> exact ⟨_, _, rfl⟩
  rw [ht] at h1 h2 ⊢
  rw [rawItems, h1, h2]
  simp

/-- The item with the name `w` and the value at the start of `v`, and those after it. -/
def rawValue (d : UInt8) (w : Bytes) (n : Nat) : Bytes → List (Bytes × Bytes)
  | [] => [(w, [])]
  | a :: v =>
    if a = c! '"' then (w, (quotedString v).1) :: rawItems d n (afterNext d (quotedString v).2)
    else (w, (a :: v).takeWhile (· ≠ d)) :: rawItems d n (afterNext d (a :: v))

theorem raw_eq {d : UInt8} (hd : d ≠ c! '=') {w : Bytes} (hw : Plain d w) {s : Bytes} (hs : Blanks s) (v : Bytes) (n : Nat)
    (hv : ∀ b ∈ v.head?, ¬ Blank b) :
    rawItems d (n + 1) (w ++ c! '=' :: (s ++ v)) = rawValue d w n v := by
  have h' : ∀ c ∈ w, decide (c ≠ c! '=' ∧ c ≠ d) = true := fun c hc => decide_eq_true (hw c hc)
  have h1 := List.takeWhile_append_of_pos (l₂ := c! '=' :: (s ++ v)) h'
  have h2 := List.dropWhile_append_of_pos (l₂ := c! '=' :: (s ++ v)) h'
  rw [List.takeWhile_cons_of_neg (by simp), List.append_nil] at h1
  rw [List.dropWhile_cons_of_neg (by simp)] at h2
  have h3 : (s ++ v).dropWhile (fun c => decide (Blank c)) = v := by
    rw [List.dropWhile_append_of_pos fun b hb => decide_eq_true (hs b hb)]
    cases v with
    | nil => rfl
    | cons a v => exact List.dropWhile_cons_of_neg (by simpa using hv a (by simp))
  obtain ⟨b, t, ht⟩ : ∃ b t, w ++ c! '=' :: (s ++ v) = b :: t := by cases w <;> exact ⟨_, _, rfl⟩
  rw [ht] at h1 h2 ⊢
  rw [rawItems, h1, h2]
  simp only [if_neg (Ne.symm hd), h3]
  cases v <;> rfl

/-! ## Names -/

variable {d : UInt8} {z : Bool}

theorem name_plain (hd : d ≠ c! '/' ∧ ¬ Blank d) {g : Bool} {w n : Bytes} (h : NameText d z g w n) : Plain d w := by
  have hb : ∀ s, Blanks s → Plain d s := by
    intro s hs b hb
    refine ⟨?_, ?_⟩
    · rintro rfl; exact absurd (hs _ hb) (by decide)
    · rintro rfl; exact hd.2 (hs _ hb)
  induction h with
  | start hs => exact hb _ hs
  | token _ ht hne _ ih =>
    intro c hc
    rcases List.mem_append.1 hc with hc | hc
    · exact ih c hc
    · rw [List.mem_singleton] at hc
      subst hc
      exact ⟨by rintro rfl; exact absurd ht (by decide), hne⟩
  | slash _ hs ih =>
    intro c hc
    rcases List.mem_append.1 hc with hc | hc
    · exact ih c hc
    · rcases List.mem_cons.1 hc with rfl | hc
      · exact ⟨by decide, Ne.symm hd.1⟩
      · exact hb _ hs c hc
  | upper _ _ hu hne hs ih =>
    intro c hc
    rcases List.mem_append.1 hc with hc | hc
    · exact ih c hc
    · rcases List.mem_cons.1 hc with rfl | hc
      · exact ⟨by rintro rfl; exact absurd hu (by decide), hne⟩
      · exact hb _ hs c hc

theorem blanks_filter {s : Bytes} (h : Blanks s) : (s.filter fun b => !decide (Blank b)) = [] := by
  rw [List.filter_eq_nil_iff]
  intro b hb
  simpa using h b hb

theorem token_unblank : ∀ b : UInt8, TokenByte b → ¬ Blank b := forall_u8 (by decide +kernel)
theorem upper_unblank : ∀ b : UInt8, UpperByte b → ¬ Blank b := forall_u8 (by decide +kernel)

theorem loose_append (u v : Bytes) : looseName z (u ++ v) = looseName z u ++ looseName z v := by
  unfold looseName
  cases z <;> simp [lower]

theorem loose_blanks {s : Bytes} (h : Blanks s) : looseName z s = [] := by
  unfold looseName
  rw [blanks_filter h]
  cases z <;> rfl

theorem loose_cons {b : UInt8} (s : Bytes) : looseName z (b :: s) = looseName z [b] ++ looseName z s :=
  loose_append [b] s

theorem loose_one {b : UInt8} (h : ¬ Blank b) : looseName z [b] = if z then lower [b] else [b] := by
  unfold looseName
  simp [h]

theorem loose_name {g : Bool} {w n : Bytes} (h : NameText d z g w n) : looseName z w = n := by
  induction h with
  | start hs => exact loose_blanks hs
  | @token _ w n b _ ht _ hu ih =>
    rw [loose_append, ih, loose_one (token_unblank b ht)]
    cases z with
    | false => rfl
    | true => simp [lower, hu rfl]
  | slash _ hs ih =>
    rw [loose_append, ih, loose_cons, loose_blanks hs, loose_one (by decide)]
    cases z <;> rfl
  | @upper _ w n b s hz _ hu _ hs ih =>
    subst hz
    rw [loose_append, ih, loose_cons, loose_blanks hs, loose_one (upper_unblank b hu)]
    simp

theorem name_open {g : Bool} {w n : Bytes} (h : NameText d z g w n) (hg : g = true) : n = [] ∨ OpenEnd z w := by
  cases h with
  | start => exact .inl rfl
  | token => cases hg
  | @slash _ w n s _ hs => exact .inr ⟨w, _, s, rfl, hs, .inl rfl⟩
  | @upper _ w n b s hz _ hu _ hs => exact .inr ⟨w, b, s, rfl, hs, .inr ⟨hz, hu⟩⟩

theorem OpenEnd.after {t x : Bytes} (h : OpenEnd z x) : OpenEnd z (t ++ x) := by
  obtain ⟨y, b, s, rfl, h⟩ := h
  exact ⟨t ++ y, b, s, by simp, h⟩

/-! ## Items -/

/-- How the items of the code compare with others: a missing value is an empty one, and empty items do not count. -/
def tidy (l : List Item) : List (Bytes × Bytes) := (l.map fun i => (i.1, i.2.getD [])).filter (· != ([], []))

/-- The same for `rawItems`. -/
def tidied (z : Bool) (l : List (Bytes × Bytes)) : List (Bytes × Bytes) :=
  (l.map fun i => (looseName z i.1, i.2)).filter (· != ([], []))

theorem tidied_cons {w n v : Bytes} {o : Option Bytes} (hn : looseName z w = n) (hv : o.getD [] = v) {r : List (Bytes × Bytes)} {l : List Item}
    {m : List (Bytes × Bytes)} (h : tidied z r = tidy l ++ m) : tidied z ((w, v) :: r) = tidy ((n, o) :: l) ++ m := by
  unfold tidied tidy at *
  rw [List.map_cons, List.map_cons, List.filter_cons, List.filter_cons, h]
  simp only [hn, hv]
  by_cases hb : ((n, v) != (([], []) : Bytes × Bytes)) = true
  · rw [if_pos hb, if_pos hb]; rfl
  · rw [if_neg hb, if_neg hb]

theorem plain_takes {v : Bytes} (h : PlainValue d v) : ∀ b ∈ v, b ≠ d := fun b hb => (h.1 b hb).2.1

theorem plain_quote {a : UInt8} {v : Bytes} (h : PlainValue d (a :: v)) : a ≠ c! '"' := by
  rintro rfl
  exact absurd (h.1 _ List.mem_cons_self).1 (by decide)

theorem take_to {w : Bytes} (h : ∀ b ∈ w, b ≠ d) (r : Bytes) : (w ++ d :: r).takeWhile (· ≠ d) = w := by
  rw [List.takeWhile_append_of_pos fun b hb => decide_eq_true (h b hb), List.takeWhile_cons_of_neg (by simp), List.append_nil]

theorem take_all {w : Bytes} (h : ∀ b ∈ w, b ≠ d) : w.takeWhile (· ≠ d) = w ∧ afterNext d w = [] := by
  have h' : ∀ b ∈ w, decide (b ≠ d) = true := fun b hb => decide_eq_true (h b hb)
  have h1 := List.takeWhile_append_of_pos (l₂ := []) h'
  have h2 := List.dropWhile_append_of_pos (l₂ := []) h'
  simp only [List.append_nil, List.takeWhile_nil, List.dropWhile_nil] at h1 h2
  exact ⟨h1, by unfold afterNext; rw [h2]; rfl⟩

/-- What the code drops, and others find. -/
def Dropped (z : Bool) (x : Bytes) (m : List (Bytes × Bytes)) : Prop := m = [] ∨ ∃ n, m = [(n, [])] ∧ OpenEnd z x

theorem items_same (hd : d ≠ c! '=' ∧ d ≠ c! '/' ∧ ¬ Blank d) (hq : d ≠ c! '"') {x : Bytes} {l : List Item} (h : Accepted d z x l) :
    ∃ m, Dropped z x m ∧ ∀ n, x.length ≤ n → tidied z (rawItems d n x) = tidy l ++ m := by
  have hnil : ∀ n, tidied z (rawItems d n []) = tidy [] ++ [] := fun n => by rw [raw_nil]; rfl
  induction h with
  | @nothing w n h =>
    by_cases hw : w = []
    · subst hw
      exact ⟨[], .inl rfl, fun n _ => hnil n⟩
    · have hp := name_plain hd.2 h
      by_cases hn : n = []
      · refine ⟨[], .inl rfl, fun k hk => ?_⟩
        rw [raw_end hp hw k hk]
        simp [tidied, tidy, loose_name h, hn]
      · refine ⟨[(n, [])], .inr ⟨n, rfl, (name_open h rfl).resolve_left hn⟩, fun k hk => ?_⟩
        rw [raw_end hp hw k hk]
        simp [tidied, tidy, loose_name h, hn]
  | @last t i h =>
    refine ⟨[], .inl rfl, fun k hk => ?_⟩
    cases h with
    | @name _ n h =>
      by_cases hw : t = []
      · subst hw
        cases k with
        | zero =>
          have : looseName z [] = n := loose_name h
          rw [show n = [] by rw [← this]; exact loose_blanks (by simp [Blanks])]
          rfl
        | succ k =>
          have : looseName z [] = n := loose_name h
          rw [show n = [] by rw [← this]; exact loose_blanks (by simp [Blanks])]
          rfl
      · rw [raw_end (name_plain hd.2 h) hw k hk]
        exact tidied_cons (o := none) (l := []) (m := []) (loose_name h) rfl rfl
    | @noValue g w n s h hs =>
      obtain ⟨k, rfl⟩ : ∃ j, k = j + 1 := ⟨k - 1, by simp only [List.length_append, List.length_cons] at hk; omega⟩
      have := raw_eq hd.1 (name_plain hd.2 h) hs [] k (by simp)
      rw [List.append_nil] at this
      rw [this]
      exact tidied_cons (o := none) (l := []) (m := []) (loose_name h) rfl rfl
    | @value g w n s v h hs hv hne =>
      obtain ⟨a, v, rfl⟩ := List.exists_cons_of_ne_nil hne
      obtain ⟨k, rfl⟩ : ∃ j, k = j + 1 := ⟨k - 1, by simp only [List.length_append, List.length_cons] at hk; omega⟩
      rw [raw_eq hd.1 (name_plain hd.2 h) hs _ k hv.2]
      simp only [rawValue, if_neg (plain_quote hv), (take_all (plain_takes hv)).1, (take_all (plain_takes hv)).2]
      exact tidied_cons (o := some _) (loose_name h) rfl (hnil k)
    | @quoted g w n s q v s' t h hs hv hs' ht =>
      obtain ⟨k, rfl⟩ : ∃ j, k = j + 1 := ⟨k - 1, by simp only [List.length_append, List.length_cons] at hk; omega⟩
      rw [raw_eq hd.1 (name_plain hd.2 h) hs _ k (by simp; decide)]
      simp only [rawValue, if_true, quoted_string hv]
      refine tidied_cons (o := some _) (loose_name h) rfl ?_
      have hb : ∀ b ∈ s', b ≠ d := by rintro b hb rfl; exact hd.2.2 (hs' _ hb)
      have e : afterNext d (s' ++ t) = [] := by
        match t, ht with
        | [], _ => rw [List.append_nil]; exact (take_all hb).2
        | [b], _ =>
          by_cases hbd : b = d
          · subst hbd; exact after_next hb []
          · refine (take_all fun c hc => ?_).2
            rcases List.mem_append.1 hc with hc | hc
            · exact hb c hc
            · rw [List.mem_singleton.1 hc]; exact hbd
      rw [e]
      exact hnil k
  | @cons t i x l h _ ih =>
    obtain ⟨m, hm, ih⟩ := ih
    refine ⟨m, hm.imp id fun ⟨n, h1, h2⟩ => ⟨n, h1, h2.after⟩, fun k hk => ?_⟩
    cases h with
    | @name g w n h hg =>
      obtain ⟨k, rfl⟩ : ∃ j, k = j + 1 := ⟨k - 1, by simp only [List.length_append, List.length_cons] at hk; omega⟩
      rw [List.append_assoc, List.singleton_append, raw_name (name_plain hd.2 h)]
      refine tidied_cons (o := none) (loose_name h) rfl (ih k ?_)
      simp only [List.length_append, List.length_cons, List.length_nil] at hk
      omega
    | @value g w n s v h hs hv =>
      obtain ⟨k, rfl⟩ : ∃ j, k = j + 1 := ⟨k - 1, by simp only [List.length_append, List.length_cons] at hk; omega⟩
      have e : w ++ c! '=' :: (s ++ (v ++ [d])) ++ x = w ++ c! '=' :: (s ++ (v ++ d :: x)) := by simp
      have hk' : x.length ≤ k := by
        simp only [List.length_append, List.length_cons, List.length_nil] at hk
        omega
      have hh : ∀ b ∈ (v ++ d :: x).head?, ¬ Blank b := by
        intro b hb
        cases v with
        | nil => cases hb; exact hd.2.2
        | cons a v => exact hv.2 b hb
      rw [e, raw_eq hd.1 (name_plain hd.2 h) hs _ k hh]
      have h1 := take_to (plain_takes hv) x
      have h2 := after_next (plain_takes hv) x
      obtain ⟨a, r, hr, ha⟩ : ∃ a r, v ++ d :: x = a :: r ∧ a ≠ c! '"' := by
        cases v with
        | nil => exact ⟨_, _, rfl, hq⟩
        | cons a v => exact ⟨_, _, rfl, plain_quote hv⟩
      rw [hr] at h1 h2 ⊢
      simp only [rawValue, if_neg ha, h1, h2]
      exact tidied_cons (o := some _) (loose_name h) rfl (ih k hk')
    | @quoted g w n s q v s' b h hs hv hs' hbb =>
      obtain ⟨k, rfl⟩ : ∃ j, k = j + 1 := ⟨k - 1, by simp only [List.length_append, List.length_cons] at hk; omega⟩
      have e : w ++ c! '=' :: (s ++ c! '"' :: (q ++ c! '"' :: (s' ++ [b, d]))) ++ x =
          w ++ c! '=' :: (s ++ c! '"' :: (q ++ c! '"' :: (s' ++ b :: d :: x))) := by simp
      have hk' : x.length + 1 ≤ k := by
        simp only [List.length_append, List.length_cons, List.length_nil] at hk
        omega
      rw [e, raw_eq hd.1 (name_plain hd.2 h) hs _ k (by simp; decide)]
      simp only [rawValue, if_true, quoted_string hv]
      refine tidied_cons (o := some _) (loose_name h) rfl ?_
      have hb : ∀ b ∈ s', b ≠ d := by rintro b hb rfl; exact hd.2.2 (hs' _ hb)
      by_cases hbd : b = d
      · subst hbd
        obtain ⟨k, rfl⟩ : ∃ j, k = j + 1 := ⟨k - 1, by omega⟩
        rw [after_next hb]
        have := raw_name (d := b) (w := []) (by simp [Plain]) x k
        rw [List.nil_append] at this
        rw [this]
        have h3 := tidied_cons (z := z) (o := none) (w := []) (loose_blanks (by simp [Blanks])) rfl (ih k (by omega))
        exact h3
      · have e2 : s' ++ b :: d :: x = (s' ++ [b]) ++ d :: x := by simp
        rw [e2, after_next fun c hc => ?_]
        · exact ih k (by omega)
        · rcases List.mem_append.1 hc with hc | hc
          · exact hb c hc
          · rw [List.mem_singleton.1 hc]; exact hbd

end Verif.Util
