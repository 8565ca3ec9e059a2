import Verif.Util.FieldRun
import Verif.Util.FieldLooseSpec

/-!
# Exactly which header fields are accepted (helper lemmas)
-/

namespace Verif.Util

variable {d : UInt8} {z : Bool}

theorem split_blanks (r : Bytes) : ∃ s, Blanks s ∧ r = s ++ r.dropWhile blank := by
  refine ⟨r.takeWhile blank, fun b hb => blank_iff.1 ?_, (List.takeWhile_append_dropWhile).symm⟩
  exact List.mem_takeWhile_imp hb

theorem head_dropWhile {r t : Bytes} {b : UInt8} (h : r.dropWhile blank = b :: t) : ¬ Blank b := by
  intro hb
  have := List.head_dropWhile_not (l := r) blank (by rw [h]; simp)
  simp only [h, List.head_cons] at this
  rw [blank_iff.2 hb] at this
  cases this

theorem isUpper_lower {b : UInt8} (h : UpperByte b) : lower [b] = [b + 0x20] := by simp [lower, h]

/-! ### Reading what is written -/

theorem field_not_255 {b : UInt8} (h : ¬ FieldByte b) : b ≠ 255 := by
  rintro rfl; exact h (by decide)

theorem blank_field {b : UInt8} (h : Blank b) : FieldByte b := by
  rcases h with rfl | rfl <;> decide

theorem quote_not_field : ¬ FieldByte (c! '"') := by decide

theorem stop_false {b : UInt8} (ht : TokenByte b) (h : b ≠ d) (hu : z = true → ¬ UpperByte b) :
    fieldStop d z b = false := by
  have h1 := (blank_tok b (.inl ht)).2.2
  have h2 : b ≠ c! '/' := by rintro rfl; exact absurd ht (by decide)
  cases z with
  | false => simp [fieldStop, h, h1, h2]
  | true =>
    have := hu rfl
    rw [← upper_iff] at this
    simp [fieldStop, h, h1, h2, this]

theorem upper_stop {b : UInt8} (hz : z = true) (h : UpperByte b) : fieldStop d z b = true := by
  simp [fieldStop, hz, (upper_iff b).2 h]

/-- Reading the text of a name. -/
theorem fName_text {g : Bool} {w n : Bytes} (h : NameText d z g w n) : ∀ r,
    fName d z true (w ++ r) [] = fName d z g r n := by
  induction h with
  | start hs => intro r; exact fName_blanks hs r []
  | @token g w n b _ ht hb hu ih =>
    intro r
    rw [List.append_assoc, ih]
    obtain ⟨h1, h2, h3⟩ := blank_tok b (.inl ht)
    simp only [List.cons_append, List.nil_append]
    rw [fName_cons, if_neg (by simp [h1]), if_neg h2, if_pos ⟨ht, stop_false ht hb hu⟩]
  | @slash g w n s _ hs ih =>
    intro r
    rw [List.append_assoc, ih, List.cons_append, fName_cons, if_neg (by simp [blank]), if_neg (by decide),
      if_neg (by rintro ⟨h, -⟩; exact absurd h (by decide)), if_neg (by decide), if_pos rfl, fName_blanks hs]
  | @upper g w n b s hz _ hu hb hs ih =>
    intro r
    obtain ⟨h1, h2, h3, h4, h5⟩ := upper_tok b hu
    rw [List.append_assoc, ih, List.cons_append, fName_cons, if_neg (by simp [h4]), if_neg (by
        rintro rfl; exact absurd hu (by decide)),
      if_neg (by rintro ⟨-, h⟩; rw [upper_stop hz hu] at h; cases h), if_neg h2, if_neg h3, if_neg hb,
      if_pos ((upper_iff b).2 hu), fName_blanks hs, isUpper_lower hu]

theorem dropWhile_of_head {v r : Bytes} (h : ∀ b ∈ (v ++ r).head?, ¬ Blank b) :
    (v ++ r).dropWhile blank = v ++ r := by
  cases hv : v ++ r with
  | nil => rfl
  | cons a t =>
    rw [hv] at h
    exact List.dropWhile_cons_of_neg fun hb => h a (by simp) (blank_iff.1 hb)

/-- Reading an unquoted value that is followed by something. -/
theorem fValue_text {n s v r : Bytes} (hs : Blanks s) (hv : PlainValue d v)
    (hr : v = [] → ∃ b t, r = b :: t ∧ ¬ Blank b ∧ b ≠ c! '"') :
    fValue d n (s ++ (v ++ r)) = fPlain d n r v := by
  have hh : ∃ b t, v ++ r = b :: t ∧ ¬ Blank b ∧ b ≠ c! '"' := by
    cases v with
    | nil => exact hr rfl
    | cons a v =>
      refine ⟨a, v ++ r, rfl, hv.2 a (by simp), ?_⟩
      rintro rfl
      exact quote_not_field (hv.1 _ (by simp)).1
  obtain ⟨b, t, hbt, h1, h2⟩ := hh
  unfold fValue
  rw [dropWhile_blanks hs, dropWhile_of_head (by rw [hbt]; simpa using h1), hbt]
  dsimp only
  rw [if_neg h2, ← hbt, fPlain_pre (fun b hb => ⟨(hv.1 b hb).2.2, (hv.1 b hb).1, (hv.1 b hb).2.1⟩)]
  rfl

theorem fQuoted_text {n s q v r : Bytes} (hs : Blanks s) (hq : Quoted q v) :
    fValue d n (s ++ c! '"' :: (q ++ r)) = fQuoted d n (q.getLast?.getD (c! '"')) r v := by
  unfold fValue
  rw [dropWhile_blanks hs, List.dropWhile_cons_of_neg (by decide)]
  dsimp only
  rw [if_pos rfl, fQuoted_value hq]
  rfl

theorem fQuoted_close {n s q v r : Bytes} (hs : Blanks s) (hq : Quoted q v) :
    fValue d n (s ++ c! '"' :: (q ++ c! '"' :: r)) = fAfter d n v r := by
  rw [fQuoted_text hs hq, fQuoted_cons, if_neg (by decide), if_neg (by decide), if_pos rfl]

theorem fName_value {g : Bool} {w n : Bytes} (h : NameText d z g w n) (r : Bytes) :
    fName d z true (w ++ c! '=' :: r) [] = fValue d n r := by
  rw [fName_text h, fName_eq]

theorem closed_reads (hd : DelimOK d) (hq : d ≠ c! '"') {t : Bytes} {i : Item} (h : ClosedItem d z t i) (x : Bytes) :
    fName d z true (t ++ x) [] = .item i x := by
  cases h with
  | name h _ =>
    rw [List.append_assoc, fName_text h]
    exact fName_delim hd.1 hd.2.1 hd.2.2.1 hd.2.2.2 _ _
  | @value g w n s v h hs hv =>
    simp only [List.append_assoc, List.cons_append, List.nil_append]
    rw [fName_value h, fValue_text hs hv (fun _ => ⟨d, x, rfl, hd.2.2.2, hq⟩)]
    rw [fPlain, if_neg hd.2.2.1, if_pos rfl]
  | @quoted g w n s q v s' b h hs hq' hs' hb =>
    simp only [List.append_assoc, List.cons_append, List.nil_append]
    rw [fName_value h, fQuoted_close hs hq', fAfter, dropWhile_blanks hs',
      List.dropWhile_cons_of_neg (fun h => hb (blank_iff.1 h))]
    dsimp only
    rw [if_pos rfl]

theorem last_reads {t : Bytes} {i : Item} (h : LastItem d z t i) :
    fName d z true t [] = .item i [] := by
  cases h with
  | name h =>
    have := fName_text h []
    rw [List.append_nil] at this
    rw [this]; rfl
  | @noValue g w n s h hs =>
    rw [fName_value h, fValue]
    have := dropWhile_blanks (x := []) hs
    rw [List.append_nil] at this
    rw [this]; rfl
  | @value g w n s v h hs hv hne =>
    rw [fName_value h]
    have := fValue_text (d := d) (n := n) (r := []) hs hv (fun h => absurd h hne)
    rw [List.append_nil] at this
    rw [this]; rfl
  | @quoted g w n s q v s' t h hs hq' hs' ht =>
    rw [fName_value h, fQuoted_close hs hq', fAfter, dropWhile_blanks hs']
    match t, ht with
    | [], _ => rfl
    | [b], _ =>
      by_cases hb : blank b = true
      · rw [List.dropWhile_cons_of_pos hb]; rfl
      · rw [List.dropWhile_cons_of_neg hb]

theorem offending_reads {x : Bytes} {e : FieldError} (h : Offending d z x e) :
    fName d z true x [] = .error e := by
  cases h with
  | @name g w n b r h h1 h2 h3 h4 h5 h6 =>
    rw [fName_text h, fName_cons, if_neg, if_neg h5, if_neg (fun h => h1 h.1), if_neg h2, if_neg h3, if_neg h4,
      if_neg]
    · rw [upper_iff]; exact fun h => h1 (upper_tok b h).1
    · intro h
      simp only [Bool.and_eq_true] at h
      exact h6 h.1 (blank_iff.1 h.2)
  | @value g w n s v b r h hs hv h1 h2 h3 =>
    rw [fName_value h, fValue_text hs hv (fun hv0 => ⟨b, r, rfl, fun hb => h1 (blank_field hb), h3 hv0⟩), fPlain,
      if_neg (field_not_255 h1), if_neg h2, if_neg h1]
  | @quoted g w n s q v b r h hs hq h1 h2 =>
    rw [fName_value h, fQuoted_text hs hq, fQuoted_cons, if_neg (field_not_255 h1), if_neg (fun h => h1 h.1),
      if_neg h2, if_neg]
    rintro rfl
    exact h1 (by decide)
  | @«open» g w n s q v h hs hq =>
    rw [fName_value h]
    have := fQuoted_text (d := d) (n := n) (r := []) hs hq
    rw [List.append_nil] at this
    rw [this, fQuoted]
  | @escape g w n s q v h hs hq =>
    rw [fName_value h, fQuoted_text hs hq, fQuoted_cons, if_neg (by decide), if_neg (by decide), if_neg (by decide),
      if_pos rfl]
  | @after g w n s q v s' t b r h hs hq hs' ht hb =>
    rw [fName_value h, fQuoted_close hs hq, fAfter, dropWhile_blanks hs',
      List.dropWhile_cons_of_neg (fun h => ht (blank_iff.1 h))]
    dsimp only
    rw [if_neg hb]

/-! ### What is read is written -/

theorem fPlain_inv {n : Bytes} : ∀ (r v : Bytes), (∀ b ∈ v, FieldByte b ∧ b ≠ d ∧ b ≠ 255) →
    ∃ u, (∀ b ∈ v ++ u, FieldByte b ∧ b ≠ d ∧ b ≠ 255) ∧
      ((r = u ∧ fPlain d n r v = .item (n, some (v ++ u)) []) ∨
       (∃ a, r = u ++ d :: a ∧ fPlain d n r v = .item (n, some (v ++ u)) a) ∨
       (∃ b a, r = u ++ b :: a ∧ ¬ FieldByte b ∧ b ≠ d ∧ fPlain d n r v = .error (.value b)) ∨
       fPlain d n r v = .panic) := by
  intro r
  induction r with
  | nil => intro v hv; exact ⟨[], by simpa using hv, .inl ⟨rfl, by simp [fPlain]⟩⟩
  | cons b r ih =>
    intro v hv
    rw [fPlain]
    by_cases h1 : b = 255
    · exact ⟨[], by simpa using hv, by rw [if_pos h1]; exact .inr (.inr (.inr rfl))⟩
    rw [if_neg h1]
    by_cases h2 : b = d
    · exact ⟨[], by simpa using hv, by rw [if_pos h2]; exact .inr (.inl ⟨r, by simp [h2], by simp⟩)⟩
    rw [if_neg h2]
    by_cases h3 : FieldByte b
    · rw [if_pos h3]
      obtain ⟨u, hu, h⟩ := ih (v ++ [b]) (by
        intro x hx
        rcases List.mem_append.1 hx with hx | hx
        · exact hv x hx
        · simp at hx; subst hx; exact ⟨h3, h2, h1⟩)
      have e : v ++ [b] ++ u = v ++ b :: u := by simp
      rw [e] at hu h
      refine ⟨b :: u, hu, ?_⟩
      rcases h with ⟨rfl, h⟩ | ⟨a, rfl, h⟩ | ⟨c, a, rfl, g1, g2, h⟩ | h
      · exact .inl ⟨rfl, h⟩
      · exact .inr (.inl ⟨a, rfl, h⟩)
      · exact .inr (.inr (.inl ⟨c, a, rfl, g1, g2, h⟩))
      · exact .inr (.inr (.inr h))
    · rw [if_neg h3]
      exact ⟨[], by simpa using hv, .inr (.inr (.inl ⟨b, r, rfl, h3, h2, rfl⟩))⟩

/-- Read a quoted value as far as it goes. -/
theorem fQuoted_inv {n : Bytes} : ∀ (k : Nat) (r : Bytes), r.length ≤ k → ∃ q u a, Quoted q u ∧ r = q ++ a ∧
    (a = [] ∨ ∃ b a', a = b :: a' ∧ (QuotedByte b → b = 255) ∧ (b = c! '\\' → a' = [])) := by
  intro k
  induction k with
  | zero =>
    intro r hk
    exact ⟨[], [], r, .nil, rfl, .inl (List.eq_nil_of_length_eq_zero (by omega))⟩
  | succ k ih =>
    intro r hk
    cases r with
    | nil => exact ⟨[], [], [], .nil, rfl, .inl rfl⟩
    | cons b r =>
      simp at hk
      by_cases h1 : QuotedByte b ∧ b ≠ 255
      · obtain ⟨q, u, a, h2, h3, h4⟩ := ih r hk
        exact ⟨b :: q, b :: u, a, .plain h1.1 h1.2 h2, by rw [h3]; rfl, h4⟩
      · by_cases h2 : b = c! '\\'
        · cases r with
          | nil => exact ⟨[], [], [b], .nil, rfl, .inr ⟨b, [], rfl, fun h => by
              by_contra h'; exact h1 ⟨h, h'⟩, fun _ => rfl⟩⟩
          | cons e r =>
            obtain ⟨q, u, a, g2, g3, g4⟩ := ih r (by simp at hk; omega)
            exact ⟨b :: e :: q, e :: u, a, by rw [h2]; exact .escaped g2, by rw [g3]; rfl, g4⟩
        · exact ⟨[], [], b :: r, .nil, rfl, .inr ⟨b, r, rfl, fun h => by
              by_contra h'; exact h1 ⟨h, h'⟩, fun h => absurd h h2⟩⟩

/-- The bytes `x` explain the outcome. -/
def Explained (d : UInt8) (z : Bool) (x : Bytes) : FOut → Prop
  | .item i r => (∃ t, x = t ++ r ∧ ClosedItem d z t i) ∨ (r = [] ∧ LastItem d z x i)
  | .stop => ∃ n, NameText d z true x n
  | .error e => Offending d z x e
  | .panic => True

theorem fAfter_inv {g : Bool} {w n s q v : Bytes} (h : NameText d z g w n) (hs : Blanks s) (hq : Quoted q v)
    (r : Bytes) : Explained d z (w ++ c! '=' :: (s ++ c! '"' :: (q ++ c! '"' :: r))) (fAfter d n v r) := by
  obtain ⟨s', hs', hr⟩ := split_blanks r
  have hh : ∀ b t, r.dropWhile blank = b :: t → ¬ Blank b := fun b t h => head_dropWhile h
  unfold fAfter
  generalize r.dropWhile blank = a at hr hh
  subst hr
  match a, hh with
  | [], _ => exact .inr ⟨rfl, .quoted h hs hq hs' (by simp)⟩
  | [b], _ => exact .inr ⟨rfl, .quoted h hs hq hs' (by simp)⟩
  | b :: e :: a, hh =>
    dsimp only
    split
    · rename_i hd; subst hd
      exact .inl ⟨w ++ c! '=' :: (s ++ c! '"' :: (q ++ c! '"' :: (s' ++ [b, e]))), by simp,
        .quoted h hs hq hs' (hh b _ rfl)⟩
    · exact .after h hs hq hs' (hh b _ rfl) (by assumption)

theorem fValue_inv {g : Bool} {w n : Bytes} (h : NameText d z g w n) (r : Bytes) :
    Explained d z (w ++ c! '=' :: r) (fValue d n r) := by
  obtain ⟨s, hs, hr⟩ := split_blanks r
  have hh : ∀ b t, r.dropWhile blank = b :: t → ¬ Blank b := fun b t h => head_dropWhile h
  unfold fValue
  generalize r.dropWhile blank = a at hr hh
  subst hr
  cases a with
  | nil => rw [List.append_nil]; exact .inr ⟨rfl, .noValue h hs⟩
  | cons b a =>
    dsimp only
    by_cases hb : b = c! '"'
    · rw [if_pos hb]
      subst hb
      obtain ⟨q, u, a', hq, rfl, ha⟩ := fQuoted_inv (n := n) _ a le_rfl
      rw [fQuoted_value hq, List.nil_append]
      rcases ha with rfl | ⟨b, a, rfl, h1, h2⟩
      · rw [List.append_nil, fQuoted]
        exact .open h hs hq
      · rw [fQuoted_cons]
        split
        · trivial
        · rename_i h255
          rw [if_neg (fun h => h255 (h1 h))]
          split
          · rename_i hb; subst hb
            exact fAfter_inv h hs hq a
          · split
            · rename_i hb
              have := h2 hb
              subst this hb
              exact .escape h hs hq
            · rename_i g1 g2
              exact .quoted h hs hq (fun hf => h255 (h1 ⟨hf, g2⟩)) g1
    · rw [if_neg hb]
      obtain ⟨u, hu, h1⟩ := fPlain_inv (d := d) (n := n) (b :: a) [] (by simp)
      rw [List.nil_append] at hu
      rcases h1 with ⟨rfl, h1⟩ | ⟨a', e, h1⟩ | ⟨c, a', e, g1, g2, h1⟩ | h1
      · rw [h1]
        exact .inr ⟨rfl, .value h hs ⟨hu, by simpa using hh b _ rfl⟩ (by simp)⟩
      · rw [h1, e]
        refine .inl ⟨w ++ c! '=' :: (s ++ (u ++ [d])), by simp, .value h hs ⟨hu, fun x hx => ?_⟩⟩
        cases u with
        | nil => simp at hx
        | cons y u => simp at hx e; rw [← hx, ← e.1]; exact hh b _ rfl
      · rw [h1, e]
        refine .value h hs ⟨hu, fun x hx => ?_⟩ g1 g2 (fun hu0 => ?_)
        · cases u with
          | nil => simp at hx
          | cons y u => simp at hx e; rw [← hx, ← e.1]; exact hh b _ rfl
        · subst hu0; simp at e; rw [← e.1]; exact hb
      · rw [h1]; trivial

theorem NameText.blank {g : Bool} {w n : Bytes} (h : NameText d z g w n) : g = true → ∀ b, Blank b →
    NameText d z true (w ++ [b]) n := by
  intro hg b hb
  have hbs : ∀ {s}, Blanks s → Blanks (s ++ [b]) := by
    intro s hs x hx
    rcases List.mem_append.1 hx with hx | hx
    · exact hs x hx
    · simp at hx; subst hx; exact hb
  cases h with
  | start hs => exact .start (hbs hs)
  | token => cases hg
  | slash h hs => rw [List.append_assoc]; exact .slash h (hbs hs)
  | upper hz h hu hd hs => rw [List.append_assoc]; exact .upper hz h hu hd (hbs hs)

theorem fName_inv : ∀ (r : Bytes) {g : Bool} {w n : Bytes}, NameText d z g w n →
    Explained d z (w ++ r) (fName d z g r n) := by
  intro r
  induction r with
  | nil =>
    intro g w n h
    rw [List.append_nil]
    cases g with
    | true => exact ⟨n, h⟩
    | false => exact .inr ⟨rfl, .name h⟩
  | cons b r ih =>
    intro g w n h
    rw [fName_cons]
    have e : ∀ b, w ++ b :: r = w ++ [b] ++ r := by simp
    split
    · rename_i hb
      simp only [Bool.and_eq_true] at hb
      rw [e]
      exact ih (h.blank hb.1 b (blank_iff.1 hb.2))
    · rename_i hblank
      split
      · trivial
      · rename_i h255
        split
        · rename_i ht
          rw [e]
          have hst := ht.2
          simp only [fieldStop, Bool.or_eq_false_iff, beq_eq_false_iff_ne, Bool.and_eq_false_iff] at hst
          refine ih (.token h ht.1 hst.1.1.2 fun hz => ?_)
          rw [← upper_iff]
          rcases hst.2 with h | h
          · rw [hz] at h; cases h
          · simp [h]
        · rename_i ht
          split
          · rename_i hb; subst hb
            exact fValue_inv h r
          · rename_i h1
            split
            · rename_i hb; subst hb
              rw [e]
              exact ih (.slash h (s := []) (by simp [Blanks]))
            · rename_i h2
              split
              · rename_i hb
                refine .inl ⟨w ++ [b], by simp, ?_⟩
                rw [hb]
                refine .name h fun hg hbl => hblank ?_
                rw [hg, hb, blank_iff.2 hbl]; rfl
              · rename_i h3
                split
                · rename_i hu
                  have hU := (upper_iff b).1 hu
                  have hz : z = true := by
                    by_contra hz
                    refine ht ⟨(upper_tok b hU).1, ?_⟩
                    simp [fieldStop, h1, h2, h3, hz]
                  rw [e, ← isUpper_lower hU]
                  exact ih (.upper hz h hU h3 (s := []) (by simp [Blanks]))
                · rename_i hu
                  refine .name h (fun hT => ht ⟨hT, ?_⟩) h1 h2 h3 h255 fun hg hbl => hblank ?_
                  · simp [fieldStop, h1, h2, h3, hu]
                  · rw [hg, blank_iff.2 hbl]; rfl

theorem fName_explained (r : Bytes) : Explained d z r (fName d z true r []) :=
  fName_inv (w := []) r (.start (by simp [Blanks]))

/-! ### Whole fields -/

theorem accepted_yields (hd : DelimOK d) (hq : d ≠ c! '"') {x : Bytes} {l : List Item} (h : Accepted d z x l) :
    ∀ (it : FieldIter), it.ctx.rest = x → it.ctx.idx ≤ it.ctx.stream.length → it.delimiter = d → it.normalize = z →
      ∃ it', Yields FieldIter.next it l it' ∧ it'.errs = it.errs ∧ it'.ctx.rest = [] := by
  induction h with
  | @nothing w n h =>
    intro it hr hi e1 e2
    rcases field_next hi with ⟨h1, h2⟩ | ⟨h1, h2⟩
    · exact ⟨it, .stop h2, rfl, h1⟩
    · have := fName_text h []
      rw [List.append_nil] at this
      rw [e1, e2, hr, this, fName, if_pos rfl] at h2
      obtain ⟨it', a1, -, a3, -, a5, -⟩ := h2
      exact ⟨it', .stop a1, a5, a3⟩
  | @last t i h =>
    intro it hr hi e1 e2
    have hne : it.ctx.rest ≠ [] := by
      intro h0
      have := last_reads h
      rw [← hr, h0] at this
      simp [fName] at this
    obtain ⟨it', a1, _, a2, a3, a4, _⟩ := field_item hi hne (by rw [e1, e2, hr]; exact last_reads h)
    exact ⟨it', .item a1 (.stop (field_done a3 a2)), a4, a2⟩
  | @cons t i x l h _ ih =>
    intro it hr hi e1 e2
    have hne : it.ctx.rest ≠ [] := by
      intro h0
      have := closed_reads hd hq h x
      rw [← hr, h0] at this
      simp [fName] at this
    obtain ⟨it', a1, _, a2, a3, a4, a5, a6⟩ := field_item hi hne (by rw [e1, e2, hr]; exact closed_reads hd hq h x)
    obtain ⟨it2, b1, b2, b3⟩ := ih it' a2 a3 (a5.trans e1) (a6.trans e2)
    exact ⟨it2, .item a1 b1, b2.trans a4, b3⟩

theorem rejected_yields (hd : DelimOK d) (hq : d ≠ c! '"') {x : Bytes} {l : List Item} {e : FieldError}
    (h : Rejected d z x l e) :
    ∀ (it : FieldIter), it.ctx.rest = x → it.ctx.idx ≤ it.ctx.stream.length → it.delimiter = d → it.normalize = z →
      ∃ it', Yields FieldIter.next it l it' ∧ it'.errs = it.errs ++ [e] ∧ it'.ctx.rest = [] := by
  induction h with
  | @here x e h =>
    intro it hr hi e1 e2
    rcases field_next hi with ⟨h1, h2⟩ | ⟨h1, h2⟩
    · have := offending_reads h
      rw [← hr, h1] at this
      simp [fName] at this
    · rw [e1, e2, hr, offending_reads h] at h2
      obtain ⟨it', a1, -, a3, -, a5, -⟩ := h2
      exact ⟨it', .stop a1, a5, a3⟩
  | @cons t i x l e h _ ih =>
    intro it hr hi e1 e2
    have hne : it.ctx.rest ≠ [] := by
      intro h0
      have := closed_reads hd hq h x
      rw [← hr, h0] at this
      simp [fName] at this
    obtain ⟨it', a1, _, a2, a3, a4, a5, a6⟩ := field_item hi hne (by rw [e1, e2, hr]; exact closed_reads hd hq h x)
    obtain ⟨it2, b1, b2, b3⟩ := ih it' a2 a3 (a5.trans e1) (a6.trans e2)
    exact ⟨it2, .item a1 b1, by rw [b2, a4], b3⟩

theorem yields_explained {it : FieldIter} {l : List Item} {it' : FieldIter} (h : Yields FieldIter.next it l it') :
    it.ctx.idx ≤ it.ctx.stream.length →
      (it'.errs = it.errs ∧ Accepted it.delimiter it.normalize it.ctx.rest l) ∨
      ∃ e, it'.errs = it.errs ++ [e] ∧ Rejected it.delimiter it.normalize it.ctx.rest l e := by
  induction h with
  | @stop it it' h =>
    intro hi
    rcases field_next hi with ⟨h1, h2⟩ | ⟨h1, h2⟩
    · rw [h] at h2; cases h2
      exact .inl ⟨rfl, by rw [h1]; exact .nothing (.start (by simp [Blanks]))⟩
    · have := fName_explained (d := it.delimiter) (z := it.normalize) it.ctx.rest
      rw [h] at h2
      generalize fName it.delimiter it.normalize true it.ctx.rest [] = o at this h2
      cases o with
      | item => obtain ⟨_, h, _⟩ := h2; cases h
      | stop =>
        obtain ⟨_, h, -, -, -, a, -⟩ := h2; cases h
        obtain ⟨n, hn⟩ := this
        exact .inl ⟨a, .nothing hn⟩
      | error e =>
        obtain ⟨_, h, -, -, -, a, -⟩ := h2; cases h
        exact .inr ⟨e, a, .here this⟩
      | panic => exact absurd h2 (by simp [FMatch])
  | @item it x it₁ l it' h hy ih =>
    intro hi
    obtain ⟨r, a0, a1, a2, a3, a4, a5, a6⟩ := item_inv hi h
    have := fName_explained (d := it.delimiter) (z := it.normalize) it.ctx.rest
    rw [a0] at this
    have ih' := ih a3
    rw [a4, a5, a6, a2] at ih'
    rcases this with ⟨t, e, hc⟩ | ⟨rfl, hl⟩
    · rw [e]
      rcases ih' with ⟨b1, b2⟩ | ⟨e, b1, b2⟩
      · exact .inl ⟨b1, .cons hc b2⟩
      · exact .inr ⟨e, b1, .cons hc b2⟩
    · have hd := field_done a3 a2
      cases hy with
      | stop h2 => rw [hd] at h2; cases h2; exact .inl ⟨a4, .last hl⟩
      | item h2 => rw [hd] at h2; cases h2

end Verif.Util
