import Verif.Util.FieldLemmas

/-!
# Runs of the field iterator (helper lemmas)
-/

namespace Verif.Util

open Ctx

theorem blank_iff {b : UInt8} : blank b = true ↔ Blank b := by simp [blank, Blank]

theorem blank_tok : ∀ b : UInt8, TokenByte b ∨ b = c! '/' → blank b = false ∧ b ≠ 255 ∧ b ≠ c! '=' := by
  apply forall_u8; decide +kernel

theorem upper_iff : ∀ b : UInt8, isUpper b = true ↔ UpperByte b := by
  apply forall_u8; decide +kernel

theorem upper_tok : ∀ b : UInt8, UpperByte b → TokenByte b ∧ b ≠ c! '=' ∧ b ≠ c! '/' ∧ blank b = false ∧
    b ≠ 255 := by
  apply forall_u8; decide +kernel

/-- The name that is yielded for the written name. -/
def low (z : Bool) (w : Bytes) : Bytes := if z then lower w else w

theorem low_cons (z : Bool) (b : UInt8) (w : Bytes) : low z (b :: w) = low z [b] ++ low z w := by
  cases z <;> simp [low, lower]

theorem low_nil (z : Bool) : low z [] = [] := by cases z <;> rfl

/-- Does the byte make the loop skip blanks? -/
def special (z : Bool) (b : UInt8) : Bool := b == c! '/' || (z && isUpper b)

theorem fName_byte {d : UInt8} {z s : Bool} {b : UInt8} (h : (TokenByte b ∨ b = c! '/') ∧ b ≠ d)
    (r n : Bytes) : fName d z s (b :: r) n = fName d z (special z b) r (n ++ low z [b]) := by
  obtain ⟨h1, h2⟩ := h
  obtain ⟨hb, h255, heq⟩ := blank_tok b h1
  rw [fName_cons, if_neg (by simp [hb]), if_neg h255]
  by_cases hs : b = c! '/'
  · subst hs
    rw [if_neg (by simp [fieldStop]), if_neg (by decide), if_pos rfl]
    have e1 : special z (c! '/') = true := by cases z <;> decide
    have e2 : low z [c! '/'] = [c! '/'] := by cases z <;> decide
    rw [e1, e2]
  · have ht : TokenByte b := by
      rcases h1 with h1 | h1
      · exact h1
      · exact absurd h1 hs
    by_cases hu : z = true ∧ isUpper b = true
    · obtain ⟨rfl, hu⟩ := hu
      rw [if_neg (by simp [fieldStop, hu]), if_neg heq, if_neg hs, if_neg h2, if_pos hu]
      have e1 : special true b = true := by simp [special, hu]
      have e2 : low true [b] = [b + 0x20] := by
        simp [low, lower, (upper_iff b).1 hu]
      rw [e1, e2]
    · have hz : (z && isUpper b) = false := by
        cases z <;> simp at hu ⊢; exact hu
      rw [if_pos ⟨ht, by simp [fieldStop, heq, hs, h2, hz]⟩]
      have e1 : special z b = false := by simp [special, hs, hz]
      have e2 : low z [b] = [b] := by
        cases z with
        | false => rfl
        | true =>
          have : ¬ UpperByte b := by rw [← upper_iff]; simp at hz; simp [hz]
          simp [low, lower, this]
      rw [e1, e2]

theorem fName_writes {d : UInt8} {z : Bool} : ∀ {w : Bytes} (_ : ∀ b ∈ w, (TokenByte b ∨ b = c! '/') ∧ b ≠ d)
    (s : Bool) (r n : Bytes), fName d z s (w ++ r) n =
      fName d z (match w.getLast? with | none => s | some b => special z b) r (n ++ low z w) := by
  intro w
  induction w with
  | nil => intro _ s r n; simp [low_nil]
  | cons b w ih =>
    intro h s r n
    rw [List.cons_append, fName_byte (h b (by simp)), ih (fun x hx => h x (by simp [hx])), low_cons z b w,
      List.append_assoc]
    congr 1
    cases w with
    | nil => rfl
    | cons a w => simp [List.getLast?_cons_cons]; cases hh : (a :: w).getLast? <;> simp at hh ⊢

theorem dropWhile_blanks {s x : Bytes} (hs : Blanks s) : (s ++ x).dropWhile blank = x.dropWhile blank := by
  rw [List.dropWhile_append_of_pos]
  intro a ha
  exact blank_iff.2 (hs a ha)

theorem fPlain_value {d : UInt8} {n v : Bytes} (hv : ∀ b ∈ v, FieldByte b ∧ b ≠ d ∧ b ≠ 255) (acc r : Bytes) :
    fPlain d n (v ++ r) acc = fPlain d n r (acc ++ v) :=
  fPlain_pre (fun b hb => ⟨(hv b hb).2.2, (hv b hb).1, (hv b hb).2.1⟩) r acc

theorem getLast_getD_cons (b p : UInt8) (q : Bytes) :
    q.getLast?.getD b = (b :: q).getLast?.getD p := by
  cases q with
  | nil => rfl
  | cons e q => rw [List.getLast?_cons_cons]; cases h : (e :: q).getLast? <;> simp at h ⊢

theorem fQuoted_value {d : UInt8} {n q v : Bytes} (h : Quoted q v) : ∀ p acc r,
    fQuoted d n p (q ++ r) acc = fQuoted d n (q.getLast?.getD p) r (acc ++ v) := by
  induction h with
  | nil => intro p acc r; simp
  | plain h1 h2 _ ih =>
    intro p acc r
    rw [List.cons_append, fQuoted_cons, if_neg h2, if_pos h1, ih, ← getLast_getD_cons]; simp
  | escaped _ ih =>
    intro p acc r
    rw [List.cons_append, List.cons_append, fQuoted_cons, if_neg (by decide), if_neg (by decide),
      if_neg (by decide), if_pos rfl]
    dsimp only
    rw [ih, List.getLast?_cons_cons, ← getLast_getD_cons]; simp

theorem fValue_plain {d : UInt8} {n s v : Bytes} (hs : Blanks s) (hv : IsValue d v) (r : Bytes) :
    fValue d n (s ++ v ++ r) = fPlain d n r v := by
  obtain ⟨hne, hb, hh⟩ := hv
  cases v with
  | nil => exact absurd rfl hne
  | cons a v =>
    have ha : blank a = false := by
      have := hh a (by simp)
      rw [← blank_iff] at this; simpa using this
    have hq : a ≠ c! '"' := by
      rintro rfl
      have := (hb _ (List.mem_cons_self ..)).1
      revert this; decide
    rw [fValue, List.append_assoc, dropWhile_blanks hs, List.cons_append,
      List.dropWhile_cons_of_neg (by simp [ha])]
    dsimp only
    rw [if_neg hq, ← List.cons_append, fPlain_value hb]; rfl

theorem fValue_quoted {d : UInt8} {n s q v : Bytes} (hs : Blanks s) (hv : Quoted q v) (r : Bytes) :
    fValue d n (s ++ c! '"' :: (q ++ c! '"' :: r)) = fAfter d n v r := by
  rw [fValue, dropWhile_blanks hs, List.dropWhile_cons_of_neg (by decide)]
  dsimp only
  rw [if_pos rfl, fQuoted_value hv, fQuoted_cons, if_neg (by decide), if_neg (by decide), if_pos rfl]
  rfl

theorem fName_delim {d : UInt8} {z s : Bool} (h1 : d ≠ c! '=') (h2 : d ≠ c! '/') (h3 : d ≠ 255)
    (h4 : ¬ Blank d) (r n : Bytes) : fName d z s (d :: r) n = .item (n, none) r := by
  have hb : blank d = false := by
    rw [← blank_iff] at h4; simpa using h4
  rw [fName_cons, if_neg (by simp [hb]), if_neg h3, if_neg (by simp [fieldStop]), if_neg h1, if_neg h2,
    if_pos rfl]

theorem fName_eq {d : UInt8} {z s : Bool} (r n : Bytes) : fName d z s (c! '=' :: r) n = fValue d n r := by
  rw [fName_cons, if_neg (by cases s <;> decide), if_neg (by decide), if_neg (by simp [TokenByte]), if_pos rfl]

theorem fName_blanks {d : UInt8} {z : Bool} {s : Bytes} (hs : Blanks s) (x n : Bytes) :
    fName d z true (s ++ x) n = fName d z true x n := by
  rw [fName_start, dropWhile_blanks hs, ← fName_start]

/-- Delimiters that the iterator can tell from the rest of the syntax. -/
def DelimOK (d : UInt8) : Prop := d ≠ c! '=' ∧ d ≠ c! '/' ∧ d ≠ 255 ∧ ¬ Blank d

theorem norm_eq (z : Bool) (n : Bytes) (v : Option Bytes) : norm z (n, v) = (low z n, v) := by
  cases z <;> rfl

/-- The last item: the whole rest is read. -/
theorem fName_last {d : UInt8} {z q : Bool} {t : Bytes} {i : Item} (h : ItemText d q t i)
    (hl : ∀ n, i = (n, none) → ∀ b ∈ n.getLast?, special z b = false) :
    fName d z true t [] = .item (norm z i) [] := by
  cases h with
  | name hw =>
    have := fName_writes (z := z) hw.2 true [] []
    rw [List.append_nil] at this
    rw [this, norm_eq]
    obtain ⟨a, ha⟩ := Option.isSome_iff_exists.1 (List.getLast?_isSome.2 hw.1)
    rw [ha]
    dsimp only
    rw [hl _ rfl a ha]; simp [fName]
  | @value w s v hw hs hv =>
    rw [fName_writes hw.2, fName_eq, ← List.append_nil (s ++ v), fValue_plain hs hv, norm_eq]; simp [fPlain]
  | @quoted w s q v hw hs hv =>
    rw [fName_writes hw.2, fName_eq, fValue_quoted hs hv, norm_eq]; simp [fAfter]

/-- An item that is not the last one. -/
theorem fName_cont {d : UInt8} {z : Bool} {t : Bytes} {i : Item} (hd : DelimOK d)
    (h : ItemText d false t i) (r : Bytes) :
    fName d z true (t ++ d :: r) [] = .item (norm z i) r := by
  obtain ⟨h1, h2, h3, h4⟩ := hd
  cases h with
  | name hw =>
    rw [fName_writes hw.2, fName_delim h1 h2 h3 h4, norm_eq]; simp
  | @value w s v hw hs hv =>
    rw [List.append_assoc, fName_writes hw.2, List.cons_append, fName_eq, fValue_plain hs hv, norm_eq, fPlain,
      if_neg h3, if_pos rfl]
    simp

theorem ItemText.ne_nil {d : UInt8} {q : Bool} {t : Bytes} {i : Item} (h : ItemText d q t i) : t ≠ [] := by
  cases h with
  | name hw => exact hw.1
  | value _ _ _ => simp
  | quoted _ _ _ => simp

theorem fields_ne {a : Bool} {d : UInt8} {x : Bytes} {l : List Item} (h : Fields a d x l) : x ≠ [] ∧ l ≠ [] := by
  cases h with
  | last h => exact ⟨h.ne_nil, by simp⟩
  | cons h _ _ _ => simp

theorem field_item {it : FieldIter} (hi : it.ctx.idx ≤ it.ctx.stream.length) (hne : it.ctx.rest ≠ [])
    {x : Item} {r : Bytes}
    (h : fName it.delimiter it.normalize true it.ctx.rest [] = .item x r) :
    ∃ it', it.next = .item x it' ∧ it'.ctx.stream = it.ctx.stream ∧ it'.ctx.rest = r ∧
      it'.ctx.idx ≤ it'.ctx.stream.length ∧
      it'.errs = it.errs ∧ it'.delimiter = it.delimiter ∧ it'.normalize = it.normalize := by
  rcases field_next hi with ⟨e, _⟩ | ⟨_, hm⟩
  · exact absurd e hne
  · rw [h] at hm; exact hm

theorem item_inv {it it₁ : FieldIter} (hi : it.ctx.idx ≤ it.ctx.stream.length) {x : Item}
    (h : it.next = .item x it₁) : ∃ r,
      fName it.delimiter it.normalize true it.ctx.rest [] = .item x r ∧
      it₁.ctx.stream = it.ctx.stream ∧ it₁.ctx.rest = r ∧
      it₁.ctx.idx ≤ it₁.ctx.stream.length ∧
      it₁.errs = it.errs ∧ it₁.delimiter = it.delimiter ∧ it₁.normalize = it.normalize := by
  rcases field_next hi with ⟨_, e⟩ | ⟨_, hm⟩
  · rw [e] at h; cases h
  · rw [h] at hm
    generalize fName it.delimiter it.normalize true it.ctx.rest [] = o at hm
    cases o with
    | item y r => obtain ⟨_, h, hh⟩ := hm; cases h; exact ⟨r, rfl, hh⟩
    | stop => obtain ⟨_, h, _⟩ := hm; cases h
    | error e => obtain ⟨_, h, _⟩ := hm; cases h
    | panic => exact absurd hm (by simp [FMatch])

theorem field_done {it : FieldIter} (hi : it.ctx.idx ≤ it.ctx.stream.length) (he : it.ctx.rest = []) :
    it.next = .none it := by
  rcases field_next hi with ⟨_, e⟩ | ⟨hne, _⟩
  · exact e
  · exact absurd he hne

theorem fields_yields {d : UInt8} {z : Bool} (hd : DelimOK d) {x : Bytes} {l : List Item}
    (h : Fields false d x l) : (∀ n, l.getLast? = some (n, none) → ∀ b ∈ n.getLast?, special z b = false) →
    ∀ (s : Bytes) (it : FieldIter), Blanks s → it.ctx.rest = s ++ x →
      it.ctx.idx ≤ it.ctx.stream.length → it.delimiter = d → it.normalize = z →
      ∃ it', Yields FieldIter.next it (l.map (norm z)) it' ∧ it'.errs = it.errs ∧ it'.next = .none it' := by
  induction h with
  | @last q t i ht =>
    intro hl s it hs hr hi e1 e2
    have e := fName_last (z := z) ht (fun n hn => hl n (by simp [hn]))
    obtain ⟨it', a1, _, a2, a3, a4, _, _⟩ := field_item (it := it) hi (by rw [hr]; simp [ht.ne_nil])
      (by rw [hr, e1, e2, fName_blanks hs]; exact e)
    exact ⟨it', .item a1 (.stop (field_done a3 a2)), a4, field_done a3 a2⟩
  | @cons q t i s' x l ht hq hs' hx ih =>
    intro hl s it hs hr hi e1 e2
    have hqf : q = false := by cases q with | false => rfl | true => exact absurd (hq rfl) (by decide)
    subst hqf
    have e := fName_cont (z := z) hd ht (s' ++ x)
    obtain ⟨it', a1, _, a2, a3, a4, a5, a6⟩ := field_item (it := it) hi (by rw [hr]; simp)
      (by rw [hr, e1, e2, fName_blanks hs]; exact e)
    obtain ⟨it2, b1, b2, b3⟩ := ih (fun n hn => hl n (by
        rw [List.getLast?_cons_of_ne_nil (fields_ne hx).2]; exact hn)) s' it' hs' a2 a3
      (a5.trans e1) (a6.trans e2)
    exact ⟨it2, .item a1 b1, by rw [b2, a4], b3⟩

/-! ### Totality -/

/-- Bytes left are fewer than `k`. -/
def FOut.lt (k : Nat) : FOut → Prop
  | .item _ r => r.length < k
  | _ => True

theorem FOut.lt.lt_mono {o : FOut} {i j : Nat} (h : o.lt i) (hij : i ≤ j) : o.lt j := by
  cases o <;> simp only [FOut.lt] at h ⊢ <;> omega

theorem fAfter_lt (d : UInt8) (n v r : Bytes) : (fAfter d n v r).lt (r.length + 1) := by
  unfold fAfter
  have := (List.dropWhile_sublist (l := r) blank).length_le
  split
  · simp [FOut.lt]
  · simp [FOut.lt]
  · rename_i h
    rw [h] at this
    split
    · simp [FOut.lt] at this ⊢; omega
    · simp [FOut.lt]

theorem fQuoted_lt (d : UInt8) (n : Bytes) : ∀ (k : Nat) (p : UInt8) (r v : Bytes), r.length ≤ k →
    (fQuoted d n p r v).lt (r.length + 1) := by
  intro k
  induction k with
  | zero =>
    intro p r v hk
    have : r = [] := List.eq_nil_of_length_eq_zero (by omega)
    subst this; simp [fQuoted, FOut.lt]
  | succ k ih =>
    intro p r v hk
    cases r with
    | nil => simp [fQuoted, FOut.lt]
    | cons b r =>
      rw [fQuoted_cons]
      simp at hk
      split
      · simp [FOut.lt]
      · split
        · exact (ih _ _ _ hk).lt_mono (by simp)
        · split
          · exact (fAfter_lt _ _ _ _).lt_mono (by simp)
          · split
            · cases r with
              | nil => simp [FOut.lt]
              | cons e r => exact (ih _ _ _ (by simp at hk; omega)).lt_mono (by simp)
            · simp [FOut.lt]

theorem fPlain_lt (d : UInt8) (n : Bytes) : ∀ (r v : Bytes), (fPlain d n r v).lt (r.length + 1) := by
  intro r
  induction r with
  | nil => intro v; simp [fPlain, FOut.lt]
  | cons b r ih =>
    intro v
    rw [fPlain]
    split
    · simp [FOut.lt]
    · split
      · simp [FOut.lt]; omega
      · split
        · exact (ih _).lt_mono (by simp)
        · simp [FOut.lt]

theorem fValue_lt (d : UInt8) (n r : Bytes) : (fValue d n r).lt (r.length + 1) := by
  unfold fValue
  have := (List.dropWhile_sublist (l := r) blank).length_le
  split
  · simp [FOut.lt]
  · rename_i h
    rw [h] at this
    simp at this
    split
    · exact (fQuoted_lt _ _ _ _ _ _ le_rfl).lt_mono (by omega)
    · exact (fPlain_lt _ _ _ _).lt_mono (by simp; omega)

theorem fName_lt (d : UInt8) (z : Bool) : ∀ (r : Bytes) (s : Bool) (n : Bytes),
    (fName d z s r n).lt (r.length + 1) ∧ (r ≠ [] → (fName d z s r n).lt r.length) := by
  intro r
  induction r with
  | nil => intro s n; cases s <;> simp [fName, FOut.lt]
  | cons b r ih =>
    intro s n
    suffices h : (fName d z s (b :: r) n).lt (b :: r).length from ⟨h.lt_mono (by simp), fun _ => h⟩
    rw [fName_cons]
    split
    · exact (ih _ _).1.lt_mono (by simp)
    · split
      · simp [FOut.lt]
      · split
        · exact (ih _ _).1.lt_mono (by simp)
        · split
          · exact (fValue_lt _ _ _).lt_mono (by simp)
          · split
            · exact (ih _ _).1.lt_mono (by simp)
            · split
              · simp [FOut.lt]
              · split
                · exact (ih _ _).1.lt_mono (by simp)
                · simp [FOut.lt]

/-- No panic. -/
def FOut.calm : FOut → Prop
  | .panic => False
  | _ => True

theorem fAfter_calm (d : UInt8) (n v r : Bytes) : (fAfter d n v r).calm := by
  unfold fAfter
  split
  · trivial
  · trivial
  · split <;> trivial

theorem fQuoted_calm (d : UInt8) (n : Bytes) : ∀ (k : Nat) (p : UInt8) (r v : Bytes), r.length ≤ k →
    255 ∉ r → (fQuoted d n p r v).calm := by
  intro k
  induction k with
  | zero =>
    intro p r v hk _
    have : r = [] := List.eq_nil_of_length_eq_zero (by omega)
    subst this; simp [fQuoted, FOut.calm]
  | succ k ih =>
    intro p r v hk h255
    cases r with
    | nil => simp [fQuoted, FOut.calm]
    | cons b r =>
      rw [fQuoted_cons]
      simp at hk h255
      rw [if_neg (fun e => h255.1 e.symm)]
      split
      · exact ih _ _ _ hk h255.2
      · split
        · exact fAfter_calm _ _ _ _
        · split
          · cases r with
            | nil => simp [FOut.calm]
            | cons e r => exact ih _ _ _ (by simp at hk; omega) (by simp at h255; simp [h255])
          · simp [FOut.calm]

theorem fPlain_calm (d : UInt8) (n : Bytes) : ∀ (r v : Bytes), 255 ∉ r → (fPlain d n r v).calm := by
  intro r
  induction r with
  | nil => intro v _; simp [fPlain, FOut.calm]
  | cons b r ih =>
    intro v h255
    simp at h255
    rw [fPlain, if_neg (fun e => h255.1 e.symm)]
    split
    · trivial
    · split
      · exact ih _ h255.2
      · trivial

theorem mem_dropWhile {r : Bytes} {a : UInt8} {p : UInt8 → Bool} (h : a ∈ r.dropWhile p) : a ∈ r :=
  (List.dropWhile_sublist (l := r) p).subset h

theorem fValue_calm (d : UInt8) (n r : Bytes) (h255 : 255 ∉ r) : (fValue d n r).calm := by
  unfold fValue
  split
  · trivial
  · rename_i b t h
    have ht : 255 ∉ b :: t := fun hm => h255 (mem_dropWhile (h ▸ hm))
    split
    · exact fQuoted_calm _ _ _ _ _ _ le_rfl (fun hm => ht (by simp [hm]))
    · exact fPlain_calm _ _ _ _ ht

theorem fName_calm (d : UInt8) (z : Bool) : ∀ (r : Bytes) (s : Bool) (n : Bytes), 255 ∉ r →
    (fName d z s r n).calm := by
  intro r
  induction r with
  | nil => intro s n _; cases s <;> simp [fName, FOut.calm]
  | cons b r ih =>
    intro s n h255
    simp at h255
    rw [fName_cons, if_neg (show ¬ b = 255 from fun e => h255.1 e.symm)]
    split
    · exact ih _ _ h255.2
    · split
      · exact ih _ _ h255.2
      · split
        · exact fValue_calm _ _ _ h255.2
        · split
          · exact ih _ _ h255.2
          · split
            · trivial
            · split
              · exact ih _ _ h255.2
              · trivial

theorem field_after (n : Nat) : ∀ it : FieldIter, it.ctx.idx ≤ it.ctx.stream.length →
    255 ∉ it.ctx.rest →
    ∃ l it', After FieldIter.next it n l it' ∧ l.length ≤ it.ctx.rest.length := by
  induction n with
  | zero => intro it _ _; exact ⟨[], it, .zero, by simp⟩
  | succ n ih =>
    intro it hi h255
    rcases field_next hi with ⟨_, e⟩ | ⟨hne, hm⟩
    · obtain ⟨l, it', h1, h2⟩ := ih it hi h255
      exact ⟨l, it', .none e h1, h2⟩
    · have hl := (fName_lt it.delimiter it.normalize it.ctx.rest true []).2 hne
      have hc := fName_calm it.delimiter it.normalize it.ctx.rest true [] h255
      generalize fName it.delimiter it.normalize true it.ctx.rest [] = o at hm hl hc
      cases o with
      | item x r =>
        obtain ⟨it2, a1, a2, a3, a4, _⟩ := hm
        simp only [FOut.lt] at hl
        have h255' : 255 ∉ it2.ctx.rest := by
          intro hmem
          have hd : it2.ctx.rest = it.ctx.rest.drop (it.ctx.rest.length - it2.ctx.rest.length) := by
            simp only [rest, List.length_drop, List.drop_drop, a2]
            rw [← a3] at hl
            simp only [rest, List.length_drop, a2] at hl
            congr 1
            rw [a2] at a4
            omega
          rw [hd] at hmem
          exact h255 (List.mem_of_mem_drop hmem)
        obtain ⟨l, it', h1, h2⟩ := ih it2 a4 h255'
        exact ⟨x :: l, it', .item a1 h1, by rw [a3] at h2; simp; omega⟩
      | stop =>
        obtain ⟨it2, a1, a2, a3, a4, _⟩ := hm
        obtain ⟨l, it', h1, h2⟩ := ih it2 a4 (by simp [a3])
        exact ⟨l, it', .none a1 h1, by rw [a3] at h2; simp at h2; simp [h2]⟩
      | error e =>
        obtain ⟨it2, a1, a2, a3, a4, _⟩ := hm
        obtain ⟨l, it', h1, h2⟩ := ih it2 a4 (by simp [a3])
        exact ⟨l, it', .none a1 h1, by rw [a3] at h2; simp at h2; simp [h2]⟩
      | panic => exact hc.elim

theorem field_no_hang {it : FieldIter} (hi : it.ctx.idx ≤ it.ctx.stream.length) : it.next ≠ .diverge := by
  rcases field_next hi with ⟨_, e⟩ | ⟨_, hm⟩
  · rw [e]; simp
  · intro e
    rw [e] at hm
    generalize fName it.delimiter it.normalize true it.ctx.rest [] = o at hm
    cases o with
    | item _ _ => obtain ⟨_, h, _⟩ := hm; cases h
    | stop => obtain ⟨_, h, _⟩ := hm; cases h
    | error e => obtain ⟨_, h, _⟩ := hm; cases h
    | panic => exact absurd hm (by simp [FMatch])

/-! ### Names -/

theorem fPlain_name {d : UInt8} {n : Bytes} : ∀ {r v : Bytes} {m : Bytes} {w : Option Bytes} {r' : Bytes},
    fPlain d n r v = .item (m, w) r' → m = n ∧ w ≠ none ∧ ∀ n', fPlain d n' r v = .item (n', w) r' := by
  intro r
  induction r with
  | nil =>
    intro v m w r' h
    simp only [fPlain, FOut.item.injEq, Prod.mk.injEq] at h ⊢
    obtain ⟨⟨rfl, rfl⟩, rfl⟩ := h
    exact ⟨rfl, by simp, fun _ => by simp⟩
  | cons b r ih =>
    intro v m w r' h
    simp only [fPlain] at h ⊢
    split at h
    · cases h
    · rename_i g1
      split at h
      · rename_i g2
        simp only [FOut.item.injEq, Prod.mk.injEq] at h
        obtain ⟨⟨rfl, rfl⟩, rfl⟩ := h
        exact ⟨rfl, by simp, fun _ => by rw [if_neg g1, if_pos g2]⟩
      · rename_i g2
        split at h
        · rename_i g3
          obtain ⟨a, b, c⟩ := ih h
          exact ⟨a, b, fun _ => by rw [if_neg g1, if_neg g2, if_pos g3]; exact c _⟩
        · cases h

theorem fAfter_name {d : UInt8} {n r v : Bytes} {m : Bytes} {w : Option Bytes} {r' : Bytes}
    (h : fAfter d n v r = .item (m, w) r') :
    m = n ∧ w ≠ none ∧ ∀ n', fAfter d n' v r = .item (n', w) r' := by
  unfold fAfter at h ⊢
  generalize r.dropWhile blank = t at h ⊢
  match t with
  | [] =>
    simp only [FOut.item.injEq, Prod.mk.injEq] at h ⊢
    obtain ⟨⟨rfl, rfl⟩, rfl⟩ := h
    exact ⟨rfl, by simp, fun _ => by simp⟩
  | [_] =>
    simp only [FOut.item.injEq, Prod.mk.injEq] at h ⊢
    obtain ⟨⟨rfl, rfl⟩, rfl⟩ := h
    exact ⟨rfl, by simp, fun _ => by simp⟩
  | _ :: b :: t =>
    dsimp only at h ⊢
    split at h
    · rename_i g
      simp only [FOut.item.injEq, Prod.mk.injEq] at h
      obtain ⟨⟨rfl, rfl⟩, rfl⟩ := h
      exact ⟨rfl, by simp, fun _ => by rw [if_pos g]⟩
    · cases h

theorem fQuoted_name {d : UInt8} {n : Bytes} : ∀ (k : Nat) {p : UInt8} {r v : Bytes} {m : Bytes}
    {w : Option Bytes} {r' : Bytes}, r.length ≤ k → fQuoted d n p r v = .item (m, w) r' →
      m = n ∧ w ≠ none ∧ ∀ n', fQuoted d n' p r v = .item (n', w) r' := by
  intro k
  induction k with
  | zero =>
    intro p r v m w r' hk h
    have : r = [] := List.eq_nil_of_length_eq_zero (by omega)
    subst this; simp [fQuoted] at h
  | succ k ih =>
    intro p r v m w r' hk h
    cases r with
    | nil => simp [fQuoted] at h
    | cons b r =>
      simp only [fQuoted_cons] at h ⊢
      simp at hk
      split at h
      · cases h
      · rename_i g1
        split at h
        · rename_i g2
          obtain ⟨a, b, c⟩ := ih hk h
          exact ⟨a, b, fun _ => by rw [if_neg g1, if_pos g2]; exact c _⟩
        · rename_i g2
          split at h
          · rename_i g3
            obtain ⟨a, b, c⟩ := fAfter_name h
            exact ⟨a, b, fun _ => by rw [if_neg g1, if_neg g2, if_pos g3]; exact c _⟩
          · rename_i g3
            split at h
            · rename_i g4
              cases r with
              | nil => cases h
              | cons e r =>
                obtain ⟨a, b, c⟩ := ih (by simp at hk; omega) h
                exact ⟨a, b, fun _ => by rw [if_neg g1, if_neg g2, if_neg g3, if_pos g4]; exact c _⟩
            · cases h

theorem fValue_name {d : UInt8} {n r : Bytes} {m : Bytes} {w : Option Bytes} {r' : Bytes}
    (h : fValue d n r = .item (m, w) r') :
    m = n ∧ ∀ n', fValue d n' r = .item (n', w) r' := by
  unfold fValue at h ⊢
  generalize r.dropWhile blank = t at h ⊢
  match t with
  | [] =>
    simp only [FOut.item.injEq, Prod.mk.injEq] at h ⊢
    obtain ⟨⟨rfl, rfl⟩, rfl⟩ := h
    exact ⟨rfl, fun _ => by simp⟩
  | b :: t =>
    dsimp only at h ⊢
    split at h
    · rename_i g
      obtain ⟨a, _, c⟩ := fQuoted_name _ le_rfl h
      exact ⟨a, fun _ => by rw [if_pos g]; exact c _⟩
    · rename_i g
      obtain ⟨a, _, c⟩ := fPlain_name h
      exact ⟨a, fun _ => by rw [if_neg g]; exact c _⟩

theorem lower_append (a b : Bytes) : lower (a ++ b) = lower a ++ lower b := by simp [lower]

/-- The runs with and without normalisation, on the unread bytes. -/
theorem fName_both {d : UInt8} (hd : ¬ Blank d) : ∀ (r n : Bytes) (s1 s2 : Bool) (m : Bytes)
    (v : Option Bytes) (r' : Bytes), (s1 = s2 ∨ (s1 = false ∧ s2 = true ∧ ∃ b ∈ n.getLast?, UpperByte b)) →
    fName d false s1 r n = .item (m, v) r' →
    fName d true s2 r (lower n) = .item (lower m, v) r' ∨
    (fName d true s2 r (lower n) = .stop ∧ v = none ∧ r' = [] ∧ (∃ b ∈ m.getLast?, UpperByte b) ∧
      m.getLast? = (n ++ r).getLast?) := by
  intro r
  induction r with
  | nil =>
    intro n s1 s2 m v r' hs h
    rcases hs with rfl | ⟨rfl, rfl, hb⟩
    · cases s1 with
      | true => simp [fName] at h
      | false =>
        simp [fName] at h
        obtain ⟨⟨rfl, rfl⟩, rfl⟩ := h
        left
        simp [fName]
    · simp [fName] at h
      obtain ⟨⟨rfl, rfl⟩, rfl⟩ := h
      right
      simpa [fName] using hb
  | cons b r ih =>
    intro n s1 s2 m v r' hs h
    have step : ∀ (a : UInt8) (t1 t2 : Bool),
        (t1 = t2 ∨ (t1 = false ∧ t2 = true ∧ UpperByte a)) → a = b →
        fName d false t1 r (n ++ [a]) = .item (m, v) r' →
        fName d true t2 r (lower n ++ lower [a]) = .item (lower m, v) r' ∨
        (fName d true t2 r (lower n ++ lower [a]) = .stop ∧ v = none ∧ r' = [] ∧
          (∃ b ∈ m.getLast?, UpperByte b) ∧ m.getLast? = (n ++ b :: r).getLast?) := by
      intro a t1 t2 ht hab hf
      subst hab
      have := ih (n ++ [a]) t1 t2 m v r' (by
        rcases ht with ht | ⟨h1, h2, h3⟩
        · exact .inl ht
        · exact .inr ⟨h1, h2, a, by simp, h3⟩) hf
      rw [lower_append] at this
      simpa using this
    by_cases hbl : s1 = true ∧ blank b = true
    · obtain ⟨rfl, hb⟩ := hbl
      have : s2 = true := by
        rcases hs with h | ⟨h, _⟩
        · exact h.symm
        · cases h
      subst this
      rw [fName_cons, if_pos (by simp [hb])] at h
      rw [fName_cons, if_pos (by simp [hb])]
      rcases ih n true true m v r' (.inl rfl) h with h' | ⟨h1, h2, h3, h4, h5⟩
      · exact .inl h'
      · refine .inr ⟨h1, h2, h3, h4, ?_⟩
        cases r with
        | nil => simp [fName] at h
        | cons a r => rw [h5]; simp [List.getLast?_append]
    · by_cases hbl2 : blank b = true
      · -- a blank that is not skipped without normalisation: an error
        exfalso
        have hs1 : s1 = false := by
          cases s1 with
          | false => rfl
          | true => exact absurd ⟨rfl, hbl2⟩ hbl
        subst hs1
        have hnb : b ≠ d := by rintro rfl; exact hd (blank_iff.1 hbl2)
        have hB := blank_iff.1 hbl2
        rw [fName_cons, if_neg (by simp), if_neg (by rcases hB with rfl | rfl <;> decide),
          if_neg (by rintro ⟨h, _⟩; rcases hB with rfl | rfl <;> revert h <;> decide),
          if_neg (by rcases hB with rfl | rfl <;> decide), if_neg (by rcases hB with rfl | rfl <;> decide),
          if_neg hnb, if_neg (by rcases hB with rfl | rfl <;> decide)] at h
        cases h
      · rw [fName_cons, if_neg (by simp [hbl2])] at h
        rw [fName_cons, if_neg (by simp [hbl2])]
        by_cases g1 : b = 255
        · rw [if_pos g1] at h; cases h
        · rw [if_neg g1] at h ⊢
          by_cases g2 : TokenByte b ∧ fieldStop d false b = false
          · rw [if_pos g2] at h
            by_cases hu : UpperByte b
            · have hu' := (upper_iff b).2 hu
              have ⟨_, n1, n2, _, _⟩ := upper_tok b hu
              have n3 : b ≠ d := by
                rintro rfl
                simp [fieldStop] at g2
              rw [if_neg (by simp [fieldStop, hu']), if_neg n1, if_neg n2, if_neg n3, if_pos hu']
              have e : lower [b] = [b + 0x20] := by simp [lower, hu]
              rw [← e]
              exact step b false true (.inr ⟨rfl, rfl, hu⟩) rfl h
            · have hu' : isUpper b = false := by
                have := (upper_iff b).not.2 hu; simpa using this
              have e : lower [b] = [b] := by simp [lower, hu]
              have g2' : TokenByte b ∧ fieldStop d true b = false := by
                refine ⟨g2.1, ?_⟩
                have := g2.2
                simpa [fieldStop, hu'] using this
              rw [if_pos g2', ← e]
              exact step b false false (.inl rfl) rfl h
          · rw [if_neg g2] at h
            have g2' : ¬ (TokenByte b ∧ fieldStop d true b = false) := by
              rintro ⟨t, f⟩
              refine g2 ⟨t, ?_⟩
              simp [fieldStop] at f ⊢
              exact f.1
            rw [if_neg g2']
            by_cases g3 : b = c! '='
            · rw [if_pos g3] at h ⊢
              obtain ⟨rfl, hv⟩ := fValue_name h
              exact .inl (hv _)
            · rw [if_neg g3] at h ⊢
              by_cases g4 : b = c! '/'
              · rw [if_pos g4] at h ⊢
                have e : lower [c! '/'] = [c! '/'] := by decide
                rw [← e]
                exact step (c! '/') true true (.inl rfl) g4.symm h
              · rw [if_neg g4] at h ⊢
                by_cases g5 : b = d
                · rw [if_pos g5] at h ⊢
                  simp only [FOut.item.injEq, Prod.mk.injEq] at h
                  obtain ⟨⟨rfl, rfl⟩, rfl⟩ := h
                  exact .inl rfl
                · rw [if_neg g5] at h ⊢
                  by_cases g6 : isUpper b = true
                  · exfalso
                    have ⟨t, n1, n2, _, _⟩ := upper_tok b ((upper_iff b).1 g6)
                    exact g2 ⟨t, by simp [fieldStop, n1, n2, g5]⟩
                  · rw [if_neg g6] at h; cases h

/-- The bytes of yielded names. -/
theorem fName_bytes {d : UInt8} {z : Bool} : ∀ (r n : Bytes) (s : Bool) (m : Bytes)
    (v : Option Bytes) (r' : Bytes),
    (∀ b ∈ n, (TokenByte b ∨ b = c! '/') ∧ (z = true → ¬ UpperByte b)) →
    fName d z s r n = .item (m, v) r' →
    ∀ b ∈ m, (TokenByte b ∨ b = c! '/') ∧ (z = true → ¬ UpperByte b) := by
  intro r
  induction r with
  | nil =>
    intro n s m v r' hn h
    cases s with
    | true => simp [fName] at h
    | false =>
      simp [fName] at h
      obtain ⟨⟨rfl, rfl⟩, rfl⟩ := h
      exact hn
  | cons b r ih =>
    intro n s m v r' hn h
    have app : ∀ a, ((TokenByte a ∨ a = c! '/') ∧ (z = true → ¬ UpperByte a)) →
        ∀ b ∈ n ++ [a], (TokenByte b ∨ b = c! '/') ∧ (z = true → ¬ UpperByte b) := by
      intro a ha b hb
      rcases List.mem_append.1 hb with hb | hb
      · exact hn b hb
      · simp at hb; subst hb; exact ha
    rw [fName_cons] at h
    split at h
    · exact ih _ _ _ _ _ hn h
    · split at h
      · cases h
      · split at h
        · rename_i g
          refine ih _ _ _ _ _ (app b ⟨.inl g.1, ?_⟩) h
          intro hz
          have := g.2
          simp [fieldStop, hz] at this
          rw [← upper_iff]; simp [this]
        · split at h
          · obtain ⟨rfl, _⟩ := fValue_name h
            exact hn
          · split at h
            · refine ih _ _ _ _ _ (app _ ⟨.inr rfl, fun _ => by decide⟩) h
            · split at h
              · simp only [FOut.item.injEq, Prod.mk.injEq] at h
                obtain ⟨⟨rfl, rfl⟩, rfl⟩ := h
                exact hn
              · split at h
                · rename_i g
                  have key : ∀ b : UInt8, isUpper b = true → TokenByte (b + 0x20) ∧ ¬ UpperByte (b + 0x20) := by
                    apply forall_u8; decide +kernel
                  have := key b g
                  exact ih _ _ _ _ _ (app _ ⟨.inl this.1, fun _ => this.2⟩) h
                · cases h

theorem fValue_no_stop (d : UInt8) (n r : Bytes) : fValue d n r ≠ .stop := by
  have q : ∀ (k : Nat) (p : UInt8) (r v : Bytes), r.length ≤ k → fQuoted d n p r v ≠ .stop := by
    intro k
    induction k with
    | zero =>
      intro p r v hk
      have : r = [] := List.eq_nil_of_length_eq_zero (by omega)
      subst this; simp [fQuoted]
    | succ k ih =>
      intro p r v hk
      cases r with
      | nil => simp [fQuoted]
      | cons b r =>
        rw [fQuoted_cons]
        simp at hk
        split
        · simp
        · split
          · exact ih _ _ _ hk
          · split
            · unfold fAfter
              split
              · simp
              · simp
              · split <;> simp
            · split
              · cases r with
                | nil => simp
                | cons e r => exact ih _ _ _ (by simp at hk; omega)
              · simp
  have p : ∀ (r v : Bytes), fPlain d n r v ≠ .stop := by
    intro r
    induction r with
    | nil => intro v; simp [fPlain]
    | cons b r ih =>
      intro v
      rw [fPlain]
      split
      · simp
      · split
        · simp
        · split
          · exact ih _
          · simp
  unfold fValue
  split
  · simp
  · split
    · exact q _ _ _ _ le_rfl
    · exact p _ _

theorem fName_both_stop {d : UInt8} (hd : ¬ Blank d) : ∀ (r n m : Bytes) (s1 s2 : Bool),
    (s1 = s2 ∨ (s1 = false ∧ s2 = true)) →
    fName d false s1 r n = .stop → fName d true s2 r m = .stop := by
  intro r
  induction r with
  | nil =>
    intro n m s1 s2 hs h
    cases s1 with
    | false => simp [fName] at h
    | true =>
      have : s2 = true := by rcases hs with h | ⟨h, _⟩ <;> simp_all
      simp [fName, this]
  | cons b r ih =>
    intro n m s1 s2 hs h
    by_cases hb : blank b = true
    · have hnb : b ≠ d := by rintro rfl; exact hd (blank_iff.1 hb)
      have hB := blank_iff.1 hb
      cases s1 with
      | true =>
        have : s2 = true := by rcases hs with h | ⟨h, _⟩ <;> simp_all
        subst this
        rw [fName_cons, if_pos (by simp [hb])] at h ⊢
        exact ih _ _ _ _ (.inl rfl) h
      | false =>
        exfalso
        rw [fName_cons, if_neg (by simp), if_neg (by rcases hB with rfl | rfl <;> decide),
          if_neg (by rintro ⟨h, _⟩; rcases hB with rfl | rfl <;> revert h <;> decide),
          if_neg (by rcases hB with rfl | rfl <;> decide), if_neg (by rcases hB with rfl | rfl <;> decide),
          if_neg hnb, if_neg (by rcases hB with rfl | rfl <;> decide)] at h
        cases h
    · rw [fName_cons, if_neg (by simp [hb])] at h
      rw [fName_cons, if_neg (by simp [hb])]
      by_cases g1 : b = 255
      · rw [if_pos g1] at h; cases h
      · rw [if_neg g1] at h ⊢
        by_cases g2 : TokenByte b ∧ fieldStop d false b = false
        · rw [if_pos g2] at h
          by_cases hu : isUpper b = true
          · have ⟨_, n1, n2, _, _⟩ := upper_tok b ((upper_iff b).1 hu)
            have n3 : b ≠ d := by
              rintro rfl
              simp [fieldStop] at g2
            rw [if_neg (by simp [fieldStop, hu]), if_neg n1, if_neg n2, if_neg n3, if_pos hu]
            exact ih _ _ _ _ (.inr ⟨rfl, rfl⟩) h
          · have g2' : TokenByte b ∧ fieldStop d true b = false :=
              ⟨g2.1, by have := g2.2; simpa [fieldStop, hu] using this⟩
            rw [if_pos g2']
            exact ih _ _ _ _ (.inl rfl) h
        · rw [if_neg g2] at h
          have g2' : ¬ (TokenByte b ∧ fieldStop d true b = false) := by
            rintro ⟨t, f⟩
            refine g2 ⟨t, ?_⟩
            simp [fieldStop] at f ⊢
            exact f.1
          rw [if_neg g2']
          by_cases g3 : b = c! '='
          · rw [if_pos g3] at h
            exact absurd h (fValue_no_stop _ _ _)
          · rw [if_neg g3] at h ⊢
            by_cases g4 : b = c! '/'
            · rw [if_pos g4] at h ⊢
              exact ih _ _ _ _ (.inl rfl) h
            · rw [if_neg g4] at h ⊢
              by_cases g5 : b = d
              · rw [if_pos g5] at h; cases h
              · rw [if_neg g5] at h ⊢
                by_cases g6 : isUpper b = true
                · exfalso
                  have ⟨t, n1, n2, _, _⟩ := upper_tok b ((upper_iff b).1 g6)
                  exact g2 ⟨t, by simp [fieldStop, n1, n2, g5]⟩
                · rw [if_neg g6] at h; cases h

theorem rest_is_drop {c c' : Ctx} (h1 : c'.stream = c.stream) (h2 : c'.idx ≤ c'.stream.length)
    (h3 : c'.rest.length < c.rest.length) :
    c'.rest = c.rest.drop (c.rest.length - c'.rest.length) := by
  simp only [rest, List.length_drop, List.drop_drop, h1] at h3 ⊢
  rw [h1] at h2
  congr 1
  omega

theorem last_drop {x : Bytes} {k : Nat} {b : UInt8} (h : b ∈ (x.drop k).getLast?) : b ∈ x.getLast? := by
  rw [List.getLast?_drop] at h
  split at h
  · cases h
  · exact h

/-- The loop over a field, without and with normalisation. -/
theorem both_yield {it : FieldIter} {l : List Item} {it' : FieldIter}
    (h : Yields FieldIter.next it l it') : ∀ it2 : FieldIter, it.ctx.idx ≤ it.ctx.stream.length →
    it2.ctx.idx ≤ it2.ctx.stream.length → it2.ctx.rest = it.ctx.rest → ¬ Blank it.delimiter →
    it2.delimiter = it.delimiter → it.normalize = false → it2.normalize = true → it'.errs = it.errs →
    (∀ b ∈ it.ctx.rest.getLast?, ¬ UpperByte b) →
    ∃ it2', Yields FieldIter.next it2 (l.map (norm true)) it2' ∧ it2'.errs = it2.errs := by
  induction h with
  | @stop it it' h =>
    intro it2 hi hi2 hr hd hd2 hz hz2 he hl
    by_cases hn : it.ctx.rest = []
    · exact ⟨it2, .stop (field_done hi2 (hr.trans hn)), rfl⟩
    · rcases field_next hi with ⟨e, _⟩ | ⟨_, hm⟩
      · exact absurd e hn
      · rw [h, hz] at hm
        have hs := fName_both_stop hd it.ctx.rest [] [] true true (.inl rfl)
        generalize fName it.delimiter false true it.ctx.rest [] = o at hm hs
        cases o with
        | item _ _ => obtain ⟨_, h, _⟩ := hm; cases h
        | stop =>
          rcases field_next hi2 with ⟨e, _⟩ | ⟨_, hm2⟩
          · exact absurd (hr ▸ e) hn
          · rw [hz2, hd2, hr, hs rfl] at hm2
            obtain ⟨it3, g1, _, _, _, g5, _⟩ := hm2
            exact ⟨it3, .stop g1, g5⟩
        | error e =>
          obtain ⟨it3, h3, _, _, _, h6, _⟩ := hm
          cases h3
          rw [he] at h6
          simp at h6
        | panic => exact absurd hm (by simp [FMatch])
  | @item it x it₁ l it' h hy ih =>
    intro it2 hi hi2 hr hd hd2 hz hz2 he hl
    obtain ⟨r, a0, a1, a2, a3, a4, a5, a6⟩ := item_inv hi h
    have hne : it.ctx.rest ≠ [] := by
      intro e
      have := field_done hi e
      rw [h] at this; cases this
    have hlt := (fName_lt it.delimiter it.normalize it.ctx.rest true []).2 hne
    rw [a0] at hlt
    simp only [FOut.lt] at hlt
    rw [hz] at a0
    obtain ⟨m, v⟩ := x
    rcases fName_both hd _ _ _ _ _ _ _ (.inl rfl) a0 with hb | ⟨_, _, _, ⟨b, hb, hu⟩, hlst⟩
    · obtain ⟨it3, g1, g2, g3, g4, g5, g6, g7⟩ := field_item (it := it2) hi2 (hr ▸ hne)
        (by rw [hd2, hz2, hr]; exact hb)
      have hdrop := rest_is_drop a1 a3 (by rw [a2]; exact hlt)
      obtain ⟨it4, k1, k2⟩ := ih it3 a3 g4 (by rw [g3, a2]) (by rw [a5]; exact hd)
        (by rw [g6, hd2, a5]) (by rw [a6, hz]) (by rw [g7, hz2]) (by rw [he, a4])
        (fun b hb => hl b (by rw [hdrop] at hb; exact last_drop hb))
      exact ⟨it4, .item g1 k1, by rw [k2, g5]⟩
    · exact absurd hu (hl b (by rw [hlst] at hb; simpa using hb))

theorem next_ok {it it₁ : FieldIter} (hi : it.ctx.idx ≤ it.ctx.stream.length)
    (h : it.next = .none it₁) :
    it₁.ctx.idx ≤ it₁.ctx.stream.length ∧ it₁.delimiter = it.delimiter ∧ it₁.normalize = it.normalize := by
  rcases field_next hi with ⟨_, e⟩ | ⟨_, hm⟩
  · rw [e] at h; cases h; exact ⟨hi, rfl, rfl⟩
  · rw [h] at hm
    generalize fName it.delimiter it.normalize true it.ctx.rest [] = o at hm
    cases o with
    | item _ _ => obtain ⟨_, h, _⟩ := hm; cases h
    | stop => obtain ⟨_, h, _, _, a, _, b, c⟩ := hm; cases h; exact ⟨a, b, c⟩
    | error e => obtain ⟨_, h, _, _, a, _, b, c⟩ := hm; cases h; exact ⟨a, b, c⟩
    | panic => exact absurd hm (by simp [FMatch])

theorem after_terminates {it : FieldIter} {n : Nat} {l : List Item} {it' : FieldIter}
    (h : After FieldIter.next it n l it') : it.ctx.idx ≤ it.ctx.stream.length →
    it'.next ≠ .diverge ∧ ∀ i it2, it'.next = .item i it2 → it'.ctx.idx < it2.ctx.idx := by
  induction h with
  | zero =>
    rename_i it
    intro hi
    refine ⟨field_no_hang hi, fun i it2 h => ?_⟩
    obtain ⟨r, a0, a1, a2, a3, _⟩ := item_inv hi h
    have hne : it.ctx.rest ≠ [] := by
      intro e
      have := field_done hi e
      rw [h] at this; cases this
    have hlt := (fName_lt it.delimiter it.normalize it.ctx.rest true []).2 hne
    rw [a0] at hlt
    simp only [FOut.lt] at hlt
    rw [← a2] at hlt
    simp only [rest, List.length_drop, a1] at hlt
    omega
  | none h _ ih => intro hi; exact ih (next_ok hi h).1
  | item h _ ih =>
    intro hi
    obtain ⟨r, a0, a1, a2, a3, _⟩ := item_inv hi h
    exact ih a3

theorem after_names {it : FieldIter} {n : Nat} {l : List Item} {it' : FieldIter}
    (h : After FieldIter.next it n l it') : it.ctx.idx ≤ it.ctx.stream.length →
    ∀ i ∈ l, ∀ b ∈ i.1, (TokenByte b ∨ b = c! '/') ∧ (it.normalize = true → ¬ UpperByte b) := by
  induction h with
  | zero => intro _ i hi; cases hi
  | none h _ ih =>
    intro hi i him
    obtain ⟨a, _, c⟩ := next_ok hi h
    have := ih a i him
    rw [c] at this
    exact this
  | item h _ ih =>
    intro hi i him
    obtain ⟨r, a0, a1, a2, a3, a4, a5, a6⟩ := item_inv hi h
    rcases List.mem_cons.1 him with rfl | him
    · obtain ⟨m, v⟩ := i
      exact fName_bytes _ _ _ _ _ _ (by simp) a0
    · have := ih a3 i him
      rw [a6] at this
      exact this

end Verif.Util
