import Verif.Http1.Runs
import Verif.Http1.LooseSpec

/-!
# What the reference machine has read when it finishes (helper lemmas)
-/

set_option linter.unusedSimpArgs false
set_option linter.unusedVariables false

namespace Verif.Http1

variable {env : Env} {tr L : List Ev} {s s1 : AS} {m r : Bytes}

/-- From `s`, after `tr`, the machine reads `m` up to `r` and finishes with `L`. -/
def Acc (env : Env) (L : List Ev) (r : Bytes) (tr : List Ev) (s : AS) (m : Bytes) : Prop :=
  pred env tr s m = (L, .finished r)

theorem Acc.step {es0 : List Ev} (h : Acc env L r tr s m) (hn : norm env tr s = (es0, s1)) (hf : s1 ≠ .fin) :
    ∃ b m' es s', m = b :: m' ∧ bstep env s1 b = .next es s' ∧ Acc env L r (tr ++ es0 ++ es) s' m' := by
  unfold Acc at h
  cases m with
  | nil => simp [pred, hn, hf] at h
  | cons b m' =>
    simp only [pred, hn, if_neg hf] at h
    cases hb : bstep env s1 b with
    | next es s' => rw [hb] at h; exact ⟨b, m', es, s', rfl, hb, h⟩
    | err es e => rw [hb] at h; simp at h
    | errB => rw [hb] at h; simp at h
    | panic => rw [hb] at h; simp at h

theorem Acc.byte (h : Acc env L r tr s m) (hn : norm env tr s = ([], s)) (hf : s ≠ .fin) :
    ∃ b m' es s', m = b :: m' ∧ bstep env s b = .next es s' ∧ Acc env L r (tr ++ es) s' m' := by
  obtain ⟨b, m', es, s', h1, h2, h3⟩ := h.step hn hf
  exact ⟨b, m', es, s', h1, h2, by simpa using h3⟩

theorem Acc.loop (hn : ∀ tr, norm env tr s = ([], s)) (hf : s ≠ .fin) (ev : UInt8 → List Ev) {P : UInt8 → Prop}
    {Q : UInt8 → List Ev → AS → Prop}
    (hs : ∀ b es s', bstep env s b = .next es s' → (P b ∧ es = ev b ∧ s' = s) ∨ Q b es s') :
    ∀ m tr, Acc env L r tr s m → ∃ x b m' es s', m = x ++ b :: m' ∧ (∀ a ∈ x, P a) ∧ Q b es s' ∧
      bstep env s b = .next es s' ∧ Acc env L r (tr ++ x.flatMap ev ++ es) s' m' := by
  intro m
  induction m with
  | nil =>
    intro tr h
    obtain ⟨_, _, _, _, h1, _⟩ := h.byte (hn tr) hf
    simp at h1
  | cons a m ih =>
    intro tr h
    obtain ⟨b, m', es, s', h1, h2, h3⟩ := h.byte (hn tr) hf
    simp only [List.cons.injEq] at h1
    obtain ⟨rfl, rfl⟩ := h1
    rcases hs a es s' h2 with ⟨hp, rfl, rfl⟩ | hq
    · obtain ⟨x, b, m', es, s', h4, h5, h6, h7, h8⟩ := ih _ h3
      refine ⟨a :: x, b, m', es, s', by simp [h4], ?_, h6, h7, by simpa using h8⟩
      intro y hy
      rcases List.mem_cons.1 hy with rfl | hy
      · exact hp
      · exact h5 y hy
    · exact ⟨[], a, m, es, s', rfl, by simp, hq, h2, by simpa using h3⟩

/-- A state that accepts one byte. -/
theorem Acc.expect {e : UInt8} {s' : AS} {pe : UInt8 → PErr} (h : Acc env L r tr s m) (hn : norm env tr s = ([], s))
    (hf : s ≠ .fin) (hb : ∀ b, bstep env s b = bExpect e s' pe b) : ∃ m', m = e :: m' ∧ Acc env L r tr s' m' := by
  obtain ⟨b, m', es, s2, h1, h2, h3⟩ := h.byte hn hf
  rw [hb, bExpect] at h2
  split at h2
  · rename_i hbe
    simp only [BRes.next.injEq] at h2
    obtain ⟨rfl, rfl⟩ := h2
    obtain rfl := eq_of_beq hbe
    exact ⟨m', h1, by simpa using h3⟩
  · simp at h2

/-! ## Byte classes -/

theorem token_spec' {b : UInt8} (h : isToken b = some true) : TokenByte b := by
  have key : ∀ b : UInt8, isToken b = some true → TokenByte b := by
    apply Util.forall_u8
    decide +kernel
  exact key b h

theorem field_spec' {b : UInt8} (h : isHeaderField b = some true) : FieldByte b ∧ b ≠ 255 := by
  have key : ∀ b : UInt8, isHeaderField b = some true → FieldByte b ∧ b ≠ 255 := by
    apply Util.forall_u8
    decide +kernel
  exact key b h

theorem quoted_spec' {b : UInt8} (h : isQuotedHeaderField b = some true) : QuotedByte b ∧ b ≠ 255 := by
  have key : ∀ b : UInt8, isQuotedHeaderField b = some true → QuotedByte b ∧ b ≠ 255 := by
    apply Util.forall_u8
    decide +kernel
  exact key b h

theorem escapable_spec' {b : UInt8} (h : isEscapable b = true) : 0x20 ≤ b ∧ b ≤ 0x7A := by
  have key : ∀ b : UInt8, isEscapable b = true → 0x20 ≤ b ∧ b ≤ 0x7A := by
    apply Util.forall_u8
    decide +kernel
  exact key b h

theorem visible_spec' {b : UInt8} (h : isVisible7bit b = true) : VisibleByte b := by
  have key : ∀ b : UInt8, isVisible7bit b = true → VisibleByte b := by
    apply Util.forall_u8
    decide +kernel
  exact key b h

theorem nonControl_spec' {b : UInt8} (h : isNonControl b = true) : NonControlByte b := by
  have key : ∀ b : UInt8, isNonControl b = true → NonControlByte b := by
    apply Util.forall_u8
    decide +kernel
  exact key b h

theorem upper_token {b : UInt8} (h : isUpper b = true) : TokenByte b := by
  have key : ∀ b : UInt8, isUpper b = true → TokenByte b := by
    apply Util.forall_u8
    decide +kernel
  exact key b h

theorem upper_spec' {b : UInt8} (h : isUpper b = true) : UpperByte b := (upper_spec h).1

theorem digit_spec' {b : UInt8} (h : isDigit b = true) : c! '0' ≤ b ∧ b ≤ c! '9' := by
  have key : ∀ b : UInt8, isDigit b = true → c! '0' ≤ b ∧ b ≤ c! '9' := by
    apply Util.forall_u8
    decide +kernel
  exact key b h

theorem blank_spec' {b : UInt8} (h : (b == c! ' ' || b == c! '\t') = true) : Blank b := by
  simp only [Bool.or_eq_true, beq_iff_eq] at h
  exact h

/-! ## Header values -/

theorem bHdrQuot_inv {b : UInt8} {es : List Ev} {s' : AS} (h : bHdrQuot b = .next es s') :
    (QuotedByte b ∧ b ≠ 255 ∧ es = hv [b] ∧ s' = .hdrQuot) ∨ (b = c! '"' ∧ es = hv [b] ∧ s' = .hdrVal) ∨
    (b = c! '\\' ∧ es = hv [b] ∧ s' = .hdrEsc) := by
  unfold bHdrQuot at h
  split at h
  · simp at h
  · rename_i t ht
    split at h
    · rename_i h1
      simp only [BRes.next.injEq] at h
      subst h1
      exact .inl ⟨(quoted_spec' ht).1, (quoted_spec' ht).2, h.1.symm, h.2.symm⟩
    · split at h
      · rename_i h1
        simp only [BRes.next.injEq] at h
        exact .inr (.inl ⟨eq_of_beq h1, h.1.symm, h.2.symm⟩)
      · split at h
        · rename_i h1
          simp only [BRes.next.injEq] at h
          exact .inr (.inr ⟨eq_of_beq h1, h.1.symm, h.2.symm⟩)
        · simp at h

theorem bHdrVal_inv {b : UInt8} {es : List Ev} {s' : AS} (h : bHdrVal b = .next es s') :
    (FieldByte b ∧ b ≠ 255 ∧ es = hv [b] ∧ s' = .hdrVal) ∨ (b = c! '\r' ∧ es = [] ∧ s' = .hdrLf1) ∨
    (b = c! '"' ∧ es = hv [b] ∧ s' = .hdrQuot) := by
  unfold bHdrVal at h
  split at h
  · simp at h
  · rename_i t ht
    split at h
    · rename_i h1
      simp only [BRes.next.injEq] at h
      subst h1
      exact .inl ⟨(field_spec' ht).1, (field_spec' ht).2, h.1.symm, h.2.symm⟩
    · split at h
      · rename_i h1
        simp only [BRes.next.injEq] at h
        exact .inr (.inl ⟨eq_of_beq h1, h.1.symm, h.2.symm⟩)
      · split at h
        · rename_i h1
          simp only [BRes.next.injEq] at h
          exact .inr (.inr ⟨eq_of_beq h1, h.1.symm, h.2.symm⟩)
        · simp at h

/-- Through a quoted string. -/
theorem Acc.quoted : ∀ (n : Nat) (m : Bytes) (tr : List Ev), m.length ≤ n → Acc env L r tr .hdrQuot m →
    ∃ q m', QuotedText q ∧ m = q ++ c! '"' :: m' ∧ Acc env L r (tr ++ hv (q ++ b!"\"")) .hdrVal m' := by
  intro n
  induction n with
  | zero =>
    intro m tr hl h
    obtain ⟨b, m', _, _, h1, _⟩ := h.byte rfl nofun
    subst h1; simp at hl
  | succ n ih =>
    intro m tr hl h
    obtain ⟨b, m', es, s', rfl, h2, h3⟩ := h.byte rfl nofun
    rcases bHdrQuot_inv h2 with ⟨q1, q2, rfl, rfl⟩ | ⟨rfl, rfl, rfl⟩ | ⟨rfl, rfl, rfl⟩
    · obtain ⟨q, m2, h4, rfl, h6⟩ := ih m' _ (by simp at hl; omega) h3
      exact ⟨b :: q, m2, .byte q1 q2 h4, by simp, by simpa [hv] using h6⟩
    · exact ⟨[], m', .nil, rfl, by simpa [hv] using h3⟩
    · obtain ⟨b2, m2, es2, s2, rfl, h5, h6⟩ := h3.byte rfl nofun
      simp only [bstep] at h5
      split at h5
      · rename_i he
        simp only [BRes.next.injEq] at h5
        obtain ⟨rfl, rfl⟩ := h5
        obtain ⟨q, m3, h7, rfl, h8⟩ := ih m2 _ (by simp at hl; omega) h6
        exact ⟨c! '\\' :: b2 :: q, m3, .esc (escapable_spec' he).1 (escapable_spec' he).2 h7, by simp,
          by simpa [hv] using h8⟩
      · simp at h5

/-- Through a line of a value. -/
theorem Acc.value : ∀ (n : Nat) (m : Bytes) (tr : List Ev), m.length ≤ n → Acc env L r tr .hdrVal m →
    ∃ v m', FieldText v ∧ m = v ++ b!"\r\n" ++ m' ∧ Acc env L r (tr ++ hv v) .hdrCr2 m' := by
  intro n
  induction n with
  | zero =>
    intro m tr hl h
    obtain ⟨b, m', _, _, h1, _⟩ := h.byte rfl nofun
    subst h1; simp at hl
  | succ n ih =>
    intro m tr hl h
    obtain ⟨b, m', es, s', rfl, h2, h3⟩ := h.byte rfl nofun
    rcases bHdrVal_inv h2 with ⟨q1, q2, rfl, rfl⟩ | ⟨rfl, rfl, rfl⟩ | ⟨rfl, rfl, rfl⟩
    · obtain ⟨v, m2, h4, rfl, h6⟩ := ih m' _ (by simp at hl; omega) h3
      exact ⟨b :: v, m2, .byte q1 q2 h4, by simp, by simpa [hv] using h6⟩
    · obtain ⟨m2, rfl, h4⟩ := h3.expect (e := c! '\n') (s' := .hdrCr2) rfl nofun (fun _ => rfl)
      exact ⟨[], m2, .nil, rfl, by simpa [hv] using h4⟩
    · obtain ⟨q, m2, h4, rfl, h5⟩ := Acc.quoted _ m' _ (Nat.le_refl _) h3
      obtain ⟨v, m3, h6, rfl, h7⟩ := ih m2 _ (by simp at hl; omega) h5
      exact ⟨c! '"' :: q ++ c! '"' :: v, m3, .quoted h4 h6, by simp, by simpa [hv] using h7⟩

/-! ## Header blocks -/

theorem bHdrName_inv {b : UInt8} {es : List Ev} {s' : AS} (h : bHdrName b = .next es s') :
    (TokenByte b ∧ es = [.headerName [if UpperByte b then b + 32 else b]] ∧ s' = .hdrName) ∨
    (b = c! ':' ∧ es = [] ∧ s' = .hdrStrip) := by
  by_cases ht : TokenByte b
  · rw [lowerByte_spec ht] at h
    simp only [BRes.next.injEq] at h
    exact .inl ⟨ht, h.1.symm, h.2.symm⟩
  · unfold bHdrName at h
    split at h
    · simp at h
    · rename_i t hx
      have hu : isUpper b = false := by
        cases hb : isUpper b
        · rfl
        · exact absurd (upper_token hb) ht
      have : t = false := by
        cases t
        · rfl
        · exact absurd (token_spec' hx) ht
      subst this
      simp only [hu, Bool.false_eq_true, if_false] at h
      split at h
      · rename_i h1
        simp only [BRes.next.injEq] at h
        exact .inr ⟨eq_of_beq h1, h.1.symm, h.2.symm⟩
      · simp at h

/-- Through a header field, from its first byte on. -/
theorem Acc.field (h : Acc env L r tr .hdrName m) :
    ∃ n bl v m', Line.OK (.field n bl v) ∧ m = Line.write (.field n bl v) ++ m' ∧
      Acc env L r (tr ++ flat (Line.events (.field n bl v))) .hdrCr2 m' := by
  obtain ⟨n, b, m1, es, s', rfl, h1, ⟨rfl, rfl, rfl⟩, -, h2⟩ := Acc.loop (s := .hdrName) (fun _ => rfl) nofun
    (fun b => [.headerName [if UpperByte b then b + 32 else b]]) (P := TokenByte)
    (Q := fun b es s' => b = c! ':' ∧ es = [] ∧ s' = .hdrStrip) (fun b es s' hb => bHdrName_inv hb) m tr h
  obtain ⟨bl, b, m2, es, s', rfl, h3, ⟨h4, h5⟩, h6, h7⟩ := Acc.loop (s := .hdrStrip) (fun _ => rfl) nofun
    (fun b => []) (P := Blank)
    (Q := fun b es s' => isVisible7bit b = true ∧ bHdrVal b = .next es s')
    (by
      intro b es s' hb
      simp only [bstep, bStrip] at hb
      split at hb
      · rename_i hx
        simp only [BRes.next.injEq] at hb
        exact .inl ⟨blank_spec' hx, hb.1.symm, hb.2.symm⟩
      · split at hb
        · rename_i hx; exact .inr ⟨hx, hb⟩
        · simp at hb) m1 _ h2
  have h8 : Acc env L r (tr ++ (n.flatMap fun b => [.headerName [if UpperByte b then b + 32 else b]])) .hdrVal
      (b :: m2) := by
    unfold Acc at h7 ⊢
    rw [show bl.flatMap (fun _ => ([] : List Ev)) = [] by simp] at h7
    rw [← h7, pred_next (s := .hdrVal) (s1 := .hdrVal) (s' := s') (es0 := []) (es := es) rfl nofun h5]
    simp
  obtain ⟨v, m3, h9, h10, h11⟩ := Acc.value _ _ _ (Nat.le_refl _) h8
  have hv : ∃ w, v = b :: w := by
    cases v with
    | nil =>
      simp only [List.nil_append, List.cons_append, List.cons.injEq] at h10
      exact absurd h10.1 (visible_of (visible_spec' h4)).2.2.2
    | cons a v =>
      simp only [List.cons_append, List.cons.injEq] at h10
      exact ⟨v, by rw [h10.1]⟩
  obtain ⟨w, rfl⟩ := hv
  refine ⟨n, bl, b :: w, m3, ⟨h1, h3, h9, b, w, rfl, visible_spec' h4⟩, ?_, ?_⟩
  · rw [h10]; simp [Line.write]
  · have h2 : (n.flatMap fun b => [Ev.headerName [if UpperByte b then b + 32 else b]]) =
      (Verif.lower n).map fun b => .headerName [b] := by
      rw [Verif.lower, List.map_map, List.map_eq_flatMap]; rfl
    rw [h2] at h11
    simpa [Line.events, flat, flatEv, Verif.Http1.hv] using h11

/-- Through a header block. -/
theorem Acc.block : ∀ (n : Nat) (m : Bytes) (tr : List Ev), m.length ≤ n → Acc env L r tr .hdrCr2 m →
    ∃ (ls : List Line) (m' : Bytes), (∀ y ∈ ls, Line.OK y) ∧ m = ls.flatMap Line.write ++ b!"\r\n" ++ m' ∧
      Acc env L r (tr ++ flat (ls.flatMap Line.events)) .hdrEnd m' := by
  intro n
  induction n with
  | zero =>
    intro m tr hl h
    obtain ⟨b, m', _, _, h1, _⟩ := h.byte rfl nofun
    subst h1; simp at hl
  | succ n ih =>
    intro m tr hl h
    obtain ⟨b, m', es, s', rfl, h2, h3⟩ := h.byte rfl nofun
    simp only [bstep] at h2
    split at h2
    · rename_i hb
      simp only [BRes.next.injEq] at h2
      obtain ⟨rfl, rfl⟩ := h2
      obtain rfl := eq_of_beq hb
      obtain ⟨m2, rfl, h4⟩ := h3.expect (e := c! '\n') (s' := .hdrEnd) rfl nofun (fun _ => rfl)
      exact ⟨[], m2, by simp, rfl, by simpa [flat] using h4⟩
    · simp only [bHdrCheck] at h2
      split at h2
      · rename_i hb
        simp only [BRes.next.injEq] at h2
        obtain ⟨rfl, rfl⟩ := h2
        obtain ⟨v, m2, h4, rfl, h5⟩ := Acc.value _ _ _ (Nat.le_refl _) h3
        obtain ⟨ls, m3, h6, rfl, h7⟩ := ih m2 _ (by simp at hl; omega) h5
        refine ⟨.fold b v :: ls, m3, ?_, by simp [Line.write], by simpa [flat, flatEv, Line.events, hv] using h7⟩
        intro y hy
        rcases List.mem_cons.1 hy with rfl | hy
        · exact ⟨blank_spec' hb, h4⟩
        · exact h6 y hy
      · simp only [bHdrFirst] at h2
        split at h2
        · have h4 : Acc env L r tr .hdrName (b :: m') := by
            unfold Acc at h3 ⊢
            rw [← h3, pred_next (s := .hdrName) (s1 := .hdrName) (s' := s') (es0 := []) (es := es) rfl nofun h2]
            simp
          obtain ⟨nm, bl, v, m2, h5, h6, h7⟩ := h4.field
          have hlen : m2.length ≤ n := by
            have := congrArg List.length h6
            simp [Line.write] at this hl
            omega
          obtain ⟨ls, m3, h8, rfl, h9⟩ := ih m2 _ hlen h7
          refine ⟨.field nm bl v :: ls, m3, ?_, by rw [h6]; simp, by simpa [flat] using h9⟩
          intro y hy
          rcases List.mem_cons.1 hy with rfl | hy
          · exact h5
          · exact h8 y hy
        · simp at h2

/-! ## Start lines -/

theorem Acc.digit {t : AS} {k : AS} (h : Acc env L r tr s m) (hn : norm env tr s = ([], s)) (hf : s ≠ .fin)
    {f : UInt8 → AS} {e : UInt8 → PErr}
    (hb : ∀ b, bstep env s b = if isDigit b then .next [] (f b) else .err [] (e b)) :
    ∃ b m', m = b :: m' ∧ isDigit b = true ∧ Acc env L r tr (f b) m' := by
  obtain ⟨b, m', es, s2, h1, h2, h3⟩ := h.byte hn hf
  rw [hb] at h2
  split at h2
  · rename_i hd
    simp only [BRes.next.injEq] at h2
    obtain ⟨rfl, rfl⟩ := h2
    exact ⟨b, m', h1, hd, by simpa using h3⟩
  · simp at h2

theorem digits1 {a : UInt8} (ha : isDigit a = true) : Digits [a] (dec a) :=
  ⟨by simp, by simp, by simpa using digit_spec' ha, by simp [decVal, dec]⟩

theorem digits2 {a b : UInt8} (ha : isDigit a = true) (hb : isDigit b = true) : Digits [a, b] (dec a * 10 + dec b) :=
  ⟨by simp, by simp, by simpa using ⟨digit_spec' ha, digit_spec' hb⟩, by simp [decVal, dec]⟩

theorem digits3 {a b c : UInt8} (ha : isDigit a = true) (hb : isDigit b = true) (hc : isDigit c = true) :
    Digits [a, b, c] ((dec a * 10 + dec b) * 10 + dec c) :=
  ⟨by simp, by simp, by simpa using ⟨digit_spec' ha, digit_spec' hb, digit_spec' hc⟩, by simp [decVal, dec]⟩

theorem Acc.major {q : Bool} (h : Acc env L r tr (.maj1 q) m) :
    ∃ d n m', Digits d n ∧ m = d ++ b!"." ++ m' ∧ Acc env L r tr (.min1 q n) m' := by
  obtain ⟨a, m1, rfl, ha, h1⟩ := h.digit (t := .dead) (k := .dead) rfl nofun (fun b => rfl)
  obtain ⟨b, m2, es, s2, rfl, h2, h3⟩ := h1.byte rfl nofun
  simp only [bstep] at h2
  split at h2
  · rename_i hb
    simp only [BRes.next.injEq] at h2
    obtain ⟨rfl, rfl⟩ := h2
    obtain rfl := eq_of_beq hb
    exact ⟨[a], _, m2, digits1 ha, rfl, by simpa using h3⟩
  · split at h2
    · rename_i hb
      simp only [BRes.next.injEq] at h2
      obtain ⟨rfl, rfl⟩ := h2
      obtain ⟨c, m3, es, s3, rfl, h4, h5⟩ := h3.byte rfl nofun
      simp only [bstep] at h4
      split at h4
      · rename_i hc
        simp only [BRes.next.injEq] at h4
        obtain ⟨rfl, rfl⟩ := h4
        obtain rfl := eq_of_beq hc
        exact ⟨[a, b], _, m3, digits2 ha hb, rfl, by simpa using h5⟩
      · split at h4
        · rename_i hc
          simp only [BRes.next.injEq] at h4
          obtain ⟨rfl, rfl⟩ := h4
          obtain ⟨m4, rfl, h6⟩ := h5.expect (e := c! '.') rfl nofun (fun _ => rfl)
          exact ⟨[a, b, c], _, m4, digits3 ha hb hc, rfl, by simpa using h6⟩
        · simp at h4
    · simp at h2

theorem bVerEnd_inv {q : Bool} {v w : Nat} {b : UInt8} {es : List Ev} {s' : AS} (h : bVerEnd q v w b = .next es s') :
    b = stopByte q ∧ es = [.version v w] ∧ s' = if q then .code1 else .initialEnd := by
  unfold bVerEnd at h
  split at h
  · rename_i hb
    simp only [BRes.next.injEq] at h
    exact ⟨eq_of_beq hb, h.1.symm, h.2.symm⟩
  · simp at h

theorem Acc.minor {q : Bool} {v : Nat} (h : Acc env L r tr (.min1 q v) m) :
    ∃ d n m', Digits d n ∧ m = d ++ [stopByte q] ++ m' ∧
      Acc env L r (tr ++ [.version v n]) (if q then .code1 else .initialEnd) m' := by
  obtain ⟨a, m1, rfl, ha, h1⟩ := h.digit (t := .dead) (k := .dead) rfl nofun (fun b => rfl)
  obtain ⟨b, m2, es, s2, rfl, h2, h3⟩ := h1.byte rfl nofun
  simp only [bstep] at h2
  split at h2
  · rename_i hb
    simp only [BRes.next.injEq] at h2
    obtain ⟨rfl, rfl⟩ := h2
    obtain ⟨c, m3, es, s3, rfl, h4, h5⟩ := h3.byte rfl nofun
    simp only [bstep] at h4
    split at h4
    · rename_i hc
      simp only [BRes.next.injEq] at h4
      obtain ⟨rfl, rfl⟩ := h4
      obtain ⟨d, m4, es, s4, rfl, h6, h7⟩ := h5.byte rfl nofun
      obtain ⟨rfl, rfl, rfl⟩ := bVerEnd_inv h6
      exact ⟨[a, b, c], _, m4, digits3 ha hb hc, by simp, by simpa using h7⟩
    · obtain ⟨rfl, rfl, rfl⟩ := bVerEnd_inv h4
      exact ⟨[a, b], _, m3, digits2 ha hb, by simp, by simpa using h5⟩
  · obtain ⟨rfl, rfl, rfl⟩ := bVerEnd_inv h2
    exact ⟨[a], _, m2, digits1 ha, by simp, h3⟩

/-- Through the end of the start line and the header block. -/
theorem Acc.initial (h : Acc env L r tr .initialEnd m) :
    ∃ (ls : List Line) (m' : Bytes), (∀ y ∈ ls, Line.OK y) ∧ m = b!"\n" ++ ls.flatMap Line.write ++ b!"\r\n" ++ m' ∧
      Acc env L r (tr ++ [.initialFinished] ++ flat (ls.flatMap Line.events)) .hdrEnd m' := by
  obtain ⟨b, m1, es, s1, rfl, h1, h2⟩ := h.step (s1 := .initialLf) rfl nofun
  simp only [bstep, bExpect] at h1
  split at h1
  · rename_i hb
    simp only [BRes.next.injEq] at h1
    obtain ⟨rfl, rfl⟩ := h1
    obtain rfl := eq_of_beq hb
    obtain ⟨ls, m', h3, rfl, h4⟩ := Acc.block _ _ _ (Nat.le_refl _) h2
    exact ⟨ls, m', h3, by simp, by simpa using h4⟩
  · simp at h1

/-- Through a request, after the method and its space. -/
theorem Acc.request (h : Acc env L r tr .url1 m) :
    ∃ (u ma mi : Bytes) (ls : List Line) (m' : Bytes), (u ≠ [] ∧ ∀ b ∈ u, VisibleByte b) ∧ (∃ n, Digits ma n) ∧ (∃ n, Digits mi n) ∧
      (∀ y ∈ ls, Line.OK y) ∧
      m = u ++ b!" HTTP/" ++ ma ++ b!"." ++ mi ++ b!"\r\n" ++ ls.flatMap Line.write ++ b!"\r\n" ++ m' ∧
      Acc env L r (tr ++ flat ([.url u, .version (decVal ma) (decVal mi), .initialFinished] ++
        ls.flatMap Line.events)) .hdrEnd m' := by
  obtain ⟨a, m1, es, s1, rfl, h1, h2⟩ := h.byte rfl nofun
  simp only [bstep] at h1
  split at h1
  · rename_i ha
    simp only [BRes.next.injEq] at h1
    obtain ⟨rfl, rfl⟩ := h1
    obtain ⟨u, b, m2, es, s2, rfl, h3, ⟨rfl, rfl, rfl⟩, -, h4⟩ := Acc.loop (s := .url2) (fun _ => rfl) nofun
      (fun b => [.url [b]]) (P := VisibleByte) (Q := fun b es s' => b = c! ' ' ∧ es = [] ∧ s' = .http1)
      (by
        intro b es s' hb
        simp only [bstep] at hb
        split at hb
        · rename_i hx
          simp only [BRes.next.injEq] at hb
          exact .inl ⟨visible_spec' hx, hb.1.symm, hb.2.symm⟩
        · split at hb
          · rename_i hx
            simp only [BRes.next.injEq] at hb
            exact .inr ⟨eq_of_beq hx, hb.1.symm, hb.2.symm⟩
          · simp at hb) m1 _ h2
    obtain ⟨m3, rfl, h5⟩ := h4.expect (e := c! 'H') rfl nofun (fun _ => rfl)
    obtain ⟨m4, rfl, h6⟩ := h5.expect (e := c! 'T') rfl nofun (fun _ => rfl)
    obtain ⟨m5, rfl, h7⟩ := h6.expect (e := c! 'T') rfl nofun (fun _ => rfl)
    obtain ⟨m6, rfl, h8⟩ := h7.expect (e := c! 'P') rfl nofun (fun _ => rfl)
    obtain ⟨m7, rfl, h9⟩ := h8.expect (e := c! '/') rfl nofun (fun _ => rfl)
    obtain ⟨ma, n, m8, hma, rfl, h10⟩ := h9.major
    obtain ⟨mi, n', m9, hmi, rfl, h11⟩ := h10.minor
    obtain ⟨ls, m', hls, rfl, h12⟩ := Acc.initial h11
    refine ⟨a :: u, ma, mi, ls, m', ⟨by simp, ?_⟩, ⟨n, hma⟩, ⟨n', hmi⟩, hls, by simp [stopByte], ?_⟩
    · intro b hb
      rcases List.mem_cons.1 hb with rfl | hb
      · exact visible_spec' ha
      · exact h3 b hb
    · have e1 : decVal ma = n := hma.2.2.2
      have e2 : decVal mi = n' := hmi.2.2.2
      rw [e1, e2]
      simpa [flat, flatEv, List.map_eq_flatMap] using h12
  · simp at h1

/-- Through a response, after `HTTP/`. -/
theorem Acc.response (h : Acc env L r tr (.maj1 true) m) :
    ∃ (ma mi c re : Bytes) (ls : List Line) (m' : Bytes), (∃ n, Digits ma n) ∧ (∃ n, Digits mi n) ∧ (c.length = 3 ∧ ∃ n, Digits c n) ∧
      (re ≠ [] ∧ ∀ b ∈ re, NonControlByte b) ∧ (∀ y ∈ ls, Line.OK y) ∧
      m = ma ++ b!"." ++ mi ++ b!" " ++ c ++ b!" " ++ re ++ b!"\r\n" ++ ls.flatMap Line.write ++ b!"\r\n" ++ m' ∧
      Acc env L r (tr ++ flat ([.version (decVal ma) (decVal mi), .statusCode (decVal c), .status re,
        .initialFinished] ++ ls.flatMap Line.events)) .hdrEnd m' := by
  obtain ⟨ma, n, m1, hma, rfl, h1⟩ := h.major
  obtain ⟨mi, n', m2, hmi, rfl, h2⟩ := h1.minor
  obtain ⟨a, m3, rfl, ha, h3⟩ := Acc.digit (t := .dead) (k := .dead) h2 rfl nofun (fun b => rfl)
  obtain ⟨b, m4, rfl, hb, h4⟩ := Acc.digit (t := .dead) (k := .dead) h3 rfl nofun (fun b => rfl)
  obtain ⟨c, m5, rfl, hc, h5⟩ := Acc.digit (t := .dead) (k := .dead) h4 rfl nofun (fun b => rfl)
  obtain ⟨sp, m6, es, s6, rfl, h6, h7⟩ := h5.byte rfl nofun
  simp only [bstep] at h6
  split at h6
  · rename_i hsp
    simp only [BRes.next.injEq] at h6
    obtain ⟨rfl, rfl⟩ := h6
    obtain rfl := eq_of_beq hsp
    obtain ⟨d, m7, es, s7, rfl, h8, h9⟩ := h7.byte rfl nofun
    simp only [bstep] at h8
    split at h8
    · rename_i hd
      simp only [BRes.next.injEq] at h8
      obtain ⟨rfl, rfl⟩ := h8
      obtain ⟨re, x, m8, es, s8, rfl, h10, ⟨rfl, rfl, rfl⟩, -, h11⟩ := Acc.loop (s := .reason2) (fun _ => rfl) nofun
        (fun b => [.status [b]]) (P := NonControlByte) (Q := fun b es s' => b = c! '\r' ∧ es = [] ∧ s' = .initialEnd)
        (by
          intro b es s' hb
          simp only [bstep] at hb
          split at hb
          · rename_i hx
            simp only [BRes.next.injEq] at hb
            exact .inl ⟨nonControl_spec' hx, hb.1.symm, hb.2.symm⟩
          · split at hb
            · rename_i hx
              simp only [BRes.next.injEq] at hb
              exact .inr ⟨eq_of_beq hx, hb.1.symm, hb.2.symm⟩
            · simp at hb) _ _ h9
      obtain ⟨ls, m', hls, rfl, h12⟩ := Acc.initial h11
      have hco := digits3 ha hb hc
      refine ⟨ma, mi, [a, b, c], d :: re, ls, m', ⟨n, hma⟩, ⟨n', hmi⟩, ⟨rfl, _, hco⟩, ⟨by simp, ?_⟩, hls,
        by simp [stopByte], ?_⟩
      · intro b hb
        rcases List.mem_cons.1 hb with rfl | hb
        · exact nonControl_spec' hd
        · exact h10 b hb
      · have e1 : decVal ma = n := hma.2.2.2
        have e2 : decVal mi = n' := hmi.2.2.2
        have e3 : decVal [a, b, c] = dec a * 100 + dec b * 10 + dec c := by rw [hco.2.2.2]; omega
        rw [e1, e2, e3]
        simpa [flat, flatEv, List.map_eq_flatMap] using h12
    · simp at h8
  · simp at h6

theorem bMethod_inv {b : UInt8} {es : List Ev} {s' : AS} (h : bMethod b = .next es s') :
    (UpperByte b ∧ es = [.method [b]] ∧ s' = .method) ∨ (b = c! ' ' ∧ es = [] ∧ s' = .url1) := by
  unfold bMethod at h
  split at h
  · rename_i hx
    simp only [BRes.next.injEq] at h
    exact .inl ⟨upper_spec' hx, h.1.symm, h.2.symm⟩
  · split at h
    · rename_i hx
      simp only [BRes.next.injEq] at h
      exact .inr ⟨eq_of_beq hx, h.1.symm, h.2.symm⟩
    · simp at h

/-- Through a method, from state `method`. -/
theorem Acc.method (h : Acc env L r tr .method m) :
    ∃ w m', (∀ b ∈ w, UpperByte b) ∧ m = w ++ c! ' ' :: m' ∧
      Acc env L r (tr ++ flatEv (.method w)) .url1 m' := by
  obtain ⟨w, b, m2, es, s2, rfl, h3, ⟨rfl, rfl, rfl⟩, -, h4⟩ := Acc.loop (s := .method) (fun _ => rfl) nofun
    (fun b => [.method [b]]) (P := UpperByte) (Q := fun b es s' => b = c! ' ' ∧ es = [] ∧ s' = .url1)
    (fun b es s' hb => bMethod_inv hb) _ _ h
  exact ⟨w, m2, h3, rfl, by simpa [flatEv, List.map_eq_flatMap] using h4⟩

/-- Inside `HTTP/`. -/
theorem Acc.det {buf : Bytes} {e : UInt8} {s' : AS} (h : Acc env L r tr s m) (hn : norm env tr s = ([], s))
    (hf : s ≠ .fin) (hb : ∀ b, bstep env s b = bDet buf e s' b) :
    (∃ m', m = e :: m' ∧ Acc env L r tr s' m') ∨ Acc env L r (tr ++ flatEv (.method buf)) .method m := by
  obtain ⟨b, m', es, s2, rfl, h2, h3⟩ := h.byte hn hf
  rw [hb, bDet] at h2
  split at h2
  · rename_i hx
    simp only [BRes.next.injEq] at h2
    obtain ⟨rfl, rfl⟩ := h2
    exact .inl ⟨m', by rw [eq_of_beq hx], by simpa using h3⟩
  · right
    unfold Acc at h3 ⊢
    rw [← h3]
    cases hm : bMethod b with
    | next es1 s1 =>
      rw [hm] at h2
      simp only [BRes.pre, BRes.next.injEq] at h2
      obtain ⟨rfl, rfl⟩ := h2
      rw [pred_next (s := .method) (s1 := .method) (s' := s1) (es0 := []) (es := es1) rfl nofun hm]
      simp
    | err es1 e1 => rw [hm] at h2; simp [BRes.pre] at h2
    | errB => rw [hm] at h2; simp [BRes.pre] at h2
    | panic => rw [hm] at h2; simp [BRes.pre] at h2

/-- Through the detection of the kind of head. -/
theorem Acc.detect (h : Acc env L r tr .detect1 m) :
    (∃ w m', w ≠ [] ∧ (∀ b ∈ w, UpperByte b) ∧ m = w ++ c! ' ' :: m' ∧
      Acc env L r (tr ++ flatEv (.method w)) .url1 m') ∨
    ∃ m', m = b!"HTTP/" ++ m' ∧ Acc env L r tr (.maj1 true) m' := by
  have hU : ∀ b ∈ b!"HTTP", UpperByte b := by decide
  have key : ∀ pre m1, pre <+: b!"HTTP" → pre ≠ [] → Acc env L r (tr ++ flatEv (.method pre)) .method m1 →
      ∃ w m', w ≠ [] ∧ (∀ b ∈ w, UpperByte b) ∧ pre ++ m1 = w ++ c! ' ' :: m' ∧
        Acc env L r (tr ++ flatEv (.method w)) .url1 m' := by
    intro pre m1 hp hne h1
    obtain ⟨w, m', h2, rfl, h3⟩ := h1.method
    refine ⟨pre ++ w, m', by simp [hne], ?_, by simp, by simpa [flatEv] using h3⟩
    intro b hb
    rcases List.mem_append.1 hb with hb | hb
    · exact hU b (hp.subset hb)
    · exact h2 b hb
  obtain ⟨b, m1, es, s1, rfl, h1, h2⟩ := h.byte rfl nofun
  simp only [bstep, bDetect1] at h1
  split at h1
  · rename_i hb
    obtain rfl := eq_of_beq hb
    simp only [BRes.next.injEq] at h1
    obtain ⟨rfl, rfl⟩ := h1
    rw [List.append_nil] at h2
    rcases h2.det rfl nofun (fun _ => rfl) with ⟨m2, rfl, h3⟩ | h3
    · rcases h3.det rfl nofun (fun _ => rfl) with ⟨m3, rfl, h4⟩ | h4
      · rcases h4.det rfl nofun (fun _ => rfl) with ⟨m4, rfl, h5⟩ | h5
        · rcases h5.det rfl nofun (fun _ => rfl) with ⟨m5, rfl, h6⟩ | h6
          · exact .inr ⟨m5, rfl, h6⟩
          · exact .inl (key b!"HTTP" m4 (by decide) (by decide) h6)
        · exact .inl (key b!"HTT" m3 (by decide) (by decide) h5)
      · exact .inl (key b!"HT" m2 (by decide) (by decide) h4)
    · exact .inl (key b!"H" m1 (by decide) (by decide) h3)
  · split at h1
    · rename_i hb
      simp only [BRes.next.injEq] at h1
      obtain ⟨rfl, rfl⟩ := h1
      obtain ⟨w, m', h3, rfl, h4⟩ := h2.method
      refine .inl ⟨b :: w, m', by simp, ?_, rfl, by simpa [flatEv] using h4⟩
      intro x hx
      rcases List.mem_cons.1 hx with rfl | hx
      · exact upper_spec' hb
      · exact h3 x hx
    · simp at h1

/-- What a finished head consists of. -/
theorem Acc.head (hp : env.ptype = .head) (h : Acc env L r tr .detect1 m) :
    ∃ x : Head, x.OK ∧ m = x.write ++ r ∧ L = tr ++ flat x.events := by
  have hend : ∀ {tr m}, Acc env L r tr .hdrEnd m → m = r ∧ L = tr ++ [.headersFinished] := by
    intro tr m h
    unfold Acc at h
    have hn : norm env tr .hdrEnd = ([.headersFinished], .fin) := by simp [norm, hp]
    cases m with
    | nil => simp [pred, hn] at h; exact ⟨h.2.symm, h.1.symm⟩
    | cons b m => simp [pred, hn] at h; exact ⟨h.2, h.1.symm⟩
  rcases h.detect with ⟨w, m1, h1, h2, rfl, h3⟩ | ⟨m1, rfl, h3⟩
  · obtain ⟨u, ma, mi, ls, m2, h4, h5, h6, h7, rfl, h8⟩ := h3.request
    obtain ⟨rfl, rfl⟩ := hend h8
    refine ⟨⟨.request w u ma mi, ls⟩, ⟨⟨⟨h1, h2⟩, h4, h5, h6⟩, h7⟩, ?_, ?_⟩
    · simp [Head.write, StartLine.write]
    · simp [Head.events, StartLine.events, flat, flatEv]
  · obtain ⟨ma, mi, c, re, ls, m2, h4, h5, h6, h7, h8, rfl, h9⟩ := h3.response
    obtain ⟨rfl, rfl⟩ := hend h9
    refine ⟨⟨.response ma mi c re, ls⟩, ⟨⟨h4, h5, h6, h7⟩, h8⟩, ?_, ?_⟩
    · simp [Head.write, StartLine.write]
    · simp [Head.events, StartLine.events, flat, flatEv]

end Verif.Http1
