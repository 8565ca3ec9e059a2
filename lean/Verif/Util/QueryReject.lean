import Verif.Util.QueryRun
import Verif.Util.QueryRejectSpec

/-!
# Exactly which queries are rejected (helper lemmas)
-/

namespace Verif.Util

theorem WritesValue.cons {b a : UInt8} {u v : Bytes} (h : WritesValue u v) (hd : Decodes u v → Decodes (b :: u) (a :: v))
    (hb : b ∉ b!"&;") : WritesValue (b :: u) (a :: v) :=
  ⟨hd h.1, fun x hx => by
    rcases List.mem_cons.1 hx with rfl | hx
    · exact hb
    · exact h.2 x hx⟩

theorem offends_byte {b : UInt8} {r : Bytes} (h : ¬ isVisible7bit b = true) : Offends (b :: r) (.byte b) := by
  refine .byte ?_
  simp only [isVisible7bit, Bool.and_eq_true, decide_eq_true_eq, not_and_or] at h
  rcases h with h | h
  · left
    have := UInt8.not_le.1 h
    have key : ∀ b : UInt8, b < 0x21 ∨ ¬ b < 33 := by apply forall_u8; decide +kernel
    rcases key b with h | h
    · exact h
    · exact absurd this h
  · exact .inr (UInt8.not_le.1 h)

/-- Read a value as far as it goes. -/
theorem qv_stuck : ∀ (k : Nat) (r : Bytes), r.length ≤ k → ∃ u v x, WritesValue u v ∧ r = u ++ x ∧
    (x = [] ∨ (∃ s t, (s = c! '&' ∨ s = c! ';') ∧ x = s :: t) ∨ ∃ e, Offends x e) := by
  intro k
  induction k with
  | zero =>
    intro r hk
    exact ⟨[], [], r, ⟨.nil, by simp⟩, rfl, .inl (List.eq_nil_of_length_eq_zero (by omega))⟩
  | succ k ih =>
    intro r hk
    match r with
    | [] => exact ⟨[], [], [], ⟨.nil, by simp⟩, rfl, .inl rfl⟩
    | b :: r =>
      simp at hk
      have nil : WritesValue [] [] := ⟨.nil, by simp⟩
      by_cases p1 : b = c! '%'
      · subst p1
        match r with
        | [] => exact ⟨[], [], _, nil, rfl, .inr (.inr ⟨_, .cut0⟩)⟩
        | [h] => exact ⟨[], [], _, nil, rfl, .inr (.inr ⟨_, .cut1⟩)⟩
        | h :: l :: r =>
          cases e1 : hexNibble h with
          | none => exact ⟨[], [], _, nil, rfl, .inr (.inr ⟨_, .high (nibble_none.1 e1)⟩)⟩
          | some p =>
            cases e2 : hexNibble l with
            | none => exact ⟨[], [], _, nil, rfl, .inr (.inr ⟨_, .low (nibble_some _ _ e1) (nibble_none.1 e2)⟩)⟩
            | some q =>
              obtain ⟨u, v, x, h1, h2, h3⟩ := ih r (by simp at hk; omega)
              refine ⟨c! '%' :: h :: l :: u, _, x, ⟨.escape (nibble_some _ _ e1) (nibble_some _ _ e2) h1.1, ?_⟩,
                by rw [h2]; rfl, h3⟩
              intro b hb
              simp only [List.mem_cons] at hb
              have key : ∀ a : UInt8, hexNibble a ≠ none → a ∉ b!"&;" := by apply forall_u8; decide +kernel
              rcases hb with rfl | rfl | rfl | hb
              · decide
              · exact key _ (by simp [e1])
              · exact key _ (by simp [e2])
              · exact h1.2 b hb
      · by_cases p2 : b = c! '+'
        · subst p2
          obtain ⟨u, v, x, h1, h2, h3⟩ := ih r hk
          exact ⟨_, _, x, h1.cons .plus (by decide), by rw [h2]; rfl, h3⟩
        · by_cases p3 : b = c! '&' ∨ b = c! ';'
          · exact ⟨[], [], _, nil, rfl, .inr (.inl ⟨b, r, p3, rfl⟩)⟩
          · by_cases p4 : isVisible7bit b = true
            · obtain ⟨u, v, x, h1, h2, h3⟩ := ih r hk
              have p4' := p4
              simp [isVisible7bit] at p4'
              exact ⟨_, _, x, h1.cons (.literal ⟨p4'.1, p4'.2, p2, p1⟩) (by simpa using p3), by rw [h2]; rfl, h3⟩
            · exact ⟨[], [], _, nil, rfl, .inr (.inr ⟨_, offends_byte p4⟩)⟩

/-- Read a name as far as it goes. -/
theorem qn_stuck : ∀ (r : Bytes), ∃ w n x, WritesName false w n ∧ r = w ++ x ∧
    (x = [] ∨ (∃ s t, s ∈ b!"=&;" ∧ x = s :: t) ∨ (∃ e, Offends x e) ∨
      ∃ h l i j t, HexDigit h i ∧ HexDigit l j ∧ x = c! '%' :: h :: l :: t) := by
  intro r
  have nil : WritesName false [] [] := ⟨.nil, by simp, by simp⟩
  induction r with
  | nil => exact ⟨[], [], [], nil, rfl, .inl rfl⟩
  | cons b r ih =>
    by_cases p1 : b = c! '%'
    · subst p1
      refine ⟨[], [], _, nil, rfl, .inr (.inr ?_)⟩
      match r with
      | [] => exact .inl ⟨_, .cut0⟩
      | [h] => exact .inl ⟨_, .cut1⟩
      | h :: l :: r =>
        cases e1 : hexNibble h with
        | none => exact .inl ⟨_, .high (nibble_none.1 e1)⟩
        | some p =>
          cases e2 : hexNibble l with
          | none => exact .inl ⟨_, .low (nibble_some _ _ e1) (nibble_none.1 e2)⟩
          | some q => exact .inr ⟨h, l, _, _, r, nibble_some _ _ e1, nibble_some _ _ e2, rfl⟩
    · by_cases p3 : b ∈ b!"=&;"
      · exact ⟨[], [], _, nil, rfl, .inr (.inl ⟨b, r, p3, rfl⟩)⟩
      · obtain ⟨w, n, x, h1, h2, h3⟩ := ih
        have cons : ∀ {a}, (Decodes w n → Decodes (b :: w) (a :: n)) → WritesName false (b :: w) (a :: n) := by
          intro a hd
          refine ⟨hd h1.1, fun y hy => ?_, fun _ => ?_⟩
          · rcases List.mem_cons.1 hy with rfl | hy
            · exact p3
            · exact h1.2.1 y hy
          · simp only [List.mem_cons, not_or]
            exact ⟨fun e => p1 e.symm, h1.2.2 rfl⟩
        by_cases p2 : b = c! '+'
        · subst p2
          exact ⟨_, _, x, cons .plus, by rw [h2]; rfl, h3⟩
        · by_cases p4 : isVisible7bit b = true
          · have p4' := p4
            simp [isVisible7bit] at p4'
            exact ⟨_, _, x, cons (.literal ⟨p4'.1, p4'.2, p2, p1⟩), by rw [h2]; rfl, h3⟩
          · exact ⟨[], [], _, nil, rfl, .inr (.inr (.inl ⟨_, offends_byte p4⟩))⟩

theorem qv_offends {x : Bytes} {e : DecodeError} (h : Offends x e) (n v : Bytes) :
    ∃ r, qv n x v = .error (.value e.at) r := by
  cases h with
  | @byte b x hb =>
    have key : ∀ b : UInt8, (b < 0x21 ∨ 0x7E < b) → b ≠ c! '%' ∧ b ≠ c! '+' ∧ ¬ (b = c! '&' ∨ b = c! ';') ∧
      ¬ isVisible7bit b = true := by apply forall_u8; decide +kernel
    obtain ⟨h1, h2, h3, h4⟩ := key b hb
    exact ⟨_, by rw [qv_cons, if_neg h1, if_neg h2, if_neg h3, if_neg h4]; rfl⟩
  | cut0 => exact ⟨_, by rw [qv_cons, if_pos rfl]; rfl⟩
  | cut1 => exact ⟨_, by rw [qv_cons, if_pos rfl]; rfl⟩
  | high h => exact ⟨_, by rw [qv_cons, if_pos rfl]; dsimp only; rw [nibble_none.2 h]; rfl⟩
  | low h1 h2 => exact ⟨_, by rw [qv_cons, if_pos rfl]; dsimp only; rw [nibble_digit _ _ h1, nibble_none.2 h2]; rfl⟩

theorem qn_offends {x : Bytes} {e : DecodeError} (h : Offends x e) (f : Bool) (n : Bytes) :
    ∃ r, qn f x n = .error (.name e.at) r := by
  cases h with
  | @byte b x hb =>
    have key : ∀ b : UInt8, (b < 0x21 ∨ 0x7E < b) → b ≠ c! '%' ∧ b ≠ c! '+' ∧ b ≠ c! '=' ∧
      ¬ (b = c! '&' ∨ b = c! ';') ∧ ¬ isVisible7bit b = true := by apply forall_u8; decide +kernel
    obtain ⟨h1, h2, h3, h4, h5⟩ := key b hb
    refine ⟨[], ?_⟩
    rw [qn.eq_def]; dsimp only
    rw [if_neg h1, if_neg h2, if_neg h3, if_neg h4, if_neg h5]; rfl
  | cut0 => refine ⟨[], ?_⟩; rw [qn.eq_def]; dsimp only; rw [if_pos rfl]; rfl
  | cut1 => refine ⟨[], ?_⟩; rw [qn.eq_def]; dsimp only; rw [if_pos rfl]; rfl
  | @high h l x hh =>
    refine ⟨l :: x, ?_⟩; rw [qn.eq_def]; dsimp only; rw [if_pos rfl]; rw [nibble_none.2 hh]; rfl
  | @low h l m x h1 h2 =>
    refine ⟨x, ?_⟩; rw [qn.eq_def]; dsimp only; rw [if_pos rfl]
    rw [nibble_digit _ _ h1, nibble_none.2 h2]; rfl

theorem empty_first {f : Bool} {w : Bytes} (h : f = true → w ≠ []) : (f && w.isEmpty) = false := by
  cases f with
  | false => rfl
  | true => cases w with
    | nil => exact absurd rfl (h rfl)
    | cons => rfl

theorem first_start {f : Bool} {w : Bytes} (h : ¬ (f = true → w ≠ [])) : f = true ∧ w = [] := by
  by_cases hf : f = true
  · exact ⟨hf, by by_contra hw; exact h fun _ => hw⟩
  · exact absurd (fun h => absurd h hf) h

theorem qoffending_reads {f : Bool} {x : Bytes} {e : QueryError} (h : QOffending f x e) :
    ∃ r, qn f x [] = .error e r := by
  cases h with
  | @start b r hf hb =>
    subst hf
    refine ⟨[], ?_⟩
    simp only [List.mem_cons, List.not_mem_nil, or_false] at hb
    rcases hb with rfl | rfl | rfl <;> rfl
  | @name w n x e hw hx =>
    obtain ⟨r, hr⟩ := qn_offends hx (f && w.isEmpty) ([] ++ n)
    exact ⟨r, by rw [qn_writes hw.1 hw.2.1 (hw.2.2 rfl), hr]⟩
  | @escape w n h l i j r hw h1 h2 =>
    refine ⟨[], ?_⟩
    rw [qn_writes hw.1 hw.2.1 (hw.2.2 rfl), qn.eq_def]
    dsimp only
    rw [if_pos rfl]
    rw [nibble_digit _ _ h1, nibble_digit _ _ h2]
  | @value w n u v x e hw hf hu hx =>
    obtain ⟨r, hr⟩ := qv_offends hx n ([] ++ v)
    refine ⟨r, ?_⟩
    rw [qn_writes hw.1 hw.2.1 (hw.2.2 rfl), empty_first hf, qn_eq, List.nil_append, qv_writes hu.1 hu.2, hr]

theorem qn_error {f : Bool} {x : Bytes} {e : QueryError} {r : Bytes} (h : qn f x [] = .error e r) : QOffending f x e := by
  obtain ⟨w, n, y, hw, rfl, hy⟩ := qn_stuck x
  have hr := qn_writes hw.1 hw.2.1 (hw.2.2 rfl) f y []
  rw [h] at hr
  rcases hy with rfl | ⟨s, t, hs, rfl⟩ | ⟨e', he⟩ | ⟨hh, l, i, j, t, h1, h2, rfl⟩
  · simp [qn] at hr
  · by_cases hf : f = true → w ≠ []
    · rw [empty_first hf] at hr
      simp only [List.mem_cons, List.not_mem_nil, or_false] at hs
      rcases hs with rfl | hs
      · rw [qn_eq] at hr
        obtain ⟨u, v, z, hu, rfl, hz⟩ := qv_stuck _ t le_rfl
        rw [qv_writes hu.1 hu.2] at hr
        rcases hz with rfl | ⟨s, t, hs, rfl⟩ | ⟨e', he⟩
        · simp [qv] at hr
        · obtain ⟨n1, n2, n3⟩ := sep_cases hs
          rw [qv_cons, if_neg n1, if_neg n2, if_pos hs] at hr
          cases hr
        · obtain ⟨r', hr'⟩ := qv_offends he ([] ++ n) ([] ++ v)
          rw [hr'] at hr
          cases hr
          exact .value hw hf hu he
      · rw [qn_sep hs] at hr; cases hr
    · obtain ⟨rfl, rfl⟩ := first_start hf
      have hn : n = [] := by cases hw.1; rfl
      subst hn
      have : e = .name s := by
        simp only [List.mem_cons, List.not_mem_nil, or_false] at hs
        rcases hs with rfl | rfl | rfl <;> · simp [qn] at hr; exact hr.1
      rw [this]
      exact .start rfl hs
  · obtain ⟨r', hr'⟩ := qn_offends he (f && w.isEmpty) ([] ++ n)
    rw [hr'] at hr
    cases hr
    exact .name hw he
  · rw [qn.eq_def] at hr
    dsimp only at hr
    rw [if_pos rfl] at hr
    rw [nibble_digit _ _ h1, nibble_digit _ _ h2] at hr
    cases hr
    exact .escape hw h1 h2

theorem idx_zero {it : QueryIter} {f : Bool} (h : (it.ctx.idx == 0) = f) : (it.ctx.idx = 0 → f = true) := by
  intro h0; rw [← h, h0]; rfl

theorem qrejected_ne {f : Bool} {x : Bytes} {l : List Item} {e : QueryError} (h : QRejected f x l e) : x ≠ [] := by
  cases h with
  | here h =>
    rintro rfl
    obtain ⟨r, hr⟩ := qoffending_reads h
    simp [qn] at hr
  | name => simp
  | pair => simp

theorem qrejected_yields {f : Bool} {x : Bytes} {l : List Item} {e : QueryError} (h : QRejected f x l e) :
    ∀ it : QueryIter, it.ctx.rest = x → it.ctx.idx ≤ it.ctx.stream.length → (it.ctx.idx == 0) = f →
      ∃ it', Yields QueryIter.next it l it' ∧ it'.errs = it.errs ++ [e] := by
  have zero : ∀ {it : QueryIter} {r : Bytes}, (it.ctx.idx = 0 → r = []) → r ≠ [] → (it.ctx.idx == 0) = false := by
    intro it r h0 h
    rw [beq_eq_false_iff_ne]
    exact fun h1 => h (h0 h1)
  induction h with
  | @here f x e h =>
    intro it h1 h2 h3
    obtain ⟨r, hr⟩ := qoffending_reads h
    rcases query_next h2 with ⟨e0, _⟩ | ⟨hne, hm⟩
    · rw [← h1, e0] at hr; simp [qn] at hr
    · rw [h1, h3, hr] at hm
      rcases match_cases hm with ⟨_, _, _, ho, _⟩ | ⟨_, _, it', ho, hs, _, _, _, he⟩
      · cases ho
      · cases ho
        exact ⟨it', .stop hs, he⟩
  | @name f w n s x l e hw hf hs hx ih =>
    intro it h1 h2 h3
    have e0 := qn_writes hw.1 hw.2.1 (hw.2.2 rfl) (it.ctx.idx == 0) (s :: x) []
    rw [h3, empty_first hf, qn_sep hs, List.nil_append] at e0
    obtain ⟨it', a1, a2, a3, a4, a5⟩ := query_item h2 (by rw [h1]; simp) (by rw [h1, h3]; exact e0)
    obtain ⟨it2, b1, b2⟩ := ih it' a2 a3 (zero a5 (qrejected_ne hx))
    exact ⟨it2, .item a1 b1, by rw [b2, a4]⟩
  | @pair f w n u v s x l e hw hf hu hs hx ih =>
    intro it h1 h2 h3
    rw [List.append_assoc] at h1
    have e0 := qn_writes hw.1 hw.2.1 (hw.2.2 rfl) (it.ctx.idx == 0) (c! '=' :: (u ++ s :: x)) []
    have e2 := qv_writes hu.1 hu.2 n (s :: x) []
    obtain ⟨n1, n2, n3⟩ := sep_cases hs
    rw [h3, empty_first hf, qn_eq, List.nil_append, e2, qv_cons, if_neg n1, if_neg n2, if_pos hs, List.nil_append] at e0
    obtain ⟨it', a1, a2, a3, a4, a5⟩ := query_item h2 (by rw [h1]; simp) (by rw [h1, h3]; exact e0)
    obtain ⟨it2, b1, b2⟩ := ih it' a2 a3 (zero a5 (qrejected_ne hx))
    exact ⟨it2, .item a1 b1, by rw [b2, a4]⟩

theorem yields_rejected {it it' : QueryIter} {l : List Item} (h : Yields QueryIter.next it l it') :
    it.ctx.idx ≤ it.ctx.stream.length → it'.errs = it.errs ∨
      ∃ e, it'.errs = it.errs ++ [e] ∧ QRejected (it.ctx.idx == 0) it.ctx.rest l e := by
  induction h with
  | @stop it it' h =>
    intro hi
    rcases query_next hi with ⟨_, e'⟩ | ⟨_, hm⟩
    · rw [h] at e'; cases e'; exact .inl rfl
    · rcases match_cases hm with ⟨x, r, it2, _, h2, _⟩ | ⟨x, r, it2, h1, h2, h3, h4, h5, h6⟩
      · rw [h] at h2; cases h2
      · rw [h] at h2; cases h2
        exact .inr ⟨x, h6, .here (qn_error h1)⟩
  | @item it x it1 l it' h hy ih =>
    intro hi
    rcases query_next hi with ⟨_, e'⟩ | ⟨hne, hm⟩
    · rw [h] at e'; cases e'
    · rcases match_cases hm with ⟨y, r, it2, h1, h2, h3, h4, h5, h6⟩ | ⟨y, r, it2, _, h2, _⟩
      · rw [h] at h2; cases h2
        rcases ih h5 with h7 | ⟨e, h7, h8⟩
        · exact .inl (h7.trans h6)
        · have hidx : (it1.ctx.idx == 0) = false := by
            rw [beq_eq_false_iff_ne]
            intro h0
            have hl := (qn_lt it.ctx.rest (it.ctx.idx == 0) []).2 hne
            rw [h1] at hl
            simp only [QOut.lt] at hl
            rw [← h4] at hl
            simp only [Ctx.rest, h0, List.length_drop, h3] at hl
            omega
          rw [hidx, h4] at h8
          refine .inr ⟨e, by rw [h7, h6], ?_⟩
          obtain ⟨⟨w, n, hw, hc⟩, hh⟩ := qn_item _ _ _ _ _ h1
          have hf : ∀ {s : UInt8} {t : Bytes}, it.ctx.rest = w ++ s :: t → s ∈ b!"=&;" →
              ((it.ctx.idx == 0) = true → w ≠ []) := by
            intro s t h9 hs hf hw0
            subst hw0
            exact hh hf s (by rw [h9]; simp) hs
          have stop : r = [] → False := by
            exact fun h0 => qrejected_ne h8 h0
          simp only [List.nil_append] at hc
          rcases hc with ⟨rfl, c2, c3⟩ | ⟨s, hs, rfl, c2⟩ | ⟨u, v, hu, rfl, c2, c3⟩ | ⟨u, v, s, hu, hs, rfl, c2⟩
          · exact (stop c3).elim
          · have := hf c2 (by rcases hs with rfl | rfl <;> decide)
            rw [c2]; exact .name hw this hs h8
          · exact (stop c3).elim
          · have := hf (by rw [c2, List.append_assoc]; rfl) (show c! '=' ∈ b!"=&;" by decide)
            rw [c2]; exact .pair hw this hu hs h8
      · rw [h] at h2; cases h2

end Verif.Util
