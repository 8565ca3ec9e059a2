import Verif.Util.QueryLemmas

/-!
# Runs of the query iterator (helper lemmas)
-/

namespace Verif.Util

open Ctx

theorem query_item {it : QueryIter} (hi : it.ctx.idx ≤ it.ctx.stream.length) (hne : it.ctx.rest ≠ [])
    {x : Item} {r : Bytes} (h : qn (it.ctx.idx == 0) it.ctx.rest [] = .item x r) :
    ∃ it', it.next = .item x it' ∧ it'.ctx.rest = r ∧ it'.ctx.idx ≤ it'.ctx.stream.length ∧
      it'.errs = it.errs ∧ (it'.ctx.idx = 0 → r = []) := by
  rcases query_next hi with ⟨e, _⟩ | ⟨_, hm⟩
  · exact absurd e hne
  · rw [h] at hm
    cases hs : it.next with
    | item y it' =>
      rw [hs] at hm
      obtain ⟨rfl, h1, h2, h3, h4⟩ := hm
      refine ⟨it', rfl, h2, h3, h4, fun h0 => ?_⟩
      have hl := (qn_lt it.ctx.rest (it.ctx.idx == 0) []).2 hne
      rw [h] at hl
      simp only [QOut.lt] at hl
      rw [← h2] at hl
      simp only [rest, h0, List.length_drop, h1] at hl
      omega
    | none it' => rw [hs] at hm; exact hm.elim
    | panic => rw [hs] at hm; exact hm.elim
    | diverge => rw [hs] at hm; exact hm.elim

theorem sep_cases {s : UInt8} (h : s = c! '&' ∨ s = c! ';') :
    s ≠ c! '%' ∧ s ≠ c! '+' ∧ s ≠ c! '=' := by
  rcases h with rfl | rfl <;> decide

theorem qn_eq (u n : Bytes) : qn false (c! '=' :: u) n = qv n u [] := by
  rw [qn.eq_def]; simp

theorem qn_sep {s : UInt8} (hs : s = c! '&' ∨ s = c! ';') (x n : Bytes) :
    qn false (s :: x) n = .item (n, none) x := by
  obtain ⟨n1, n2, n3⟩ := sep_cases hs
  rw [qn.eq_def]
  dsimp only
  rw [if_neg n1, if_neg n2, if_neg n3, if_pos hs, if_neg (by decide)]

theorem head_ne {w : Bytes} {s : UInt8} {x : Bytes} {f : Bool}
    (hh : f = true → ∀ b ∈ (w ++ s :: x).head?, b ∉ b!"=&;") (hs : s ∈ b!"=&;") :
    (f && w.isEmpty) = false := by
  cases f with
  | false => rfl
  | true =>
    cases w with
    | nil => exact absurd hs (hh rfl s (by simp))
    | cons a w => rfl

theorem pairs_yields {x : Bytes} {l : List Item} (h : Pairs false x l) :
    ∀ it : QueryIter, it.ctx.rest = x → it.ctx.idx ≤ it.ctx.stream.length →
      ((it.ctx.idx == 0) = true → ∀ b ∈ x.head?, b ∉ b!"=&;") →
      ∃ it', Yields QueryIter.next it l it' ∧ it'.errs = it.errs ∧ it'.next = .none it' := by
  have finish : ∀ it : QueryIter, it.ctx.rest = [] → it.ctx.idx ≤ it.ctx.stream.length →
      it.next = .none it := by
    intro it h1 h2
    rcases query_next h2 with ⟨_, e⟩ | ⟨e, _⟩
    · exact e
    · exact absurd h1 e
  have zero : ∀ {it : QueryIter} {r : Bytes}, (it.ctx.idx = 0 → r = []) →
      (it.ctx.idx == 0) = true → ∀ b ∈ r.head?, b ∉ b!"=&;" := by
    intro it r h0 h b hb
    rw [h0 (by simpa using h)] at hb
    simp at hb
  induction h with
  | nil =>
    intro it h1 h2 _
    exact ⟨it, .stop (finish it h1 h2), rfl, finish it h1 h2⟩
  | @lastName w n hw hne =>
    intro it h1 h2 _
    have e := qn_writes hw.1 hw.2.1 (hw.2.2 rfl) (it.ctx.idx == 0) [] []
    rw [List.append_nil, qn] at e
    obtain ⟨it', a1, a2, a3, a4, _⟩ := query_item h2 (by rw [h1]; exact hne) (by rw [h1]; exact e)
    exact ⟨it', .item a1 (.stop (finish it' a2 a3)), a4, finish it' a2 a3⟩
  | @lastPair w n u v hw hu =>
    intro it h1 h2 hh
    have hf := head_ne hh (by decide)
    have e := qn_writes hw.1 hw.2.1 (hw.2.2 rfl) (it.ctx.idx == 0) (c! '=' :: u) []
    have e2 := qv_writes hu.1 hu.2 n [] []
    simp only [List.nil_append, List.append_nil, qv] at e e2
    rw [hf, qn_eq, e2] at e
    obtain ⟨it', a1, a2, a3, a4, _⟩ := query_item h2 (by rw [h1]; simp) (by rw [h1]; exact e)
    exact ⟨it', .item a1 (.stop (finish it' a2 a3)), a4, finish it' a2 a3⟩
  | @name w n s x l hw hs _ ih =>
    intro it h1 h2 hh
    have hf := head_ne hh (by rcases hs with rfl | rfl <;> decide)
    have e := qn_writes hw.1 hw.2.1 (hw.2.2 rfl) (it.ctx.idx == 0) (s :: x) []
    simp only [List.nil_append] at e
    rw [hf, qn_sep hs] at e
    obtain ⟨it', a1, a2, a3, a4, a5⟩ := query_item h2 (by rw [h1]; simp) (by rw [h1]; exact e)
    obtain ⟨it2, b1, b2, b3⟩ := ih it' a2 a3 (zero a5)
    exact ⟨it2, .item a1 b1, by rw [b2, a4], b3⟩
  | @pair w n u v s x l hw hu hs _ ih =>
    intro it h1 h2 hh
    rw [List.append_assoc] at hh h1
    have hf := head_ne hh (by decide)
    have e := qn_writes hw.1 hw.2.1 (hw.2.2 rfl) (it.ctx.idx == 0) (c! '=' :: (u ++ s :: x)) []
    have e2 := qv_writes hu.1 hu.2 n (s :: x) []
    obtain ⟨n1, n2, n3⟩ := sep_cases hs
    simp only [List.nil_append] at e e2
    rw [hf, qn_eq, e2, qv_cons, if_neg n1, if_neg n2, if_pos hs] at e
    obtain ⟨it', a1, a2, a3, a4, a5⟩ := query_item h2 (by rw [h1]; simp)
      (by rw [h1]; exact e)
    obtain ⟨it2, b1, b2, b3⟩ := ih it' a2 a3 (zero a5)
    exact ⟨it2, .item a1 b1, by rw [b2, a4], b3⟩

theorem match_cases {it : QueryIter} {o : QOut} {s : Step QueryIter} (h : QMatch it o s) :
    (∃ x r it', o = .item x r ∧ s = .item x it' ∧ it'.ctx.stream = it.ctx.stream ∧ it'.ctx.rest = r ∧
      it'.ctx.idx ≤ it'.ctx.stream.length ∧ it'.errs = it.errs) ∨
    (∃ e r it', o = .error e r ∧ s = .none it' ∧ it'.ctx.stream = it.ctx.stream ∧ it'.ctx.rest = r ∧
      it'.ctx.idx ≤ it'.ctx.stream.length ∧ it'.errs = it.errs ++ [e]) := by
  cases o <;> cases s
  case item.item => obtain ⟨rfl, h⟩ := h; exact .inl ⟨_, _, _, rfl, rfl, h⟩
  case error.none => exact .inr ⟨_, _, _, rfl, rfl, h⟩
  all_goals exact h.elim

theorem yields_errs {it it' : QueryIter} {l : List Item} (h : Yields QueryIter.next it l it') :
    it.ctx.idx ≤ it.ctx.stream.length → it.errs <+: it'.errs := by
  induction h with
  | @stop it it' e =>
    intro hi
    rcases query_next hi with ⟨_, e'⟩ | ⟨_, hm⟩
    · rw [e] at e'; cases e'; exact List.prefix_refl _
    · rcases match_cases hm with ⟨x, r, it2, _, h2, _⟩ | ⟨x, r, it2, _, h2, h3, h4, h5, h6⟩
      · rw [e] at h2; cases h2
      · rw [e] at h2; cases h2; rw [h6]; exact List.prefix_append _ _
  | @item it x it1 l it' e _ ih =>
    intro hi
    rcases query_next hi with ⟨_, e'⟩ | ⟨_, hm⟩
    · rw [e] at e'; cases e'
    · rcases match_cases hm with ⟨y, r, it2, _, h2, h3, h4, h5, h6⟩ | ⟨y, r, it2, _, h2, _⟩
      · rw [e] at h2; cases h2
        rw [← h6]; exact ih h5
      · rw [e] at h2; cases h2

theorem yields_pairs {it it' : QueryIter} {l : List Item} (h : Yields QueryIter.next it l it') :
    it.ctx.idx ≤ it.ctx.stream.length → it'.errs = it.errs →
    Pairs false it.ctx.rest l ∧ ((it.ctx.idx == 0) = true → ∀ b ∈ it.ctx.rest.head?, b ∉ b!"=&;") := by
  induction h with
  | @stop it it' e =>
    intro hi he
    rcases query_next hi with ⟨e', _⟩ | ⟨_, hm⟩
    · rw [e']; exact ⟨.nil, by simp⟩
    · rcases match_cases hm with ⟨x, r, it2, _, h2, _⟩ | ⟨x, r, it2, _, h2, h3, h4, h5, h6⟩
      · rw [e] at h2; cases h2
      · rw [e] at h2; cases h2; rw [h6] at he; simp at he
  | @item it x it1 l it' e hy ih =>
    intro hi he
    rcases query_next hi with ⟨_, e'⟩ | ⟨hne, hm⟩
    · rw [e] at e'; cases e'
    · rcases match_cases hm with ⟨y, r, it2, h1, h2, h3, h4, h5, h6⟩ | ⟨y, r, it2, _, h2, _⟩
      · rw [e] at h2; cases h2
        have hp := (ih h5 (by rw [he, h6])).1
        obtain ⟨⟨w, n, hw, hc⟩, hh⟩ := qn_item _ _ _ _ _ h1
        refine ⟨?_, hh⟩
        simp only [List.nil_append] at hc
        rw [h4] at hp
        rcases hc with ⟨rfl, c2, c3⟩ | ⟨s, hs, rfl, c2⟩ | ⟨u, v, hu, rfl, c2, c3⟩ |
          ⟨u, v, s, hu, hs, rfl, c2⟩
        · have hl : l = [] := by
            cases hy with
            | stop _ => rfl
            | item e2 _ =>
              rcases query_next h5 with ⟨_, e'⟩ | ⟨ne', _⟩
              · rw [e2] at e'; cases e'
              · exact absurd (h4.trans c3) ne'
          rw [c2] at hne ⊢; rw [hl]; exact .lastName hw hne
        · rw [c2]; exact .name hw hs hp
        · have hl : l = [] := by
            cases hy with
            | stop _ => rfl
            | item e2 _ =>
              rcases query_next h5 with ⟨_, e'⟩ | ⟨ne', _⟩
              · rw [e2] at e'; cases e'
              · exact absurd (h4.trans c3) ne'
          rw [c2, hl]; exact .lastPair hw hu
        · rw [c2]; exact .pair hw hu hs hp
      · rw [e] at h2; cases h2

theorem rest_suffix {c c' : Ctx} (h : c'.stream = c.stream) : ∃ p, c.stream = p ++ c'.rest := by
  refine ⟨c'.stream.take c'.idx, ?_⟩
  rw [← h]; simp [rest]

theorem after_total (n : Nat) : ∀ it : QueryIter, it.ctx.idx ≤ it.ctx.stream.length →
    ∃ l it', After QueryIter.next it n l it' ∧ l.length ≤ it.ctx.rest.length ∧
      (EscapesOK it.ctx.stream → (it.errs ≠ [] → it.ctx.rest = []) →
        it'.errs ≠ [] → it'.next = .none it') := by
  induction n with
  | zero =>
    intro it hi
    refine ⟨[], it, .zero, by simp, fun _ h1 h2 => ?_⟩
    rcases query_next hi with ⟨_, e⟩ | ⟨e, _⟩
    · exact e
    · exact absurd (h1 h2) e
  | succ n ih =>
    intro it hi
    rcases query_next hi with ⟨_, e⟩ | ⟨hne, hm⟩
    · obtain ⟨l, it', h1, h2, h3⟩ := ih it hi
      exact ⟨l, it', .none e h1, h2, h3⟩
    · have hl := (qn_lt it.ctx.rest (it.ctx.idx == 0) []).2 hne
      rcases match_cases hm with ⟨y, r, it2, h1, h2, h3, h4, h5, h6⟩ |
        ⟨y, r, it2, h1, h2, h3, h4, h5, h6⟩
      · obtain ⟨l, it', a1, a2, a3⟩ := ih it2 h5
        rw [h1, ← h4] at hl; simp only [QOut.lt] at hl
        refine ⟨y :: l, it', .item h2 a1, by simp; omega, fun hx h0 => a3 (h3 ▸ hx) fun hz => ?_⟩
        exact absurd (h0 (h6 ▸ hz)) hne
      · obtain ⟨l, it', a1, a2, a3⟩ := ih it2 h5
        rw [h1] at hl; simp only [QOut.lt] at hl
        refine ⟨l, it', .none h2 a1, by rw [h4] at a2; omega, fun hx h0 => a3 (h3 ▸ hx) fun _ => ?_⟩
        obtain ⟨p, hp⟩ := rest_suffix (c := it.ctx) (c' := it.ctx) rfl
        rw [hp] at hx
        have := qn_clean it.ctx.rest (it.ctx.idx == 0) [] hx.suffix
        rw [h1] at this
        rw [h4]; exact this

theorem after_det {ι : Type} {next : ι → Step ι} {it : ι} {n : Nat} {l l' : List Item} {it1 it2 : ι}
    (h : After next it n l it1) : After next it n l' it2 → l = l' ∧ it1 = it2 := by
  induction h generalizing l' it2 with
  | zero => intro h'; cases h'; exact ⟨rfl, rfl⟩
  | none e _ ih =>
    intro h'
    cases h' with
    | none e' h' => rw [e] at e'; cases e'; exact ih h'
    | item e' h' => rw [e] at e'; cases e'
  | item e _ ih =>
    intro h'
    cases h' with
    | none e' h' => rw [e] at e'; cases e'
    | item e' h' => rw [e] at e'; cases e'; obtain ⟨rfl, h⟩ := ih h'; exact ⟨rfl, h⟩

end Verif.Util
