import Verif.Util.QueryRun

/-!
# C05-C06: `util::QueryIterator`
-/

namespace Verif.Util

theorem new_idx (x : Bytes) : (QueryIter.new x).ctx.idx ≤ (QueryIter.new x).ctx.stream.length := by
  simp [QueryIter.new, Ctx.new]

theorem new_rest (x : Bytes) : (QueryIter.new x).ctx.rest = x := by
  simp [QueryIter.new, Ctx.new, Ctx.rest]

/-- C05 for names written without `%XY` escapes, in both directions: a `for` loop over the query `x`
sees exactly the items `l`, without an error being reported, exactly when `x` is a query that
writes the pairs `l`. The iterator stays exhausted. Missing: escapes in names, which the code
rejects (`C05_fails`, `C05_rejects_name_escapes`). -/
theorem C05_query_partial (x : Bytes) (l : List Item) :
    (∃ it', Yields QueryIter.next (QueryIter.new x) l it' ∧ it'.errs = []) ↔ IsQuery false x l := by
  constructor
  · rintro ⟨it', h, he⟩
    have := yields_pairs h (new_idx x) he
    rw [new_rest] at this
    exact ⟨this.1, this.2 rfl⟩
  · rintro ⟨h1, h2⟩
    obtain ⟨it', a, b, _⟩ := pairs_yields h1 (QueryIter.new x) (new_rest x) (new_idx x) (fun _ => h2)
    exact ⟨it', a, b⟩

/-- A concrete case of C05: `a=1%202&b;c+d=`. -/
example : IsQuery false b!"a=1%202&b;c+d=" [(b!"a", some b!"1 2"), (b!"b", none), (b!"c d", some [])] := by
  refine ⟨?_, by decide⟩
  have lit : ∀ b, b ∈ b!"abcd12" → Literal b := by decide
  have h1 : Pairs false b!"c+d=" [(b!"c d", some [])] :=
    Pairs.lastPair (w := b!"c+d") (u := [])
      ⟨.literal (lit _ (by decide)) (.plus (.literal (lit _ (by decide)) .nil)), by decide, by decide⟩
      ⟨.nil, by decide⟩
  have h2 : Pairs false b!"b;c+d=" [(b!"b", none), (b!"c d", some [])] :=
    Pairs.name (w := b!"b") ⟨.literal (lit _ (by decide)) .nil, by decide, by decide⟩ (.inr rfl) h1
  exact Pairs.pair (w := b!"a") (u := b!"1%202")
    ⟨.literal (lit _ (by decide)) .nil, by decide, by decide⟩
    ⟨.literal (lit _ (by decide)) (.escape (m := 2) (n := 0) (by decide) (by decide)
      (.literal (lit _ (by decide)) .nil)), by decide⟩ (.inl rfl) h2

/-- The violation in general: whatever comes before and after it, a `%` in the first name of a query
makes the very first call of `next` return `None` with one error about the name. -/
theorem C05_rejects_name_escapes (w n r : Bytes) (hw : WritesName false w n) :
    ∃ it' b, QueryIter.next (QueryIter.new (w ++ c! '%' :: r)) = .none it' ∧ it'.errs = [.name b] := by
  have hi := new_idx (w ++ c! '%' :: r)
  have hr := new_rest (w ++ c! '%' :: r)
  rcases query_next hi with ⟨e, _⟩ | ⟨_, hm⟩
  · rw [hr] at e; simp at e
  · rw [hr, qn_writes hw.1 hw.2.1 (hw.2.2 rfl), qn.eq_def] at hm
    dsimp only at hm
    rw [if_pos rfl] at hm
    rcases match_cases hm with ⟨x, r', it2, h1, _⟩ | ⟨x, r', it2, h1, h2, _, _, _, h6⟩
    · exfalso
      match r with
      | [] => cases h1
      | [_] => cases h1
      | a :: b :: r =>
        dsimp only at h1
        split at h1 <;> cases h1
    · refine ⟨it2, ?_⟩
      have : ∃ b, x = .name b := by
        match r with
        | [] => cases h1; exact ⟨_, rfl⟩
        | [_] => cases h1; exact ⟨_, rfl⟩
        | a :: b :: r =>
          dsimp only at h1
          split at h1 <;> cases h1 <;> exact ⟨_, rfl⟩
      obtain ⟨b, rfl⟩ := this
      exact ⟨b, h2, h6⟩

/-- A concrete case of the above: `na%6De=x`. -/
example : WritesName false b!"na" b!"na" :=
  ⟨.literal (by decide) (.literal (by decide) .nil), by decide, by decide⟩

/-- C05 is false for names written with escapes: `%41=b` writes the pair `("A", "b")`, but
iterating does not yield it. -/
theorem C05_fails : ∃ x l, IsQuery true x l ∧ ¬ ∃ it', Yields QueryIter.next (QueryIter.new x) l it' := by
  refine ⟨b!"%41=b", [(b!"A", some b!"b")], ⟨?_, by decide⟩, ?_⟩
  · exact Pairs.lastPair (w := b!"%41") (n := b!"A") (u := b!"b")
      ⟨.escape (m := 4) (n := 1) (by decide) (by decide) .nil, by decide, by decide⟩
      ⟨.literal (by decide) .nil, by decide⟩
  · rintro ⟨it', h⟩
    obtain ⟨it, _, e, _⟩ := C05_rejects_name_escapes [] [] b!"41=b" ⟨.nil, by decide, by decide⟩
    simp only [List.nil_append] at e
    cases h with
    | item e' _ => rw [e] at e'; cases e'

/-- C06, second part: on every input and for every number of calls of `next` no call panics or
hangs, and the calls yield no more items than the query has bytes. -/
theorem C06_total (x : Bytes) (n : Nat) :
    ∃ l it', After QueryIter.next (QueryIter.new x) n l it' ∧ l.length ≤ x.length := by
  obtain ⟨l, it', h1, h2, _⟩ := after_total n (QueryIter.new x) (new_idx x)
  exact ⟨l, it', h1, by rw [new_rest] at h2; exact h2⟩

/-- A concrete case of C06: three calls on `a&b` give two items. -/
example : ∃ it', After QueryIter.next (QueryIter.new b!"a&b") 3 [(b!"a", none), (b!"b", none)] it' := by
  refine ⟨_, .item (x := (b!"a", none)) (it₁ := ⟨⟨b!"a&b", 2, 0, c! '&'⟩, b!"a", [], []⟩) (by decide +kernel) <|
    .item (x := (b!"b", none)) (it₁ := ⟨⟨b!"a&b", 3, 2, c! 'b'⟩, b!"b", [], []⟩) (by decide +kernel) <|
    .none (it₁ := ⟨⟨b!"a&b", 3, 2, c! 'b'⟩, b!"b", [], []⟩) (by decide +kernel) .zero⟩

/-- C06, first part, as far as it is true: if every complete escape in the query is made of hex
digits, then after any number of calls, once an error was reported, the next call returns `None`
and changes nothing (so every later call returns `None`). Missing: escapes with a bad digit, see
`C06_fails`. -/
theorem C06_stops_partial (x : Bytes) (hx : EscapesOK x) (n : Nat) (l : List Item) (it' : QueryIter)
    (h : After QueryIter.next (QueryIter.new x) n l it') (he : it'.errs ≠ []) :
    it'.next = .none it' := by
  obtain ⟨l2, it2, h1, _, h3⟩ := after_total n (QueryIter.new x) (new_idx x)
  obtain ⟨_, rfl⟩ := after_det h h1
  exact h3 hx (fun h => absurd rfl h) he

/-- A concrete case of `C06_stops_partial`: `a&b%` fails in the second call. -/
example : EscapesOK b!"a&b%" ∧ ∃ it', After QueryIter.next (QueryIter.new b!"a&b%") 2 [(b!"a", none)] it' ∧
    it'.errs ≠ [] := by
  constructor
  · intro p h l r e
    match p, e with
    | [], e => simp at e
    | [_], e => simp at e
    | [_, _], e => simp at e
    | [_, _, _], e => simp at e
    | _ :: _ :: _ :: _ :: p, e => simp at e
  · exact ⟨_, .item (x := (b!"a", none)) (it₁ := ⟨⟨b!"a&b%", 2, 0, c! '&'⟩, b!"a", [], []⟩) (by decide +kernel) <|
      .none (it₁ := ⟨⟨b!"a&b%", 4, 2, c! '%'⟩, b!"b", [], [.name (c! '%')]⟩) (by decide +kernel) .zero, by decide⟩

/-- C06, first part, is false: after the error about the bad digit in `a=%Gxyz` the iterator yields
again. -/
theorem C06_fails : ∃ x it' it2 y, QueryIter.next (QueryIter.new x) = .none it' ∧ it'.errs ≠ [] ∧
    it'.next = .item y it2 :=
  ⟨b!"a=%Gxyz", ⟨⟨b!"a=%Gxyz", 4, 2, c! 'G'⟩, b!"a", [], [.value (c! 'G')]⟩,
    ⟨⟨b!"a=%Gxyz", 7, 4, c! 'z'⟩, b!"xyz", [], [.value (c! 'G')]⟩, (b!"xyz", none),
    by decide +kernel, by decide, by decide +kernel⟩

end Verif.Util
