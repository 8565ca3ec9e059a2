import Verif.Util.FieldRun

/-!
# C07-C09: `util::FieldIterator`
-/

namespace Verif.Util

theorem fnew_idx (x : Bytes) (d : UInt8) (z : Bool) :
    (FieldIter.new x d z).ctx.idx ≤ (FieldIter.new x d z).ctx.stream.length := by
  simp [FieldIter.new, Ctx.new]

theorem fnew_rest (x : Bytes) (d : UInt8) (z : Bool) : (FieldIter.new x d z).ctx.rest = x := by
  simp [FieldIter.new, Ctx.new, Ctx.rest]

/-- C07, as far as it is true: if the field `x` writes the items `l`, only the last value may be
quoted, and the delimiter is not one of `=`, `/`, blank and byte 255, then a `for` loop over the
field sees exactly these items (names in lower case if `normalize` is on) and no error is reported.
Also left out: fields whose very last byte is a slash, or with `normalize` an upper-case letter, of
a name without a value. Missing: see `C07_fails` and `C08_fails`. -/
theorem C07_fields_partial (d : UInt8) (z : Bool) (x : Bytes) (l : List Item)
    (hd : d ≠ c! '=' ∧ d ≠ c! '/' ∧ d ≠ 255 ∧ ¬ Blank d) (h : Fields false d x l)
    (hl : ∀ n, l.getLast? = some (n, none) → ∀ b ∈ n.getLast?,
      b ≠ c! '/' ∧ (z = true → ¬ UpperByte b)) :
    ∃ it', Yields FieldIter.next (FieldIter.new x d z) (l.map (norm z)) it' ∧ it'.errs = [] ∧
      it'.next = .none it' := by
  refine fields_yields hd h (fun n hn b hb => ?_) [] _ (by simp [Blanks]) (by rw [fnew_rest]; rfl)
    (fnew_idx x d z) rfl rfl
  obtain ⟨h1, h2⟩ := hl n hn b hb
  cases z with
  | false => simp [special, h1]
  | true =>
    have := h2 rfl
    rw [← upper_iff] at this
    simp [special, h1, this]

/-- A concrete case of C07: `Text/html; q=1; name="a\"b"` with the delimiter `;`. -/
example : ∃ x l, x = b!"Text/html; q=1; name=\"a\\\"b\"" ∧
    Fields false (c! ';') x l ∧ l = [(b!"Text/html", none), (b!"q", some b!"1"), (b!"name", some b!"a\"b")] := by
  refine ⟨_, _, rfl, ?_, rfl⟩
  have h3 : Fields false (c! ';') b!"name=\"a\\\"b\"" [(b!"name", some b!"a\"b")] :=
    .last (.quoted (w := b!"name") (s := []) (q := b!"a\\\"b") ⟨by decide, by decide⟩ (by simp [Blanks])
      (.plain (by decide) (by decide) (.escaped (.plain (by decide) (by decide) .nil))))
  have h2 : Fields false (c! ';') b!"q=1; name=\"a\\\"b\"" [(b!"q", some b!"1"), (b!"name", some b!"a\"b")] :=
    .cons (t := b!"q=1") (s := b!" ")
      (.value (w := b!"q") (s := []) (v := b!"1") ⟨by decide, by decide⟩ (by simp [Blanks])
        ⟨by decide, by decide, by decide⟩) (by simp) (by unfold Blanks; decide) h3
  exact .cons (t := b!"Text/html") (s := b!" ") (.name ⟨by decide, by decide⟩) (by simp)
    (by unfold Blanks; decide) h2

/-- The violation in general: a quoted value that is followed by the delimiter and then by any byte
other than the delimiter makes `next` return `None` with an error about this byte, whatever the item and
whatever comes after it. (After the closing quote the code skips a byte without looking at it, and compares
the byte after that with the delimiter.) -/
theorem C07_rejects_quoted (d : UInt8) (z : Bool) (w s q v : Bytes) (b : UInt8) (r : Bytes)
    (hw : IsName d w) (hs : Blanks s) (hq : Quoted q v) (hd : ¬ Blank d) (hb : b ≠ d) :
    ∃ it', FieldIter.next (FieldIter.new
      (w ++ c! '=' :: (s ++ c! '"' :: (q ++ c! '"' :: d :: b :: r))) d z) = .none it' ∧ it'.errs = [.value b] := by
  have hd' : blank d = false := by rw [← blank_iff] at hd; simpa using hd
  rcases field_next (fnew_idx (w ++ c! '=' :: (s ++ c! '"' :: (q ++ c! '"' :: d :: b :: r))) d z)
    with ⟨e, _⟩ | ⟨_, hm⟩
  · rw [fnew_rest] at e; simp at e
  · rw [fnew_rest] at hm
    change FMatch _ (fName d z true _ []) _ at hm
    rw [fName_writes hw.2, fName_eq, fValue_quoted hs hq, fAfter,
      List.dropWhile_cons_of_neg (by simp [hd'])] at hm
    dsimp only at hm
    rw [if_neg hb] at hm
    obtain ⟨it', h1, _, _, _, h6, _⟩ := hm
    exact ⟨it', h1, h6⟩

/-- A concrete case of the above: `a="b"; c`. -/
example : IsName (c! ';') b!"a" ∧ Blanks [] ∧ Quoted b!"b" b!"b" ∧ ¬ Blank (c! ';') ∧ c! ' ' ≠ c! ';' :=
  ⟨⟨by decide, by decide⟩, by simp [Blanks], .plain (by decide) (by decide) .nil, by decide, by decide⟩

/-- C07 is false when a quoted value is not the last one: `a="b"; c` writes two items, but iterating
does not yield them. -/
theorem C07_fails : ∃ x l, Fields true (c! ';') x l ∧
    ¬ ∃ it', Yields FieldIter.next (FieldIter.new x (c! ';') false) l it' := by
  refine ⟨b!"a=\"b\"; c", [(b!"a", some b!"b"), (b!"c", none)], ?_, ?_⟩
  · exact .cons (t := b!"a=\"b\"") (s := b!" ")
      (.quoted (w := b!"a") (s := []) (q := b!"b") ⟨by decide, by decide⟩ (by simp [Blanks])
        (.plain (by decide) (by decide) .nil)) (by simp) (by unfold Blanks; decide)
      (.last (.name ⟨by decide, by decide⟩))
  · rintro ⟨it', h⟩
    obtain ⟨it, e, _⟩ := C07_rejects_quoted (c! ';') false b!"a" [] b!"b" b!"b" (c! ' ') b!"c"
      ⟨by decide, by decide⟩ (by simp [Blanks]) (.plain (by decide) (by decide) .nil) (by decide) (by decide)
    cases h with
    | item e' _ =>
      have : FieldIter.next (FieldIter.new b!"a=\"b\"; c" (c! ';') false) = .none it := e
      rw [this] at e'; cases e'

/-- C08, as far as it is true: for every field that does not end in an upper-case letter and every
delimiter that is not a blank, if a `for` loop without normalisation sees the items `l` and no error
is reported, then the loop with normalisation sees the same items with the names in lower case, and
no error is reported either. Missing: see `C08_fails`. -/
theorem C08_normalize_partial (x : Bytes) (d : UInt8) (hd : ¬ Blank d)
    (hx : ∀ b ∈ x.getLast?, ¬ UpperByte b) (l : List Item) (it' : FieldIter)
    (h : Yields FieldIter.next (FieldIter.new x d false) l it') (he : it'.errs = []) :
    ∃ it2, Yields FieldIter.next (FieldIter.new x d true) (l.map fun i => (lower i.1, i.2)) it2 ∧
      it2.errs = [] := by
  obtain ⟨it2, h1, h2⟩ := both_yield h (FieldIter.new x d true) (fnew_idx ..) (fnew_idx ..)
    (by rw [fnew_rest, fnew_rest]) hd rfl rfl rfl he (by rw [fnew_rest]; exact hx)
  exact ⟨it2, h1, h2⟩

/-- C08, every field and delimiter: all yielded names are made of token bytes and slashes, and with
normalisation none has an upper-case letter, no matter how the iteration ends. -/
theorem C08_names (x : Bytes) (d : UInt8) (z : Bool) (n : Nat) (l : List Item) (it' : FieldIter)
    (h : After FieldIter.next (FieldIter.new x d z) n l it') :
    ∀ i ∈ l, ∀ b ∈ i.1, (TokenByte b ∨ b = c! '/') ∧ (z = true → ¬ UpperByte b) :=
  after_names h (fnew_idx x d z)

/-- A concrete case of C08: `Max-Age=5, B/c`. -/
example : (∀ b ∈ (b!"Max-Age=5, B/c").getLast?, ¬ UpperByte b) ∧
    ∃ it', Yields FieldIter.next (FieldIter.new b!"Max-Age=5, B/c" (c! ',') false)
      [(b!"Max-Age", some b!"5"), (b!"B/c", none)] it' ∧ it'.errs = [] := by
  refine ⟨by decide, ?_⟩
  have := C07_fields_partial (c! ',') false b!"Max-Age=5, B/c" [(b!"Max-Age", some b!"5"), (b!"B/c", none)]
    (by decide) (.cons (t := b!"Max-Age=5") (s := b!" ")
      (.value (w := b!"Max-Age") (s := []) (v := b!"5") ⟨by decide, by decide⟩ (by simp [Blanks])
        ⟨by decide, by decide, by decide⟩) (by simp) (by unfold Blanks; decide)
      (.last (.name ⟨by decide, by decide⟩))) (by simp)
  obtain ⟨it', h1, h2, _⟩ := this
  exact ⟨it', h1, h2⟩

/-- The violation in general: with normalisation, a field that is one name ending in an upper-case
letter yields nothing and reports nothing, though it is yielded without normalisation; a field that
is one name ending in a slash yields nothing either way. -/
theorem C08_drops (d : UInt8) (w : Bytes) (b : UInt8) (hw : IsName d (w ++ [b])) :
    (UpperByte b → ∃ it', FieldIter.next (FieldIter.new (w ++ [b]) d true) = .none it' ∧ it'.errs = []) ∧
    (b = c! '/' → ∀ z, ∃ it', FieldIter.next (FieldIter.new (w ++ [b]) d z) = .none it' ∧ it'.errs = []) := by
  have key : ∀ z, special z b = true →
      ∃ it', FieldIter.next (FieldIter.new (w ++ [b]) d z) = .none it' ∧ it'.errs = [] := by
    intro z hz
    rcases field_next (fnew_idx (w ++ [b]) d z) with ⟨e, _⟩ | ⟨_, hm⟩
    · rw [fnew_rest] at e; simp at e
    · rw [fnew_rest] at hm
      change FMatch _ (fName d z true _ []) _ at hm
      have := fName_writes (z := z) hw.2 true [] []
      rw [List.append_nil, List.getLast?_concat] at this
      dsimp only at this
      rw [this, hz, fName, if_pos rfl] at hm
      obtain ⟨it', h1, _, _, _, h6, _⟩ := hm
      exact ⟨it', h1, h6⟩
  refine ⟨fun h => key true ?_, fun h z => key z ?_⟩
  · simp [special, (upper_iff b).2 h]
  · simp [special, h]

/-- A concrete case of the above: the names `keepAlivE` and `a/`. -/
example : IsName (c! ',') (b!"keepAliv" ++ b!"E") ∧ UpperByte (c! 'E') ∧ IsName (c! ',') (b!"a" ++ b!"/") := by
  refine ⟨⟨by decide, by decide⟩, by decide, ⟨by decide, by decide⟩⟩

/-- C08 is false: `A` yields the name `A` without normalisation and nothing with it. -/
theorem C08_fails : ∃ x d n it1 it2,
    FieldIter.next (FieldIter.new x d false) = .item (n, none) it1 ∧
    FieldIter.next (FieldIter.new x d true) = .none it2 ∧ it2.errs = [] := by
  obtain ⟨it2, h1, h2⟩ := (C08_drops (c! ',') [] (c! 'A') ⟨by decide, by decide⟩).1 (by decide)
  exact ⟨b!"A", c! ',', b!"A", ⟨⟨b!"A", 1, 0, c! 'A'⟩, c! ',', b!"A", false, [], []⟩, it2,
    by decide +kernel, h1, h2⟩

/-- C09 for fields without byte 255: for every delimiter and flag and every number of calls of
`next` no call panics or hangs, and the calls yield no more items than the field has bytes.
Missing: byte 255, see `C09_fails`. -/
theorem C09_total_partial (x : Bytes) (d : UInt8) (z : Bool) (hx : 255 ∉ x) (n : Nat) :
    ∃ l it', After FieldIter.next (FieldIter.new x d z) n l it' ∧ l.length ≤ x.length := by
  obtain ⟨l, it', h1, h2⟩ := field_after n (FieldIter.new x d z) (fnew_idx x d z) (by rw [fnew_rest]; exact hx)
  exact ⟨l, it', h1, by rw [fnew_rest] at h2; exact h2⟩

/-- C09, every field, byte 255 included: after any number of calls that went through, the next call
does not hang, and if it yields an item, it consumes at least one byte. -/
theorem C09_terminates (x : Bytes) (d : UInt8) (z : Bool) (n : Nat) (l : List Item) (it : FieldIter)
    (h : After FieldIter.next (FieldIter.new x d z) n l it) :
    it.next ≠ .diverge ∧ ∀ i it', it.next = .item i it' → it.ctx.idx < it'.ctx.idx :=
  after_terminates h (fnew_idx x d z)

/-- A concrete case of C09: two calls on `a;b` give two items. -/
example : (255 : UInt8) ∉ b!"a;b" ∧ ∃ it',
    After FieldIter.next (FieldIter.new b!"a;b" (c! ';') true) 2 [(b!"a", none), (b!"b", none)] it' := by
  refine ⟨by decide, _, .item (x := (b!"a", none))
    (it₁ := ⟨⟨b!"a;b", 2, 0, c! ';'⟩, c! ';', b!"a", true, [], []⟩) (by decide +kernel) <|
    .item (x := (b!"b", none))
      (it₁ := ⟨⟨b!"a;b", 3, 2, c! 'b'⟩, c! ';', b!"b", true, [], []⟩) (by decide +kernel) .zero⟩

/-- C09 is false for byte 255: iterating over it panics (index 255 of a table with 255 entries). -/
theorem C09_fails : FieldIter.next (FieldIter.new [255] (c! ';') false) = .panic := by
  decide +kernel

end Verif.Util
