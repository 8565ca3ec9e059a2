import Verif.Props.Field
import Verif.Props.Query
import Verif.Props.Decode
import Verif.Util.FieldLoose
import Verif.Util.QueryReject
import Verif.Util.Utf8

/-!
# C58-C61: what `FieldIterator` and `QueryIterator` accept, reject and return
-/

namespace Verif.Util

/-- C58, first half: for every field, every delimiter and both settings of `normalize`, if a `for` loop sees the items
`l` and no error is reported, then the field writes exactly these items in the grammar `Accepted`. -/
theorem C58_only_fields_accepted (d : UInt8) (z : Bool) (x : Bytes) (l : List Item) (it' : FieldIter)
    (h : Yields FieldIter.next (FieldIter.new x d z) l it') (he : it'.errs = []) : Accepted d z x l := by
  rcases yields_explained h (fnew_idx x d z) with ⟨_, h⟩ | ⟨e, h, _⟩
  · rw [fnew_rest] at h; exact h
  · rw [he] at h
    have := congrArg List.length h
    simp at this

/-- C58, second half: every field of the grammar is accepted and yields the items it writes, for every delimiter other
than `=`, `/`, `"`, a blank and byte 255. Missing: these delimiters. -/
theorem C58_all_fields_accepted_partial (d : UInt8) (z : Bool) (x : Bytes) (l : List Item)
    (hd : d ≠ c! '=' ∧ d ≠ c! '/' ∧ d ≠ 255 ∧ ¬ Blank d) (hq : d ≠ c! '"') (h : Accepted d z x l) :
    ∃ it', Yields FieldIter.next (FieldIter.new x d z) l it' ∧ it'.errs = [] := by
  obtain ⟨it', h1, h2, _⟩ := accepted_yields hd hq h (FieldIter.new x d z) (fnew_rest x d z) (fnew_idx x d z) rfl rfl
  exact ⟨it', h1, h2⟩

/-- A concrete case of C58: `text/ Html; =1;b="c"!` with normalisation. The blank after the slash is skipped, the name
of the second item is empty, and the byte after the closing quote is ignored. -/
theorem exAccepted : Accepted (c! ';') true b!"text/ Html; =1;b=\"c\"!"
    [(b!"text/html", none), ([], some b!"1"), (b!"b", some b!"c")] := by
  have bl : ∀ s, s = b!" " ∨ s = [] → Blanks s := by rintro s (rfl | rfl) <;> unfold Blanks <;> decide
  have nil : NameText (c! ';') true true [] [] := .start (bl _ (.inr rfl))
  have low : ∀ b, b ∈ b!"texmlb" → TokenByte b ∧ b ≠ c! ';' ∧ (true = true → ¬ UpperByte b) := by decide
  have tok : ∀ {g w n} b, NameText (c! ';') true g w n → b ∈ b!"texmlb" →
      NameText (c! ';') true false (w ++ [b]) (n ++ [b]) :=
    fun b h hb => .token h (low b hb).1 (low b hb).2.1 (low b hb).2.2
  have h1 := tok (c! 't') (tok (c! 'x') (tok (c! 'e') (tok (c! 't') nil (by decide)) (by decide)) (by decide)) (by decide)
  have h2 := NameText.upper (b := c! 'H') rfl (NameText.slash h1 (bl b!" " (.inl rfl))) (by decide) (by decide)
    (bl [] (.inr rfl))
  have h3 := tok (c! 'l') (tok (c! 'm') (tok (c! 't') h2 (by decide)) (by decide)) (by decide)
  have c1 : ClosedItem (c! ';') true b!"text/ Html;" (b!"text/html", none) := .name h3 nofun
  have c2 : ClosedItem (c! ';') true b!" =1;" ([], some b!"1") :=
    .value (s := []) (v := b!"1") (.start (bl b!" " (.inl rfl))) (bl _ (.inr rfl)) ⟨by decide, by decide⟩
  have c3 : LastItem (c! ';') true b!"b=\"c\"!" (b!"b", some b!"c") :=
    .quoted (s := []) (s' := []) (q := b!"c") (t := b!"!") (tok (c! 'b') nil (by decide)) (bl _ (.inr rfl))
      (.plain (by decide) (by decide) .nil) (bl _ (.inr rfl)) (by decide)
  exact .cons (t := b!"text/ Html;") c1 (.cons (t := b!" =1;") c2 (.last c3))

example : ∃ it', Yields FieldIter.next (FieldIter.new b!"text/ Html; =1;b=\"c\"!" (c! ';') true)
    [(b!"text/html", none), ([], some b!"1"), (b!"b", some b!"c")] it' ∧ it'.errs = [] :=
  C58_all_fields_accepted_partial _ _ _ _ (by decide) (by decide) exAccepted

/-- C58 is false for the grammar of C07, in which nothing may follow a closing quote: `a="b"c` is accepted, though it is
no field. -/
theorem C58_fails : ∃ x l it', Yields FieldIter.next (FieldIter.new x (c! ';') false) l it' ∧ it'.errs = [] ∧
    ¬ ∃ l, Fields true (c! ';') x l := by
  have acc : Accepted (c! ';') false b!"a=\"b\"c" [(b!"a", some b!"b")] :=
    .last (.quoted (w := b!"a") (n := b!"a") (s := []) (s' := []) (q := b!"b") (t := b!"c")
      (NameText.token (w := []) (n := []) (b := c! 'a') (.start (by simp [Blanks])) (by decide) (by decide) nofun)
      (by simp [Blanks]) (.plain (by decide) (by decide) .nil) (by simp [Blanks]) (by decide))
  obtain ⟨it', h1, h2⟩ := C58_all_fields_accepted_partial _ _ _ _ (by decide) (by decide) acc
  refine ⟨_, _, it', h1, h2, ?_⟩
  rintro ⟨l, h⟩
  have quote : ∀ {q t i}, ItemText (c! ';') q t i → c! '"' ∈ t → t.getLast? = some (c! '"') := by
    intro q t i h hq
    cases h with
    | name h => exact absurd (h.2 _ hq).1 (by decide)
    | @value w s v hw hs hv =>
      exfalso
      simp only [List.mem_append, List.mem_cons] at hq
      rcases hq with hq | hq | hq | hq
      · exact absurd (hw.2 _ hq).1 (by decide)
      · exact absurd hq (by decide)
      · exact absurd (hs _ hq) (by decide)
      · exact absurd (hv.2.1 _ hq).1 (by decide)
    | @quoted w s q v hw hs hq =>
      have e : w ++ c! '=' :: (s ++ c! '"' :: (q ++ [c! '"'])) = (w ++ c! '=' :: (s ++ c! '"' :: q)) ++ [c! '"'] := by
        simp
      rw [e, List.getLast?_concat]
  generalize hx : (b!"a=\"b\"c" : Bytes) = x at h
  cases h with
  | last h => rw [← hx] at h; exact absurd (quote h (by decide)) (by decide)
  | @cons q t i s x l h =>
    have : c! ';' ∈ (b!"a=\"b\"c" : Bytes) := by rw [hx]; simp
    exact absurd this (by decide)

/-- C59: for every field, every delimiter and both settings of `normalize`, a `for` loop reports at most one error, and
if it reports one, then the field starts with the items the loop has seen and goes on with what the error says: a byte
that may not stand in a name or value, a quoted value without end, or a byte that is not the delimiter after a quoted
value. -/
theorem C59_rejections (d : UInt8) (z : Bool) (x : Bytes) (l : List Item) (it' : FieldIter)
    (h : Yields FieldIter.next (FieldIter.new x d z) l it') :
    it'.errs = [] ∨ ∃ e, it'.errs = [e] ∧ Rejected d z x l e := by
  rcases yields_explained h (fnew_idx x d z) with ⟨h, _⟩ | ⟨e, h1, h2⟩
  · exact .inl h
  · rw [fnew_rest] at h2; exact .inr ⟨e, h1, h2⟩

/-- C59, the other way round: every such field is rejected with this error after these items, for every delimiter other
than `=`, `/`, `"`, a blank and byte 255.
Missing: the delimiters named above. -/
theorem C59_rejected_partial (d : UInt8) (z : Bool) (x : Bytes) (l : List Item) (e : FieldError)
    (hd : d ≠ c! '=' ∧ d ≠ c! '/' ∧ d ≠ 255 ∧ ¬ Blank d) (hq : d ≠ c! '"') (h : Rejected d z x l e) :
    ∃ it', Yields FieldIter.next (FieldIter.new x d z) l it' ∧ it'.errs = [e] := by
  obtain ⟨it', h1, h2, _⟩ := rejected_yields hd hq h (FieldIter.new x d z) (fnew_rest x d z) (fnew_idx x d z) rfl rfl
  exact ⟨it', h1, h2⟩

/-- A concrete case of C59: `a;b="c` is rejected after the item `a`, and the error names the last byte. -/
theorem exRejected : Rejected (c! ';') false b!"a;b=\"c" [(b!"a", none)] (.value (c! 'c')) := by
  have nm : ∀ b, TokenByte b ∧ b ≠ c! ';' → NameText (c! ';') false false [b] [b] :=
    fun b h => NameText.token (w := []) (n := []) (.start (by simp [Blanks])) h.1 h.2 nofun
  exact .cons (t := b!"a;") (.name (nm _ (by decide)) nofun)
    (.here (Offending.open (q := b!"c") (s := []) (nm _ (by decide)) (by simp [Blanks])
      (.plain (by decide) (by decide) .nil)))

example : ∃ it', Yields FieldIter.next (FieldIter.new b!"a;b=\"c" (c! ';') false) [(b!"a", none)] it' ∧
    it'.errs = [.value (c! 'c')] :=
  C59_rejected_partial _ _ _ _ _ (by decide) (by decide) exRejected

/-- C60: a `for` loop over the query `x` sees exactly the items `l` and reports exactly the error `e`, exactly when the
query starts with the pairs `l` and goes on with what `e` says. -/
theorem C60_query_rejections (x : Bytes) (l : List Item) (e : QueryError) :
    (∃ it', Yields QueryIter.next (QueryIter.new x) l it' ∧ it'.errs = [e]) ↔ QRejected true x l e := by
  constructor
  · rintro ⟨it', h, he⟩
    rcases yields_rejected h (new_idx x) with h1 | ⟨e', h1, h2⟩
    · rw [he] at h1; cases h1
    · rw [he] at h1; cases h1
      rw [new_rest] at h2
      exact h2
  · intro h
    exact qrejected_yields h (QueryIter.new x) (new_rest x) (new_idx x) rfl

/-- C60: a `for` loop reports at most one error. -/
theorem C60_one_error (x : Bytes) (l : List Item) (it' : QueryIter) (h : Yields QueryIter.next (QueryIter.new x) l it') :
    it'.errs.length ≤ 1 := by
  rcases yields_rejected h (new_idx x) with h1 | ⟨e, h1, _⟩ <;> rw [h1] <;> simp [QueryIter.new]

/-- A concrete case of C60: `a=1&b=%2x` is rejected after the pair `a=1`, because of the byte `x`. -/
example : ∃ it', Yields QueryIter.next (QueryIter.new b!"a=1&b=%2x") [(b!"a", some b!"1")] it' ∧
    it'.errs = [.value (c! 'x')] :=
  (C60_query_rejections _ _ _).2 <|
    .pair (w := b!"a") (u := b!"1") (x := b!"b=%2x") ⟨.literal (by decide) .nil, by decide, by decide⟩ (by decide)
      ⟨.literal (by decide) .nil, by decide⟩ (.inl rfl) <|
      .here <| .value (w := b!"b") (n := b!"b") (u := []) (x := b!"%2x")
        ⟨.literal (by decide) .nil, by decide, by decide⟩ (by decide) ⟨.nil, by decide⟩
        (.low (m := 2) (by decide) (nibble_none.1 (by decide)))

theorem ascii_name {b : UInt8} (h : TokenByte b ∨ b = c! '/') : b < 0x80 := by
  revert h
  have key : ∀ b : UInt8, TokenByte b ∨ b = c! '/' → b < 0x80 := by apply forall_u8; decide +kernel
  exact key b

theorem quoted_mem {q v : Bytes} (h : Quoted q v) : ∀ b ∈ v, b ∈ q := by
  induction h with
  | nil => simp
  | plain _ _ _ ih =>
    intro b hb
    rcases List.mem_cons.1 hb with rfl | hb
    · simp
    · simp [ih b hb]
  | escaped _ ih =>
    intro b hb
    rcases List.mem_cons.1 hb with rfl | hb
    · simp
    · simp [ih b hb]

theorem none_inv {it it₁ : FieldIter} (hi : it.ctx.idx ≤ it.ctx.stream.length) (h : it.next = .none it₁) :
    it₁.ctx.stream = it.ctx.stream ∧ it₁.ctx.idx ≤ it₁.ctx.stream.length ∧ it₁.ctx.rest = [] := by
  rcases field_next hi with ⟨e0, e⟩ | ⟨_, hm⟩
  · rw [e] at h; cases h; exact ⟨rfl, hi, e0⟩
  · rw [h] at hm
    generalize fName it.delimiter it.normalize true it.ctx.rest [] = o at hm
    cases o with
    | item y r => obtain ⟨_, h, _⟩ := hm; cases h
    | stop => obtain ⟨_, h, a, b, c, _⟩ := hm; cases h; exact ⟨a, c, b⟩
    | error => obtain ⟨_, h, a, b, c, _⟩ := hm; cases h; exact ⟨a, c, b⟩
    | panic => cases hm

theorem yields_fused {it : FieldIter} {l : List Item} {it' : FieldIter} (h : Yields FieldIter.next it l it') :
    it.ctx.idx ≤ it.ctx.stream.length → it'.next = .none it' := by
  induction h with
  | stop h => intro hi; obtain ⟨_, h2, h3⟩ := none_inv hi h; exact field_done h2 h3
  | item h _ ih => intro hi; obtain ⟨r, _, _, _, a3, _⟩ := item_inv hi h; exact ih a3

/-- C59: once `next` has returned `None`, with or without an error, it returns `None` again, changes nothing and reports
nothing. -/
theorem C59_stops (d : UInt8) (z : Bool) (x : Bytes) (l : List Item) (it' : FieldIter)
    (h : Yields FieldIter.next (FieldIter.new x d z) l it') : it'.next = .none it' :=
  yields_fused h (fnew_idx x d z)

/-- A field, then an error: the iterator is at its end. -/
example : ∃ it', Yields FieldIter.next (FieldIter.new b!"a=1;b\x00c;d=2" (c! ';') true) [(b!"a", some b!"1")] it' ∧
    it'.errs = [.name 0] :=
  ⟨_, .item rfl (.stop rfl), rfl⟩

/-! ## C61 -/

theorem blanks_ascii {s : Bytes} (h : Blanks s) : ∀ b ∈ s, b < 0x80 :=
  fun b hb => (show ∀ b : UInt8, Blank b → b < 0x80 by apply forall_u8; decide +kernel) b (h b hb)

/-- Text after an equals sign. -/
theorem utf8_value {w s v : Bytes} (h : UTF8 (w ++ c! '=' :: (s ++ v))) (hs : Blanks s) : UTF8 v :=
  UTF8.drop (blanks_ascii hs) (h.right (by decide))

theorem closed_utf8 {d : UInt8} {z : Bool} {t r : Bytes} {i : Item} (h : ClosedItem d z t i) (hx : UTF8 (t ++ r))
    (hd : d < 0x80 ∨ d ∉ t ++ r) : UTF8 r ∧ ∀ v ∈ i.2, UTF8 v := by
  cases h with
  | name h1 h2 =>
    have hd := hd.resolve_right (by simp)
    rw [List.append_assoc] at hx
    exact ⟨UTF8.right hx hd, nofun⟩
  | value h1 h2 h3 =>
    have hd := hd.resolve_right (by simp)
    simp only [List.append_assoc, List.cons_append, List.nil_append] at hx
    have := utf8_value hx h2
    exact ⟨this.right hd, by rintro _ ⟨⟩; exact this.left hd⟩
  | @quoted _ _ _ _ _ _ s' b h1 h2 h3 h4 h5 =>
    have hd := hd.resolve_right (by simp)
    simp only [List.append_assoc, List.cons_append, List.nil_append] at hx
    have h6 := (utf8_value hx h2).right (a := []) (by decide)
    refine ⟨?_, by rintro _ ⟨⟩; exact h3.utf8 (h6.left (by decide))⟩
    have h7 := h6.right (by decide)
    exact UTF8.right (a := s' ++ [b]) (by simpa using h7) hd

theorem last_utf8 {d : UInt8} {z : Bool} {t : Bytes} {i : Item} (h : LastItem d z t i) (hx : UTF8 t) : ∀ v ∈ i.2, UTF8 v := by
  cases h with
  | name => nofun
  | noValue => nofun
  | value h1 h2 h3 => rintro _ ⟨⟩; exact utf8_value hx h2
  | quoted h1 h2 h3 h4 h5 =>
    rintro _ ⟨⟩
    exact h3.utf8 (((utf8_value hx h2).right (a := []) (by decide)).left (by decide))

theorem after_values {it : FieldIter} {n : Nat} {l : List Item} {it' : FieldIter}
    (h : After FieldIter.next it n l it') : it.ctx.idx ≤ it.ctx.stream.length → UTF8 it.ctx.rest →
    (it.delimiter < 0x80 ∨ it.delimiter ∉ it.ctx.rest) → ∀ i ∈ l, ∀ v ∈ i.2, UTF8 v := by
  induction h with
  | zero => intro _ _ _ i hi; cases hi
  | none h _ ih =>
    intro hi _ _ i him
    obtain ⟨_, h2, h3⟩ := none_inv hi h
    exact ih h2 (by rw [h3]; exact utf8_nil) (by rw [h3]; simp) i him
  | @item it i₀ it₁ n l it' h _ ih =>
    intro hi hu hd i him
    obtain ⟨r, a0, a1, a2, a3, a4, a5, a6⟩ := item_inv hi h
    have := fName_explained (d := it.delimiter) (z := it.normalize) it.ctx.rest
    rw [a0] at this
    rw [a2, a5] at ih
    have : (∀ v ∈ i₀.2, UTF8 v) ∧ UTF8 r ∧ (it.delimiter < 0x80 ∨ it.delimiter ∉ r) := by
      rcases this with ⟨t, e, hc⟩ | ⟨rfl, hl⟩
      · rw [e] at hu hd
        obtain ⟨h1, h2⟩ := closed_utf8 hc hu hd
        exact ⟨h2, h1, hd.imp_right fun h hr => h (by simp [hr])⟩
      · exact ⟨last_utf8 hl hu, utf8_nil, by simp⟩
    rcases List.mem_cons.1 him with rfl | him
    · exact this.1
    · exact ih a3 this.2.1 this.2.2 i him

/-- C61 for the names of fields: all names are made of ASCII bytes, so the returned `String` is well-formed, whatever
the field, however the iteration goes. -/
theorem C61_field_names (x : Bytes) (d : UInt8) (z : Bool) (n : Nat) (l : List Item) (it' : FieldIter)
    (h : After FieldIter.next (FieldIter.new x d z) n l it') : ∀ i ∈ l, UTF8 i.1 :=
  fun i hi => utf8_ascii fun b hb => ascii_name (C08_names x d z n l it' h i hi b hb).1

/-- C61 for the values of fields, as far as it is true: if the field is UTF-8 (as every `&str` is) and the delimiter is
an ASCII byte (or does not occur), the returned values are well-formed. Missing: the code accepts bytes from 0x80 on in
values without checking that they form UTF-8 sequences, see `C61_fails`. -/
theorem C61_field_values_partial (x : Bytes) (d : UInt8) (z : Bool) (n : Nat) (l : List Item) (it' : FieldIter)
    (hx : UTF8 x) (hd : d < 0x80 ∨ d ∉ x) (h : After FieldIter.next (FieldIter.new x d z) n l it') :
    ∀ i ∈ l, ∀ v ∈ i.2, UTF8 v :=
  after_values h (fnew_idx x d z) (by rw [fnew_rest]; exact hx) (by rw [fnew_rest]; exact hd)

/-- A concrete case: one call on `a="\é"`, in UTF-8. -/
example : UTF8 (b!"a=\"\\" ++ [0xC3, 0xA9] ++ b!"\"") ∧ ∃ it', After FieldIter.next
    (FieldIter.new (b!"a=\"\\" ++ [0xC3, 0xA9] ++ b!"\"") (c! ';') false) 1 [(b!"a", some [0xC3, 0xA9])] it' :=
  ⟨⟨"a=\"\\é\"".toList, by decide +kernel⟩, _, .item (it₁ := ⟨⟨b!"a=\"\\" ++ [0xC3, 0xA9] ++ b!"\"", 7, 5, c! '"'⟩,
    c! ';', b!"a", false, [0xC3, 0xA9], []⟩) (by decide +kernel) .zero⟩

theorem query_after {it : QueryIter} {n : Nat} {l : List Item} {it' : QueryIter}
    (h : After QueryIter.next it n l it') : it.ctx.idx ≤ it.ctx.stream.length → ∀ i ∈ l,
    ∃ p w r, it.ctx.stream = p ++ w ++ r ∧ WritesName false w i.1 ∧ ∀ v ∈ i.2, ∃ p u r,
      it.ctx.stream = p ++ c! '=' :: (u ++ r) ∧ WritesValue u v ∧ ∀ b ∈ r.head?, b = c! '&' ∨ b = c! ';' := by
  induction h with
  | zero => intro _ i hi; cases hi
  | none h _ ih =>
    intro hi
    rcases query_next hi with ⟨_, e'⟩ | ⟨_, hm⟩
    · rw [h] at e'; cases e'; exact ih hi
    · rcases match_cases hm with ⟨x, r, it2, _, h2, _⟩ | ⟨x, r, it2, h1, h2, h3, h4, h5, h6⟩
      · rw [h] at h2; cases h2
      · rw [h] at h2; cases h2
        rw [← h3]; exact ih h5
  | @item it i₀ it₁ n l it' h _ ih =>
    intro hi i him
    rcases query_next hi with ⟨_, e'⟩ | ⟨_, hm⟩
    · rw [h] at e'; cases e'
    · rcases match_cases hm with ⟨x, r, it2, h1, h2, h3, h4, h5, h6⟩ | ⟨x, r, it2, _, h2, _⟩
      · rw [h] at h2; cases h2
        rcases List.mem_cons.1 him with rfl | him
        · obtain ⟨⟨w, n, hw, hc⟩, -⟩ := qn_item _ _ _ _ _ h1
          have split : it.ctx.stream = it.ctx.stream.take it.ctx.idx ++ it.ctx.rest := (List.take_append_drop ..).symm
          generalize it.ctx.stream.take it.ctx.idx = p at split
          simp only [List.nil_append] at hc
          rcases hc with ⟨rfl, c2, c3⟩ | ⟨s, hs, rfl, c2⟩ | ⟨u, v, hu, rfl, c2, c3⟩ | ⟨u, v, s, hu, hs, rfl, c2⟩
          · exact ⟨p, w, [], by rw [split, c2]; simp, hw, nofun⟩
          · exact ⟨p, w, _, by rw [split, c2, List.append_assoc], hw, nofun⟩
          · refine ⟨p, w, _, by rw [split, c2, List.append_assoc], hw, ?_⟩
            rintro v hv
            cases hv
            exact ⟨p ++ w, u, [], by rw [split, c2]; simp, hu, nofun⟩
          · refine ⟨p, w, _, by rw [split, c2, List.append_assoc, List.append_assoc], hw, ?_⟩
            rintro v hv
            cases hv
            exact ⟨p ++ w, u, s :: r, by rw [split, c2]; simp, hu, by rintro _ ⟨⟩; exact hs⟩
        · rw [← h3]; exact ih h5 i him
      · rw [h] at h2; cases h2

/-- C61 for the names of queries: all names are made of ASCII bytes, so the returned `String` is well-formed, whatever
the query, however the iteration goes. -/
theorem C61_query_names (x : Bytes) (n : Nat) (l : List Item) (it' : QueryIter)
    (h : After QueryIter.next (QueryIter.new x) n l it') : ∀ i ∈ l, UTF8 i.1 := by
  intro i hi
  obtain ⟨p, w, r, _, hw, _⟩ := query_after h (new_idx x) i hi
  refine C04_utf8_partial w _ ((C01_decode _ _).2 hw.1) ?_
  intro p d r m e _
  exact absurd (show c! '%' ∈ w by rw [e]; simp) (hw.2.2 rfl)

/-- C61 for the values of queries, as far as it is true: when every escape in the query writes a byte below 0x80 (its
first digit is below 8), the returned values are well-formed. Missing: see `C61_fails`. -/
theorem C61_query_values_partial (x : Bytes) (n : Nat) (l : List Item) (it' : QueryIter)
    (h7 : ∀ p d r m, x = p ++ c! '%' :: d :: r → HexDigit d m → m < 8)
    (h : After QueryIter.next (QueryIter.new x) n l it') : ∀ i ∈ l, ∀ v ∈ i.2, UTF8 v := by
  intro i hi v hv
  obtain ⟨_, _, _, _, _, hu⟩ := query_after h (new_idx x) i hi
  obtain ⟨p, u, r, hx, hu, _⟩ := hu v hv
  refine C04_utf8_partial u _ ((C01_decode _ _).2 hu.1) ?_
  rintro p' d r' m rfl hd
  exact h7 (p ++ c! '=' :: p') d (r' ++ r) m (by rw [show x = _ from hx]; simp) hd

/-- A concrete case: one call on `a=b`. -/
example : (∀ p d r m, (b!"a=b" : Bytes) = p ++ c! '%' :: d :: r → HexDigit d m → m < 8) ∧ ∃ it', After QueryIter.next
    (QueryIter.new b!"a=b") 1 [(b!"a", some b!"b")] it' :=
  ⟨fun p d r m e _ => absurd (show c! '%' ∈ (b!"a=b" : Bytes) by rw [e]; simp) (by decide), _,
    .item (it₁ := ⟨⟨b!"a=b", 3, 2, c! 'b'⟩, b!"a", b!"b", []⟩) (by decide +kernel) .zero⟩

/-- Decoding goes on after a byte that is neither part of an escape nor `+`. -/
theorem decodes_split {b : UInt8} (hb : b = c! '=' ∨ b = c! '&' ∨ b = c! ';') {t : Bytes} : ∀ {a y : Bytes},
    Decodes (a ++ b :: t) y → ∃ y1 y2, y = y1 ++ b :: y2 ∧ Decodes a y1 ∧ Decodes t y2 := by
  intro a y h
  generalize hx : a ++ b :: t = x at h
  induction h generalizing a with
  | nil => simp at hx
  | @literal c x y hc _ ih =>
    cases a with
    | nil => cases hx; exact ⟨[], _, rfl, .nil, by assumption⟩
    | cons c' a =>
      simp only [List.cons_append, List.cons.injEq] at hx
      obtain ⟨rfl, hx⟩ := hx
      obtain ⟨y1, y2, rfl, h1, h2⟩ := ih hx
      exact ⟨_ :: y1, y2, rfl, .literal hc h1, h2⟩
  | @plus x y _ ih =>
    cases a with
    | nil =>
      simp only [List.nil_append, List.cons.injEq] at hx
      rw [hx.1] at hb
      exact absurd hb (by decide)
    | cons c' a =>
      simp only [List.cons_append, List.cons.injEq] at hx
      obtain ⟨rfl, hx⟩ := hx
      obtain ⟨y1, y2, rfl, h1, h2⟩ := ih hx
      exact ⟨_ :: y1, y2, rfl, .plus h1, h2⟩
  | @escape c1 c2 m n x y h1 h2 _ ih =>
    have nohex : ∀ n, ¬ HexDigit b n := by
      rcases hb with rfl | rfl | rfl <;> intro n h <;> unfold HexDigit at h <;>
        rcases h with h | h <;> exact absurd (List.mem_of_getElem? h) (by decide)
    cases a with
    | nil =>
      simp only [List.nil_append, List.cons.injEq] at hx
      rw [hx.1] at hb
      exact absurd hb (by decide)
    | cons c' a =>
      simp only [List.cons_append, List.cons.injEq] at hx
      obtain ⟨rfl, hx⟩ := hx
      cases a with
      | nil => simp only [List.nil_append, List.cons.injEq] at hx; rw [hx.1] at nohex; exact absurd h1 (nohex _)
      | cons c' a =>
        simp only [List.cons_append, List.cons.injEq] at hx
        obtain ⟨rfl, hx⟩ := hx
        cases a with
        | nil => simp only [List.nil_append, List.cons.injEq] at hx; rw [hx.1] at nohex; exact absurd h2 (nohex _)
        | cons c' a =>
          simp only [List.cons_append, List.cons.injEq] at hx
          obtain ⟨rfl, hx⟩ := hx
          obtain ⟨y1, y2, rfl, h3, h4⟩ := ih hx
          exact ⟨_ :: y1, y2, rfl, .escape h1 h2 h3, h4⟩

/-- C61 for the values of queries with other escapes: when the query as a whole decodes to UTF-8, the returned values are
well-formed. Missing: see `C61_fails`. -/
theorem C61_query_utf8_partial (x y : Bytes) (hx : Decodes x y) (hy : UTF8 y) (n : Nat) (l : List Item) (it' : QueryIter)
    (h : After QueryIter.next (QueryIter.new x) n l it') : ∀ i ∈ l, ∀ v ∈ i.2, UTF8 v := by
  intro i hi v hv
  obtain ⟨_, _, _, _, _, hu⟩ := query_after h (new_idx x) i hi
  obtain ⟨p, u, r, hs, hu, hr⟩ := hu v hv
  rw [show x = _ from hs] at hx
  obtain ⟨y1, y2, rfl, -, h2⟩ := decodes_split (.inl rfl) hx
  have h3 := hy.right (by decide)
  have det : ∀ {w}, Decodes u w → w = v := by
    intro w hw
    have h4 := (C01_decode _ _).2 hw
    rw [(C01_decode _ _).2 hu.1] at h4
    cases h4; rfl
  cases r with
  | nil => rw [List.append_nil] at h2; rw [← det h2]; exact h3
  | cons s r =>
    obtain ⟨y3, y4, rfl, h4, -⟩ := decodes_split (.inr (hr s rfl)) h2
    rw [← det h4]
    exact h3.left (by rcases hr s rfl with rfl | rfl <;> decide)

/-- A concrete case: one call on `a=%C3%A9&b`. -/
example : (∃ y, Decodes b!"a=%C3%A9&b" y ∧ UTF8 y) ∧ ∃ it', After QueryIter.next
    (QueryIter.new b!"a=%C3%A9&b") 1 [(b!"a", some [0xC3, 0xA9])] it' :=
  ⟨⟨b!"a=" ++ [0xC3, 0xA9] ++ b!"&b", (C01_decode _ _).1 (by decide +kernel), "a=é&b".toList, by decide +kernel⟩, _,
    .item (it₁ := ⟨⟨b!"a=%C3%A9&b", 9, 8, c! '&'⟩, b!"a", [0xC3, 0xA9], []⟩) (by decide +kernel) .zero⟩

theorem not_utf8 : ¬ UTF8 [0xE9] := by
  rintro ⟨m, h⟩
  have : ByteArray.IsValidUTF8 (ByteArray.mk #[0xE9]) := ⟨m, by rw [List.utf8Encode, ← h]; decide⟩
  exact absurd this (by decide)

/-- C61 is false: the field `a=é` in Latin-1 and the query `a=%E9` yield values that are not UTF-8, though they are
returned as `String`. -/
theorem C61_fails : (∃ x l it' n v, Yields FieldIter.next (FieldIter.new x (c! ';') false) l it' ∧ it'.errs = [] ∧
      (n, some v) ∈ l ∧ ¬ UTF8 v) ∧
    ∃ x l it' n v, Yields QueryIter.next (QueryIter.new x) l it' ∧ it'.errs = [] ∧ (n, some v) ∈ l ∧ ¬ UTF8 v := by
  constructor
  · have acc : Accepted (c! ';') false (b!"a=" ++ [0xE9]) [(b!"a", some [0xE9])] :=
      .last (.value (w := b!"a") (n := b!"a") (s := []) (v := [0xE9])
        (NameText.token (w := []) (n := []) (b := c! 'a') (.start (by simp [Blanks])) (by decide) (by decide) nofun)
        (by simp [Blanks]) ⟨by decide, by decide⟩ (by simp))
    obtain ⟨it', h1, h2⟩ := C58_all_fields_accepted_partial _ _ _ _ (by decide) (by decide) acc
    exact ⟨_, _, it', _, _, h1, h2, List.mem_singleton.2 rfl, not_utf8⟩
  · have q : IsQuery false b!"a=%E9" [(b!"a", some [0xE9])] :=
      ⟨.lastPair (w := b!"a") (u := b!"%E9") ⟨.literal (by decide) .nil, by decide, by decide⟩
        ⟨.escape (m := 14) (n := 9) (by decide) (by decide) .nil, by decide⟩, by decide⟩
    obtain ⟨it', h1, h2⟩ := (C05_query_partial _ _).2 q
    exact ⟨_, _, it', _, _, h1, h2, List.mem_singleton.2 rfl, not_utf8⟩

end Verif.Util
