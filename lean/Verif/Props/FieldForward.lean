import Verif.Util.FieldForwardSpec
import Verif.Props.FieldAccept

/-!
# C107: the items of a header field can be passed on
-/

namespace Verif.Util

/-- The bytes that can be got in a name. -/
def FieldNameByte (d : UInt8) (z : Bool) (b : UInt8) : Prop :=
  (TokenByte b ∨ b = c! '/') ∧ (z = true → ¬ UpperByte b) ∧ (b = d → z = true ∧ c! 'a' ≤ b ∧ b ≤ c! 'z')

theorem lowered_upper : ∀ b : UInt8, UpperByte b →
    TokenByte (b + 32) ∧ ¬ UpperByte (b + 32) ∧ c! 'a' ≤ b + 32 ∧ b + 32 ≤ c! 'z' :=
  forall_u8 (by unfold UpperByte TokenByte; decide +kernel)

theorem raised_lower : ∀ b : UInt8, c! 'a' ≤ b → b ≤ c! 'z' →
    UpperByte (b - 0x20) ∧ b - 0x20 ≠ b ∧ lower [b - 0x20] = [b] :=
  forall_u8 (by unfold UpperByte lower; decide +kernel)

theorem nameText_bytes {d : UInt8} {z g : Bool} {w n : Bytes} (hd : d ≠ c! '/') (h : NameText d z g w n) :
    ∀ b ∈ n, FieldNameByte d z b := by
  induction h with
  | start => nofun
  | token _ ht hb hu ih =>
    intro c hc
    rcases List.mem_append.1 hc with hc | hc
    · exact ih c hc
    · cases List.mem_singleton.1 hc
      exact ⟨.inl ht, hu, fun e => absurd e hb⟩
  | slash _ _ ih =>
    intro c hc
    rcases List.mem_append.1 hc with hc | hc
    · exact ih c hc
    · cases List.mem_singleton.1 hc
      exact ⟨.inr rfl, fun _ => by decide, fun e => absurd e.symm hd⟩
  | @upper g w n b s hz _ hu _ _ ih =>
    intro c hc
    rcases List.mem_append.1 hc with hc | hc
    · exact ih c hc
    · have : lower [b] = [b + 32] := by simp [lower, hu]
      rw [this] at hc
      cases List.mem_singleton.1 hc
      obtain ⟨h1, h2, h3⟩ := lowered_upper b hu
      exact ⟨.inl h1, fun _ => h2, fun _ => ⟨hz, h3⟩⟩

theorem bytes_nameText {d : UInt8} {z : Bool} (w n : Bytes) (g : Bool) (hw : NameText d z g w n) : ∀ m : Bytes,
    (∀ b ∈ m, FieldNameByte d z b) → ∃ g', NameText d z g' (w ++ passFieldName d m) (n ++ m)
  | [], _ => ⟨g, by simpa [passFieldName] using hw⟩
  | b :: m, h => by
    obtain ⟨h1, h2, h3⟩ := h b (by simp)
    have hm : ∀ c ∈ m, FieldNameByte d z c := fun c hc => h c (by simp [hc])
    by_cases hb : b = d
    · obtain ⟨hz, h4, h5⟩ := h3 hb
      obtain ⟨h6, h7, h8⟩ := raised_lower b h4 h5
      have hs := NameText.upper (s := []) hz hw h6 (fun e => h7 (e.trans hb.symm)) (by simp [Blanks])
      rw [h8] at hs
      obtain ⟨g', h9⟩ := bytes_nameText _ _ _ hs m hm
      exact ⟨g', by simpa [passFieldName, hb] using h9⟩
    · rcases h1 with ht | rfl
      · obtain ⟨g', h9⟩ := bytes_nameText _ _ _ (NameText.token hw ht hb h2) m hm
        exact ⟨g', by simpa [passFieldName, hb] using h9⟩
      · obtain ⟨g', h9⟩ := bytes_nameText _ _ _ (NameText.slash (s := []) hw (by simp [Blanks])) m hm
        exact ⟨g', by simpa [passFieldName, hb] using h9⟩

theorem passQuoted : ∀ v : Bytes, Quoted (v.flatMap passQuotedByte) v
  | [] => .nil
  | b :: v => by
    rw [List.flatMap_cons]
    by_cases hb : QuotedByte b ∧ b ≠ 255
    · rw [show passQuotedByte b = [b] from if_pos hb]
      exact .plain hb.1 hb.2 (passQuoted v)
    · rw [show passQuotedByte b = [c! '\\', b] from if_neg hb]
      exact .escaped (passQuoted v)

theorem passField_accepted {d : UInt8} {z : Bool} (hd : ¬ Blank d) : ∀ l : List Item,
    (∀ i ∈ l, ∀ b ∈ i.1, FieldNameByte d z b) → Accepted d z (passField d l) l
  | [], _ => .nothing (.start (by simp [Blanks, passField]))
  | (n, v) :: l, h => by
    rw [passField, List.flatMap_cons]
    refine .cons ?_ (passField_accepted hd l fun i hi => h i (by simp [hi]))
    obtain ⟨g, hn⟩ := bytes_nameText [] [] true (.start (by simp [Blanks])) n (h (n, v) (by simp))
    cases v with
    | none => exact .name hn fun _ => hd
    | some v =>
      have := ClosedItem.quoted (s := []) (s' := []) hn (by simp [Blanks]) (passQuoted v) (by simp [Blanks]) hd
      simpa [passFieldItem] using this

theorem closed_name {d : UInt8} {z : Bool} {t : Bytes} {i : Item} (h : ClosedItem d z t i) :
    ∃ g w, NameText d z g w i.1 := by
  cases h <;> exact ⟨_, _, ‹_›⟩

theorem last_name {d : UInt8} {z : Bool} {t : Bytes} {i : Item} (h : LastItem d z t i) :
    ∃ g w, NameText d z g w i.1 := by
  cases h <;> exact ⟨_, _, ‹_›⟩

theorem accepted_names {d : UInt8} {z : Bool} {x : Bytes} {l : List Item} (h : Accepted d z x l) :
    ∀ i ∈ l, ∃ g w, NameText d z g w i.1 := by
  induction h with
  | nothing => nofun
  | last h => intro i hi; cases List.mem_singleton.1 hi; exact last_name h
  | cons h _ ih =>
    intro i hi
    rcases List.mem_cons.1 hi with rfl | hi
    · exact closed_name h
    · exact ih i hi

theorem rejected_names {d : UInt8} {z : Bool} {x : Bytes} {l : List Item} {e : FieldError} (h : Rejected d z x l e) :
    ∀ i ∈ l, ∃ g w, NameText d z g w i.1 := by
  induction h with
  | here => nofun
  | cons h _ ih =>
    intro i hi
    rcases List.mem_cons.1 hi with rfl | hi
    · exact closed_name h
    · exact ih i hi

theorem field_names {d : UInt8} {z : Bool} {x : Bytes} {l : List Item} {it' : FieldIter} (hd : d ≠ c! '/')
    (h : Yields FieldIter.next (FieldIter.new x d z) l it') : ∀ i ∈ l, ∀ b ∈ i.1, FieldNameByte d z b := by
  intro i hi
  have : ∃ g w, NameText d z g w i.1 := by
    rcases yields_explained h (fnew_idx x d z) with ⟨_, h⟩ | ⟨e, _, h⟩
    · exact accepted_names h i hi
    · exact rejected_names h i hi
  obtain ⟨g, w, h⟩ := this
  exact nameText_bytes hd h

/-- **C107 (the items of a header field can be passed on).** Let a loop over any field have given the items `l`, whether
it ended at the end of the field or with an error. A field written from the items gives the same items, with the same
settings, and no error; so it is the same when it is passed on again. The delimiter is none of `=`, `/`, `"`, a blank
and byte 255. -/
theorem C107_field (d : UInt8) (z : Bool) (hd : d ≠ c! '=' ∧ d ≠ c! '/' ∧ d ≠ 255 ∧ ¬ Blank d) (hq : d ≠ c! '"')
    (x : Bytes) (l : List Item) (it' : FieldIter) (h : Yields FieldIter.next (FieldIter.new x d z) l it') :
    ∃ it₂, Yields FieldIter.next (FieldIter.new (passField d l) d z) l it₂ ∧ it₂.errs = [] :=
  C58_all_fields_accepted_partial d z _ l hd hq (passField_accepted hd.2.2.2 l (field_names hd.2.1 h))

/-- A concrete case of C107: the loop ends with an error after three items. -/
example : ∃ it', Yields FieldIter.next (FieldIter.new b!"Text/Html; q=\"a\\\"\\\r\"x;b=1 2;c=\x01" (c! ';') true)
      [(b!"text/html", none), (b!"q", some b!"a\"\r"), (b!"b", some b!"1 2")] it' ∧ it'.errs ≠ [] ∧
    passField (c! ';') [(b!"text/html", none), (b!"q", some b!"a\"\r"), (b!"b", some b!"1 2")] =
      b!"text/html;q=\"a\\\"\\\r\";;b=\"1 2\";;" :=
  ⟨_, .item rfl (.item rfl (.item rfl (.stop rfl))), by decide +kernel, by decide +kernel⟩

/-- **C107 (which items there are).** With such a delimiter `d`, a list of items can be got from a field iff every byte
of a name is a token byte or a slash; none is an upper-case letter if names are normalised; and none is the delimiter,
unless names are normalised and the delimiter is a lower-case letter. The values may be any bytes, and names may be
empty. -/
theorem C107_which (d : UInt8) (z : Bool) (hd : d ≠ c! '=' ∧ d ≠ c! '/' ∧ d ≠ 255 ∧ ¬ Blank d) (hq : d ≠ c! '"')
    (l : List Item) :
    (∃ x it', Yields FieldIter.next (FieldIter.new x d z) l it') ↔
      ∀ i ∈ l, ∀ b ∈ i.1, (TokenByte b ∨ b = c! '/') ∧ (z = true → ¬ UpperByte b) ∧
        (b = d → z = true ∧ c! 'a' ≤ b ∧ b ≤ c! 'z') := by
  constructor
  · rintro ⟨x, it', h⟩
    exact field_names hd.2.1 h
  · intro h
    obtain ⟨it₂, h, _⟩ := C58_all_fields_accepted_partial d z _ l hd hq (passField_accepted hd.2.2.2 l h)
    exact ⟨_, _, h⟩

/-- A concrete case: a value with a zero byte and byte 255 and an empty name can be got, a name with an upper-case
letter only without normalisation, a name with the delimiter not at all. -/
example : (∃ x it', Yields FieldIter.next (FieldIter.new x (c! '&') true) [(b!"a/b", some [0, 255]), ([], none)] it') ∧
    (∃ x it', Yields FieldIter.next (FieldIter.new x (c! '&') false) [(b!"A", none)] it') ∧
    (¬ ∃ x it', Yields FieldIter.next (FieldIter.new x (c! '&') true) [(b!"A", none)] it') ∧
    ¬ ∃ x it', Yields FieldIter.next (FieldIter.new x (c! '&') false) [(b!"a&b", none)] it' := by
  have h : (c! '&' : UInt8) ≠ c! '=' ∧ (c! '&' : UInt8) ≠ c! '/' ∧ (c! '&' : UInt8) ≠ 255 ∧ ¬ Blank (c! '&') := by decide
  refine ⟨(C107_which _ _ h (by decide) _).2 ?_, (C107_which _ _ h (by decide) _).2 ?_, fun h' => ?_, fun h' => ?_⟩
  · unfold TokenByte; decide
  · unfold TokenByte; decide
  · exact absurd ((C107_which _ _ h (by decide) _).1 h' (b!"A", none) (by decide) (c! 'A') (by decide)).2.1 (by decide)
  · exact absurd ((C107_which _ _ h (by decide) _).1 h' (b!"a&b", none) (by decide) (c! '&') (by decide)).2.2 (by decide)

end Verif.Util
