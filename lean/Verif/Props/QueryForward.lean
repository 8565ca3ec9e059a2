import Verif.Util.Forward
import Verif.Props.FieldAccept
import Verif.Props.Iterators

/-!
# C105: the items of a query can be passed on
-/

namespace Verif.Util

theorem yields_after {ι : Type} {next : ι → Step ι} {it it' : ι} {l : List Item} (h : Yields next it l it') :
    After next it (l.length + 1) l it' := by
  induction h with
  | stop h => exact .none h .zero
  | item h _ ih => exact .item h ih

theorem first_name {x : Bytes} {i : Item} {l : List Item} {it' : QueryIter}
    (h : Yields QueryIter.next (QueryIter.new x) (i :: l) it') : i.1 ≠ [] := by
  cases h with
  | item h1 h2 =>
    have e := C80_queries x 1
    simp only [said, h1] at e
    simp only [Read.query, Read.calls] at e
    by_cases hx : x = []
    · rw [if_pos hx] at e; cases e
    · rw [if_neg hx] at e
      cases hr : Read.queryName true x [] with
      | item j r =>
        rw [hr] at e
        injection e with e _
        injection e with e _
        injection e with e
        subst e
        exact name_grows x [] true (.inr ⟨rfl, hx⟩) hr
      | wrong => rw [hr] at e; cases e
      | nothing => rw [hr] at e; cases e
      | crash => rw [hr] at e; cases e

theorem passed {l : List Item} (hn : ∀ i ∈ l, ∃ w, WritesName false w i.1) (hf : ∀ i ∈ l.head?, i.1 ≠ []) :
    ∃ it₂, Yields QueryIter.next (QueryIter.new (passQuery l)) l it₂ ∧ it₂.errs = [] := by
  rw [C05_query_partial]
  refine ⟨passQuery_pairs l hn, fun b hb => ?_⟩
  cases l with
  | nil => cases hb
  | cons i l =>
    obtain ⟨w, hw⟩ := hn i (by simp)
    have hp := (passName_writes hw).2.1
    have hne := hf i rfl
    have e : ∃ c s, passName i.1 = c :: s := by
      cases hi : i.1 with
      | nil => exact absurd hi hne
      | cons c s => exact ⟨_, _, rfl⟩
    obtain ⟨c, s, e⟩ := e
    have : (passQuery (i :: l)).head? = some c := by
      obtain ⟨n, v⟩ := i
      cases v <;> simp [passQuery, passItem, e]
    rw [this] at hb
    cases hb
    exact hp _ (by simp [e])

theorem names_written {x : Bytes} {l : List Item} {it' : QueryIter}
    (h : Yields QueryIter.next (QueryIter.new x) l it') : ∀ i ∈ l, ∃ w, WritesName false w i.1 := fun i hi => by
  obtain ⟨p, w, r, _, hw, _⟩ := query_after (yields_after h) (new_idx x) i hi
  exact ⟨w, hw⟩

theorem first_names {x : Bytes} {l : List Item} {it' : QueryIter}
    (h : Yields QueryIter.next (QueryIter.new x) l it') : ∀ i ∈ l.head?, i.1 ≠ [] := fun i hi => by
  cases l with
  | nil => cases hi
  | cons j l => cases hi; exact first_name h

/-- **C105 (the items of a query can be passed on).** Let a loop over any query have given the items `l`, whether
it ended at the end of the query or with an error. A query written from the items gives the same items, and no
error; so it is the same when it is passed on again. -/
theorem C105_query (x : Bytes) (l : List Item) (it' : QueryIter)
    (h : Yields QueryIter.next (QueryIter.new x) l it') :
    ∃ it₂, Yields QueryIter.next (QueryIter.new (passQuery l)) l it₂ ∧ it₂.errs = [] :=
  passed (names_written h) (first_names h)

/-- A concrete case of C105: the loop ends with an error after three items. -/
example : ∃ it', Yields QueryIter.next (QueryIter.new b!"x+y=1%26a%3d2&b;&z=%4&c")
      [(b!"x y", some b!"1&a=2"), (b!"b", none), ([], none)] it' ∧
    it'.errs ≠ [] ∧
    passQuery [(b!"x y", some b!"1&a=2"), (b!"b", none), ([], none)] = b!"x+y=1%26a%3d2&b&&" :=
  ⟨_, .item rfl (.item rfl (.item rfl (.stop rfl))), by decide +kernel, by decide +kernel⟩

/-- The bytes that can be got in a name. -/
def NameByte (b : UInt8) : Prop := 0x20 ≤ b ∧ b ≤ 0x7E ∧ b ∉ b!"%+=&;"

theorem name_byte : ∀ b : UInt8, (Literal b ∧ b ∉ b!"=&;") ∨ b = c! ' ' ↔ NameByte b :=
  forall_u8 (by unfold NameByte Literal; decide +kernel)

theorem name_bytes {w n : Bytes} (h : WritesName false w n) : ∀ b ∈ n, NameByte b := by
  obtain ⟨h1, h2, h3⟩ := h
  replace h3 := h3 rfl
  induction h1 with
  | nil => nofun
  | @literal b x s hb _ ih =>
    intro c hc
    rcases List.mem_cons.1 hc with rfl | hc
    · exact (name_byte c).1 (.inl ⟨hb, h2 c (by simp)⟩)
    · exact ih (fun c hc => h2 c (by simp [hc])) (fun hc => h3 (by simp [hc])) c hc
  | @plus x s _ ih =>
    intro c hc
    rcases List.mem_cons.1 hc with rfl | hc
    · exact (name_byte _).1 (.inr rfl)
    · exact ih (fun c hc => h2 c (by simp [hc])) (fun hc => h3 (by simp [hc])) c hc
  | escape => exact absurd (List.mem_cons_self ..) h3

theorem bytes_name : ∀ n : Bytes, (∀ b ∈ n, NameByte b) → WritesName false (passName n) n
  | [], _ => ⟨.nil, nofun, by simp [passName]⟩
  | b :: n, h => by
    obtain ⟨i1, i2, i3⟩ := bytes_name n fun c hc => h c (by simp [hc])
    rcases (name_byte b).2 (h b (by simp)) with ⟨hb, hn⟩ | rfl
    · have hs : b ≠ c! ' ' := by rintro rfl; exact absurd hb (by decide)
      have e : passName (b :: n) = b :: passName n := by simp [passName, hs]
      rw [e]
      refine ⟨.literal hb i1, fun c hc => ?_, fun _ hc => ?_⟩
      · rcases List.mem_cons.1 hc with rfl | hc
        · exact hn
        · exact i2 c hc
      · rcases List.mem_cons.1 hc with rfl | hc
        · exact absurd hb (by decide)
        · exact i3 rfl hc
    · have e : passName (c! ' ' :: n) = c! '+' :: passName n := by simp [passName]
      rw [e]
      refine ⟨.plus i1, fun c hc => ?_, fun _ hc => ?_⟩
      · rcases List.mem_cons.1 hc with rfl | hc
        · decide
        · exact i2 c hc
      · rcases List.mem_cons.1 hc with hc | hc
        · exact absurd hc (by decide)
        · exact i3 rfl hc

/-- **C105 (which items there are).** A list of items can be got from a query iff every byte of a name is printable
or a space and none of `%`, `+`, `=`, `&` and `;`, and the first name is not empty. The values may be any bytes. -/
theorem C105_which (l : List Item) :
    (∃ x it', Yields QueryIter.next (QueryIter.new x) l it') ↔
      (∀ i ∈ l, ∀ b ∈ i.1, 0x20 ≤ b ∧ b ≤ 0x7E ∧ b ∉ b!"%+=&;") ∧ ∀ i ∈ l.head?, i.1 ≠ [] := by
  constructor
  · rintro ⟨x, it', h⟩
    refine ⟨fun i hi => ?_, first_names h⟩
    obtain ⟨w, hw⟩ := names_written h i hi
    exact name_bytes hw
  · rintro ⟨h1, h2⟩
    obtain ⟨it₂, h, _⟩ := passed (fun i hi => ⟨_, bytes_name i.1 (h1 i hi)⟩) h2
    exact ⟨_, _, h⟩

/-- A concrete case: a value with a zero byte and an empty second name can be got, an empty first name and a name
with `=` cannot. -/
example : (∃ x it', Yields QueryIter.next (QueryIter.new x) [(b!"a b", some [0, 255]), ([], some b!"1")] it') ∧
    (¬ ∃ x it', Yields QueryIter.next (QueryIter.new x) [([], some b!"1")] it') ∧
    ¬ ∃ x it', Yields QueryIter.next (QueryIter.new x) [(b!"a=", some b!"1")] it' :=
  ⟨(C105_which _).2 (by decide), fun h => absurd ((C105_which _).1 h) (by decide),
    fun h => absurd ((C105_which _).1 h) (by decide)⟩

end Verif.Util
