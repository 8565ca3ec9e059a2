import Verif.Props.Http1Read
import Verif.Props.Query

/-!
# Queries and URL-encoded bodies

C81: `QueryIterator` and the parser of URL-encoded bodies are separate pieces of code for the same format. What the
iterator accepts, the parser reads as the same names and values.
-/

namespace Verif.Http1

open Util (Item Pairs Decodes WritesName WritesValue HexDigit)

/-- The callbacks of a field. -/
def itemEvents : Item → List Ev
  | (n, none) => [.urlEncodedBegin, .urlEncodedName n]
  | (n, some v) => [.urlEncodedBegin, .urlEncodedName n, .urlEncodedValue v]

namespace FormQuery

open Read

theorem hex_of {b : UInt8} {n : Nat} (h : HexDigit b n) : hex b = some n := by
  have hn : n < 16 := by
    rcases h with h | h <;> exact (List.getElem?_eq_some_iff.1 h).1
  have key : ∀ b : UInt8, ∀ n : _root_.Fin 16, HexDigit b n → hex b = some n.1 := by
    apply Util.forall_u8; decide +kernel
  exact key b ⟨n, hn⟩ h

theorem of_hex {b : UInt8} {n : Nat} (h : hex b = some n) : HexDigit b n := by
  have key : ∀ b : UInt8, ∀ n, n ∈ hex b → HexDigit b n := by
    apply Util.forall_u8; decide +kernel
  exact key b n h

theorem literal_visible : ∀ b : UInt8, Util.Literal b ↔ VisibleByte b ∧ b ≠ c! '+' ∧ b ≠ c! '%' := by
  apply Util.forall_u8; decide +kernel

theorem say_say (a b : List Ev) (t : Tale) : say a (say b t) = say (a ++ b) t := by simp [say]

theorem say_nil (t : Tale) : say [] t = t := rfl

/-- One event for each byte. -/
def bytewise (val : Bool) (d : Bytes) : List Ev := d.map fun b => formEv val [b]

theorem flat_bytewise (val : Bool) (d : Bytes) : flat (bytewise val d) = flatEv (formEv val d) := by
  induction d with
  | nil => cases val <;> rfl
  | cons b d ih =>
    have h : flat (bytewise val (b :: d)) = flat [formEv val [b]] ++ flat (bytewise val d) := by
      rw [← flat_join]; rfl
    rw [h, ih, flat_formEv]
    cases val <;> rfl

variable {stop : Tale} {rest : Bytes}

theorem fields_decodes {val : Bool} {w d : Bytes} (h : Decodes w d)
    (hs : ∀ b ∈ w, b ∉ b!"&;" ∧ (val = false → b ≠ c! '=')) (r : Bytes) :
    fields stop rest val (w ++ r) = say (bytewise val d) (fields stop rest val r) := by
  induction h with
  | nil => rfl
  | @literal b x s hb _ ih =>
    obtain ⟨hv, hp, he⟩ := (literal_visible b).1 hb
    have h1 := hs b (by simp)
    simp only [List.mem_cons, List.not_mem_nil, or_false, not_or] at h1
    rw [List.cons_append, fields.eq_def]
    dsimp only
    rw [if_neg he, if_neg hp, if_neg (by rintro (h | h); exacts [h1.1.1 h, h1.1.2 h]),
      if_neg (fun h => h1.2 h.2 h.1), if_pos hv, ih (fun b hb => hs b (List.mem_cons_of_mem _ hb)), say_say]
    rfl
  | @plus x s _ ih =>
    rw [List.cons_append, fields.eq_def]
    dsimp only
    rw [if_neg (by decide), if_pos rfl, ih (fun b hb => hs b (List.mem_cons_of_mem _ hb)), say_say]
    rfl
  | @escape a c m n x s ha hc _ ih =>
    rw [List.cons_append, List.cons_append, List.cons_append, fields.eq_def]
    dsimp only
    rw [if_pos rfl, hex_of ha, hex_of hc]
    dsimp only
    rw [ih (fun b hb => hs b (List.mem_cons_of_mem _ (List.mem_cons_of_mem _ (List.mem_cons_of_mem _ hb)))), say_say]
    rfl

theorem fields_name {w n : Bytes} (h : WritesName true w n) (r : Bytes) :
    fields stop rest false (w ++ r) = say (bytewise false n) (fields stop rest false r) :=
  fields_decodes h.1 (fun b hb => by
    have := h.2.1 b hb
    simp only [List.mem_cons, List.not_mem_nil, or_false, not_or] at this ⊢
    exact ⟨⟨this.2.1, this.2.2⟩, fun _ => this.1⟩) r

theorem fields_value {w n : Bytes} (h : WritesValue w n) (r : Bytes) :
    fields stop rest true (w ++ r) = say (bytewise true n) (fields stop rest true r) :=
  fields_decodes h.1 (fun b hb => ⟨h.2 b hb, fun h => by cases h⟩) r

theorem fields_eq (u : Bytes) : fields stop rest false (c! '=' :: u) = fields stop rest true u := by
  rw [fields.eq_def]
  rfl

theorem fields_sep {s : UInt8} (hs : s = c! '&' ∨ s = c! ';') (val : Bool) (u : Bytes) :
    fields stop rest val (s :: u) = say (formBegin u) (fields stop rest false u) := by
  rw [fields.eq_def]
  rcases hs with rfl | rfl <;> rfl

/-- What a sequence of fields tells. -/
theorem fields_pairs {x : Bytes} {l : List Item} (h : Pairs true x l) :
    ∃ es, flat es = flat (l.flatMap itemEvents) ∧
      say (formBegin x) (fields stop rest false x) = say es stop := by
  induction h with
  | nil => exact ⟨[], rfl, by rw [fields]; rfl⟩
  | @lastName w n hw hne =>
    refine ⟨[.urlEncodedBegin] ++ bytewise false n, ?_, ?_⟩
    rotate_left
    · have := fields_name (stop := stop) (rest := rest) hw []
      rw [List.append_nil] at this
      rw [this, fields, say_say, formBegin, if_neg hne]
    · rw [flat_join, flat_bytewise]
      simp [itemEvents, flat, flatEv, formEv]
  | @lastPair w n u v hw hu =>
    refine ⟨[.urlEncodedBegin] ++ bytewise false n ++ bytewise true v, ?_, ?_⟩
    rotate_left
    · have := fields_value (stop := stop) (rest := rest) hu []
      rw [List.append_nil] at this
      rw [fields_name hw, fields_eq, this, fields, say_say, say_say, formBegin, if_neg (by simp)]
    · simp only [flat_join, flat_bytewise]
      simp [itemEvents, flat, flatEv, formEv]
  | @name w n s x l hw hs _ ih =>
    obtain ⟨es, h1, h2⟩ := ih
    refine ⟨[.urlEncodedBegin] ++ bytewise false n ++ es, ?_, ?_⟩
    rotate_left
    · rw [fields_name hw, fields_sep hs, h2, say_say, say_say, formBegin, if_neg (by simp)]
    · simp only [flat_join, flat_bytewise, h1]
      simp [itemEvents, flat, flatEv, formEv]
  | @pair w n u v s x l hw hu hs _ ih =>
    obtain ⟨es, h1, h2⟩ := ih
    refine ⟨[.urlEncodedBegin] ++ bytewise false n ++ bytewise true v ++ es, ?_, ?_⟩
    rotate_left
    · rw [List.append_assoc, List.cons_append, fields_name hw, fields_eq, fields_value hu, fields_sep hs, h2, say_say,
        say_say, say_say, formBegin, if_neg (by simp)]
    · simp only [flat_join, flat_bytewise, h1]
      simp [itemEvents, flat, flatEv, formEv]

theorem form_pairs {x : Bytes} {l : List Item} (h : Pairs true x l) (rest : Bytes) :
    ∃ es, flat es = flat (l.flatMap itemEvents) ∧
      form x.length (x ++ rest) = ⟨es ++ [.bodyFinished], .done rest⟩ := by
  obtain ⟨es, h1, h2⟩ := fields_pairs (stop := say [.bodyFinished] (done rest)) (rest := rest) h
  refine ⟨es, h1, ?_⟩
  rw [form, List.take_left, List.drop_left, if_pos (by simp), h2]
  simp [say, done]

theorem pairs_mono {x : Bytes} {l : List Item} (h : Pairs false x l) : Pairs true x l := by
  have hn : ∀ {w n}, WritesName false w n → WritesName true w n := fun h => ⟨h.1, h.2.1, fun h => by cases h⟩
  induction h with
  | nil => exact .nil
  | lastName h1 h2 => exact .lastName (hn h1) h2
  | lastPair h1 h2 => exact .lastPair (hn h1) h2
  | name h1 h2 _ ih => exact .name (hn h1) h2 ih
  | pair h1 h2 h3 _ ih => exact .pair (hn h1) h2 h3 ih

/-- What the parser accepts: a sequence of fields, also one that ends within an escape. -/
def Accepted (x : Bytes) : Prop := ∃ p y items, x = p ++ y ∧ Pairs true p items ∧ (y = [] ∨ CutEscape y)

theorem fields_cut {y : Bytes} (h : CutEscape y) (val : Bool) : fields stop rest val y = stop := by
  rcases h with rfl | ⟨a, m, ha, rfl⟩
  · rw [fields.eq_def]; rfl
  · rw [fields.eq_def]
    dsimp only
    rw [if_pos rfl, hex_of ha]
    rfl

theorem fields_end {y : Bytes} (h : y = [] ∨ CutEscape y) (val : Bool) : fields stop rest val y = stop := by
  rcases h with rfl | h
  · rw [fields]
  · exact fields_cut h val

theorem pairs_ending {x : Bytes} {l : List Item} (h : Pairs true x l) {y : Bytes} (hy : y = [] ∨ CutEscape y) :
    (fields stop rest false (x ++ y)).ending = stop.ending := by
  induction h with
  | nil => rw [List.nil_append, fields_end hy]
  | lastName hw _ => rw [fields_name hw, fields_end hy]; rfl
  | lastPair hw hu =>
    rw [List.append_assoc, List.cons_append, fields_name hw, fields_eq, fields_value hu, fields_end hy]; rfl
  | name hw hs _ ih =>
    rw [List.append_assoc, List.cons_append, fields_name hw, fields_sep hs]; exact ih
  | pair hw hu hs _ ih =>
    rw [List.append_assoc, List.append_assoc, List.cons_append, fields_name hw, List.cons_append, fields_eq,
      fields_value hu, fields_sep hs]
    exact ih

/-- The rest of a field, in its name or its value. -/
def Begun (val : Bool) (x : Bytes) : Prop :=
  ∃ w d t, x = w ++ t ∧ Decodes w d ∧ (∀ b ∈ w, b ∉ b!"&;" ∧ (val = false → b ≠ c! '=')) ∧
    (t = [] ∨ CutEscape t ∨ (∃ s y, t = s :: y ∧ (s = c! '&' ∨ s = c! ';') ∧ Accepted y) ∨
      (val = false ∧ ∃ w' d' y, t = c! '=' :: (w' ++ y) ∧ WritesValue w' d' ∧
        (y = [] ∨ CutEscape y ∨ ∃ s z, y = s :: z ∧ (s = c! '&' ∨ s = c! ';') ∧ Accepted z)))

theorem begun_value {x : Bytes} (h : Begun true x) : ∃ w d y, x = w ++ y ∧ WritesValue w d ∧
    (y = [] ∨ CutEscape y ∨ ∃ s z, y = s :: z ∧ (s = c! '&' ∨ s = c! ';') ∧ Accepted z) := by
  obtain ⟨w, d, t, h1, h2, h3, h4⟩ := h
  refine ⟨w, d, t, h1, ⟨h2, fun b hb => (h3 b hb).1⟩, ?_⟩
  rcases h4 with h | h | h | ⟨h, _⟩
  · exact .inl h
  · exact .inr (.inl h)
  · exact .inr (.inr h)
  · cases h

theorem begun_accepted {x : Bytes} (h : Begun false x) : Accepted x := by
  obtain ⟨w, d, t, rfl, h2, h3, h4⟩ := h
  have hw : WritesName true w d := by
    refine ⟨h2, fun b hb => ?_, fun h => by cases h⟩
    have := h3 b hb
    simp only [List.mem_cons, List.not_mem_nil, or_false, not_or] at this ⊢
    exact ⟨this.2 trivial, this.1⟩
  have last : ∃ items, Pairs true w items := by
    by_cases hne : w = []
    · subst hne; exact ⟨[], .nil⟩
    · exact ⟨_, .lastName hw hne⟩
  obtain ⟨items, hl⟩ := last
  rcases h4 with h | h | ⟨s, y, rfl, hs, p, z, its, rfl, hp, hz⟩ | ⟨_, w', d', y, rfl, hv, h⟩
  · exact ⟨w, t, items, rfl, hl, .inl h⟩
  · exact ⟨w, t, items, rfl, hl, .inr h⟩
  · exact ⟨w ++ s :: p, z, _, by simp, .name hw hs hp, hz⟩
  · rcases h with h | h | ⟨s, _, rfl, hs, p, z, its, rfl, hp, hz⟩
    · exact ⟨w ++ c! '=' :: w', y, _, by simp, .lastPair hw hv, .inl h⟩
    · exact ⟨w ++ c! '=' :: w', y, _, by simp, .lastPair hw hv, .inr h⟩
    · exact ⟨w ++ c! '=' :: w' ++ s :: p, z, _, by simp, .pair hw hv hs hp, hz⟩

theorem begun_more {val : Bool} {x : Bytes} {b : UInt8} (hb : Util.Literal b) (h1 : b ∉ b!"&;")
    (h2 : val = false → b ≠ c! '=') (h : Begun val x) : Begun val (b :: x) := by
  obtain ⟨w, d, t, rfl, hd, h3, h4⟩ := h
  refine ⟨b :: w, b :: d, t, rfl, .literal hb hd, ?_, h4⟩
  intro c hc
  rcases List.mem_cons.1 hc with rfl | hc
  · exact ⟨h1, h2⟩
  · exact h3 c hc

theorem fields_begun : ∀ (n : Nat) (val : Bool) (x : Bytes), x.length ≤ n →
    (∀ e r, (fields stop rest val x).ending ≠ .wrong e r) → Begun val x
  | _, val, [], _, _ => ⟨[], [], [], rfl, .nil, by simp, .inl rfl⟩
  | 0, _, b :: x, hn, _ => by simp at hn
  | n + 1, val, b :: x, hn, h => by
    simp only [List.length_cons] at hn
    rw [fields.eq_def] at h
    dsimp only at h
    by_cases h1 : b = c! '%'
    · rw [if_pos h1] at h
      subst h1
      rcases x with _ | ⟨a, _ | ⟨c, s⟩⟩
      · exact ⟨[], [], b!"%", rfl, .nil, by simp, .inr (.inl (.inl rfl))⟩
      · dsimp only at h
        rcases ha : hex a with _ | m
        · rw [if_pos ha] at h
          exact absurd rfl (h _ _)
        · exact ⟨[], [], [c! '%', a], rfl, .nil, by simp, .inr (.inl (.inr ⟨a, m, of_hex ha, rfl⟩))⟩
      · dsimp only at h
        rcases ha : hex a with _ | m
        · rw [ha] at h
          exact absurd rfl (h _ _)
        rcases hc : hex c with _ | k
        · rw [ha, hc] at h
          exact absurd rfl (h _ _)
        rw [ha, hc] at h
        simp only [List.length_cons] at hn
        obtain ⟨w, d, t, rfl, hd, h3, h4⟩ := fields_begun n val s (by omega) h
        refine ⟨c! '%' :: a :: c :: w, _, t, rfl, .escape (of_hex ha) (of_hex hc) hd, ?_, h4⟩
        have key : ∀ b : UInt8, (hex b).isSome → b ∉ b!"&;" ∧ b ≠ c! '=' := by
          apply Util.forall_u8; decide +kernel
        intro b hb
        simp only [List.mem_cons] at hb
        rcases hb with rfl | rfl | rfl | hb
        · exact ⟨by decide, fun _ => by decide⟩
        · have := key _ (by rw [ha]; rfl); exact ⟨this.1, fun _ => this.2⟩
        · have := key _ (by rw [hc]; rfl); exact ⟨this.1, fun _ => this.2⟩
        · exact h3 b hb
    rw [if_neg h1] at h
    by_cases h2 : b = c! '+'
    · rw [if_pos h2] at h
      subst h2
      obtain ⟨w, d, t, rfl, hd, h3, h4⟩ := fields_begun n val x (by omega) h
      refine ⟨c! '+' :: w, _, t, rfl, .plus hd, ?_, h4⟩
      intro b hb
      rcases List.mem_cons.1 hb with rfl | hb
      · exact ⟨by decide, fun _ => by decide⟩
      · exact h3 b hb
    rw [if_neg h2] at h
    by_cases h3 : b = c! '&' ∨ b = c! ';'
    · rw [if_pos h3] at h
      exact ⟨[], [], b :: x, rfl, .nil, by simp,
        .inr (.inr (.inl ⟨b, x, rfl, h3, begun_accepted (fields_begun n false x (by omega) h)⟩))⟩
    rw [if_neg h3] at h
    by_cases h4 : b = c! '=' ∧ val = false
    · rw [if_pos h4] at h
      obtain ⟨rfl, rfl⟩ := h4
      obtain ⟨w, d, y, rfl, hw, hy⟩ := begun_value (fields_begun n true x (by omega) h)
      exact ⟨[], [], _, rfl, .nil, by simp, .inr (.inr (.inr ⟨rfl, w, d, y, rfl, hw, hy⟩))⟩
    rw [if_neg h4] at h
    by_cases h5 : VisibleByte b
    · rw [if_pos h5] at h
      refine begun_more ((literal_visible b).2 ⟨h5, h2, h1⟩) ?_ (fun hv hb => h4 ⟨hb, hv⟩)
        (fields_begun n val x (by omega) h)
      simp only [List.mem_cons, List.not_mem_nil, or_false, not_or]
      exact ⟨fun e => h3 (.inl e), fun e => h3 (.inr e)⟩
    · rw [if_neg h5] at h
      exact absurd rfl (h _ _)

theorem form_accepted (x rest : Bytes) :
    (∃ r, (form x.length (x ++ rest)).ending = .done r) ↔ Accepted x := by
  rw [form, List.take_left, List.drop_left, if_pos (by simp)]
  constructor
  · rintro ⟨r, h⟩
    refine begun_accepted (fields_begun (stop := say [.bodyFinished] (done rest)) (rest := rest) _ _ x (le_refl _) ?_)
    intro e r' h'
    rw [show ∀ es t, (say es t).ending = t.ending from fun _ _ => rfl, h'] at h
    cases h
  · rintro ⟨p, y, items, rfl, hp, hy⟩
    exact ⟨rest, pairs_ending hp hy⟩

end FormQuery

open FormQuery

/-- **C81.** A complete run over a sequence of fields, written with any escapes, ends directly after it, with exactly
the callbacks of the fields. (Unlike in C38, fields and names may be empty.) -/
theorem C81_fields (h : Handler) (q : Parser) (l : List Ev) (x : Bytes) (items : List Item) (hx : Pairs true x items)
    (rest : Bytes) (ks : List Nat) (hc : (urlRun h q l x.length ks (x ++ rest)).complete) :
    let o := urlRun h q l x.length ks (x ++ rest)
    o.last = .finished ∧ o.rest = rest ∧
      flat o.world.log = flat (l ++ items.flatMap itemEvents ++ [.bodyFinished]) := by
  intro o
  have := C76_url_partial h q l x.length (x ++ rest) ks hc
  obtain ⟨es, h1, h2⟩ := form_pairs hx rest
  rw [h2] at this
  obtain ⟨e1, e2, e3⟩ := this
  refine ⟨e1, e2, ?_⟩
  rw [e3]
  simp only [flat_join, h1, List.append_assoc]

/-- **C81.** If a loop over a query yields the items `items` without an error, then a complete run of the parser over
the same bytes as a URL-encoded body reports the same names and values. -/
theorem C81_same (h : Handler) (q : Parser) (l : List Ev) (x : Bytes) (items : List Item)
    (hx : ∃ it, Util.Yields Util.QueryIter.next (Util.QueryIter.new x) items it ∧ it.errs = [])
    (rest : Bytes) (ks : List Nat) (hc : (urlRun h q l x.length ks (x ++ rest)).complete) :
    let o := urlRun h q l x.length ks (x ++ rest)
    o.last = .finished ∧ o.rest = rest ∧
      flat o.world.log = flat (l ++ items.flatMap itemEvents ++ [.bodyFinished]) :=
  C81_fields h q l x items (pairs_mono ((Util.C05_query_partial x items).1 hx).1) rest ks hc

/-- **C81.** The other way round: the parser accepts a body exactly if it is a sequence of fields, written with any
escapes, or ends within an escape after such a sequence (C40). Of these, the iterator refuses the ones with an escape
in a name, those that begin with `=`, `&` or `;`, and those that end within an escape (`C05_query_partial`). -/
theorem C81_accepts (h : Handler) (q : Parser) (l : List Ev) (x rest : Bytes) (ks : List Nat)
    (hc : (urlRun h q l x.length ks (x ++ rest)).complete) :
    (urlRun h q l x.length ks (x ++ rest)).last = .finished ↔
      ∃ p y items, x = p ++ y ∧ Pairs true p items ∧ (y = [] ∨ CutEscape y) := by
  rw [(ends_as (C76_url_partial h q l x.length (x ++ rest) ks hc)).2.2]
  exact form_accepted x rest

/-- A query with an empty field, an empty name, an escape in a value and a separator at the end. -/
example : ∃ it, Util.Yields Util.QueryIter.next (Util.QueryIter.new b!"a=%41+b;&=x&c&")
    [(b!"a", some b!"A b"), ([], none), ([], some b!"x"), (b!"c", none)] it ∧ it.errs = [] :=
  ⟨_, .item rfl (.item rfl (.item rfl (.item rfl (.stop rfl)))), rfl⟩

example : (urlRun goOn .new [] 14 [5, 3, 100] (b!"a=%41+b;&=x&c&" ++ b!"rest")).complete := by decide +kernel

/-- The iterator refuses what the parser accepts: an escape in a name. -/
theorem C81_converse_fails : ∃ x, (∃ items, Pairs true x items) ∧
    ¬ ∃ items it, Util.Yields Util.QueryIter.next (Util.QueryIter.new x) items it ∧ it.errs = [] := by
  refine ⟨b!"%41", ⟨_, .lastName (n := b!"A") ⟨.escape (m := 4) (n := 1) (by decide) (by decide) .nil, by decide,
    by decide⟩ (by decide)⟩, ?_⟩
  rintro ⟨items, it, h1, h2⟩
  obtain ⟨it', b, e, he⟩ := Util.C05_rejects_name_escapes [] [] b!"41" ⟨.nil, by decide, by decide⟩
  rw [List.nil_append] at e
  cases h1 with
  | stop h => rw [e] at h; cases h; rw [he] at h2; cases h2
  | item h _ => rw [e] at h; cases h

end Verif.Http1
