import Verif.Http2.ForwardSpec
import Verif.Http2.Order
import Mathlib.Tactic.SplitIfs

/-!
# Helper lemmas: frames that are passed on
-/

namespace Verif.Http2

/-! ## Numbers -/

theorem num_be1 (x : Nat) (h : x < 2 ^ 8) : num (be 1 x) = x := by
  simp only [be, num, List.foldl_cons, List.foldl_nil, UInt8.toNat_ofNat']; omega
theorem num_be2 (x : Nat) (h : x < 2 ^ 16) : num (be 2 x) = x := by
  simp only [be, num, List.foldl_cons, List.foldl_nil, UInt8.toNat_ofNat']; omega
theorem num_be3 (x : Nat) (h : x < 2 ^ 24) : num (be 3 x) = x := by
  simp only [be, num, List.foldl_cons, List.foldl_nil, UInt8.toNat_ofNat']; omega
theorem num_be4 (x : Nat) (h : x < 2 ^ 32) : num (be 4 x) = x := by
  simp only [be, num, List.foldl_cons, List.foldl_nil, UInt8.toNat_ofNat']; omega

theorem be_len : ∀ k n, (be k n).length = k
  | 0, _ => rfl
  | k + 1, n => by rw [be, List.length_cons, be_len k n]

theorem readField_be {size x : Nat} {r : Bytes} {k : Nat → Bytes → Tale} (h : num (be size x) = x) :
    readField size (be size x ++ r) k = k x r := by
  rw [readField, if_neg (by rw [List.length_append, be_len]; omega), List.take_left' (be_len ..),
    List.drop_left' (be_len ..), h]

theorem readField_one {b : UInt8} {r : Bytes} {k : Nat → Bytes → Tale} : readField 1 (b :: r) k = k b.toNat r := by
  simp [readField, num]

theorem readField_word {e : Bool} {x : UInt32} (hx : x.toNat < 2 ^ 31) {r : Bytes} {k : Nat → Bytes → Tale} :
    readField 4 (word e x ++ r) k = k (x.toNat + if e then 2 ^ 31 else 0) r := by
  rw [word]
  refine readField_be (num_be4 _ ?_)
  cases e <;> (simp; omega)

theorem word_parts {e : Bool} {x : UInt32} (hx : x.toNat < 2 ^ 31) :
    (decide (2 ^ 31 ≤ x.toNat + if e = true then 2 ^ 31 else 0) = e) ∧
      UInt32.ofNat ((x.toNat + if e = true then 2 ^ 31 else 0) % 2 ^ 31) = x := by
  constructor
  · cases e with
    | false => simp; omega
    | true => simp
  · have : (x.toNat + if e = true then 2 ^ 31 else 0) % 2 ^ 31 = x.toNat := by cases e <;> simp <;> omega
    rw [this, UInt32.ofNat_toNat]

/-! ## What a frame header and fields can say -/

/-- Lengths have 24 bits, ids 31. -/
def Ev.InRange : Ev → Prop
  | .frameFormat n _ _ id => n.toNat < 2 ^ 24 ∧ id.toNat < 2 ^ 31
  | .headers _ d _ => d.toNat < 2 ^ 31
  | .priority _ d _ => d.toNat < 2 ^ 31
  | .goAway l _ => l.toNat < 2 ^ 31
  | _ => True

/-- All of `t` is in range. -/
def Fits (t : Tale) : Prop := ∀ e ∈ t.1, e.InRange

section
variable {r : Bytes} {t : Tale} {n p : Nat}

theorem f_none {a : After} : Fits ([], a) := nofun
theorem f_tell {es : List Ev} (h : ∀ e ∈ es, e.InRange) (ht : Fits t) : Fits (tell es t) := by
  intro e he
  rcases List.mem_append.1 he with he | he
  · exact h e he
  · exact ht e he
theorem f_one {e : Ev} {a : After} (h : e.InRange) : Fits ([e], a) := by
  intro x hx
  rw [List.mem_singleton.1 hx]; exact h
theorem f_field {size : Nat} {k : Nat → Bytes → Tale} (h : ∀ v s, Fits (k v s)) : Fits (readField size r k) := by
  unfold readField
  split_ifs
  · exact f_none
  · exact h _ _
theorem f_pad {padded : Bool} {k : Nat → Nat → Bytes → Tale} (h : ∀ v p s, Fits (k v p s)) :
    Fits (readPad padded n r k) := by
  unfold readPad
  split_ifs
  · exact f_field fun v s => f_none
  · exact f_field fun v s => h _ _ _
  · exact h _ _ _
theorem f_data {k : Kind} : Fits (readData k n p r) := by
  unfold readData
  split_ifs
  · exact f_none
  · exact f_none
  · intro e he
    obtain ⟨b, -, rfl⟩ := List.mem_map.1 he
    trivial
  · intro e he
    rcases List.mem_append.1 he with he | he
    · obtain ⟨b, -, rfl⟩ := List.mem_map.1 he
      trivial
    · rw [List.mem_singleton.1 he]; trivial

theorem low31 (x : Nat) : (UInt32.ofNat (x % 2 ^ 31)).toNat < 2 ^ 31 := by
  rw [UInt32.toNat_ofNat']; omega

theorem f_body (ty fl : UInt8) : Fits (readBody n ty fl r) := by
  unfold readBody
  dsimp only
  split
  · exact f_pad fun _ _ _ => f_data
  · refine f_pad fun _ _ _ => ?_
    split_ifs
    · exact f_field fun _ _ => f_field fun _ _ => f_none
    · exact f_field fun _ _ => f_field fun _ _ => f_tell (by simpa [Ev.InRange] using low31 _) f_data
    · exact f_tell (by simp [Ev.InRange]) f_data
    · exact f_tell nofun f_data
  · exact f_field fun _ _ => f_field fun _ _ => f_one (low31 _)
  · exact f_field fun _ _ => f_one trivial
  · exact f_field fun _ _ => f_field fun _ _ => f_one trivial
  · refine f_pad fun _ _ _ => f_field fun _ _ => ?_
    split_ifs
    · exact f_none
    · exact f_none
    · exact f_tell (by simp [Ev.InRange]) f_data
  · exact f_data
  · refine f_field fun _ _ => f_field fun _ _ => ?_
    split_ifs
    · exact f_none
    · exact f_tell (by simpa [Ev.InRange] using low31 _) f_none
    · exact f_tell (by simpa [Ev.InRange] using low31 _) f_data
  · exact f_field fun _ _ => f_one trivial
  · exact f_data
  · exact f_pad fun _ _ _ => f_data

theorem num3_lt (r : Bytes) (h : ¬ r.length < 3) : num (r.take 3) < 2 ^ 24 := by
  match r, h with
  | a :: b :: c :: r, _ =>
    have ha := a.toNat_lt
    have hb := b.toNat_lt
    have hc := c.toNat_lt
    simp only [num, List.take_succ_cons, List.take_zero, List.foldl_cons, List.foldl_nil]
    omega
  | [], h | [_], h | [_, _], h => exact absurd (by simp) h

theorem f_frame {marks : List Nat} {pos : Nat} : Fits (readFrameC marks pos r) := by
  unfold readFrameC
  have hk : ∀ k : Nat → Bytes → Tale, readField 3 r k = if r.length < 3 then ([], .stop) else k (num (r.take 3)) (r.drop 3) :=
    fun _ => rfl
  rw [hk]
  by_cases h3 : r.length < 3
  · rw [if_pos h3]; exact f_none
  rw [if_neg h3]
  refine f_field fun t _ => f_field fun f _ => f_field fun id _ => f_tell ?_ ?_
  · intro e he
    rw [List.mem_singleton.1 he]
    refine ⟨?_, ?_⟩
    · have := num3_lt r h3
      rw [UInt32.toNat_ofNat']; omega
    · split_ifs
      · rw [UInt32.toNat_ofNat']; omega
      · exact low31 _
  · split_ifs
    · exact f_none
    · exact f_body _ _

theorem f_frames {marks : List Nat} : ∀ (k pos : Nat) (m : Bytes), ∀ e ∈ (readFramesC marks k pos m).1, e.InRange
  | 0, _, _ => nofun
  | k + 1, pos, m => by
    have h1 := f_frame (marks := marks) (pos := pos) (r := m)
    rw [readFramesC]
    generalize readFrameC marks pos m = t at h1
    obtain ⟨es, a⟩ := t
    cases a with
    | stop => exact h1
    | panic => exact h1
    | go r =>
      intro e he
      rcases List.mem_append.1 he with he | he
      · exact h1 e he
      · exact f_frames k _ r e he
end

theorem inRange_of_flat {l : List Ev} (h : ∀ e ∈ flat l, e.InRange) : ∀ e ∈ l, e.InRange := by
  intro e he
  cases e with
  | payload => trivial
  | _ => exact h _ (List.mem_flatMap.2 ⟨_, he, by simp [flatEv]⟩)

/-! ## The payload of one frame -/

/-- The callbacks for data. -/
def dataEvs (k : Kind) (D : Bytes) : List Ev := D.map fun b => .payload k [b] false

theorem dataEvs_append (k : Kind) (a b : Bytes) : dataEvs k (a ++ b) = dataEvs k a ++ dataEvs k b := by
  simp [dataEvs]

theorem flat_cons (e : Ev) (l : List Ev) : flat (e :: l) = flatEv e ++ flat l := by simp [flat]

/-- Only data is left of a frame. -/
theorem walk_tail (d : Draft) : ∀ (l : List Ev) (s u : Spot), walk s l = some u → s.over = false → s.due = false →
    u.over = true → (∀ p q, l = p ++ q → q ≠ [] → ∃ v, walk s p = some v ∧ v.over = false) →
    flat l = dataEvs (Spot.kind s.type) (l.flatMap d.part) ++ [.payload (Spot.kind s.type) [] true] ∧
      (l.flatMap d.part).length ≤ s.left ∧
      (Spot.padded s.type s.flags = true ∨ (l.flatMap d.part).length = s.left)
  | [], s, u, h, h1, _, h3, _ => by
    cases h
    rw [h1] at h3; cases h3
  | e :: l, s, u, h, h1, h2, h3, hp => by
    rw [walk_cons] at h
    cases hn : s.next e with
    | none => rw [hn] at h; cases h
    | some v =>
      rw [hn, Option.bind_some] at h
      have hno : ∀ t, s.fields t ≠ some v := by
        intro t ht
        unfold Spot.fields at ht
        split_ifs at ht with hc
        rw [h2] at hc
        exact absurd hc.2.1 (by simp)
      cases e with
      | payload k x fin =>
        obtain ⟨⟨-, -, h4, h5, h6⟩, rfl⟩ := next_payload.1 hn
        subst h4
        rw [flat_cons, List.flatMap_cons]
        by_cases hl : l = []
        · subst hl
          cases h
          simp only at h3
          subst h3
          refine ⟨?_, ?_, ?_⟩
          · simp [flatEv, flat, dataEvs, Draft.part]
          · simpa [Draft.part] using h5
          · simpa [Draft.part] using h6 rfl
        · obtain ⟨v, hv, hv'⟩ := hp [.payload (Spot.kind s.type) x fin] l rfl hl
          rw [walk_cons, hn, Option.bind_some, walk_nil] at hv
          cases hv
          simp only at hv'
          subst hv'
          obtain ⟨i1, i2, i3⟩ := walk_tail d l _ u h rfl h2 h3 (by
            intro p q e hq
            obtain ⟨v, hv, hv'⟩ := hp (.payload (Spot.kind s.type) x false :: p) q (by rw [e, List.cons_append]) hq
            rw [walk_cons, hn, Option.bind_some] at hv
            exact ⟨v, hv, hv'⟩)
          simp only at i1 i2 i3
          refine ⟨?_, ?_, ?_⟩
          · rw [i1, ← List.append_assoc, dataEvs_append]
            simp [flatEv, dataEvs, Draft.part]
          · simp only [Draft.part, List.length_append]; omega
          · refine i3.imp id fun i3 => ?_
            simp only [Draft.part, List.length_append]; omega
      | frameFormat n t f id =>
        rw [Spot.next, if_neg (by rw [h1]; simp)] at hn; cases hn
      | headers e x w =>
        rw [Spot.next] at hn
        split_ifs at hn
        exact absurd hn (hno _)
      | _ => exact absurd hn (hno _)

/-- Data that is read to its end. -/
theorem read_blob {k : Kind} {D r : Bytes} (hr : r ≠ []) :
    readData k D.length 0 (D ++ r) = (dataEvs k D ++ [.payload k [] true], .go r) := by
  have h1 : D ++ r ≠ [] := by simp [hr]
  rw [readData, if_neg h1, if_neg (by omega), if_neg (by simp)]
  simp [dataEvs]

theorem read_pad0 {n : Nat} {r : Bytes} {b : Bool} {k : Nat → Nat → Bytes → Tale} :
    readPad b (n + if b then 1 else 0) ((if b then [0] else []) ++ r) k = k n 0 r := by
  cases b with
  | false => rfl
  | true =>
    simp only [readPad, if_true, List.singleton_append]
    rw [readField_one, if_neg (by omega)]
    rfl

/-- The callback with the fields of a frame. -/
inductive FieldsOf (type flags : UInt8) : Ev → Prop
  | headers (e d w) : type = 1 → (Spot.prio flags = true ∨ (e, d, w) = (false, 0, 0)) → FieldsOf type flags (.headers e d w)
  | priority (e d w) : type = 2 → FieldsOf type flags (.priority e d w)
  | rstStream (c) : type = 3 → FieldsOf type flags (.rstStream c)
  | settings (i v) : type = 4 → FieldsOf type flags (.settings i v)
  | pushPromise (s) : type = 5 → FieldsOf type flags (.pushPromise s)
  | goAway (l c) : type = 7 → FieldsOf type flags (.goAway l c)
  | windowUpdate (i) : type = 8 → FieldsOf type flags (.windowUpdate i)

theorem fields_inv {s v : Spot} {t : UInt8} (h : s.fields t = some v) : s.type = t ∧ v = { s with due := false, over :=
    t == 2 || t == 3 || t == 4 || t == 8 || (t == 7 && s.left == 0) } := by
  unfold Spot.fields at h
  split_ifs at h with hc
  exact ⟨hc.2.2, (Option.some.inj h).symm⟩

theorem first_field {s v : Spot} {e : Ev} (hn : s.next e = some v) (h1 : s.over = false) (h2 : s.due = true) :
    FieldsOf s.type s.flags e ∧ v = { s with due := false, over :=
      s.type == 2 || s.type == 3 || s.type == 4 || s.type == 8 || (s.type == 7 && s.left == 0) } := by
  cases e with
  | payload k x fin =>
    obtain ⟨⟨-, h, -⟩, -⟩ := next_payload.1 hn
    rw [h2] at h; cases h
  | frameFormat n t f id =>
    rw [Spot.next, if_neg (by rw [h1]; simp)] at hn; cases hn
  | headers e d w =>
    rw [Spot.next] at hn
    split_ifs at hn with hc
    obtain ⟨g1, g2⟩ := fields_inv hn
    exact ⟨.headers _ _ _ g1 hc, by rw [g2, g1]⟩
  | priority e d w =>
    obtain ⟨g1, g2⟩ := fields_inv hn
    exact ⟨.priority _ _ _ g1, by rw [g2, g1]⟩
  | rstStream c =>
    obtain ⟨g1, g2⟩ := fields_inv hn
    exact ⟨.rstStream _ g1, by rw [g2, g1]⟩
  | settings i v =>
    obtain ⟨g1, g2⟩ := fields_inv hn
    exact ⟨.settings _ _ g1, by rw [g2, g1]⟩
  | pushPromise i =>
    obtain ⟨g1, g2⟩ := fields_inv hn
    exact ⟨.pushPromise _ g1, by rw [g2, g1]⟩
  | goAway i c =>
    obtain ⟨g1, g2⟩ := fields_inv hn
    exact ⟨.goAway _ _ g1, by rw [g2, g1]⟩
  | windowUpdate i =>
    obtain ⟨g1, g2⟩ := fields_inv hn
    exact ⟨.windowUpdate _ g1, by rw [g2, g1]⟩

/-- Only the end of `l` is the end of a frame. -/
def EndsOnce (s : Spot) (l : List Ev) : Prop :=
  (∃ u, walk s l = some u ∧ u.over = true) ∧ ∀ p q, l = p ++ q → q ≠ [] → ∃ v, walk s p = some v ∧ v.over = false

theorem EndsOnce.tail {s v : Spot} {e : Ev} {l : List Ev} (h : EndsOnce s (e :: l)) (hn : s.next e = some v) :
    EndsOnce v l := by
  obtain ⟨⟨u, h1, h2⟩, h3⟩ := h
  rw [walk_cons, hn, Option.bind_some] at h1
  refine ⟨⟨u, h1, h2⟩, fun p q he hq => ?_⟩
  obtain ⟨w, h4, h5⟩ := h3 (e :: p) q (by rw [he, List.cons_append]) hq
  rw [walk_cons, hn, Option.bind_some] at h4
  exact ⟨w, h4, h5⟩

/-- A frame that is over has no more callbacks. -/
theorem EndsOnce.over {s : Spot} {l : List Ev} (h : EndsOnce s l) (hs : s.over = true) : l = [] := by
  by_contra hl
  obtain ⟨v, h1, h2⟩ := h.2 [] l rfl hl
  cases h1
  rw [hs] at h2; cases h2

theorem EndsOnce.data {s : Spot} {l : List Ev} (h : EndsOnce s l) (d : Draft) (h1 : s.over = false) (h2 : s.due = false) :
    flat l = dataEvs (Spot.kind s.type) (l.flatMap d.part) ++ [.payload (Spot.kind s.type) [] true] ∧
      (l.flatMap d.part).length ≤ s.left ∧
      (Spot.padded s.type s.flags = true ∨ (l.flatMap d.part).length = s.left) := by
  obtain ⟨⟨u, h3, h4⟩, h5⟩ := h
  exact walk_tail d l s u h3 h1 h2 h4 h5

theorem EndsOnce.cons {s : Spot} {l : List Ev} (h : EndsOnce s l) (h1 : s.over = false) :
    ∃ e k v, l = e :: k ∧ s.next e = some v ∧ EndsOnce v k := by
  obtain ⟨u, h3, h4⟩ := h.1
  cases l with
  | nil => cases h3; rw [h1] at h4; cases h4
  | cons e k =>
    cases hn : s.next e with
    | none => rw [walk_cons, hn] at h3; cases h3
    | some v => exact ⟨e, k, v, rfl, hn, h.tail hn⟩

end Verif.Http2
