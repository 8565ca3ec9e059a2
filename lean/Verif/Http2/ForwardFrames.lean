import Verif.Http2.Forward
import Mathlib.Tactic.SplitIfs

/-!
# Lemmas: what is read from the frames that were written

Used by C104.
-/

namespace Verif.Http2

/-- A HEADERS frame. -/
theorem read_headers {n : Nat} {f : UInt8} {e : Bool} {y : UInt32} {w : UInt8} {D r x : Bytes} (hn : n < 2 ^ 24)
    (hne : r ≠ []) (hy : y.toNat < 2 ^ 31) (hc : Spot.prio f = true ∨ (e, y, w) = (false, 0, 0))
    (hf : Spot.hasFields 1 f = true) (h2 : D.length ≤ n - Spot.overhead 1 f)
    (hx : x = (if Spot.padded 1 f = true then [0] else []) ++ ((if Spot.prio f = true then word e y ++ [w] else []) ++ D)) :
    x.length < 2 ^ 24 ∧ readBody x.length 1 f (x ++ r) =
      (.headers e y w :: (dataEvs .headersFragment D ++ [.payload .headersFragment [] true]), .go r) := by
  have hb : ∀ L q, readBody L 1 f q = readPad (Spot.padded 1 f) L q fun n p r =>
      if Spot.prio f = true then
        readField 4 r fun d r => readField 1 r fun w r =>
        if n < 5 then ([], .panic)
        else tell [.headers (2 ^ 31 ≤ d) (UInt32.ofNat (d % 2 ^ 31)) (UInt8.ofNat w)]
          (readData .headersFragment (n - 5) p r)
      else tell (if Spot.padded 1 f = true then [.headers false 0 0] else []) (readData .headersFragment n p r) :=
    fun _ _ => rfl
  have ho : Spot.overhead 1 f = (if Spot.padded 1 f = true then 1 else 0) + if Spot.prio f = true then 5 else 0 := by
    simp [Spot.overhead]
  have hf' : Spot.hasFields 1 f = (Spot.padded 1 f || Spot.prio f) := by simp [Spot.hasFields]
  rw [hb]
  rw [ho] at h2
  rw [hf'] at hf
  clear hb ho hf'
  generalize Spot.padded 1 f = a at *
  generalize Spot.prio f = b at *
  cases b with
  | true =>
    simp only [if_true] at hx h2 ⊢
    have hl : x.length = (5 + D.length) + if a = true then 1 else 0 := by
      rw [hx]
      cases a <;> simp [word, be_len] <;> omega
    refine ⟨by rw [hl]; cases a <;> simp at h2 ⊢ <;> omega, ?_⟩
    rw [hl, hx, List.append_assoc, read_pad0, List.append_assoc, List.append_assoc, readField_word hy,
      List.singleton_append, readField_one, if_neg (by omega), (word_parts hy).1, (word_parts hy).2, UInt8.ofNat_toNat,
      Nat.add_sub_cancel_left, read_blob hne]
    rfl
  | false =>
    have ha : a = true := by simpa using hf
    subst ha
    simp only [Bool.false_eq_true, if_false, List.nil_append, false_or, Prod.mk.injEq] at hx hc ⊢
    obtain ⟨rfl, rfl, rfl⟩ := hc
    have hl : x.length = D.length + if true = true then 1 else 0 := by simp [hx]
    refine ⟨by rw [hl]; simp at h2 ⊢; omega, ?_⟩
    rw [hl, hx, List.append_assoc]
    change readPad true (D.length + if true = true then 1 else 0) ((if true = true then [0] else []) ++ (D ++ r)) _ = _
    rw [read_pad0, read_blob hne]
    rfl

/-- A PUSH_PROMISE frame. -/
theorem read_push {n : Nat} {f : UInt8} {y : UInt32} {D r x : Bytes} (hn : n < 2 ^ 24)
    (hne : r ≠ []) (h2 : D.length ≤ n - Spot.overhead 5 f)
    (hx : x = (if Spot.padded 5 f = true then [0] else []) ++ (be 4 y.toNat ++ D)) :
    x.length < 2 ^ 24 ∧ readBody x.length 5 f (x ++ r) =
      (.pushPromise y :: (dataEvs .headersFragment D ++ [.payload .headersFragment [] true]), .go r) := by
  have hb : ∀ L q, readBody L 5 f q = readPad (Spot.padded 5 f) L q fun n p r => readField 4 r fun s r =>
      if r = [] then ([], .stop)
      else if n < 4 then ([], .panic)
      else tell [.pushPromise (UInt32.ofNat s)] (readData .headersFragment (n - 4) p r) := fun _ _ => rfl
  have ho : Spot.overhead 5 f = (if Spot.padded 5 f = true then 1 else 0) + 4 := rfl
  rw [hb]
  rw [ho] at h2
  clear hb ho
  generalize Spot.padded 5 f = a at *
  have hl : x.length = (4 + D.length) + if a = true then 1 else 0 := by
    rw [hx]
    cases a <;> simp [be_len]
  refine ⟨by rw [hl]; cases a <;> simp at h2 ⊢ <;> omega, ?_⟩
  rw [hl, hx, List.append_assoc, read_pad0, List.append_assoc, readField_be (num_be4 _ y.toNat_lt),
    if_neg (by simp [hne]), if_neg (by omega), UInt32.ofNat_toNat, Nat.add_sub_cancel_left, read_blob hne]
  rfl

/-- A GOAWAY frame. -/
theorem read_goAway {n : Nat} {f : UInt8} {l c : UInt32} {D r x : Bytes} {es : List Ev} (hn : n < 2 ^ 24)
    (hne : r ≠ []) (hl : l.toNat < 2 ^ 31) (h2 : D.length ≤ n - 8)
    (h3 : if D = [] then es = [] else es = dataEvs .goAwayDebugData D ++ [.payload .goAwayDebugData [] true])
    (hx : x = (word false l ++ be 4 c.toNat) ++ D) :
    x.length < 2 ^ 24 ∧ readBody x.length 7 f (x ++ r) = (.goAway l c :: es, .go r) := by
  have hb : ∀ L q, readBody L 7 f q = readField 4 q fun l r => readField 4 r fun c r =>
      if L < 8 then ([], .panic)
      else tell [.goAway (UInt32.ofNat (l % 2 ^ 31)) (UInt32.ofNat c)]
        (if L = 8 then ([], .go r) else readData .goAwayDebugData (L - 8) 0 r) := fun _ _ => rfl
  rw [hb]
  have hL : x.length = 8 + D.length := by rw [hx]; simp [word, be_len]; omega
  refine ⟨by omega, ?_⟩
  rw [hL, hx, List.append_assoc, List.append_assoc, readField_word hl, readField_be (num_be4 _ c.toNat_lt),
    if_neg (by omega), (word_parts hl).2, UInt32.ofNat_toNat]
  by_cases hD : D = []
  · rw [if_pos hD] at h3
    subst hD h3
    rfl
  · rw [if_neg hD] at h3
    have : 0 < D.length := List.length_pos_iff.2 hD
    rw [if_neg (by omega), Nat.add_sub_cancel_left, read_blob hne, h3]
    rfl

/-- A frame of a type without fields. -/
theorem read_plain {n : Nat} {t f : UInt8} {D r x : Bytes} (hn : n < 2 ^ 24) (hne : r ≠ [])
    (hf : Spot.hasFields t f = false) (h2 : D.length ≤ n - Spot.overhead t f)
    (hx : x = (if Spot.padded t f = true then [0] else []) ++ D) :
    x.length < 2 ^ 24 ∧ readBody x.length t f (x ++ r) =
      (dataEvs (Spot.kind t) D ++ [.payload (Spot.kind t) [] true], .go r) := by
  have hl : x.length = D.length + if Spot.padded t f = true then 1 else 0 := by
    rw [hx]; cases Spot.padded t f <;> simp
  have ho : (if Spot.padded t f = true then 1 else 0) ≤ Spot.overhead t f := by simp [Spot.overhead]
  refine ⟨by rw [hl]; revert ho; cases Spot.padded t f <;> simp <;> omega, ?_⟩
  have key : readBody x.length t f (x ++ r) = readPad (Spot.padded t f) x.length (x ++ r) (readData (Spot.kind t)) := by
    have hb : ∀ L q, readBody L t f q = readPad (Spot.padded t f) L q (readData (Spot.kind t)) := by
      intro L q
      unfold readBody
      dsimp only
      split
      · rfl
      · have : Spot.padded 1 f = false ∧ Spot.prio f = false := by simpa [Spot.hasFields] using hf
        have hp : (f &&& 0x8 == 0x8) = false := this.1
        have hq : (f &&& 0x20 == 0x20) = false := this.2
        rw [padded1, hp, hq]
        rfl
      · cases hf
      · cases hf
      · cases hf
      · cases hf
      · rfl
      · cases hf
      · cases hf
      · rfl
      · rename_i h0 h1 h2 h3 h4 h5 h6 h7 h8 h9
        have hty : 9 < t := by
          have : ∀ t : UInt8, ¬t = 0 → ¬t = 1 → ¬t = 2 → ¬t = 3 → ¬t = 4 → ¬t = 5 → ¬t = 6 → ¬t = 7 → ¬t = 8 →
              ¬t = 9 → 9 < t := by
            intro ty
            simp only [← UInt8.toNat_inj, UInt8.lt_iff_toNat_lt, UInt8.reduceToNat]
            omega
          exact this t h0 h1 h2 h3 h4 h5 h6 h7 h8 h9
        have hk : Kind.unsupported = Spot.kind t := by simp_all [Spot.kind]
        rw [padded_other f hty, hk]
    exact hb _ _
  rw [key, hl, hx, List.append_assoc, read_pad0, read_blob hne]

/-- What is written for the payload of one frame is read as the same callbacks. -/
theorem read_payload {n : Nat} (hn : n < 2 ^ 24) {t f : UInt8} {es : List Ev} (h : EndsOnce (Spot.enter n t f) es)
    (hr : ∀ e ∈ es, e.InRange) {r : Bytes} (hne : r ≠ []) (d : Draft) (hd : d.flags = f) {x : Bytes}
    (hx : x = (if Spot.padded t f = true then [0] else []) ++ es.flatMap d.part) :
    x.length < 2 ^ 24 ∧ readBody x.length t f (x ++ r) = (flat es, .go r) := by
  by_cases hdue : Spot.hasFields t f = true
  · obtain ⟨e, k, v, rfl, hn1, hk⟩ := h.cons rfl
    obtain ⟨hf, rfl⟩ := first_field hn1 rfl hdue
    have he := hr e (by simp)
    rw [List.flatMap_cons] at hx
    simp only [Spot.enter] at hf hk
    rw [flat_cons]
    cases hf with
    | headers e y w ht hc =>
      subst ht
      obtain ⟨h1, h2, -⟩ := hk.data d rfl rfl
      rw [h1]
      simp only [Draft.part, hd] at hx
      exact read_headers hn hne he hc hdue h2 hx
    | pushPromise y ht =>
      subst ht
      obtain ⟨h1, h2, -⟩ := hk.data d rfl rfl
      rw [h1]
      exact read_push hn hne h2 hx
    | goAway l c ht =>
      subst ht
      have ho : Spot.overhead 7 f = 8 := rfl
      rw [ho] at hk
      rw [show Spot.padded 7 f = false from rfl] at hx
      by_cases h0 : n - 8 = 0
      · have := hk.over (by simp [h0])
        subst this
        refine read_goAway hn hne he (D := []) (Nat.zero_le _) ?_ ?_
        · rw [if_pos rfl]; rfl
        · simpa [Draft.part] using hx
      · obtain ⟨h1, h2, h3⟩ := hk.data d (by simp [h0]) rfl
        simp only at h1 h2 h3
        rw [h1]
        refine read_goAway hn hne he (D := k.flatMap d.part) h2 ?_ ?_
        · rw [if_neg]; · rfl
          intro hD
          rw [hD] at h3
          rcases h3 with h3 | h3
          · cases h3
          · simp at h3; omega
        · simpa [Draft.part] using hx
    | priority e y w ht =>
      subst ht
      have := hk.over rfl
      subst this
      have hy : y.toNat < 2 ^ 31 := he
      simp only [List.flatMap_nil, List.append_nil, Draft.part] at hx
      rw [show Spot.padded 2 f = false from rfl, if_neg (by simp), List.nil_append] at hx
      refine ⟨by rw [hx]; simp [word, be_len], ?_⟩
      rw [show readBody x.length 2 f (x ++ r) = readField 4 (x ++ r) fun d r => readField 1 r fun w r =>
        ([.priority (2 ^ 31 ≤ d) (UInt32.ofNat (d % 2 ^ 31)) (UInt8.ofNat w)], .go r) from rfl,
        hx, List.append_assoc, readField_word hy, List.singleton_append, readField_one, (word_parts hy).1,
        (word_parts hy).2, UInt8.ofNat_toNat]
      rfl
    | rstStream c ht =>
      subst ht
      have := hk.over rfl
      subst this
      simp only [List.flatMap_nil, List.append_nil, Draft.part] at hx
      rw [show Spot.padded 3 f = false from rfl, if_neg (by simp), List.nil_append] at hx
      refine ⟨by rw [hx]; simp [be_len], ?_⟩
      rw [show readBody x.length 3 f (x ++ r) = readField 4 (x ++ r) fun c r => ([.rstStream (UInt32.ofNat c)], .go r)
        from rfl, hx, readField_be (num_be4 _ c.toNat_lt), UInt32.ofNat_toNat]
      rfl
    | settings i v ht =>
      subst ht
      have := hk.over rfl
      subst this
      simp only [List.flatMap_nil, List.append_nil, Draft.part] at hx
      rw [show Spot.padded 4 f = false from rfl, if_neg (by simp), List.nil_append] at hx
      refine ⟨by rw [hx]; simp [be_len], ?_⟩
      rw [show readBody x.length 4 f (x ++ r) = readField 2 (x ++ r) fun i r => readField 4 r fun v r =>
        ([.settings (UInt16.ofNat i) (UInt32.ofNat v)], .go r) from rfl,
        hx, List.append_assoc, readField_be (num_be2 _ i.toNat_lt), readField_be (num_be4 _ v.toNat_lt),
        UInt32.ofNat_toNat, UInt16.ofNat_toNat]
      rfl
    | windowUpdate i ht =>
      subst ht
      have := hk.over rfl
      subst this
      simp only [List.flatMap_nil, List.append_nil, Draft.part] at hx
      rw [show Spot.padded 8 f = false from rfl, if_neg (by simp), List.nil_append] at hx
      refine ⟨by rw [hx]; simp [be_len], ?_⟩
      rw [show readBody x.length 8 f (x ++ r) = readField 4 (x ++ r) fun c r => ([.windowUpdate (UInt32.ofNat c)], .go r)
        from rfl, hx, readField_be (num_be4 _ i.toNat_lt), UInt32.ofNat_toNat]
      rfl
  · have hdue : Spot.hasFields t f = false := by simpa using hdue
    obtain ⟨h1, h2, -⟩ := h.data d rfl hdue
    rw [h1]
    exact read_plain hn hne hdue h2 hx

/-! ## The history -/

/-- After these callbacks. -/
def Draft.fill (d : Draft) (es : List Ev) : Draft := { d with text := d.text ++ es.flatMap d.part }

theorem fill_nil (d : Draft) : d.fill [] = d := by simp [Draft.fill]
theorem part_fill (d : Draft) (es : List Ev) : (d.fill es).part = d.part := by
  funext e; cases e <;> rfl
theorem fill_cons (d : Draft) (e : Ev) (es : List Ev) : (d.fill [e]).fill es = d.fill (e :: es) := by
  rw [Draft.fill, part_fill]
  simp [Draft.fill]

theorem forwardFrom_cons (d : Draft) (e : Ev) (l : List Ev) (he : e.isFrame = false) :
    forwardFrom d (e :: l) = (if d.ends e = true then (d.fill [e]).write else []) ++ forwardFrom (d.fill [e]) l := by
  cases e with
  | frameFormat => cases he
  | _ => simp [forwardFrom, Draft.fill]

/-- The handler and the order agree on where frames end. -/
theorem ends_iff {d : Draft} {s v : Spot} {e : Ev} (h : s.next e = some v) (h1 : s.over = false)
    (h2 : s.due = true → s.type = 7 → s.left = d.length - 8) : e.isFrame = false ∧ d.ends e = v.over := by
  cases e with
  | frameFormat n t f id =>
    rw [Spot.next, if_neg (by rw [h1]; simp)] at h; cases h
  | payload k x fin =>
    obtain ⟨-, rfl⟩ := next_payload.1 h
    exact ⟨rfl, rfl⟩
  | headers e x w =>
    rw [Spot.next] at h
    split_ifs at h
    obtain ⟨-, rfl⟩ := fields_inv h
    exact ⟨rfl, rfl⟩
  | goAway l c =>
    have hd : s.due = true ∧ s.type = 7 := by
      have h : s.fields 7 = some v := h
      unfold Spot.fields at h
      split_ifs at h with hc
      exact hc.2
    obtain ⟨-, rfl⟩ := fields_inv h
    refine ⟨rfl, ?_⟩
    have := h2 hd.1 hd.2
    simp only [Draft.ends, this]
    rw [Bool.eq_iff_iff]
    simp
    omega
  | _ =>
    obtain ⟨-, rfl⟩ := fields_inv h
    exact ⟨rfl, rfl⟩

theorem next_due {s v : Spot} {e : Ev} (h : s.next e = some v) (h1 : s.over = false) : v.due = false := by
  by_cases h2 : s.due = true
  · rw [(first_field h h1 h2).2]
  · have h2 : s.due = false := by simpa using h2
    cases e with
    | frameFormat n t f id =>
      rw [Spot.next, if_neg (by rw [h1]; simp)] at h; cases h
    | payload k x fin =>
      obtain ⟨-, rfl⟩ := next_payload.1 h
      exact h2
    | headers e x w =>
      rw [Spot.next] at h
      split_ifs at h
      obtain ⟨-, rfl⟩ := fields_inv h
      rfl
    | _ =>
      obtain ⟨-, rfl⟩ := fields_inv h
      rfl

/-- The callbacks of a frame that gets complete, and those after it. -/
theorem first_frame : ∀ (l : List Ev) (d : Draft) (s u : Spot), s.over = false →
    (s.due = true → s.type = 7 → s.left = d.length - 8) → walk s l = some u → u.over = true →
    ∃ es rest v, l = es ++ rest ∧ EndsOnce s es ∧ walk v rest = some u ∧ v.over = true ∧
      forwardFrom d l = (d.fill es).write ++ forwardFrom (d.fill es) rest
  | [], d, s, u, h1, _, h, h3 => by
    cases h
    rw [h1] at h3; cases h3
  | e :: l, d, s, u, h1, h2, h, h3 => by
    rw [walk_cons] at h
    cases hn : s.next e with
    | none => rw [hn] at h; cases h
    | some v =>
      rw [hn, Option.bind_some] at h
      obtain ⟨g1, g2⟩ := ends_iff hn h1 h2
      rw [forwardFrom_cons _ _ _ g1, g2]
      cases hv : v.over with
      | true =>
        refine ⟨[e], l, v, rfl, ⟨⟨v, ?_, hv⟩, fun p q hpq hq => ?_⟩, h, hv, by simp⟩
        · rw [walk_cons, hn, Option.bind_some, walk_nil]
        · cases p with
          | nil => exact ⟨s, rfl, h1⟩
          | cons a p =>
            simp only [List.cons_append, List.cons.injEq] at hpq
            obtain ⟨-, hpq⟩ := hpq
            exact absurd (List.append_eq_nil_iff.1 hpq.symm).2 hq
      | false =>
        obtain ⟨es, rest, w, i1, ⟨⟨x, i2, i3⟩, i4⟩, i5, i6, i7⟩ := first_frame l (d.fill [e]) v u hv
          (fun hd => by rw [next_due hn h1] at hd; cases hd) h h3
        refine ⟨e :: es, rest, w, by rw [i1, List.cons_append], ⟨⟨x, ?_, i3⟩, fun p q hpq hq => ?_⟩, i5, i6, ?_⟩
        · rw [walk_cons, hn, Option.bind_some, i2]
        · cases p with
          | nil => exact ⟨s, rfl, h1⟩
          | cons a p =>
            simp only [List.cons_append, List.cons.injEq] at hpq
            obtain ⟨rfl, hpq⟩ := hpq
            obtain ⟨y, j1, j2⟩ := i4 p q hpq hq
            exact ⟨y, by rw [walk_cons, hn, Option.bind_some, j1], j2⟩
        · rw [i7, if_neg (by simp), List.nil_append, fill_cons]

/-- Between frames, the draft does not matter. -/
theorem forwardFrom_over {v u : Spot} {l : List Ev} (h : walk v l = some u) (hv : v.over = true) (d d' : Draft) :
    forwardFrom d l = forwardFrom d' l := by
  cases l with
  | nil => rfl
  | cons e l =>
    rw [walk_cons] at h
    cases hn : v.next e with
    | none => rw [hn] at h; cases h
    | some w =>
      have hno : ∀ t, v.fields t ≠ some w := by
        intro t ht
        unfold Spot.fields at ht
        split_ifs at ht with hc
        rw [hv] at hc
        exact absurd hc.1 (by simp)
      cases e with
      | frameFormat => rfl
      | payload =>
        obtain ⟨⟨h1, -⟩, -⟩ := next_payload.1 hn
        rw [hv] at h1; cases h1
      | headers =>
        rw [Spot.next] at hn
        split_ifs at hn
        exact absurd hn (hno _)
      | _ => exact absurd hn (hno _)

/-- The frame that is written. -/
theorem read_write {d : Draft} {r : Bytes} (h1 : d.text.length < 2 ^ 24) (h2 : d.id.toNat < 2 ^ 31) :
    readFrame (d.write ++ r) = tell [.frameFormat (UInt32.ofNat d.text.length) d.type d.flags d.id]
      (readBody d.text.length d.type d.flags (d.text ++ r)) := by
  rw [readFrame, Draft.write, List.append_assoc, List.append_assoc, List.append_assoc, readField_be (num_be3 _ h1),
    List.cons_append, readField_one, List.cons_append, readField_one, List.nil_append, readField_word h2,
    (word_parts (e := false) h2).2, UInt8.ofNat_toNat, UInt8.ofNat_toNat]

/-- What is written for one history after another. -/
theorem forward_append : ∀ (p q : List Ev) (d : Draft), ∃ d', forwardFrom d (p ++ q) = forwardFrom d p ++ forwardFrom d' q
  | [], q, d => ⟨d, rfl⟩
  | e :: p, q, d => by
    cases e with
    | frameFormat n t f id => exact forward_append p q (.start n t f id)
    | _ =>
      obtain ⟨d', h⟩ := forward_append p q (d.fill [_])
      refine ⟨d', ?_⟩
      rw [List.cons_append, forwardFrom_cons _ _ _ rfl, forwardFrom_cons _ _ _ rfl, h, List.append_assoc]

/-- Nothing, or a frame header first. -/
def Headed (l : List Ev) : Prop := l = [] ∨ ∃ n t f id k, l = .frameFormat n t f id :: k

theorem Headed.any {l : List Ev} (h : Headed l) (d d' : Draft) : forwardFrom d l = forwardFrom d' l := by
  rcases h with rfl | ⟨n, t, f, id, k, rfl⟩ <;> rfl

theorem headed_walk {s u : Spot} {l : List Ev} (hs : s.over = true) (h : walk s l = some u) : Headed l := by
  cases l with
  | nil => exact .inl rfl
  | cons e l =>
    rw [walk_cons] at h
    cases hn : s.next e with
    | none => rw [hn] at h; cases h
    | some w =>
      have hno : ∀ t, s.fields t ≠ some w := by
        intro t ht
        unfold Spot.fields at ht
        split_ifs at ht with hc
        rw [hs] at hc
        exact absurd hc.1 (by simp)
      cases e with
      | frameFormat n t f id => exact .inr ⟨_, _, _, _, _, rfl⟩
      | payload =>
        obtain ⟨⟨h1, -⟩, -⟩ := next_payload.1 hn
        rw [hs] at h1; cases h1
      | headers =>
        rw [Spot.next] at hn
        split_ifs at hn
        exact absurd hn (hno _)
      | _ => exact absurd hn (hno _)

theorem headed_bare {l k : List Ev} (h : l.map Ev.bare = (flat k).map Ev.bare) (hk : Headed k) : Headed l := by
  rcases hk with rfl | ⟨n, t, f, id, k, rfl⟩
  · exact .inl (List.map_eq_nil_iff.1 h)
  · cases l with
    | nil => exact .inl rfl
    | cons e l =>
      rw [flat_cons] at h
      simp only [flatEv, List.map_cons, List.cons_append, Ev.bare, List.cons.injEq] at h
      cases e with
      | frameFormat => exact .inr ⟨_, _, _, _, _, rfl⟩
      | _ => simp at h

/-- The pieces of data do not matter. -/
theorem forward_data (k : Kind) : ∀ (x : Bytes) (l : List Ev) (d : Draft),
    forwardFrom d (x.map (fun b => .payload k [b] false) ++ l) = forwardFrom { d with text := d.text ++ x } l
  | [], l, d => by simp
  | b :: x, l, d => by
    rw [List.map_cons, List.cons_append, forwardFrom_cons _ _ _ rfl, forward_data k x]
    simp [Draft.ends, Draft.fill, Draft.part]

theorem forward_flat : ∀ (l : List Ev) (d : Draft), forwardFrom d (flat l) = forwardFrom d l
  | [], _ => rfl
  | e :: l, d => by
    rw [flat_cons]
    cases e with
    | frameFormat n t f id => exact forward_flat l _
    | payload k x fin =>
      rw [flatEv, List.append_assoc, forward_data, forwardFrom_cons _ _ _ rfl]
      cases fin with
      | false =>
        simp only [Bool.false_eq_true, if_false, List.nil_append, Draft.ends]
        rw [forward_flat l]; simp [Draft.fill, Draft.part]
      | true =>
        simp only [if_true, List.singleton_append]
        rw [forwardFrom_cons _ _ _ rfl, forward_flat l]
        simp [Draft.fill, Draft.part, Draft.ends]
    | _ =>
      simp only [flatEv, List.singleton_append]
      rw [forwardFrom_cons _ _ _ rfl, forwardFrom_cons _ _ _ rfl, forward_flat l]

/-- The announced length only matters for where frames end. -/
theorem forward_length : ∀ (l : List Ev) (d : Draft) (n : Nat), (∀ e ∈ l, e.isFrame = false) →
    (∀ e ∈ l, ({ d with length := n } : Draft).ends e = d.ends e) → forwardFrom { d with length := n } l = forwardFrom d l
  | [], _, _, _, _ => rfl
  | e :: l, d, n, h1, h2 => by
    have h3 : ∀ (d : Draft) (n : Nat), ({ d with length := n } : Draft).fill [e] = { d.fill [e] with length := n } := by
      intro d n; cases e <;> rfl
    have h4 : ∀ (d : Draft) (n : Nat), ({ d with length := n } : Draft).write = d.write := fun _ _ => rfl
    rw [forwardFrom_cons _ _ _ (h1 e (by simp)), forwardFrom_cons _ _ _ (h1 e (by simp)), h2 e (by simp), h3, h4,
      forward_length l (d.fill [e]) n (fun x hx => h1 x (by simp [hx]))]
    intro x hx
    have := h2 x (by simp [hx])
    cases x <;> exact this

/-- The callbacks of a frame are none for a frame header. -/
theorem EndsOnce.noFrame : ∀ {l : List Ev} {s : Spot}, EndsOnce s l → s.over = false → ∀ e ∈ l, e.isFrame = false
  | [], _, _, _ => nofun
  | x :: l, s, h, hs => by
    obtain ⟨e, k, v, h1, h2, h3⟩ := h.cons hs
    cases h1
    have hx : x.isFrame = false := by
      cases x with
      | frameFormat => rw [Spot.next, if_neg (by rw [hs]; simp)] at h2; cases h2
      | _ => rfl
    intro e he
    rcases List.mem_cons.1 he with rfl | he
    · exact hx
    · by_cases hv : v.over = true
      · rw [h3.over hv] at he; cases he
      · exact EndsOnce.noFrame h3 (by simpa using hv) e he

theorem not_data {s : Spot} {l : List Ev} (h : EndsOnce s l) (h1 : s.over = false) (h2 : s.due = false) {a c : UInt32} :
    Ev.goAway a c ∉ l := by
  intro hm
  have h3 := (h.data ⟨0, 0, 0, 0, []⟩ h1 h2).1
  have h4 : Ev.goAway a c ∈ flat l := List.mem_flatMap.2 ⟨_, hm, by simp [flatEv]⟩
  rw [h3] at h4
  simp [dataEvs] at h4

/-- The length of a GOAWAY frame does not change. -/
theorem goAway_length {n : UInt32} {t f : UInt8} {id : UInt32} {es : List Ev} (h : EndsOnce (Spot.enter n.toNat t f) es)
    {a c : UInt32} (hm : Ev.goAway a c ∈ es) : ((Draft.start n t f id).fill es).text.length ≤ 8 ↔ n.toNat ≤ 8 := by
  cases hd : (Spot.enter n.toNat t f).due with
  | false => exact absurd hm (not_data h rfl hd)
  | true =>
    obtain ⟨e, k, v, h1, h2, h3⟩ := h.cons rfl
    subst h1
    obtain ⟨h4, h5⟩ := first_field h2 rfl hd
    have hk : Ev.goAway a c ∉ k := by
      by_cases hv : v.over = true
      · rw [h3.over hv]; simp
      · exact not_data h3 (by simpa using hv) (by rw [h5])
    have he : e = .goAway a c := by
      rcases List.mem_cons.1 hm with h | h
      · exact h.symm
      · exact absurd h hk
    subst he
    cases h4 with
    | goAway _ _ h7 =>
      have h7 : t = 7 := h7
      subst h7
      have hl : v.left = n.toNat - 8 := by rw [h5]; rfl
      have ho : v.over = (n.toNat - 8 == 0) := by rw [h5]; rfl
      have ht : ((Draft.start n 7 f id).fill (.goAway a c :: k)).text.length =
          8 + (k.flatMap (Draft.start n 7 f id).part).length := by
        have h8 : ((Draft.start n 7 f id).part (.goAway a c)).length = 8 := by simp [Draft.part, word, be_len]
        have h9 : (Draft.start n 7 f id).text = [] := by simp [Draft.start, padded7]
        rw [Draft.fill, List.flatMap_cons]
        simp only [List.length_append, h8, h9, List.length_nil, Nat.zero_add]
      rw [ht]
      by_cases hv : v.over = true
      · rw [h3.over hv]
        rw [ho] at hv
        have := of_decide_eq_true hv
        simp; omega
      · have h6 := (h3.data (.start n 7 f id) (by simpa using hv) (by rw [h5])).2.2
        rw [h5] at h6
        have h6 : (k.flatMap (Draft.start n 7 f id).part).length = n.toNat - 8 := by
          rcases h6 with h6 | h6
          · cases h6
          · exact h6
        omega

theorem frame_again {n : UInt32} {t f : UInt8} {id : UInt32} {es : List Ev} (h : EndsOnce (Spot.enter n.toNat t f) es)
    (hT : ((Draft.start n t f id).fill es).text.length < 2 ^ 24) :
    forwardFrom (.start (UInt32.ofNat ((Draft.start n t f id).fill es).text.length) t f id) es =
      forwardFrom (.start n t f id) es := by
  have h1 : (UInt32.ofNat ((Draft.start n t f id).fill es).text.length).toNat = ((Draft.start n t f id).fill es).text.length :=
    UInt32.toNat_ofNat_of_lt (Nat.lt_trans hT (by decide))
  refine forward_length es (.start n t f id) (UInt32.ofNat ((Draft.start n t f id).fill es).text.length).toNat (h.noFrame rfl) ?_
  intro e he
  rw [h1]
  cases e with
  | goAway a c =>
    have := goAway_length (id := id) h he
    simp only [Draft.ends]
    exact decide_eq_decide.2 this
  | _ => rfl

/-- All frames of a history that ends with a frame are read again, if something follows. -/
theorem read_forward (b : UInt8) : ∀ (j k : Nat) (l : List Ev) (s u : Spot) (d : Draft), l.length ≤ j → s.over = true →
    walk s l = some u → u.over = true → (∀ e ∈ l, e.InRange) → (forwardFrom d l).length + 1 ≤ k →
    ∃ es, readFrames k (forwardFrom d l ++ [b]) = (es, false) ∧ es.map Ev.bare = (flat l).map Ev.bare ∧
      ∀ d', forwardFrom d' es = forwardFrom d l
  | _, k, [], s, u, d, _, _, _, _, _, hk => by
    refine ⟨[], ?_, rfl, fun _ => rfl⟩
    cases k with
    | zero => cases hk
    | succ k => rfl
  | 0, _, _ :: _, _, _, _, hj, _, _, _, _, _ => absurd hj (by simp)
  | j + 1, k, e :: l, s, u, d, hj, hs, h, hu, hr, hk => by
    rw [walk_cons] at h
    cases hn : s.next e with
    | none => rw [hn] at h; cases h
    | some w =>
      rw [hn, Option.bind_some] at h
      have hno : ∀ t, s.fields t ≠ some w := by
        intro t ht
        unfold Spot.fields at ht
        split_ifs at ht with hc
        rw [hs] at hc
        exact absurd hc.1 (by simp)
      cases e with
      | frameFormat n t f id =>
        rw [Spot.next, if_pos hs] at hn
        cases hn
        obtain ⟨r1, r2⟩ : n.toNat < 2 ^ 24 ∧ id.toNat < 2 ^ 31 := hr _ (List.mem_cons_self ..)
        obtain ⟨es, rest, v, i1, i2, i3, i4, i5⟩ := first_frame l (.start n t f id) _ u rfl (by
          intro _ (h7 : t = 7)
          subst h7
          rfl) h hu
        rw [forwardFrom] at hk ⊢
        rw [i5] at hk ⊢
        have hp := read_payload r1 i2 (fun e he => hr e (by rw [i1]; simp [he])) (r := forwardFrom ((Draft.start n t f id).fill es) rest ++ [b])
          (by simp) (.start n t f id) rfl (x := ((Draft.start n t f id).fill es).text) rfl
        have hw := read_write (d := (Draft.start n t f id).fill es) (r := forwardFrom ((Draft.start n t f id).fill es) rest ++ [b])
          hp.1 r2
        have hlen : 9 ≤ ((Draft.start n t f id).fill es).write.length := by
          simp [Draft.write, be_len, word]; omega
        rw [List.length_append] at hk
        obtain ⟨k, rfl⟩ : ∃ k', k = k' + 1 := ⟨k - 1, by omega⟩
        obtain ⟨es', j1, j2, j3⟩ := read_forward b j k rest v u ((Draft.start n t f id).fill es)
          (by rw [i1] at hj; simp at hj; omega) i4 i3 hu (fun e he => hr e (by rw [i1]; simp [he])) (by omega)
        have hw : readFrame (((Draft.start n t f id).fill es).write ++
            (forwardFrom ((Draft.start n t f id).fill es) rest ++ [b])) =
            (.frameFormat (UInt32.ofNat ((Draft.start n t f id).fill es).text.length) t f id :: flat es,
              .go (forwardFrom ((Draft.start n t f id).fill es) rest ++ [b])) := by
          rw [hw]
          exact congrArg (tell [_]) hp.2
        refine ⟨.frameFormat (UInt32.ofNat ((Draft.start n t f id).fill es).text.length) t f id :: flat es ++ es', ?_, ?_, ?_⟩
        · rw [List.append_assoc, readFrames, hw]
          simp only
          rw [j1]
        · rw [i1, flat_cons, show flat (es ++ rest) = flat es ++ flat rest by simp [flat]]
          simp only [List.map_append, List.map_cons, j2]
          simp [flatEv, Ev.bare]
        · intro d'
          rw [List.cons_append, forwardFrom]
          obtain ⟨d1, g1⟩ := forward_append (flat es) es' (.start (UInt32.ofNat ((Draft.start n t f id).fill es).text.length) t f id)
          obtain ⟨d2, g2⟩ := forward_append es rest (.start n t f id)
          rw [← i1, i5, (headed_walk i4 i3).any d2 ((Draft.start n t f id).fill es)] at g2
          rw [g1, forward_flat, frame_again i2 hp.1, j3 d1, List.append_cancel_right g2]
      | payload =>
        obtain ⟨⟨h1, -⟩, -⟩ := next_payload.1 hn
        rw [hs] at h1; cases h1
      | headers =>
        rw [Spot.next] at hn
        split_ifs at hn
        exact absurd hn (hno _)
      | _ => exact absurd hn (hno _)

/-- An unfinished frame is not written. -/
theorem forward_open : ∀ (l : List Ev) (d : Draft) (s u : Spot), s.over = false →
    (s.due = true → s.type = 7 → s.left = d.length - 8) → walk s l = some u →
    (∀ p, p <+: l → ∀ v, walk s p = some v → v.over = false) → forwardFrom d l = []
  | [], _, _, _, _, _, _, _ => rfl
  | e :: l, d, s, u, h1, h2, h, h3 => by
    rw [walk_cons] at h
    cases hn : s.next e with
    | none => rw [hn] at h; cases h
    | some v =>
      rw [hn, Option.bind_some] at h
      obtain ⟨g1, g2⟩ := ends_iff hn h1 h2
      have hv : v.over = false := h3 [e] (by simp) v (by rw [walk_cons, hn, Option.bind_some, walk_nil])
      rw [forwardFrom_cons _ _ _ g1, g2, hv, if_neg (by simp), List.nil_append]
      refine forward_open l _ v u hv (fun hd => by rw [next_due hn h1] at hd; cases hd) h fun p hp w hw => ?_
      exact h3 (e :: p) (List.cons_prefix_cons.2 ⟨rfl, hp⟩) w (by rw [walk_cons, hn, Option.bind_some, hw])

/-- A history is one of complete frames and a frame that is not complete. -/
theorem split_open : ∀ (l : List Ev) (s u : Spot), walk s l = some u →
    (∃ p q v, l = p ++ q ∧ walk s p = some v ∧ v.over = true ∧
      ∀ a, a ≠ [] → a <+: q → ∀ w, walk v a = some w → w.over = false) ∨
    ∀ a, a <+: l → ∀ w, walk s a = some w → w.over = false
  | [], s, u, _ => by
    cases hs : s.over with
    | true => exact .inl ⟨[], [], s, rfl, rfl, hs, fun a ha hp => absurd (List.prefix_nil.1 hp) ha⟩
    | false =>
      refine .inr fun a ha w hw => ?_
      rw [List.prefix_nil.1 ha] at hw
      cases hw
      exact hs
  | e :: l, s, u, h => by
    rw [walk_cons] at h
    cases hn : s.next e with
    | none => rw [hn] at h; cases h
    | some v =>
      rw [hn, Option.bind_some] at h
      rcases split_open l v u h with ⟨p, q, x, h1, h2, h3, h4⟩ | h1
      · exact .inl ⟨e :: p, q, x, by rw [h1, List.cons_append], by rw [walk_cons, hn, Option.bind_some, h2], h3, h4⟩
      · have key : ∀ a, a ≠ [] → a <+: e :: l → ∀ w, walk s a = some w → w.over = false := by
          intro a ha hp w hw
          cases a with
          | nil => exact absurd rfl ha
          | cons x a =>
            obtain ⟨he, hp'⟩ := List.cons_prefix_cons.1 hp
            subst he
            rw [walk_cons, hn, Option.bind_some] at hw
            exact h1 a hp' w hw
        cases hs : s.over with
        | true => exact .inl ⟨[], e :: l, s, rfl, rfl, hs, key⟩
        | false =>
          refine .inr fun a hp w hw => ?_
          by_cases ha : a = []
          · rw [ha] at hw; cases hw; exact hs
          · exact key a ha hp w hw

/-- What is written for a frame that is not complete. -/
theorem forward_rest {q : List Ev} {v u : Spot} (hv : v.over = true) (h : walk v q = some u)
    (h4 : ∀ a, a ≠ [] → a <+: q → ∀ w, walk v a = some w → w.over = false) (d : Draft) : forwardFrom d q = [] := by
  cases q with
  | nil => rfl
  | cons e l =>
    rw [walk_cons] at h
    cases hn : v.next e with
    | none => rw [hn] at h; cases h
    | some w =>
      rw [hn, Option.bind_some] at h
      have hno : ∀ t, v.fields t ≠ some w := by
        intro t ht
        unfold Spot.fields at ht
        split_ifs at ht with hc
        rw [hv] at hc
        exact absurd hc.1 (by simp)
      cases e with
      | frameFormat n t f id =>
        have hn' := hn
        rw [Spot.next, if_pos hv] at hn'
        cases hn'
        rw [forwardFrom]
        refine forward_open l _ _ u rfl (by
          intro _ (h7 : t = 7)
          subst h7
          rfl) h fun p hp w hw => ?_
        exact h4 (.frameFormat n t f id :: p) (by simp) (List.cons_prefix_cons.2 ⟨rfl, hp⟩) w
          (by rw [walk_cons, hn, Option.bind_some, hw])
      | payload =>
        obtain ⟨⟨h1, -⟩, -⟩ := next_payload.1 hn
        rw [hv] at h1; cases h1
      | headers =>
        rw [Spot.next] at hn
        split_ifs at hn
        exact absurd hn (hno _)
      | _ => exact absurd hn (hno _)

end Verif.Http2
