import Verif.Http1.ReadSpec
import Verif.Http1.RunsChunk
import Verif.Http1.Misread

/-!
# The reference machine reads as described by the recursive-descent specification (helper lemmas)
-/

set_option linter.unusedSimpArgs false
set_option linter.unusedVariables false

namespace Verif.Http1

open Read

variable {env : Env}

/-! ## Byte classes as tables -/

theorem token_eq (b : UInt8) : isToken b = if b = 255 then none else some (decide (TokenByte b)) := by
  revert b; apply Util.forall_u8; decide +kernel

theorem fieldByte_eq (b : UInt8) : isHeaderField b = if b = 255 then none else some (decide (FieldByte b)) := by
  revert b; apply Util.forall_u8; decide +kernel

theorem quotedByte_eq (b : UInt8) :
    isQuotedHeaderField b = if b = 255 then none else some (decide (QuotedByte b)) := by
  revert b; apply Util.forall_u8; decide +kernel

theorem visible_eq (b : UInt8) : isVisible7bit b = decide (VisibleByte b) := by
  revert b; apply Util.forall_u8; decide +kernel

theorem nonControl_eq (b : UInt8) : isNonControl b = decide (NonControlByte b) := by
  revert b; apply Util.forall_u8; decide +kernel

theorem upper_eq (b : UInt8) : isUpper b = decide (UpperByte b) := by
  revert b; apply Util.forall_u8; decide +kernel

theorem digit_eq (b : UInt8) : isDigit b = decide (Digit b) := by
  revert b; apply Util.forall_u8; decide +kernel

theorem escapable_eq (b : UInt8) : isEscapable b = decide (0x20 ≤ b ∧ b ≤ 0x7A) := by
  revert b; apply Util.forall_u8; decide +kernel

theorem hex_eq (b : UInt8) : isHex b = (hex b).isSome := by
  revert b; apply Util.forall_u8; decide +kernel

theorem hexVal_eq (b : UInt8) (h : (hex b).isSome) : (hexToByte b).toNat = (hex b).getD 0 := by
  revert b; apply Util.forall_u8; decide +kernel

theorem token_of_upper (b : UInt8) (h : UpperByte b) : TokenByte b := by
  revert b; apply Util.forall_u8; decide +kernel

/-! ## Tales as results of the reference machine -/

variable {F : List Ev → Bytes → List Ev × Fin}

/-- The result after `tr`, if `F` comes after the end. -/
def res (F : List Ev → Bytes → List Ev × Fin) (tr : List Ev) (t : Tale) : List Ev × Fin :=
  match t.ending with
  | .more => (tr ++ flat t.told, .eos)
  | .done r => F (tr ++ flat t.told) r
  | .wrong e r => (tr ++ flat t.told, .err e r)
  | .boundary r => (tr ++ flat t.told, .errB r)
  | .crash => (tr ++ flat t.told, .panic)

/-- Nothing comes after the end. -/
def atEnd (tr : List Ev) (r : Bytes) : List Ev × Fin := (tr, .finished r)

theorem res_say (tr es : List Ev) (t : Tale) : res F tr (say es t) = res F (tr ++ flat es) t := by
  obtain ⟨x, e⟩ := t; cases e <;> simp [res, say, flat]

theorem res_more (tr : List Ev) : res F tr more = (tr, .eos) := by simp [res, more, flat]
theorem res_done (tr : List Ev) (r : Bytes) : res F tr (done r) = F tr r := by
  simp [res, done, flat]
theorem res_wrong (tr : List Ev) (e : PErr) (r : Bytes) : res F tr (wrong e r) = (tr, .err e r) := by
  simp [res, wrong, flat]
theorem res_crash (tr : List Ev) : res F tr crash = (tr, .panic) := by simp [res, crash, flat]

/-- From `s`, strings of at most `n` bytes are read as `k` says. -/
def Is (env : Env) (F : List Ev → Bytes → List Ev × Fin) (s : AS) (n : Nat) (k : Bytes → Tale) : Prop :=
  ∀ tr r, r.length ≤ n → pred env tr s r = res F tr (k r)

theorem Is.mono {s : AS} {n m : Nat} {k : Bytes → Tale} (h : Is env F s n k) (hm : m ≤ n) : Is env F s m k :=
  fun tr r hr => h tr r (Nat.le_trans hr hm)

/-- A state without silent moves. -/
def Plain (env : Env) (s : AS) : Prop := (∀ tr, norm env tr s = ([], s)) ∧ s ≠ .fin

theorem Plain.nil {s : AS} (h : Plain env s) (tr : List Ev) : pred env tr s [] = (tr, .eos) := by
  simp [pred, h.1, h.2]

theorem Plain.step {s : AS} (h : Plain env s) (tr : List Ev) (b : UInt8) (r : Bytes) :
    pred env tr s (b :: r) =
      match bstep env s b with
      | .next es s' => pred env (tr ++ es) s' r
      | .err es e => (tr ++ es, .err e r)
      | .errB => (tr, .errB r)
      | .panic => (tr, .panic) := by
  simp only [pred, h.1, h.2, if_false, List.append_nil]
  cases bstep env s b <;> simp

theorem is_the {s s' : AS} {n : Nat} {k : Bytes → Tale} {c : UInt8} {e : UInt8 → PErr} (hs : Plain env s)
    (hb : ∀ b, bstep env s b = bExpect c s' e b) (hk : Is env F s' n k) : Is env F s n (the c e k) := by
  intro tr r hr
  cases r with
  | nil => rw [hs.nil, the, look, res_more]
  | cons b r =>
    simp only [List.length_cons] at hr
    rw [hs.step, hb]
    simp only [bExpect, the, look, beq_iff_eq]
    by_cases h : b = c
    · simp only [h, if_true, List.append_nil]; exact hk _ _ (by omega)
    · simp only [h, if_false, res_wrong, List.append_nil]

theorem mem_takeWhile' {p : UInt8 → Prop} [DecidablePred p] {b : UInt8} :
    ∀ {r : Bytes}, b ∈ r.takeWhile p → p b
  | a :: r, h => by
    by_cases ha : p a
    · simp only [List.takeWhile, ha, decide_true, List.mem_cons] at h
      rcases h with rfl | h
      · exact ha
      · exact mem_takeWhile' h
    · simp [List.takeWhile, ha] at h

/-- Bytes of a class stay in the state. -/
theorem pred_while {s : AS} {p : UInt8 → Prop} [DecidablePred p] {ev : UInt8 → List Ev} (hs : Plain env s)
    (hb : ∀ b, p b → bstep env s b = .next (ev b) s) (tr : List Ev) (r : Bytes) :
    pred env tr s r = pred env (tr ++ (r.takeWhile p).flatMap ev) s (r.dropWhile p) := by
  conv_lhs => rw [← List.takeWhile_append_dropWhile (p := fun b => decide (p b)) (l := r)]
  refine pred_loop hs.1 hs.2 _ _ _ fun b h => hb b ?_
  exact mem_takeWhile' h

/-- The byte after a word is not in the class. -/
theorem dropWhile_cons_not {p : UInt8 → Prop} [DecidablePred p] {r s : Bytes} {b : UInt8}
    (h : r.dropWhile p = b :: s) : ¬ p b := by
  induction r with
  | nil => cases h
  | cons a r ih =>
    by_cases ha : p a
    · simp only [List.dropWhile, ha, decide_true] at h
      exact ih h
    · simp only [List.dropWhile, ha, decide_false, List.cons.injEq] at h
      exact h.1 ▸ ha

theorem length_dropWhile_le' (p : UInt8 → Bool) (r : Bytes) : (r.dropWhile p).length ≤ r.length := by
  rw [← List.takeWhile_append_dropWhile (p := p) (l := r), List.length_append]
  simp

/-! ## Field values -/

theorem is_value {n : Nat} {k : Bytes → Tale} (hk : Is env F .hdrCr2 n k) :
    Is env F .hdrVal n (value k) := by
  have hlf : Is env F .hdrLf1 n (the (c! '\n') .crlfSequence k) := is_the ⟨fun _ => rfl, nofun⟩ (fun _ => rfl) hk
  have key : ∀ r tr, r.length ≤ n →
      pred env tr .hdrVal r = res F tr (text .headerValue .headerValue b!"\r" true
        (fun _ => the (c! '\n') .crlfSequence k) .plain r) ∧
      pred env tr .hdrQuot r = res F tr (text .headerValue .headerValue b!"\r" true
        (fun _ => the (c! '\n') .crlfSequence k) .quoted r) ∧
      pred env tr .hdrEsc r = res F tr (text .headerValue .headerValue b!"\r" true
        (fun _ => the (c! '\n') .crlfSequence k) .escaped r) := by
    intro r
    induction r with
    | nil =>
      intro tr _
      refine ⟨?_, ?_, ?_⟩ <;> simp [text, res_more, pred, norm]
    | cons b r ih =>
      intro tr hr
      simp only [List.length_cons] at hr
      have hr' : r.length ≤ n := by omega
      refine ⟨?_, ?_, ?_⟩
      · rw [Plain.step (s := .hdrVal) ⟨fun _ => rfl, nofun⟩]
        simp only [bstep, bHdrVal, fieldByte_eq, text, beq_iff_eq]
        by_cases h1 : b = 255
        · simp [h1, res_crash]
        by_cases h2 : b = c! '\r'
        · simp only [h2]
          simpa [FieldByte] using hlf tr r hr'
        by_cases h3 : b = c! '"'
        · simp only [h3]
          simpa [FieldByte, res_say, flat, flatEv] using (ih (tr ++ [.headerValue b!"\""]) hr').2.1
        by_cases h4 : FieldByte b
        · simp only [h1, h2, h3, h4, if_false, decide_true, if_true, res_say, flat, List.flatMap_cons, List.flatMap_nil,
            flatEv, List.map_cons, List.map_nil, List.append_nil, List.mem_singleton]
          exact (ih _ hr').1
        · simp [h1, h2, h3, h4, res_wrong]
      · rw [Plain.step (s := .hdrQuot) ⟨fun _ => rfl, nofun⟩]
        simp only [bstep, bHdrQuot, quotedByte_eq, text, beq_iff_eq]
        by_cases h1 : b = 255
        · simp [h1, res_crash]
        by_cases h3 : b = c! '"'
        · simp only [h3]
          simpa [QuotedByte, FieldByte, res_say, flat, flatEv] using (ih (tr ++ [.headerValue b!"\""]) hr').1
        by_cases h2 : b = c! '\\'
        · simp only [h2]
          simpa [QuotedByte, FieldByte, res_say, flat, flatEv] using (ih (tr ++ [.headerValue b!"\\"]) hr').2.2
        by_cases h4 : FieldByte b
        · have h5 : QuotedByte b := ⟨h4, h2⟩
          simp only [h1, h2, h3, h4, h5, if_false, decide_true, if_true, res_say, flat, List.flatMap_cons, List.flatMap_nil,
            flatEv, List.map_cons, List.map_nil, List.append_nil]
          exact (ih _ hr').2.1
        · have h5 : ¬ QuotedByte b := fun h => h4 h.1
          simp [h1, h2, h3, h4, h5, res_wrong]
      · rw [Plain.step (s := .hdrEsc) ⟨fun _ => rfl, nofun⟩]
        simp only [bstep, escapable_eq, text, decide_eq_true_eq]
        by_cases h1 : 0x20 ≤ b ∧ b ≤ 0x7A
        · simp only [h1, and_self, if_true, res_say, flat, List.flatMap_cons, List.flatMap_nil,
            flatEv, List.map_cons, List.map_nil, List.append_nil]
          exact (ih _ hr').2.1
        · simp only [h1, if_false, res_wrong, List.append_nil]
  exact fun tr r hr => (key r tr hr).1

/-- Blanks are skipped, then an item starts. -/
theorem is_strip {s s' : AS} {n : Nat} {k : Bytes → Tale} {e : UInt8 → PErr} (hs : Plain env s) (hs' : Plain env s')
    (hb : ∀ b, bstep env s b = bStrip s (bstep env s') e b) (hk : Is env F s' n k) : Is env F s n (strip e k) := by
  intro tr r hr
  rw [pred_while (p := Blank) (ev := fun _ => []) hs (fun b h => by
    rw [hb]; rcases h with rfl | rfl <;> simp [bStrip])]
  have hl := length_dropWhile_le' (fun b => decide (Blank b)) r
  simp only [strip]
  rcases hd : r.dropWhile (fun b => decide (Blank b)) with _ | ⟨b, t⟩
  · rw [hs.nil]; simp [look, res_more]
  · have hn := dropWhile_cons_not hd
    rw [hd] at hl
    simp only [List.length_cons] at hl
    have h1 : b ≠ c! ' ' := fun h => hn (.inl h)
    have h2 : b ≠ c! '\t' := fun h => hn (.inr h)
    have e1 : ((r.takeWhile fun b => decide (Blank b)).flatMap fun _ => ([] : List Ev)) = [] := by simp
    rw [e1, List.append_nil, hs.step, hb]
    simp only [bStrip, look, visible_eq]
    by_cases h3 : VisibleByte b
    · simp only [beq_iff_eq, h1, h2, h3, Bool.or_self, if_false, decide_true, if_true,
        (by simpa using h1 : (b == c! ' ') = false), (by simpa using h2 : (b == c! '\t') = false)]
      rw [← hk _ _ (by simp only [List.length_cons]; omega), hs'.step]
      rfl
    · simp [h1, h2, h3, res_wrong]

/-! ## Header lines -/

theorem is_name {n : Nat} {k : Bytes → Tale} (hk : Is env F .hdrStrip n k) :
    Is env F .hdrName (n + 1) (word TokenByte (fun w => .headerName (Verif.lower w)) fun r => look r fun b s =>
          if b = 255 then crash else if b = c! ':' then k s else wrong (.headerName b) s) := by
  intro tr r hr
  have hs : Plain env .hdrName := ⟨fun _ => rfl, nofun⟩
  rw [pred_while (p := TokenByte) (ev := fun b => [.headerName [if UpperByte b then b + 32 else b]]) hs
    (fun b h => lowerByte_spec h)]
  have hl := length_dropWhile_le' (fun b => decide (TokenByte b)) r
  simp only [word, res_say]
  have e1 : flat [Ev.headerName (Verif.lower (r.takeWhile fun b => decide (TokenByte b)))] =
      (r.takeWhile fun b => decide (TokenByte b)).flatMap fun b => [.headerName [if UpperByte b then b + 32 else b]] := by
    simp [flat, flatEv, Verif.lower, List.map_eq_flatMap, List.flatMap_assoc]
  rw [e1]
  generalize tr ++ _ = tr'
  rcases hd : r.dropWhile (fun b => decide (TokenByte b)) with _ | ⟨b, t⟩
  · rw [hs.nil]; simp [look, res_more]
  · have hn := dropWhile_cons_not hd
    rw [hd] at hl
    simp only [List.length_cons] at hl
    have hu : ¬ UpperByte b := fun h => hn (token_of_upper b h)
    rw [hs.step]
    simp only [bstep, bHdrName, token_eq, upper_eq, look, hn, hu, decide_false, beq_iff_eq, Bool.false_eq_true]
    by_cases h1 : b = 255
    · simp [h1, res_crash]
    by_cases h2 : b = c! ':'
    · simp only [h2]
      simpa using hk tr' t (by omega)
    · simp [h1, h2, res_wrong]

theorem is_lines {fin : Bytes → Tale} : ∀ n, Is env F .hdrEnd n fin → Is env F .hdrCr2 n (lines fin n)
  | 0, _ => by
    intro tr r hr
    have : r = [] := List.eq_nil_of_length_eq_zero (by omega)
    subst this
    rw [Plain.nil (s := .hdrCr2) ⟨fun _ => rfl, nofun⟩, lines, res_more]
  | n + 1, hfin => by
    intro tr r hr
    have ih := is_lines n (hfin.mono (Nat.le_succ n))
    cases r with
    | nil => rw [Plain.nil (s := .hdrCr2) ⟨fun _ => rfl, nofun⟩]; simp [lines, look, res_more]
    | cons b r =>
      simp only [List.length_cons] at hr
      have hr' : r.length ≤ n := by omega
      have hv := is_value ih
      rw [Plain.step (s := .hdrCr2) ⟨fun _ => rfl, nofun⟩]
      simp only [bstep, lines, look, beq_iff_eq, bHdrCheck, bHdrFirst, visible_eq]
      by_cases h1 : b = c! '\r'
      · simp only [h1, if_true, List.append_nil]
        exact is_the (s := .hdrLf2) ⟨fun _ => rfl, nofun⟩ (fun _ => rfl) (hfin.mono (Nat.le_succ n)) tr r hr'
      by_cases h2 : Blank b
      · have : (b == c! ' ' || b == c! '\t') = true := by
          rcases h2 with rfl | rfl <;> rfl
        simp only [h1, h2, this, if_false, if_true, List.append_nil]
        exact hv tr r hr'
      have h3 : (b == c! ' ' || b == c! '\t') = false := by
        simp only [Bool.or_eq_false_iff, beq_eq_false_iff_ne]
        exact ⟨fun h => h2 (.inl h), fun h => h2 (.inr h)⟩
      by_cases h4 : VisibleByte b
      · simp only [h1, h2, h3, h4, if_false, if_true, decide_true, Bool.false_eq_true]
        have hst : Is env F .hdrStrip n (strip .headerValue (value (lines fin n))) :=
          is_strip (s' := .hdrVal) ⟨fun _ => rfl, nofun⟩ ⟨fun _ => rfl, nofun⟩ (fun _ => rfl) hv
        have hm := is_name hst tr (b :: r) (by simp only [List.length_cons]; omega)
        rw [Plain.step (s := .hdrName) ⟨fun _ => rfl, nofun⟩] at hm
        exact hm
      · simp [h1, h2, h3, h4, res_wrong]

/-- The end of a head. -/
theorem is_headers (he : env.ptype = .head) (n : Nat) : Is env atEnd .hdrCr2 n headers := by
  intro tr r hr
  refine is_lines (fin := fun r => say [.headersFinished] (done r)) r.length ?_ tr r (Nat.le_refl _)
  intro tr r _
  rw [res_say, res_done, atEnd]
  cases r <;> simp [pred, norm, he, flat, flatEv]

theorem is_trailers (he : env.ptype = .chunked) (n : Nat) : Is env atEnd .hdrCr2 n trailers := by
  intro tr r hr
  refine is_lines (fin := fun r => say [.headersFinished, .bodyFinished] (done r)) r.length ?_ tr r (Nat.le_refl _)
  intro tr r _
  rw [res_say, res_done, atEnd]
  cases r <;> simp [pred, norm, he, flat, flatEv]

/-! ## Start lines -/

theorem is_word {s : AS} {p : UInt8 → Prop} [DecidablePred p] {ev : Bytes → Ev} {k : Bytes → Tale} {n : Nat}
    (hs : Plain env s) (hev : ∀ x, flatEv (ev x) = x.flatMap fun b => [ev [b]])
    (hb : ∀ b, p b → bstep env s b = .next [ev [b]] s)
    (hk : ∀ tr r, r.length ≤ n → (∀ b t, r = b :: t → ¬ p b) → pred env tr s r = res atEnd tr (k r)) :
    Is env atEnd s n (word p ev k) := by
  intro tr r hr
  rw [pred_while (p := p) (ev := fun b => [ev [b]]) hs hb, hk]
  · simp only [word, res_say, flat, List.flatMap_cons, List.flatMap_nil, hev, List.append_nil]
  · exact Nat.le_trans (length_dropWhile_le' _ r) hr
  · exact fun b t h => dropWhile_cons_not h

theorem is_word1 {s s' : AS} {p : UInt8 → Prop} [DecidablePred p] {ev : Bytes → Ev} {k : Bytes → Tale} {n : Nat}
    {e : UInt8 → PErr} (hs : Plain env s) (hs' : Plain env s')
    (hb : ∀ b, bstep env s b = if p b then bstep env s' b else .err [] (e b))
    (hk : Is env atEnd s' n (word p ev k)) : Is env atEnd s n (word1 p ev e k) := by
  intro tr r hr
  cases r with
  | nil => rw [hs.nil]; simp [word1, look, res_more]
  | cons b r =>
    rw [hs.step, hb]
    simp only [word1, look]
    by_cases h : p b
    · simp only [h, if_true]
      rw [← hk _ _ hr, hs'.step]
    · simp [h, res_wrong]

theorem is_number {s1 : AS} {s2 s3 s4 s5 : Nat → AS} {es : Nat → List Ev} {stop : UInt8} {e : UInt8 → PErr}
    {k : Nat → Bytes → Tale} (p1 : Plain env s1) (p2 : ∀ v, Plain env (s2 v)) (p3 : ∀ v, Plain env (s3 v))
    (p4 : ∀ v, Plain env (s4 v)) (hst : ¬ Digit stop)
    (h1 : ∀ b, bstep env s1 b = if Digit b then .next [] (s2 (dec b)) else .err [] (e b))
    (h2 : ∀ v b, bstep env (s2 v) b = if Digit b then .next [] (s3 (v * 10 + dec b)) else
      if b = stop then .next (es v) (s5 v) else .err [] (e b))
    (h3 : ∀ v b, bstep env (s3 v) b = if Digit b then .next [] (s4 (v * 10 + dec b)) else
      if b = stop then .next (es v) (s5 v) else .err [] (e b))
    (h4 : ∀ v b, bstep env (s4 v) b = if b = stop then .next (es v) (s5 v) else .err [] (e b))
    (hk : ∀ v tr r, pred env (tr ++ es v) (s5 v) r = res atEnd tr (k v r)) (n : Nat) : Is env atEnd s1 n (number e stop k) := by
  intro tr r _
  have fin : ∀ (s : AS) (v : Nat) (r : Bytes), Plain env s → (∀ b t, r = b :: t → bstep env s b =
      if b = stop then .next (es v) (s5 v) else .err [] (e b)) →
      pred env tr s r = res atEnd tr (the stop e (k v) r) := by
    intro s v r hs h
    cases r with
    | nil => rw [hs.nil]; simp [the, look, res_more]
    | cons b r =>
      rw [hs.step, h b r rfl]
      simp only [the, look]
      by_cases hb : b = stop
      · simp only [hb, if_true]; exact hk v tr r
      · simp [hb, res_wrong]
  match r with
  | [] => rw [p1.nil]; simp [number, look, res_more]
  | a :: r =>
    rw [p1.step, h1]
    by_cases ha : Digit a
    swap
    · simp [number, ha, look, res_wrong]
    simp only [ha, if_true, List.append_nil]
    match r with
    | [] => rw [(p2 _).nil]; simp [number, ha, look, res_more, the]
    | b :: r =>
      by_cases hb : Digit b
      swap
      · rw [fin _ (dec a) _ (p2 _) fun b' t h => by cases h; rw [h2]; simp [hb]]
        simp [number, ha, hb, decVal, dec]
      rw [(p2 _).step, h2]
      simp only [hb, if_true, List.append_nil]
      match r with
      | [] => rw [(p3 _).nil]; simp [number, ha, hb, look, res_more, the]
      | c :: r =>
        by_cases hc : Digit c
        swap
        · rw [fin _ (dec a * 10 + dec b) _ (p3 _) fun b' t h => by cases h; rw [h3]; simp [hc]]
          simp [number, ha, hb, hc, decVal, dec]
        rw [(p3 _).step, h3]
        simp only [hc, if_true, List.append_nil]
        rw [fin _ ((dec a * 10 + dec b) * 10 + dec c) _ (p4 _) fun b' t h => by rw [h4]]
        simp [number, ha, hb, hc, decVal, dec]

theorem is_version (r : Bool) {k : Bytes → Tale}
    (hk : ∀ n, Is env atEnd (if r then .code1 else .initialEnd) n k) (n : Nat) :
    Is env atEnd (.maj1 r) n (version (stopByte r) k) := by
  have hd : ∀ b, isDigit b = true ↔ Digit b := fun b => by rw [digit_eq]; simp
  refine is_number (s1 := .maj1 r) (s2 := .maj2 r) (s3 := .maj3 r) (s4 := .period r) (s5 := .min1 r) (es := fun _ => [])
    ⟨fun _ => rfl, nofun⟩ (fun _ => ⟨fun _ => rfl, nofun⟩) (fun _ => ⟨fun _ => rfl, nofun⟩)
    (fun _ => ⟨fun _ => rfl, nofun⟩) (by decide) ?_ ?_ ?_ ?_ ?_ n
  · intro b; simp [bstep, hd]
  · intro v b
    by_cases h : b = c! '.'
    · subst h; simp [bstep, show ¬ Digit (c! '.') by decide]
    · simp [bstep, h, hd]
  · intro v b
    by_cases h : b = c! '.'
    · subst h; simp [bstep, show ¬ Digit (c! '.') by decide]
    · simp [bstep, h, hd]
  · intro v b; simp [bstep, bExpect]
  intro v tr x
  rw [List.append_nil]
  refine is_number (s1 := .min1 r v) (s2 := .min2 r v) (s3 := .min3 r v) (s4 := .verEnd r v)
    (s5 := fun _ => if r then .code1 else .initialEnd) (es := fun w => [.version v w])
    ⟨fun _ => rfl, nofun⟩ (fun _ => ⟨fun _ => rfl, nofun⟩) (fun _ => ⟨fun _ => rfl, nofun⟩)
    (fun _ => ⟨fun _ => rfl, nofun⟩) (by cases r <;> decide) ?_ ?_ ?_ ?_ ?_ x.length tr x (Nat.le_refl _)
  · intro b; simp [bstep, hd]
  · intro w b; simp [bstep, hd, bVerEnd]
  · intro w b; simp [bstep, hd, bVerEnd]
  · intro w b; simp [bstep, hd, bVerEnd]
  · intro w tr x
    rw [res_say]
    exact hk x.length _ x (Nat.le_refl _)

theorem is_startEnd (he : env.ptype = .head) (n : Nat) : Is env atEnd .initialEnd n startEnd := by
  intro tr r hr
  rw [startEnd, res_say]
  have h := is_the (env := env) (s := .initialLf) ⟨fun _ => rfl, nofun⟩ (fun _ => rfl) (is_headers he n)
    (tr ++ flat [.initialFinished]) r hr
  rw [← h]
  cases r <;> simp [pred, norm, flat, flatEv]

theorem is_code {k : Nat → Bytes → Tale} (hk : ∀ v tr r, pred env (tr ++ [.statusCode v]) .reason1 r = res atEnd tr (k v r))
    (n : Nat) : Is env atEnd .code1 n (code k) := by
  intro tr r _
  have hd : ∀ b, isDigit b = true ↔ Digit b := fun b => by rw [digit_eq]; simp
  match r with
  | [] => simp [pred, norm, code, look, res_more]
  | a :: r =>
    by_cases ha : Digit a
    swap
    · simp [pred, norm, bstep, hd, code, look, ha, res_wrong]
    match r with
    | [] => simp [pred, norm, bstep, hd, code, look, ha, res_more]
    | b :: r =>
      by_cases hb : Digit b
      swap
      · simp [pred, norm, bstep, hd, code, look, ha, hb, res_wrong]
      match r with
      | [] => simp [pred, norm, bstep, hd, code, look, ha, hb, res_more]
      | c :: r =>
        by_cases hc : Digit c
        swap
        · simp [pred, norm, bstep, hd, code, look, ha, hb, hc, res_wrong]
        match r with
        | [] => simp [pred, norm, bstep, hd, code, look, ha, hb, hc, res_more, the]
        | x :: r =>
          have e : dec a * 100 + dec b * 10 + dec c = (dec a * 10 + dec b) * 10 + dec c := by omega
          by_cases hx : x = c! ' '
          · have := hk (dec a * 100 + dec b * 10 + dec c) tr r
            rw [e] at this
            simp only [dec] at this e
            simpa [pred, norm, bstep, hd, code, look, ha, hb, hc, hx, the, decVal, dec, e] using this
          · simp [pred, norm, bstep, hd, code, look, ha, hb, hc, hx, the, res_wrong]

theorem is_response (he : env.ptype = .head) (n : Nat) : Is env atEnd (.maj1 true) n response := by
  refine is_version true ?_ n
  intro n
  refine is_code ?_ n
  intro v tr r
  rw [res_say]
  refine is_word1 (s := .reason1) (s' := .reason2) ⟨fun _ => rfl, nofun⟩ ⟨fun _ => rfl, nofun⟩ ?_ ?_ _ r (Nat.le_refl _)
  · intro b
    by_cases h : NonControlByte b <;> simp [bstep, nonControl_eq, h]
  · refine is_word ⟨fun _ => rfl, nofun⟩ (fun x => by simp [flatEv, List.map_eq_flatMap])
      (fun b h => by simp [bstep, nonControl_eq, h]) ?_
    intro tr r hr hn
    cases r with
    | nil => simp [pred, norm, the, look, res_more]
    | cons b r =>
      have h1 := hn b r rfl
      by_cases h2 : b = c! '\r'
      · have := is_startEnd he r.length tr r (Nat.le_refl _)
        subst h2
        simpa [pred, norm, bstep, nonControl_eq, h1, the, look] using this
      · simp [pred, norm, bstep, nonControl_eq, h1, h2, the, look, res_wrong]

theorem is_http {k : Bytes → Tale} {n : Nat} (hk : Is env atEnd (.maj1 false) n k) : Is env atEnd .http1 n (http k) :=
  is_the (s' := .http2) ⟨fun _ => rfl, nofun⟩ (fun _ => rfl) <|
  is_the (s' := .http3) ⟨fun _ => rfl, nofun⟩ (fun _ => rfl) <|
  is_the (s' := .http4) ⟨fun _ => rfl, nofun⟩ (fun _ => rfl) <|
  is_the (s' := .http5) ⟨fun _ => rfl, nofun⟩ (fun _ => rfl) <|
  is_the (s' := .maj1 false) ⟨fun _ => rfl, nofun⟩ (fun _ => rfl) hk

/-- After the method. -/
theorem is_afterMethod (he : env.ptype = .head) (n : Nat) :
    Is env atEnd .url1 n (word1 VisibleByte .url .url <| the (c! ' ') .url <| http <| version (c! '\r') startEnd) := by
  have hv : Is env atEnd .http1 n (http <| version (c! '\r') startEnd) :=
    is_http (is_version false (fun n => is_startEnd he n) n)
  refine is_word1 (s := .url1) (s' := .url2) ⟨fun _ => rfl, nofun⟩ ⟨fun _ => rfl, nofun⟩ ?_ ?_
  · intro b
    by_cases h : VisibleByte b <;> simp [bstep, visible_eq, h]
  · refine is_word ⟨fun _ => rfl, nofun⟩ (fun x => by simp [flatEv, List.map_eq_flatMap])
      (fun b h => by simp [bstep, visible_eq, h]) ?_
    intro tr r hr hn
    cases r with
    | nil => simp [pred, norm, the, look, res_more]
    | cons b r =>
      simp only [List.length_cons] at hr
      have h1 := hn b r rfl
      by_cases h2 : b = c! ' '
      · have := hv tr r (by omega)
        subst h2
        simpa [pred, norm, bstep, visible_eq, h1, the, look] using this
      · simp [pred, norm, bstep, visible_eq, h1, h2, the, look, res_wrong]

/-- The method after its first byte. -/
theorem is_method (he : env.ptype = .head) (n : Nat) :
    Is env atEnd .method n (word UpperByte .method <| the (c! ' ') .method <|
      word1 VisibleByte .url .url <| the (c! ' ') .url <| http <| version (c! '\r') startEnd) := by
  refine is_word ⟨fun _ => rfl, nofun⟩ (fun x => by simp [flatEv, List.map_eq_flatMap])
      (fun b h => by simp [bstep, bMethod, upper_eq, h]) ?_
  intro tr r hr hn
  cases r with
  | nil => simp [pred, norm, the, look, res_more]
  | cons b r =>
    simp only [List.length_cons] at hr
    have h1 := hn b r rfl
    by_cases h2 : b = c! ' '
    · have := is_afterMethod he n tr r (by omega)
      subst h2
      simpa [pred, norm, bstep, bMethod, upper_eq, h1, the, look] using this
    · simp [pred, norm, bstep, bMethod, upper_eq, h1, h2, the, look, res_wrong]

/-! ## The first token -/

theorem is_request (he : env.ptype = .head) {a : UInt8} (ha : UpperByte a) (tr : List Ev) (r : Bytes) :
    pred env tr .method (a :: r) = res atEnd tr (request (a :: r)) := by
  rw [is_method he _ tr (a :: r) (Nat.le_refl _)]
  simp only [request, word1, look, ha, if_true]

theorem request_wrong {a : UInt8} (ha : ¬ UpperByte a) (r : Bytes) : request (a :: r) = wrong (.method a) r := by
  simp only [request, word1, look, ha, if_false]

/-- Letters read before a mismatch. -/
theorem det_mismatch {s : AS} {p : Bytes} {b : UInt8} (hs : Plain env s)
    (hb : bstep env s b = (bMethod b).pre (flatEv (.method p))) (hp : ∀ c ∈ p, UpperByte c) (tr : List Ev) (r : Bytes) :
    pred env tr s (b :: r) = pred env tr .method (p ++ b :: r) := by
  rw [pred_loop (s := .method) (ev := fun c => [.method [c]]) (fun _ => rfl) nofun p tr (b :: r)
    (fun c hc => by simp [bstep, bMethod, upper_eq, hp c hc])]
  rw [hs.step, hb, Plain.step (s := .method) ⟨fun _ => rfl, nofun⟩]
  simp only [bstep, flatEv, List.map_eq_flatMap]
  generalize List.flatMap _ p = es
  cases h : bMethod b <;> simp only [BRes.pre, List.append_assoc] <;>
    (unfold bMethod at h; split at h <;> first | cases h | (split at h <;> cases h))

theorem is_start (he : env.ptype = .head) (tr : List Ev) (r : Bytes) :
    pred env tr .detect1 r = res atEnd tr (start false r) := by
  have hU : ∀ c ∈ b!"HTTP", UpperByte c := by decide
  match r with
  | [] => simp [pred, norm, start, res_more]
  | a :: r =>
    rw [Plain.step (s := .detect1) ⟨fun _ => rfl, nofun⟩]
    by_cases ha : a = c! 'H'
    swap
    · have e1 : start false (a :: r) = request (a :: r) := by
        simp [start, ha, List.cons_prefix_cons, Ne.symm ha]
      rw [e1]
      by_cases hu : UpperByte a
      · rw [← is_request he hu]
        simp [bstep, bDetect1, ha, upper_eq, hu, pred, norm, bMethod]
      · rw [request_wrong hu]
        simp [bstep, bDetect1, ha, upper_eq, hu, res_wrong]
    subst ha
    simp only [bstep, bDetect1, beq_self_eq_true, if_true, List.append_nil]
    match r with
    | [] => simp [pred, norm, start, res_more]
    | b :: r =>
      by_cases hb : b = c! 'T'
      swap
      · rw [det_mismatch (s := .det2) (p := b!"H") ⟨fun _ => rfl, nofun⟩ (by simp [bstep, bDet, hb]) (by decide)]
        rw [List.singleton_append, is_request he (by decide)]
        simp [start, List.cons_prefix_cons, hb, Ne.symm hb]
      subst hb
      rw [Plain.step (s := .det2) ⟨fun _ => rfl, nofun⟩]
      simp only [bstep, bDet, beq_self_eq_true, if_true, List.append_nil]
      match r with
      | [] => simp [pred, norm, start, res_more]
      | c :: r =>
        by_cases hc : c = c! 'T'
        swap
        · rw [det_mismatch (s := .det3) (p := b!"HT") ⟨fun _ => rfl, nofun⟩ (by simp [bstep, bDet, hc]) (by decide)]
          rw [show b!"HT" ++ c :: r = c! 'H' :: c! 'T' :: c :: r from rfl, is_request he (by decide)]
          simp [start, List.cons_prefix_cons, hc, Ne.symm hc]
        subst hc
        rw [Plain.step (s := .det3) ⟨fun _ => rfl, nofun⟩]
        simp only [bstep, bDet, beq_self_eq_true, if_true, List.append_nil]
        match r with
        | [] => simp [pred, norm, start, res_more]
        | d :: r =>
          by_cases hd : d = c! 'P'
          swap
          · rw [det_mismatch (s := .det4) (p := b!"HTT") ⟨fun _ => rfl, nofun⟩ (by simp [bstep, bDet, hd]) (by decide)]
            rw [show b!"HTT" ++ d :: r = c! 'H' :: c! 'T' :: c! 'T' :: d :: r from rfl, is_request he (by decide)]
            simp [start, List.cons_prefix_cons, hd, Ne.symm hd]
          subst hd
          rw [Plain.step (s := .det4) ⟨fun _ => rfl, nofun⟩]
          simp only [bstep, bDet, beq_self_eq_true, if_true, List.append_nil]
          match r with
          | [] => simp [pred, norm, start, res_more]
          | e :: r =>
            by_cases h : e = c! '/'
            swap
            · rw [det_mismatch (s := .det5) (p := b!"HTTP") ⟨fun _ => rfl, nofun⟩ (by simp [bstep, bDet, h]) (by decide)]
              rw [show b!"HTTP" ++ e :: r = c! 'H' :: c! 'T' :: c! 'T' :: c! 'P' :: e :: r from rfl,
                is_request he (by decide)]
              simp [start, List.cons_prefix_cons, h, Ne.symm h]
            subst h
            rw [Plain.step (s := .det5) ⟨fun _ => rfl, nofun⟩]
            simp only [bstep, bDet, beq_self_eq_true, if_true, List.append_nil]
            rw [is_response he r.length tr r (Nat.le_refl _)]
            simp [start, List.cons_prefix_cons]

theorem is_lossy (he : env.ptype = .head) (tr : List Ev) (r : Bytes) (h1 : ¬ b!"HTTP/" <+: c! 'H' :: r)
    (h2 : ¬ (c! 'H' :: r) <+: b!"HTTP/") :
    pred env tr .ldet2 r = res atEnd tr (start true (c! 'H' :: r)) := by
  have key : ∀ {s s' : AS} {x b : UInt8} {t : Bytes}, Plain env s → (bstep env s b = bLDet x s' b) → b ≠ x →
      pred env tr s (b :: t) = res atEnd tr (request (b :: t)) := by
    intro s s' x b t hs hb hx
    rw [hs.step, hb]
    by_cases hu : UpperByte b
    · rw [← is_request he hu]
      simp [bLDet, hx, upper_eq, hu, pred, norm, bMethod, bstep]
    · rw [request_wrong hu]
      simp [bLDet, hx, upper_eq, hu, res_wrong]
  match r with
  | [] => exact absurd (by decide) h2
  | b :: r =>
    by_cases hb : b = c! 'T'
    swap
    · rw [key (s := .ldet2) (x := c! 'T') ⟨fun _ => rfl, nofun⟩ rfl hb]
      simp [start, h1, h2, common, hb]
    subst hb
    rw [Plain.step (s := .ldet2) ⟨fun _ => rfl, nofun⟩]
    simp only [bstep, bLDet, beq_self_eq_true, if_true, List.append_nil]
    match r with
    | [] => exact absurd (by decide) h2
    | c :: r =>
      by_cases hc : c = c! 'T'
      swap
      · rw [key (s := .ldet3) (x := c! 'T') ⟨fun _ => rfl, nofun⟩ rfl hc]
        simp [start, h1, h2, common, hc]
      subst hc
      rw [Plain.step (s := .ldet3) ⟨fun _ => rfl, nofun⟩]
      simp only [bstep, bLDet, beq_self_eq_true, if_true, List.append_nil]
      match r with
      | [] => exact absurd (by decide) h2
      | d :: r =>
        by_cases hd : d = c! 'P'
        swap
        · rw [key (s := .ldet4) (x := c! 'P') ⟨fun _ => rfl, nofun⟩ rfl hd]
          simp [start, h1, h2, common, hd]
        subst hd
        rw [Plain.step (s := .ldet4) ⟨fun _ => rfl, nofun⟩]
        simp only [bstep, bLDet, beq_self_eq_true, if_true, List.append_nil]
        match r with
        | [] => exact absurd (by decide) h2
        | e :: r =>
          have he' : e ≠ c! '/' := by
            rintro rfl
            exact h1 (by simp [List.cons_prefix_cons])
          rw [key (s := .ldet5) (x := c! '/') ⟨fun _ => rfl, nofun⟩ rfl he']
          simp [start, h1, h2, common, he']

theorem is_head (he : env.ptype = .head) (tr : List Ev) (r : Bytes) :
    pred env tr .stripDetect r = res atEnd tr (head false r) := by
  rw [pred_while (s := .stripDetect) (p := fun b => lead b = true) (ev := fun _ => []) ⟨fun _ => rfl, nofun⟩ (fun b h => by
    simp [bstep, isBlank_lead, h])]
  rw [show ((r.takeWhile fun b => decide (lead b = true)).flatMap fun _ => ([] : List Ev)) = [] by simp, List.append_nil,
    head, ← is_start he]
  have e1 : r.dropWhile (fun b => decide (lead b = true)) = r.dropWhile lead := by simp
  rw [e1]
  rcases hd : r.dropWhile lead with _ | ⟨b, t⟩
  · rfl
  · have hn : lead b = false := by
      rw [← e1] at hd
      simpa using dropWhile_cons_not hd
    rw [Plain.step (s := .stripDetect) ⟨fun _ => rfl, nofun⟩, Plain.step (s := .detect1) ⟨fun _ => rfl, nofun⟩]
    simp [bstep, isBlank_lead, hn]

/-! ## Chunks -/

theorem is_extText {n v : Nat} {stop : UInt8 → Bytes → Tale}
    (hk : ∀ b, b = c! '\r' ∨ b = c! ';' → ∀ tr r, r.length < n → pred env tr (.extVal v) (b :: r) = res atEnd tr (stop b r)) :
    Is env atEnd (.extVal v) n (text .chunkExtensionValue .chunkExtensionValue b!"\r;" false stop .plain) := by
  have key : ∀ r tr, r.length ≤ n →
      pred env tr (.extVal v) r = res atEnd tr (text .chunkExtensionValue .chunkExtensionValue b!"\r;" false
        stop .plain r) ∧
      pred env tr (.extQuot v) r = res atEnd tr (text .chunkExtensionValue .chunkExtensionValue b!"\r;" false
        stop .quoted r) ∧
      pred env tr (.extEsc v) r = res atEnd tr (text .chunkExtensionValue .chunkExtensionValue b!"\r;" false
        stop .escaped r) := by
    intro r
    induction r with
    | nil => intro tr _; refine ⟨?_, ?_, ?_⟩ <;> simp [text, res_more, pred, norm]
    | cons b r ih =>
      intro tr hr
      simp only [List.length_cons] at hr
      have hr' : r.length ≤ n := by omega
      refine ⟨?_, ?_, ?_⟩
      · by_cases h0 : b = c! '\r' ∨ b = c! ';'
        · rw [hk b h0 tr r (by omega)]
          have h1 : b ≠ 255 := by rcases h0 with rfl | rfl <;> decide
          have h2 : b ∈ b!"\r;" := by rcases h0 with rfl | rfl <;> decide
          simp only [text, h1, h2, if_false, if_true]
        obtain ⟨h5, h6⟩ := not_or.1 h0
        rw [Plain.step (s := .extVal v) ⟨fun _ => rfl, nofun⟩]
        simp only [bstep, bExtVal, fieldByte_eq, text, beq_iff_eq]
        by_cases h1 : b = 255
        · simp [h1, res_crash]
        have h2 : b ∉ b!"\r;" := by simp [h5, h6]
        by_cases h3 : b = c! '"'
        · simp only [h3]
          simpa [FieldByte, res_say, flat, flatEv] using (ih tr hr').2.1
        by_cases h4 : FieldByte b
        · simp only [h1, h2, h3, h4, h5, h6, if_false, decide_true, if_true, res_say, flat, List.flatMap_cons,
            List.flatMap_nil, flatEv, List.map_cons, List.map_nil, List.append_nil, bne_iff_ne, ne_eq, not_false_eq_true,
            Bool.true_and, (by simpa using h6 : (b != c! ';') = true)]
          exact (ih _ hr').1
        · simp [h1, h2, h3, h4, h5, h6, res_wrong]
      · rw [Plain.step (s := .extQuot v) ⟨fun _ => rfl, nofun⟩]
        simp only [bstep, bExtQuot, quotedByte_eq, text, beq_iff_eq]
        by_cases h1 : b = 255
        · simp [h1, res_crash]
        by_cases h3 : b = c! '"'
        · simp only [h3]
          simpa [QuotedByte, FieldByte, res_say, flat, flatEv] using (ih tr hr').1
        by_cases h2 : b = c! '\\'
        · simp only [h2]
          simpa [QuotedByte, FieldByte, res_say, flat, flatEv] using (ih tr hr').2.2
        by_cases h4 : FieldByte b
        · have h5 : QuotedByte b := ⟨h4, h2⟩
          simp only [h1, h2, h3, h4, h5, if_false, decide_true, if_true, res_say, flat, List.flatMap_cons, List.flatMap_nil,
            flatEv, List.map_cons, List.map_nil, List.append_nil]
          exact (ih _ hr').2.1
        · have h5 : ¬ QuotedByte b := fun h => h4 h.1
          simp [h1, h2, h3, h4, h5, res_wrong]
      · rw [Plain.step (s := .extEsc v) ⟨fun _ => rfl, nofun⟩]
        simp only [bstep, escapable_eq, text, decide_eq_true_eq]
        by_cases h1 : 0x20 ≤ b ∧ b ≤ 0x7A
        · simp only [h1, and_self, if_true, res_say, flat, List.flatMap_cons, List.flatMap_nil,
            flatEv, List.map_cons, List.map_nil, List.append_nil]
          exact (ih _ hr').2.1
        · simp only [h1, if_false, res_wrong, List.append_nil]
  exact fun tr r hr => (key r tr hr).1

theorem is_extensions {v : Nat} {k : Bytes → Tale} : ∀ n, Is env atEnd (.extsFin v) n k →
    Is env atEnd (.extStrip v) n (extensions k n)
  | 0, _ => by
    intro tr r hr
    have : r = [] := List.eq_nil_of_length_eq_zero (by omega)
    subst this
    rw [Plain.nil (s := .extStrip v) ⟨fun _ => rfl, nofun⟩, extensions, res_more]
  | n + 1, hk => by
    have ih := is_extensions n (hk.mono (Nat.le_succ n))
    -- after `;` or CR
    have hstop : ∀ (b : UInt8) tr r, b = c! '\r' ∨ b = c! ';' → r.length < n + 1 →
        pred env (tr ++ [.chunkExtensionFinished]) (if b = c! '\r' then .extsFin v else .extStrip v) r =
          res atEnd tr (say [.chunkExtensionFinished] (if b = c! '\r' then k r else extensions k n r)) := by
      intro b tr r h0 hr
      rw [res_say]
      by_cases hb : b = c! '\r'
      · simp only [hb, if_true]
        exact hk _ _ (by omega)
      · simp only [hb, if_false]
        exact ih _ _ (by omega)
    have htext := is_extText (env := env) (v := v) (n := n + 1)
      (stop := fun b s => say [.chunkExtensionFinished] (if b = c! '\r' then k s else extensions k n s))
      (by
        intro b h0 tr r hr
        rw [← hstop b tr r h0 hr, Plain.step (s := .extVal v) ⟨fun _ => rfl, nofun⟩]
        rcases h0 with rfl | rfl <;> rfl)
    have hval : Is env atEnd (.extVStrip v) (n + 1) (strip .chunkExtensionValue _) :=
      is_strip (s' := .extVal v) ⟨fun _ => rfl, nofun⟩ ⟨fun _ => rfl, nofun⟩ (fun _ => rfl) htext
    have hname : Is env atEnd (.extName v) (n + 1) (word TokenByte (fun w => .chunkExtensionName (Verif.lower w)) fun r =>
        look r fun b s =>
        if b = 255 then crash
        else if b = c! '=' then
          strip .chunkExtensionValue
            (text .chunkExtensionValue .chunkExtensionValue b!"\r;" false
              (fun b s => say [.chunkExtensionFinished] (if b = c! '\r' then k s else extensions k n s)) .plain) s
        else if b = c! '\r' ∨ b = c! ';' then
          say [.chunkExtensionFinished] (if b = c! '\r' then k s else extensions k n s)
        else wrong (.chunkExtensionName b) s) := by
      intro tr r hr
      have hs : Plain env (.extName v) := ⟨fun _ => rfl, nofun⟩
      rw [pred_while (p := TokenByte) (ev := fun b => [.chunkExtensionName [if UpperByte b then b + 32 else b]]) hs
        (fun b h => bExtName_token h)]
      have hl := length_dropWhile_le' (fun b => decide (TokenByte b)) r
      simp only [word, res_say]
      have e1 : flat [Ev.chunkExtensionName (Verif.lower (r.takeWhile fun b => decide (TokenByte b)))] =
          (r.takeWhile fun b => decide (TokenByte b)).flatMap
            fun b => [.chunkExtensionName [if UpperByte b then b + 32 else b]] := by
        simp [flat, flatEv, Verif.lower, List.map_eq_flatMap, List.flatMap_assoc]
      rw [e1]
      generalize tr ++ _ = tr'
      rcases hd : r.dropWhile (fun b => decide (TokenByte b)) with _ | ⟨b, t⟩
      · rw [hs.nil]; simp [look, res_more]
      · have hn := dropWhile_cons_not hd
        rw [hd] at hl
        simp only [List.length_cons] at hl
        have hu : ¬ UpperByte b := fun h => hn (token_of_upper b h)
        by_cases h0 : b = c! '\r' ∨ b = c! ';'
        · have := hstop b tr' t h0 (by omega)
          have h1 : b ≠ 255 := by rcases h0 with rfl | rfl <;> decide
          have h2 : b ≠ c! '=' := by rcases h0 with rfl | rfl <;> decide
          simp only [look, h1, h2, h0, if_false, if_true]
          rw [← this, hs.step]
          rcases h0 with rfl | rfl <;> rfl
        obtain ⟨h5, h6⟩ := not_or.1 h0
        rw [hs.step]
        simp only [bstep, bExtName, token_eq, upper_eq, look, hn, hu, decide_false, beq_iff_eq, Bool.false_eq_true]
        by_cases h1 : b = 255
        · simp [h1, res_crash]
        by_cases h2 : b = c! '='
        · simp only [h2]
          simpa using hval tr' t (by omega)
        · simp [h1, h2, h5, h6, res_wrong]
    exact is_strip (s' := .extName v) ⟨fun _ => rfl, nofun⟩ ⟨fun _ => rfl, nofun⟩ (fun _ => rfl) hname

theorem pred_chunkData : ∀ (r : Bytes) (v : Nat) (tr : List Ev),
    pred env tr (.data v) r = pred env (tr ++ flat [.chunkData (r.take v)]) .dataCr (r.drop v)
  | [], v, tr => by
    by_cases hv : v = 0 <;> simp [pred, norm, hv, flat, flatEv]
  | b :: r, 0, tr => by simp [pred, norm, flat, flatEv]
  | b :: r, v + 1, tr => by
    have := pred_chunkData r v (tr ++ [.chunkData [b]])
    simpa [pred, norm, bstep, flat, flatEv] using this

theorem pred_size : ∀ (k v : Nat) (r : Bytes) (tr : List Ev),
    pred env tr (sizeNext k v) r =
      pred env tr (.sizeEnd (((r.take k).takeWhile fun b => (hex b).isSome).foldl
        (fun v b => 16 * v + (hex b).getD 0) v)) (r.drop ((r.take k).takeWhile fun b => (hex b).isSome).length)
  | 0, v, r, tr => by simp [sizeNext]
  | k + 1, v, [], tr => by simp [sizeNext, pred, norm]
  | k + 1, v, b :: r, tr => by
    by_cases hb : (hex b).isSome = true
    · have := pred_size k (v * 16 + (hexToByte b).toNat) r tr
      rw [hexVal_eq b hb] at this
      simp only [sizeNext, Nat.succ_ne_zero, if_false, List.take_succ_cons, List.takeWhile_cons, hb, if_true,
        List.foldl_cons, List.length_cons, List.drop_succ_cons]
      rw [Plain.step (s := .size (k + 1) v) ⟨fun _ => rfl, nofun⟩]
      simp only [bstep, hex_eq, hb, if_true, Nat.add_sub_cancel, List.append_nil, hexVal_eq b hb]
      rw [this, Nat.mul_comm 16 v]
    · simp only [sizeNext, Nat.succ_ne_zero, if_false, List.take_succ_cons, List.takeWhile_cons, hb,
        List.foldl_nil, List.length_nil, List.drop_zero, Bool.false_eq_true]
      rw [Plain.step (s := .size (k + 1) v) ⟨fun _ => rfl, nofun⟩, Plain.step (s := .sizeEnd v) ⟨fun _ => rfl, nofun⟩]
      simp [bstep, hex_eq, hb]

theorem is_chunks (he : env.ptype = .chunked) : ∀ n, Is env atEnd .size1 n (chunks n)
  | 0 => by
    intro tr r hr
    have : r = [] := List.eq_nil_of_length_eq_zero (by omega)
    subst this
    rw [Plain.nil (s := .size1) ⟨fun _ => rfl, nofun⟩, chunks, res_more]
  | n + 1 => by
    intro tr r hr
    have ih := is_chunks he n
    cases r with
    | nil => rw [Plain.nil (s := .size1) ⟨fun _ => rfl, nofun⟩]; simp [chunks, look, res_more]
    | cons b r =>
      simp only [List.length_cons] at hr
      have hr' : r.length ≤ n := by omega
      have hcr : Is env atEnd .dataCr n (crlf (chunks n)) :=
        is_the (s' := .dataLf) ⟨fun _ => rfl, nofun⟩ (fun _ => rfl) <|
        is_the (s' := .size1) ⟨fun _ => rfl, nofun⟩ (fun _ => rfl) ih
      have hdata : ∀ v, Is env atEnd (.extsFin v) n (fun r => say [.chunkExtensionsFinished] <|
          the (c! '\n') .crlfSequence (fun r => say [.chunkData (r.take v)] (crlf (chunks n) (r.drop v))) r) := by
        intro v tr r hr
        have hd : Is env atEnd (.data v) n (fun r => say [.chunkData (r.take v)] (crlf (chunks n) (r.drop v))) := by
          intro tr r hr
          rw [res_say, pred_chunkData, hcr _ _ (by simp only [List.length_drop]; omega)]
        have := is_the (s := .sizeLf v) ⟨fun _ => rfl, nofun⟩ (fun _ => rfl) hd (tr ++ flat [.chunkExtensionsFinished]) r hr
        rw [res_say, ← this]
        cases r <;> simp [pred, norm, flat, flatEv]
      have hend : ∀ v tr r, r.length ≤ n → pred env tr (.sizeEnd v) r = res atEnd tr (look r fun b s =>
          if b = c! '\r' then say [.chunkLength v] (if v = 0 then the (c! '\n') .crlfSequence trailers s else
            say [.chunkExtensionsFinished] <|
              the (c! '\n') .crlfSequence (fun r => say [.chunkData (r.take v)] (crlf (chunks n) (r.drop v))) s)
          else if b = c! ';' then say [.chunkLength v] (extensions (fun r => say [.chunkExtensionsFinished] <|
              the (c! '\n') .crlfSequence (fun r => say [.chunkData (r.take v)] (crlf (chunks n) (r.drop v))) r)
              s.length s)
          else wrong (.chunkLength b) s) := by
        intro v tr r hr
        cases r with
        | nil => simp [pred, norm, look, res_more]
        | cons b r =>
          simp only [List.length_cons] at hr
          rw [Plain.step (s := .sizeEnd v) ⟨fun _ => rfl, nofun⟩]
          simp only [bstep, bSizeEnd, look, beq_iff_eq]
          by_cases h1 : b = c! '\r'
          · simp only [h1, if_true, res_say]
            by_cases hv : v = 0
            · simp only [hv, if_true]
              exact is_the (s := .hdrLf1) ⟨fun _ => rfl, nofun⟩ (fun _ => rfl) (is_trailers he r.length) _ r (Nat.le_refl _)
            · simp only [hv, if_false]
              have := hdata v (tr ++ flat [.chunkLength v]) r (by omega)
              exact this
          by_cases h2 : b = c! ';'
          · rw [if_neg h1, if_pos h2, if_neg h1, if_pos h2, res_say]
            exact is_extensions r.length ((hdata v).mono (by omega)) _ r (Nat.le_refl _)
          · simp [h1, h2, res_wrong]
      by_cases h0 : b = c! '0'
      · subst h0
        have := hend 0 (tr ++ [.chunkBegin]) r hr'
        rw [Plain.step (s := .size1) ⟨fun _ => rfl, nofun⟩]
        simpa [bstep, chunks, look, hex, hexNum, res_say, flat, flatEv] using this
      · rw [Plain.step (s := .size1) ⟨fun _ => rfl, nofun⟩]
        by_cases hb : (hex b).isSome = true
        · have hx : hex b ≠ none := by
            intro h; rw [h] at hb; cases hb
          have h1 := pred_size (env := env) 7 (hexToByte b).toNat r (tr ++ [.chunkBegin])
          rw [hend _ _ _ (by simp only [List.length_drop]; omega), hexVal_eq b hb] at h1
          simp only [bstep, h0, hex_eq, hb, if_true, if_false, beq_iff_eq, hexVal_eq b hb]
          rw [show AS.size 7 ((hex b).getD 0) = sizeNext 7 ((hex b).getD 0) from rfl, h1]
          simp only [chunks, look, hx, h0, if_false, res_say, List.take_succ_cons, List.takeWhile_cons, hb, if_true,
            List.length_cons, List.drop_succ_cons, hexNum, List.foldl_cons, Nat.mul_zero, Nat.zero_add, flat,
            List.flatMap_cons, List.flatMap_nil, flatEv, List.append_nil]
        · have hx : hex b = none := by simpa using hb
          simp [bstep, h0, hex_eq, hb, hx, chunks, look, res_wrong]

theorem is_chunked (he : env.ptype = .chunked) (tr : List Ev) (r : Bytes) :
    pred env tr .size1 r = res atEnd tr (chunked r) := is_chunks he r.length tr r (Nat.le_refl _)

/-! ## Runs -/

/-- A complete run that agrees with the machine follows the tale. -/
theorem follows_of_sim {I : World → Bytes → Prop} {l : List Ev} {t : Tale} {o : Outcome}
    (H : DriveSim I (res atEnd (flat l) t) o) (hc : o.complete) : Read.Follows l t o := by
  obtain ⟨la, wo, re⟩ := o
  obtain ⟨es, e⟩ := t
  cases la <;> simp only [Outcome.complete] at hc <;> cases e <;> simp only [DriveSim, res, atEnd, Prod.mk.injEq] at H
  all_goals simp [hc] at H
  case eos.more => exact ⟨rfl, hc, H.2.symm⟩
  case finished.done => exact ⟨rfl, H.2.symm, H.1.symm⟩
  case err.wrong =>
    obtain ⟨d, hd, h1, rfl, rfl⟩ := H
    exact ⟨rfl, rfl, d, hd, h1.symm⟩
  case err.boundary =>
    obtain ⟨⟨h1, h2⟩, b, rfl⟩ := H
    exact ⟨⟨b, rfl⟩, h1, h2.symm⟩
  case panic.crash => exact ⟨rfl, H.imp fun _ h => ⟨h.1, h.2.symm⟩⟩

end Verif.Http1
