import Verif.Http1.RunsUrl
import Verif.Http1.UrlLoose

/-!
# What happens with any URL-encoded body (helper lemmas)
-/

set_option linter.unusedSimpArgs false
set_option linter.unusedVariables false

namespace Verif.Http1

variable {env : Env}

theorem hex_cases (b : UInt8) : (∃ n, n < 16 ∧ Util.HexDigit b n ∧ hexDigit b = some (UInt8.ofNat n)) ∨
    ((∀ n, ¬ Util.HexDigit b n) ∧ hexDigit b = none) := by
  by_cases h : ∃ n, Util.HexDigit b n
  · obtain ⟨n, hn⟩ := h
    exact .inl ⟨n, Util.hexDigit_lt hn, hn, hexD_of hn⟩
  · have h' : ∀ n, ¬ Util.HexDigit b n := fun n hn => h ⟨n, hn⟩
    exact .inr ⟨h', hexD_none h'⟩

/-- A byte at the beginning of a part of a name. -/
theorem uName_byte (b : UInt8) : b = c! '%' ∨ b = c! '+' ∨ b = c! '=' ∨ (b = c! '&' ∨ b = c! ';') ∨
    (Util.Literal b ∧ b ∉ b!"=&;" ∧ bUName b = .next [.urlEncodedName [b]] .uName) ∨
    ((b < 0x21 ∨ 0x7E < b) ∧ bUName b = .err [] (.urlEncodedName b)) := by
  have key : ∀ b : UInt8, b = c! '%' ∨ b = c! '+' ∨ b = c! '=' ∨ (b = c! '&' ∨ b = c! ';') ∨
    (Util.Literal b ∧ b ∉ b!"=&;" ∧ bUName b = .next [.urlEncodedName [b]] .uName) ∨
    ((b < 0x21 ∨ 0x7E < b) ∧ bUName b = .err [] (.urlEncodedName b)) := by
    apply Util.forall_u8
    decide +kernel
  exact key b

theorem uVal_byte (b : UInt8) : b = c! '%' ∨ b = c! '+' ∨ (b = c! '&' ∨ b = c! ';') ∨
    (Util.Literal b ∧ b ∉ b!"&;" ∧ bUVal b = .next [.urlEncodedValue [b]] .uVal) ∨
    ((b < 0x21 ∨ 0x7E < b) ∧ bUVal b = .err [] (.urlEncodedValue b)) := by
  have key : ∀ b : UInt8, b = c! '%' ∨ b = c! '+' ∨ (b = c! '&' ∨ b = c! ';') ∨
    (Util.Literal b ∧ b ∉ b!"&;" ∧ bUVal b = .next [.urlEncodedValue [b]] .uVal) ∨
    ((b < 0x21 ∨ 0x7E < b) ∧ bUVal b = .err [] (.urlEncodedValue b)) := by
    apply Util.forall_u8
    decide +kernel
  exact key b

/-- How a text of encoded bytes ends: with the body (maybe inside an escape), with a byte of `stops`, or
with an offence. -/
def TextEnd (stops : Bytes) (tr : List Ev) (next : UInt8 → AS) (e : UInt8 → PErr) (env : Env)
    (K : List Ev × Fin) (t : Bytes) : Prop :=
  ((t = [] ∨ CutEscape t) ∧ K = (tr, .eos)) ∨
  (∃ b m', b ∈ stops ∧ t = b :: m' ∧ K = pred env tr (next b) m') ∨
  ∃ y b r, UrlOffence y b ∧ t = y ++ r ∧ K = (tr, .err (e b) r)

/-- The state after the byte that ends a name. -/
def nameNext (b : UInt8) : AS := if b = c! '=' then .uVal else .uFirst

theorem name_text : ∀ (n : Nat) (m : Bytes), m.length ≤ n → ∀ (tr : List Ev),
    ∃ x w t, Util.Decodes x w ∧ (∀ b ∈ x, b ∉ b!"=&;") ∧ m = x ++ t ∧
      TextEnd b!"=&;" (tr ++ flatEv (.urlEncodedName w)) nameNext .urlEncodedName env (pred env tr .uName m) t := by
  intro n
  induction n with
  | zero =>
    intro m hm tr
    obtain rfl : m = [] := List.length_eq_zero_iff.1 (by omega)
    exact ⟨[], [], [], .nil, by simp, rfl, .inl ⟨.inl rfl, by simp [pred, norm, flatEv]⟩⟩
  | succ n ih =>
    intro m hm tr
    cases m with
    | nil => exact ⟨[], [], [], .nil, by simp, rfl, .inl ⟨.inl rfl, by simp [pred, norm, flatEv]⟩⟩
    | cons b m =>
      simp only [List.length_cons] at hm
      rcases uName_byte b with rfl | rfl | rfl | hb | ⟨h1, h2, h3⟩ | ⟨h1, h2⟩
      · cases m with
        | nil => exact ⟨[], [], _, .nil, by simp, rfl, .inl ⟨.inr (.inl rfl), by simp [pred, norm, bstep, bUName, flatEv]⟩⟩
        | cons a m =>
          rcases hex_cases a with ⟨d, hd, hD, ha⟩ | ⟨hD, ha⟩
          · cases m with
            | nil => exact ⟨[], [], _, .nil, by simp, rfl, .inl ⟨.inr (.inr ⟨a, d, hD, rfl⟩),
                by simp [pred, norm, bstep, bUName, ha, flatEv]⟩⟩
            | cons c m =>
              rcases hex_cases c with ⟨d', hd', hD', hc⟩ | ⟨hD', hc⟩
              · simp only [List.length_cons] at hm
                obtain ⟨x, w, t, g1, g2, rfl, g3⟩ := ih m (by omega) (tr ++ [.urlEncodedName [UInt8.ofNat (16 * d + d')]])
                refine ⟨c! '%' :: a :: c :: x, UInt8.ofNat (16 * d + d') :: w, t, .escape hD hD' g1, ?_, rfl, ?_⟩
                · intro y hy
                  have k : ∀ a : UInt8, ∀ d < 16, Util.HexDigit a d → a ∉ b!"=&;" := by
                    apply Util.forall_u8
                    decide +kernel
                  simp only [List.mem_cons] at hy
                  rcases hy with rfl | rfl | rfl | hy
                  · decide
                  · exact k y d hd hD
                  · exact k y d' hd' hD'
                  · exact g2 y hy
                · have e : pred env tr .uName (c! '%' :: a :: c :: (x ++ t)) =
                      pred env (tr ++ [.urlEncodedName [UInt8.ofNat (16 * d + d')]]) .uName (x ++ t) := by
                    simp [pred, norm, bstep, bUName, ha, hc, hex_join hd hd']
                  rw [e]
                  simpa [flatEv] using g3
              · exact ⟨[], [], _, .nil, by simp, rfl, .inr (.inr ⟨[c! '%', a, c], c, m, .inr ⟨hD', .inr ⟨a, d, hD, rfl⟩⟩, rfl,
                  by simp [pred, norm, bstep, bUName, ha, hc, flatEv]⟩)⟩
          · exact ⟨[], [], _, .nil, by simp, rfl, .inr (.inr ⟨[c! '%', a], a, m, .inr ⟨hD, .inl rfl⟩, rfl,
              by simp [pred, norm, bstep, bUName, ha, flatEv]⟩)⟩
      · obtain ⟨x, w, t, g1, g2, rfl, g3⟩ := ih m (by omega) (tr ++ [.urlEncodedName b!" "])
        refine ⟨c! '+' :: x, c! ' ' :: w, t, .plus g1, ?_, rfl, ?_⟩
        · intro y hy
          simp only [List.mem_cons] at hy
          rcases hy with rfl | hy
          · decide
          · exact g2 y hy
        · have e : pred env tr .uName (c! '+' :: (x ++ t)) = pred env (tr ++ [.urlEncodedName b!" "]) .uName (x ++ t) := by
            have h1 : pred env tr .uName (c! '+' :: (x ++ t)) = pred env tr .uNamePlus (x ++ t) := by
              simp [pred, norm, bstep, bUName]
            rw [h1]
            exact pred_eps rfl rfl (x ++ t)
          rw [e]
          simpa [flatEv] using g3
      · exact ⟨[], [], _, .nil, by simp, rfl, .inr (.inl ⟨c! '=', m, by decide, rfl, by
          simp [pred, norm, bstep, bUName, nameNext, flatEv]⟩)⟩
      · refine ⟨[], [], _, .nil, by simp, rfl, .inr (.inl ⟨b, m, by rcases hb with rfl | rfl <;> decide, rfl, ?_⟩)⟩
        rcases hb with rfl | rfl <;> simp [pred, norm, bstep, bUName, nameNext, flatEv]
      · obtain ⟨x, w, t, g1, g2, rfl, g3⟩ := ih m (by omega) (tr ++ [.urlEncodedName [b]])
        refine ⟨b :: x, b :: w, t, .literal h1 g1, ?_, rfl, ?_⟩
        · intro y hy
          rcases List.mem_cons.1 hy with rfl | hy
          · exact h2
          · exact g2 y hy
        · have e : pred env tr .uName (b :: (x ++ t)) = pred env (tr ++ [.urlEncodedName [b]]) .uName (x ++ t) := by
            simp [pred, norm, bstep, h3]
          rw [e]
          simpa [flatEv] using g3
      · exact ⟨[], [], _, .nil, by simp, rfl, .inr (.inr ⟨[b], b, m, .inl ⟨rfl, h1⟩, rfl, by
          simp [pred, norm, bstep, h2, flatEv]⟩)⟩

theorem value_text : ∀ (n : Nat) (m : Bytes), m.length ≤ n → ∀ (tr : List Ev),
    ∃ x w t, Util.Decodes x w ∧ (∀ b ∈ x, b ∉ b!"&;") ∧ m = x ++ t ∧
      TextEnd b!"&;" (tr ++ flatEv (.urlEncodedValue w)) (fun _ => .uFirst) .urlEncodedValue env (pred env tr .uVal m) t := by
  intro n
  induction n with
  | zero =>
    intro m hm tr
    obtain rfl : m = [] := List.length_eq_zero_iff.1 (by omega)
    exact ⟨[], [], [], .nil, by simp, rfl, .inl ⟨.inl rfl, by simp [pred, norm, flatEv]⟩⟩
  | succ n ih =>
    intro m hm tr
    cases m with
    | nil => exact ⟨[], [], [], .nil, by simp, rfl, .inl ⟨.inl rfl, by simp [pred, norm, flatEv]⟩⟩
    | cons b m =>
      simp only [List.length_cons] at hm
      rcases uVal_byte b with rfl | rfl | hb | ⟨h1, h2, h3⟩ | ⟨h1, h2⟩
      · cases m with
        | nil => exact ⟨[], [], _, .nil, by simp, rfl, .inl ⟨.inr (.inl rfl), by simp [pred, norm, bstep, bUVal, flatEv]⟩⟩
        | cons a m =>
          rcases hex_cases a with ⟨d, hd, hD, ha⟩ | ⟨hD, ha⟩
          · cases m with
            | nil => exact ⟨[], [], _, .nil, by simp, rfl, .inl ⟨.inr (.inr ⟨a, d, hD, rfl⟩),
                by simp [pred, norm, bstep, bUVal, ha, flatEv]⟩⟩
            | cons c m =>
              rcases hex_cases c with ⟨d', hd', hD', hc⟩ | ⟨hD', hc⟩
              · simp only [List.length_cons] at hm
                obtain ⟨x, w, t, g1, g2, rfl, g3⟩ := ih m (by omega) (tr ++ [.urlEncodedValue [UInt8.ofNat (16 * d + d')]])
                refine ⟨c! '%' :: a :: c :: x, UInt8.ofNat (16 * d + d') :: w, t, .escape hD hD' g1, ?_, rfl, ?_⟩
                · intro y hy
                  have k : ∀ a : UInt8, ∀ d < 16, Util.HexDigit a d → a ∉ b!"&;" := by
                    apply Util.forall_u8
                    decide +kernel
                  simp only [List.mem_cons] at hy
                  rcases hy with rfl | rfl | rfl | hy
                  · decide
                  · exact k y d hd hD
                  · exact k y d' hd' hD'
                  · exact g2 y hy
                · have e : pred env tr .uVal (c! '%' :: a :: c :: (x ++ t)) =
                      pred env (tr ++ [.urlEncodedValue [UInt8.ofNat (16 * d + d')]]) .uVal (x ++ t) := by
                    simp [pred, norm, bstep, bUVal, ha, hc, hex_join hd hd']
                  rw [e]
                  simpa [flatEv] using g3
              · exact ⟨[], [], _, .nil, by simp, rfl, .inr (.inr ⟨[c! '%', a, c], c, m, .inr ⟨hD', .inr ⟨a, d, hD, rfl⟩⟩, rfl,
                  by simp [pred, norm, bstep, bUVal, ha, hc, flatEv]⟩)⟩
          · exact ⟨[], [], _, .nil, by simp, rfl, .inr (.inr ⟨[c! '%', a], a, m, .inr ⟨hD, .inl rfl⟩, rfl,
              by simp [pred, norm, bstep, bUVal, ha, flatEv]⟩)⟩
      · obtain ⟨x, w, t, g1, g2, rfl, g3⟩ := ih m (by omega) (tr ++ [.urlEncodedValue b!" "])
        refine ⟨c! '+' :: x, c! ' ' :: w, t, .plus g1, ?_, rfl, ?_⟩
        · intro y hy
          simp only [List.mem_cons] at hy
          rcases hy with rfl | hy
          · decide
          · exact g2 y hy
        · have e : pred env tr .uVal (c! '+' :: (x ++ t)) = pred env (tr ++ [.urlEncodedValue b!" "]) .uVal (x ++ t) := by
            have h1 : pred env tr .uVal (c! '+' :: (x ++ t)) = pred env tr .uValPlus (x ++ t) := by
              simp [pred, norm, bstep, bUVal]
            rw [h1]
            exact pred_eps rfl rfl (x ++ t)
          rw [e]
          simpa [flatEv] using g3
      · refine ⟨[], [], _, .nil, by simp, rfl, .inr (.inl ⟨b, m, by rcases hb with rfl | rfl <;> decide, rfl, ?_⟩)⟩
        rcases hb with rfl | rfl <;> simp [pred, norm, bstep, bUVal, flatEv]
      · obtain ⟨x, w, t, g1, g2, rfl, g3⟩ := ih m (by omega) (tr ++ [.urlEncodedValue [b]])
        refine ⟨b :: x, b :: w, t, .literal h1 g1, ?_, rfl, ?_⟩
        · intro y hy
          rcases List.mem_cons.1 hy with rfl | hy
          · exact h2
          · exact g2 y hy
        · have e : pred env tr .uVal (b :: (x ++ t)) = pred env (tr ++ [.urlEncodedValue [b]]) .uVal (x ++ t) := by
            simp [pred, norm, bstep, h3]
          rw [e]
          simpa [flatEv] using g3
      · exact ⟨[], [], _, .nil, by simp, rfl, .inr (.inr ⟨[b], b, m, .inl ⟨rfl, h1⟩, rfl, by
          simp [pred, norm, bstep, h2, flatEv]⟩)⟩

theorem UrlOffence.ne {y : Bytes} {b : UInt8} (h : UrlOffence y b) : y ≠ [] := by
  rcases h with ⟨rfl, _⟩ | ⟨_, rfl | ⟨_, _, _, rfl⟩⟩ <;> simp

/-- What happens with a field that starts with at least one byte: how it ends. -/
theorem field_text (m : Bytes) (hm : m ≠ []) (tr : List Ev) :
    ∃ (x : Pair) (t : Bytes), x.Loose ∧ m = x.write ++ t ∧
      TextEnd b!"&;" (tr ++ flat x.events) (fun _ => .uFirst)
        (fun b => if x.value = none then .urlEncodedName b else .urlEncodedValue b) env (pred env tr .uFirst m) t := by
  obtain ⟨b, m', rfl⟩ := List.exists_cons_of_ne_nil hm
  rw [uFirst_eq]
  generalize b :: m' = m
  obtain ⟨x, w, t, h1, h2, rfl, h3⟩ := name_text (env := env) _ m (Nat.le_refl _) (tr ++ [.urlEncodedBegin])
  have done : (∃ y, TextEnd b!"&;" (tr ++ flat (Pair.mk x w none).events) (fun _ => .uFirst)
      (fun b => .urlEncodedName b) env (pred env (tr ++ [.urlEncodedBegin]) .uName (x ++ t)) y ∧ y = t) →
      ∃ (z : Pair) (t' : Bytes), z.Loose ∧ x ++ t = z.write ++ t' ∧
      TextEnd b!"&;" (tr ++ flat z.events) (fun _ => .uFirst)
        (fun b => if z.value = none then .urlEncodedName b else .urlEncodedValue b) env
        (pred env (tr ++ [.urlEncodedBegin]) .uName (x ++ t)) t' := by
    rintro ⟨y, h, rfl⟩
    exact ⟨⟨x, w, none⟩, y, ⟨⟨h1, h2⟩, nofun⟩, by simp [Pair.write], by simpa using h⟩
  have ev : tr ++ [.urlEncodedBegin] ++ flatEv (.urlEncodedName w) = tr ++ flat (Pair.mk x w none).events := by
    simp [Pair.events, flat, flatEv]
  rw [ev] at h3
  rcases h3 with h3 | ⟨b, m', hb, rfl, h3⟩ | h3
  · exact done ⟨t, .inl h3, rfl⟩
  · by_cases hq : b = c! '='
    · subst hq
      obtain ⟨x', w', t', g1, g2, rfl, g3⟩ := value_text (env := env) _ m' (Nat.le_refl _)
        (tr ++ flat (Pair.mk x w none).events)
      refine ⟨⟨x, w, some (x', w')⟩, t', ⟨⟨h1, h2⟩, ?_⟩, by simp [Pair.write], ?_⟩
      · rintro v ⟨⟩
        exact ⟨g1, g2⟩
      · rw [h3]
        have e : tr ++ flat (Pair.mk x w none).events ++ flatEv (.urlEncodedValue w') =
            tr ++ flat (Pair.mk x w (some (x', w'))).events := by
          simp [Pair.events, flat, flatEv]
        rw [e] at g3
        simpa [nameNext] using g3
    · refine done ⟨_, .inr (.inl ⟨b, m', ?_, rfl, ?_⟩), rfl⟩
      · simp only [List.mem_cons, List.not_mem_nil, or_false] at hb ⊢
        exact hb.resolve_left hq
      · rw [h3]; simp [nameNext, hq]
  · exact done ⟨t, .inr (.inr h3), rfl⟩

/-- What happens with any body. -/
theorem url_text : ∀ (n : Nat) (m : Bytes), m.length ≤ n → ∀ (tr : List Ev),
    ∃ x : LooseUrl, x.OK ∧
      ((m = x.write ∧ pred env tr .uFirst m = (tr ++ flat x.events, .eos)) ∨
      ∃ y b r, x.cut = [] ∧ UrlOffence y b ∧ m = x.write ++ y ++ r ∧ pred env tr .uFirst m =
        (tr ++ flat x.allEvents, .err (if x.last.value = none then .urlEncodedName b else .urlEncodedValue b) r)) := by
  have nil : ∀ tr, ∃ x : LooseUrl, x.OK ∧
      (([] = x.write ∧ pred env tr .uFirst [] = (tr ++ flat x.events, .eos)) ∨
      ∃ y b r, x.cut = [] ∧ UrlOffence y b ∧ [] = x.write ++ y ++ r ∧ pred env tr .uFirst [] =
        (tr ++ flat x.allEvents, .err (if x.last.value = none then .urlEncodedName b else .urlEncodedValue b) r)) := by
    intro tr
    refine ⟨⟨[], ⟨[], [], none⟩, []⟩, ⟨by simp, ⟨⟨.nil, by simp⟩, nofun⟩, .inl rfl⟩, .inl ⟨by simp [LooseUrl.write, Pair.write], ?_⟩⟩
    simp [pred, norm, LooseUrl.events, Pair.write, flat]
  intro n
  induction n with
  | zero =>
    intro m hm tr
    obtain rfl : m = [] := List.length_eq_zero_iff.1 (by omega)
    exact nil tr
  | succ n ih =>
    intro m hm tr
    by_cases hn : m = []
    · subst hn; exact nil tr
    obtain ⟨x, t, h1, rfl, h2⟩ := field_text (env := env) m hn tr
    rcases h2 with ⟨h2, h3⟩ | ⟨b, m', hb, rfl, h3⟩ | ⟨y, b, r, hy, rfl, h3⟩
    · refine ⟨⟨[], x, t⟩, ⟨by simp, h1, h2⟩, .inl ⟨by simp [LooseUrl.write], ?_⟩⟩
      rw [h3]
      simp only [LooseUrl.events, if_neg hn]
      simp [LooseUrl.allEvents]
    · simp only [List.length_append, List.length_cons] at hm
      obtain ⟨z, g1, g2⟩ := ih m' (by omega) (tr ++ flat x.events)
      refine ⟨⟨(x, b) :: z.fields, z.last, z.cut⟩, ⟨?_, g1.last, g1.cut⟩, ?_⟩
      · intro y hy
        rcases List.mem_cons.1 hy with rfl | hy
        · exact ⟨h1, by simpa using hb⟩
        · exact g1.fields y hy
      · rcases g2 with ⟨rfl, g3⟩ | ⟨y, b', r, hz, ho, rfl, g3⟩
        · left
          refine ⟨by simp [LooseUrl.write], ?_⟩
          rw [h3, g3]
          simp only [LooseUrl.events, LooseUrl.allEvents]
          split <;> simp [flat]
        · right
          refine ⟨y, b', r, hz, ho, by simp [LooseUrl.write], ?_⟩
          rw [h3, g3]
          simp [LooseUrl.allEvents, flat]
    · refine ⟨⟨[], x, []⟩, ⟨by simp, h1, .inl rfl⟩, .inr ⟨y, b, r, rfl, hy, by simp [LooseUrl.write], ?_⟩⟩
      rw [h3]
      simp [LooseUrl.allEvents]

/-! ## The other way round -/

theorem runs_loose_pair {x : Pair} (h : x.Loose) {t : Bytes} (hx : x.write ++ t ≠ []) (tr : List Ev) :
    pred env tr .uFirst (x.write ++ t) = pred env (tr ++ flat x.events) (UOpen x) t := by
  obtain ⟨n, nm, v⟩ := x
  have h1 := runs_uName (env := env) h.name.1 h.name.2
  have h2 : Runs env .uName (Pair.mk n nm v).write (flat (Pair.mk n nm v).events).tail (UOpen ⟨n, nm, v⟩) := by
    cases v with
    | none => exact Runs.eq h1 (by simp [Pair.write]) (by simp [Pair.events, flat, flatEv])
    | some v =>
      obtain ⟨h3, h4⟩ := h.value v rfl
      exact Runs.eq ((h1.trans (Runs.byte (s' := .uVal) (b := c! '=') (es := []) (fun _ => rfl) nofun (by rfl))).trans
        (runs_uVal h3 h4)) (by simp [Pair.write]) (by simp [Pair.events, flat, flatEv])
  obtain ⟨b, t', e⟩ := List.exists_cons_of_ne_nil hx
  have h3 := h2 (tr ++ [.urlEncodedBegin]) t
  rw [e] at h3 ⊢
  rw [uFirst_eq, h3]
  simp [Pair.events, flat, flatEv]

theorem pred_fields (r : Bytes) : ∀ (l : List (Pair × UInt8)) (tr : List Ev),
    (∀ y ∈ l, y.1.Loose ∧ (y.2 = c! '&' ∨ y.2 = c! ';')) →
    pred env tr .uFirst (l.flatMap (fun y => y.1.write ++ [y.2]) ++ r) =
      pred env (tr ++ flat (l.flatMap fun y => y.1.events)) .uFirst r
  | [], tr, _ => by simp [flat]
  | y :: l, tr, h => by
    obtain ⟨h1, h2⟩ := h y (by simp)
    have e : (y :: l).flatMap (fun y => y.1.write ++ [y.2]) ++ r =
        y.1.write ++ ([y.2] ++ (l.flatMap (fun y => y.1.write ++ [y.2]) ++ r)) := by simp
    rw [e, runs_loose_pair h1 (by simp), runs_sep h2, pred_fields r l _ fun z hz => h z (by simp [hz])]
    simp [flat]

theorem pred_looseUrl {x : LooseUrl} (h : x.OK) (tr : List Ev) :
    pred env tr .uFirst x.write = (tr ++ flat x.events, .eos) := by
  unfold LooseUrl.write LooseUrl.events LooseUrl.allEvents
  rw [List.append_assoc, pred_fields _ _ _ h.fields]
  by_cases hn : x.last.write ++ x.cut = []
  · rw [if_pos hn, hn]
    simp [pred, norm]
  · rw [if_neg hn, runs_loose_pair h.last hn]
    rcases h.cut with hc | hc
    · rw [hc, pred_uOpen]; simp [flat]
    · rw [pred_cut hc]; simp [flat]

theorem pred_offence {x : LooseUrl} (h : x.OK) (hc : x.cut = []) {y : Bytes} {b : UInt8} (hy : UrlOffence y b)
    (r : Bytes) (tr : List Ev) :
    pred env tr .uFirst (x.write ++ y ++ r) =
      (tr ++ flat x.allEvents, .err (if x.last.value = none then .urlEncodedName b else .urlEncodedValue b) r) := by
  unfold LooseUrl.write LooseUrl.allEvents
  have hn : x.last.write ++ (y ++ r) ≠ [] := by
    have := hy.ne
    simp [this]
  rw [hc, List.append_nil, List.append_assoc, List.append_assoc, pred_fields _ _ _ h.fields, runs_loose_pair h.last hn]
  rcases hy with ⟨rfl, hb⟩ | hy
  · have key : ∀ b : UInt8, b < 0x21 ∨ 0x7E < b → bUName b = .err [] (.urlEncodedName b) ∧
        bUVal b = .err [] (.urlEncodedValue b) := by
      apply Util.forall_u8
      decide +kernel
    obtain ⟨k1, k2⟩ := key b hb
    unfold UOpen
    split <;> simp [pred, norm, bstep, k1, k2, flat]
  · rw [pred_bad hy]; simp [flat]

end Verif.Http1
