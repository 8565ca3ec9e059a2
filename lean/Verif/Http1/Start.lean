import Verif.Http1.Drive
import Verif.Http1.Reach
import Mathlib.Tactic.Linarith

/-!
# Starting points and completeness of client runs (helper lemmas) (helper lemmas)
-/

set_option linter.unusedSimpArgs false
set_option linter.unusedVariables false

namespace Verif.Http1

variable {env : Env} {fut : Bytes} {K : List Ev × Fin} {h : Handler} {c : Cfg}

/-! ## Completeness of client runs -/

theorem Start.urlOK {w : World} {s : Bytes} (H : Start env K w s fut) : UrlOK w.p := by
  unfold Start at H
  intro hp
  split at H
  · exact .inl H.st
  · rename_i h1
    exact absurd (H.ptype.symm.trans hp) h1

theorem flat_lt {l l' : List Ev} {e : Ev} (h1 : l <+: l') (h2 : flatEv e ≠ []) :
    (flat l).length < (flat (l' ++ [e])).length := by
  obtain ⟨t, rfl⟩ := h1
  have : 0 < (flatEv e).length := List.length_pos_iff.2 h2
  simp [flat] at this ⊢
  omega

theorem complete_tail (hB : BdOK env) (hC : ClOK env h) : ∀ (ks : List Nat) (w : World),
    Inv env K w [] → K = (flat w.log, .eos) → (drive h .eos ks w []).complete
  | [], w, _, _ => rfl
  | k :: ks, w, H, hK => by
    have H' : Start env K w ([] : Bytes) [] := Inv.start (by simpa using H)
    have h1 := call_sim hB hC H'
    have h2 := callOK (h := h) (s := []) H'.urlOK
    simp only [drive, List.take_nil]
    revert h1 h2
    generalize resume h w [] = r
    obtain ⟨r, w'⟩ := r
    intro h1 h2
    cases r with
    | ok s =>
      cases s with
      | callback n =>
        exfalso
        have hi := Inv.prefix h1.2
        obtain ⟨l, e, a1, a2, a3⟩ := h2.2.2.2.2.2.1
        rw [a2, hK] at hi
        have := hi.length_le
        have := flat_lt a1 a3
        simp at *
        omega
      | eos n =>
        obtain ⟨e, hi, hk⟩ := h1
        simp only [List.drop_nil]
        exact complete_tail hB hC ks w' hi (hk rfl)
      | finished n => trivial
    | err e => trivial
    | panic => trivial
    | ub => exact h1.elim
    | diverge => exact h1.elim

theorem complete_gen (hB : BdOK env) (hC : ClOK env h) : ∀ (ks : List Nat) (k : Nat) (last : End)
    (w : World) (m : Bytes), Start env K w (m.take k) (m.drop k) → (∀ x ∈ k :: ks, 0 < x) →
    m.length + K.1.length ≤ ks.length + (flat w.log).length →
    (drive h last (k :: ks) w m).complete
  | ks, k, last, w, m, H, hk, hl => by
    have h1 := call_sim hB hC H
    have h2 := callOK (h := h) (s := m.take k) H.urlOK
    have ih : ∀ last w m, ks ≠ [] → Inv env K w m →
      m.length + K.1.length < ks.length + (flat w.log).length →
      (drive h last ks w m).complete := by
      intro last w m hks hi hl
      cases ks with
      | nil => exact absurd rfl hks
      | cons k' ks' =>
        refine complete_gen hB hC ks' k' last w m (Inv.start (by simpa using hi))
          (fun x hx => hk x (List.mem_cons_of_mem _ hx)) ?_
        simp at hl
        omega
    simp only [drive]
    revert h1 h2
    generalize resume h w (m.take k) = r
    obtain ⟨r, w'⟩ := r
    intro h1 h2
    have hcat : m.take k ++ m.drop k = m := List.take_append_drop k m
    cases r with
    | ok s =>
      cases s with
      | callback n =>
        have hi := h1.2
        rw [hcat] at hi
        obtain ⟨l, e, a1, a2, a3⟩ := h2.2.2.2.2.2.1
        have b1 := flat_lt a1 a3
        rw [← a2] at b1
        have b2 := (Inv.prefix hi).length_le
        have b3 : (m.drop n).length ≤ m.length := by simp
        refine ih _ _ _ ?_ hi (by omega)
        rintro rfl
        simp at hl
        omega
      | eos n =>
        obtain ⟨e, hi, hz⟩ := h1
        have e' : m.drop n = m.drop k := by
          rw [e, List.length_take]
          rcases Nat.le_total k m.length with h | h
          · rw [Nat.min_eq_left h]
          · rw [Nat.min_eq_right h, List.drop_length, List.drop_of_length_le h]
        simp only [e']
        by_cases hm : m.drop k = []
        · rw [hm] at hi ⊢
          exact complete_tail hB hC ks w' hi (hz hm)
        · have hk0 : 0 < k := hk k (List.mem_cons_self ..)
          have b1 : (flat w.log).length ≤ (flat w'.log).length := by
            obtain ⟨t, ht⟩ := h2.2.2.2.2.2
            rw [← ht]; simp [flat]
          have b2 := (Inv.prefix hi).length_le
          have b3 : (m.drop k).length < m.length := by
            simp at hm ⊢; omega
          refine ih _ _ _ ?_ hi (by omega)
          rintro rfl
          simp at hl
          have : 0 < (m.drop k).length := List.length_pos_iff.2 hm
          omega
      | finished n => trivial
    | err e => trivial
    | panic => trivial
    | ub => exact h1.elim
    | diverge => exact h1.elim

/-! ## Starting points -/

/-- The prediction for a message. -/
def startK (env : Env) (w : World) (msg : Bytes) : List Ev × Fin :=
  if env.ptype = .urlEncoded then predU env w msg else pred env (flat w.log) (abs w.p) msg

/-- No lengths are given for parts. -/
def noCl : List Ev → Option Nat := fun _ => none

theorem start_head {q : Parser} {l : List Ev} {s : Bytes} (hh : HOK .stripDetect s fut) :
    Start ⟨.head, none, noCl⟩ (startK ⟨.head, none, noCl⟩ ⟨q.init .head, l⟩ (s ++ fut))
      ⟨q.init .head, l⟩ s fut := by
  refine ⟨?_, hh, rfl, rfl, rfl⟩
  show PType.head ≠ _
  decide

theorem start_new {l : List Ev} {s : Bytes} (hh : HOK .detect1 s fut) :
    Start ⟨.head, none, noCl⟩ (startK ⟨.head, none, noCl⟩ ⟨.new, l⟩ (s ++ fut))
      ⟨.new, l⟩ s fut := by
  refine ⟨?_, hh, rfl, rfl, rfl⟩
  show PType.head ≠ _
  decide

theorem start_chunked {q : Parser} {l : List Ev} {s : Bytes} :
    Start ⟨.chunked, none, noCl⟩ (startK ⟨.chunked, none, noCl⟩ ⟨q.init .chunked, l⟩ (s ++ fut))
      ⟨q.init .chunked, l⟩ s fut := by
  refine ⟨?_, ⟨.inl trivial, nofun⟩, rfl, rfl, rfl⟩
  show PType.chunked ≠ _ ∧ 0 = 0
  decide

theorem start_multipart {q : Parser} {l : List Ev} {s bd : Bytes} {cl : List Ev → Option Nat} :
    Start ⟨.multipart, some bd, cl⟩ (startK ⟨.multipart, some bd, cl⟩
      ⟨(q.init .multipart).setBoundary bd, l⟩ (s ++ fut))
      ⟨(q.init .multipart).setBoundary bd, l⟩ s fut := by
  refine ⟨?_, ⟨.inl trivial, nofun⟩, rfl, rfl, rfl⟩
  show getUpper14 ((q.init .multipart).setBoundary bd) = 0
  show (((setLower14 _ 1).bitData >>> 18) &&& 0x3FFF) = 0
  exact (getUpper14_setLower14 _ (by decide)).trans (by rw [getUpper14]; dsimp only; decide)

theorem start_url {q : Parser} {l : List Ev} {s : Bytes} {n : Nat} :
    Start ⟨.urlEncoded, none, noCl⟩ (startK ⟨.urlEncoded, none, noCl⟩
      ⟨(q.init .urlEncoded).setLength n, l⟩ (s ++ fut))
      ⟨(q.init .urlEncoded).setLength n, l⟩ s fut := by
  refine ⟨trivial, rfl, rfl, rfl⟩

theorem bdOK_none {t : PType} {cl : List Ev → Option Nat} : BdOK ⟨t, none, cl⟩ := nofun

theorem clOK_of {t : PType} {cl : List Ev → Option Nat} {b : Option Bytes} (ht : t ≠ .multipart) :
    ClOK ⟨t, b, cl⟩ h := fun h1 => absurd h1 ht

theorem run_agree {h1 h2 : Handler} {w : World} {msg : Bytes} {k1 k2 : Nat} {ks1 ks2 : List Nat}
    (hB : BdOK env) (hC1 : ClOK env h1) (hC2 : ClOK env h2)
    (H1 : Start env K w (msg.take k1) (msg.drop k1))
    (H2 : Start env K w (msg.take k2) (msg.drop k2))
    (c1 : (drive h1 .idle (k1 :: ks1) w msg).complete)
    (c2 : (drive h2 .idle (k2 :: ks2) w msg).complete) :
    Agree (drive h1 .idle (k1 :: ks1) w msg) (drive h2 .idle (k2 :: ks2) w msg) :=
  agree_of_sim (run_sim hB hC1 k1 ks1 H1) (run_sim hB hC2 k2 ks2 H2) c1 c2

end Verif.Http1
