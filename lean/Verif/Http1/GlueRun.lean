import Verif.Http1.AnyRun
import Verif.Http1.GlueSpec
import Verif.Http1.UrlProgramRun
import Verif.Props.Http1AcceptUrl

/-!
# What the program that reads a URL-encoded form stores for any body (helper lemmas)
-/

namespace Verif.Http1.UrlForm

open Doc (put)

/-- The map that the program ends up with after a name or at the start. -/
def after (m : Doc.Map) (nb : Bytes) (r : Bytes × List (Bytes × Bytes)) : Doc.Map :=
  if r.1 ≠ [] then put (if nb.length > 0 then m.insert nb r.1 else m) r.2
  else
    match r.2 with
    | [] => m
    | f :: fs => put m ((nb ++ f.1, f.2) :: fs)

theorem pair_flat (p : Pair) (l : List Ev) : flat (p.events ++ l) =
    .urlEncodedBegin :: (flatEv (.urlEncodedName p.nameMeaning) ++ (flatEv (.urlEncodedValue p.text) ++ flat l)) := by
  cases h : p.value <;> simp [Pair.events, Pair.text, h, flat, flatEv]

theorem on_name (s : State) (n : Bytes) (l : List Ev) : s.onAll (flatEv (.urlEncodedName n) ++ l) =
    State.onAll (if n = [] then s else s.on (.urlEncodedName n)) l := by
  by_cases h : n = []
  · subst h; rfl
  · rw [append, flat_one s (.urlEncodedName n) ⟨by simpa using h, nofun⟩, if_neg h]

theorem on_value (s : State) (v : Bytes) (l : List Ev) : s.onAll (flatEv (.urlEncodedValue v) ++ l) =
    State.onAll (if v = [] then s else s.on (.urlEncodedValue v)) l := by
  by_cases h : v = []
  · subst h; rfl
  · rw [append, flat_one s (.urlEncodedValue v) ⟨nofun, by simpa using h⟩, if_neg h]

theorem step_pair (s : State) (p : Pair) (l : List Ev) : s.onAll (flat (p.events ++ l)) =
    let t := if p.nameMeaning = [] then s else s.on (.urlEncodedName p.nameMeaning)
    State.onAll (if p.text = [] then t else t.on (.urlEncodedValue p.text)) (flat l) := by
  rw [pair_flat]
  show s.onAll (flatEv (.urlEncodedName p.nameMeaning) ++ (flatEv (.urlEncodedValue p.text) ++ flat l)) = _
  rw [on_name, on_value]

theorem after_nil (m : Doc.Map) (r : Bytes × List (Bytes × Bytes)) : after m [] r = put m r.2 := by
  obtain ⟨v, fs⟩ := r
  unfold after
  split
  · simp
  · cases fs <;> rfl

/-- What the program does with any fields: after a value, and otherwise. -/
theorem any_pairs : ∀ (ps : List Pair) (s : State),
    (s.state = .value → (s.onAll (flat (ps.flatMap Pair.events ++ [.bodyFinished]))).parameters =
      put (State.flush { s with valueBuf := s.valueBuf ++ (glued ps).1 }).parameters (glued ps).2) ∧
    (s.state ≠ .value → s.valueBuf = [] → (s.onAll (flat (ps.flatMap Pair.events ++ [.bodyFinished]))).parameters =
      after s.parameters s.nameBuf (glued ps))
  | [], s => by
    constructor
    · intro _
      simp only [glued, List.append_nil]
      rfl
    · intro _ h
      show (State.flush s).parameters = _
      simp [State.flush, h, after, glued]
  | p :: ps, s => by
    rw [List.flatMap_cons, List.append_assoc, step_pair]
    have IH := any_pairs ps
    simp only [glued]
    generalize p.nameMeaning = n
    generalize p.text = v
    generalize glued ps = r at IH
    generalize flat (ps.flatMap Pair.events ++ [.bodyFinished]) = l at IH
    obtain ⟨r1, r2⟩ := r
    have pos : ∀ {d : Bytes}, d ≠ [] → d.length > 0 := List.length_pos_iff.2
    by_cases hn : n = []
    · subst hn
      simp only [if_true]
      by_cases hv : v = []
      · subst hv
        simp only [if_true, List.nil_append]
        exact IH s
      · simp only [if_neg hv]
        have H := (IH (s.on (.urlEncodedValue v))).1 rfl
        constructor
        · intro _
          rw [H]
          simp only [State.on, State.flush, List.append_assoc]
        · intro _ h
          rw [H]
          have hc : v ++ r1 ≠ [] := by simp [hv]
          simp only [State.on, State.flush, h, List.nil_append, after, if_pos hc]
          by_cases hb : s.nameBuf.length > 0
          · rw [if_pos ⟨hb, pos hc⟩, if_pos hb]
          · rw [if_neg fun h => hb h.1, if_neg hb]
    · simp only [if_neg hn]
      -- the state after the name
      have ha : s.state = .value → s.on (.urlEncodedName n) = ⟨n, s.flush.parameters, .name, []⟩ := by
        intro h; simp [State.on, h, State.flush]
      have hb : s.state ≠ .value → s.valueBuf = [] → s.on (.urlEncodedName n) = ⟨s.nameBuf ++ n, s.parameters, .name, []⟩ := by
        intro h h'; simp [State.on, h, h']
      by_cases hv : v = []
      · subst hv
        simp only [if_true, List.nil_append]
        have H := (IH (s.on (.urlEncodedName n))).2
        by_cases hr : r1 = []
        · subst hr
          simp only [ne_eq, not_true, if_false]
          constructor
          · intro h
            rw [ha h] at H ⊢
            rw [H (by simp) rfl]
            cases r2 <;> simp [after, put]
          · intro h h'
            rw [hb h h'] at H ⊢
            rw [H (by simp) rfl]
            cases r2 <;> simp [after, put]
        · simp only [ne_eq, hr, not_false_iff, if_true]
          constructor
          · intro h
            rw [ha h] at H ⊢
            rw [H (by simp) rfl]
            simp [after, put, hr, pos hn]
          · intro h h'
            rw [hb h h'] at H ⊢
            rw [H (by simp) rfl]
            have : 0 < s.nameBuf.length + n.length := by have := pos hn; omega
            simp [after, put, hr, this]
      · simp only [if_neg hv]
        have hc : v ++ r1 ≠ [] := by simp [hv]
        simp only [if_pos hc]
        have H := (IH ((s.on (.urlEncodedName n)).on (.urlEncodedValue v))).1 rfl
        constructor
        · intro h
          rw [H, ha h]
          have e : 0 < n.length ∧ 0 < v.length := ⟨pos hn, pos hv⟩
          simp [State.on, State.flush, put, e]
        · intro h h'
          rw [H, hb h h']
          have e : 0 < n.length ∧ 0 < v.length := ⟨pos hn, pos hv⟩
          simp [State.on, State.flush, put, after, e]

end Verif.Http1.UrlForm
