import Verif.Http1.UrlProgram
import Verif.Http1.MultipartProgramRun
import Verif.Props.Http1Url

/-!
# What the program that reads a URL-encoded form does (helper lemmas)
-/

namespace Verif.Http1.UrlForm

open Doc (Map get_insert)

/-- A callback about a field is not passed empty data. -/
def Solid (e : Ev) : Prop := e ≠ .urlEncodedName [] ∧ e ≠ .urlEncodedValue []

theorem solid_of_flat {e : Ev} (h : flatEv e ≠ []) : Solid e := by
  constructor <;> rintro rfl <;> exact h rfl

theorem append (s : State) (l m : List Ev) : s.onAll (l ++ m) = (s.onAll l).onAll m := List.foldl_append

theorem names : ∀ (d : Bytes) (s : State), s.state = .name →
    s.onAll (d.map fun b => .urlEncodedName [b]) = { s with nameBuf := s.nameBuf ++ d }
  | [], s, _ => by simp [State.onAll]
  | b :: d, s, h => by
    have h1 : s.on (.urlEncodedName [b]) = { s with nameBuf := s.nameBuf ++ [b], state := .name } := by
      simp only [State.on]; rw [if_neg (by rw [h]; decide)]
    show State.onAll (s.on (.urlEncodedName [b])) _ = _
    rw [h1]
    refine (names d _ rfl).trans ?_
    simp [h]

theorem values : ∀ (d : Bytes) (s : State), d ≠ [] →
    s.onAll (d.map fun b => .urlEncodedValue [b]) = s.on (.urlEncodedValue d)
  | [], _, h => absurd rfl h
  | [b], s, _ => rfl
  | b :: c :: d, s, _ => by
    show State.onAll (s.on (.urlEncodedValue [b])) ((c :: d).map fun b => .urlEncodedValue [b]) = _
    rw [values (c :: d) _ (by simp)]
    simp [State.on]

theorem flat_one (s : State) (e : Ev) (he : Solid e) : s.onAll (flatEv e) = s.on e := by
  have skip : ∀ (f : Bytes → Ev), (∀ s d, State.on s (f d) = s) → ∀ d : Bytes,
      s.onAll (d.map fun b => f [b]) = s := by
    intro f hf d
    induction d with
    | nil => rfl
    | cons b d ih => show State.onAll (s.on (f [b])) _ = _; rw [hf]; exact ih
  cases e with
  | urlEncodedName d =>
    rcases d with _ | ⟨b, d⟩
    · exact absurd rfl he.1
    show State.onAll (s.on (.urlEncodedName [b])) _ = _
    refine (names d _ rfl).trans ?_
    simp [State.on]
  | urlEncodedValue d => exact values d s (by rintro rfl; exact he.2 rfl)
  | method d => exact skip .method (fun _ _ => rfl) d
  | url d => exact skip .url (fun _ _ => rfl) d
  | status d => exact skip .status (fun _ _ => rfl) d
  | chunkData d => exact skip .chunkData (fun _ _ => rfl) d
  | chunkExtensionName d => exact skip .chunkExtensionName (fun _ _ => rfl) d
  | chunkExtensionValue d => exact skip .chunkExtensionValue (fun _ _ => rfl) d
  | multipartData d => exact skip .multipartData (fun _ _ => rfl) d
  | headerName d => exact skip .headerName (fun _ _ => rfl) d
  | headerValue d => exact skip .headerValue (fun _ _ => rfl) d
  | _ => rfl

theorem flat_all : ∀ (l : List Ev) (s : State), (∀ e ∈ l, Solid e) → s.onAll (flat l) = s.onAll l
  | [], _, _ => rfl
  | e :: l, s, h => by
    show s.onAll (flatEv e ++ flat l) = _
    rw [append, flat_one s e (h e (by simp)), flat_all l _ fun e he => h e (by simp [he])]
    rfl

/-- Fields with a name and a value. -/
def Full (p : Pair) : Prop := p.nameMeaning ≠ [] ∧ ∃ v, p.value = some v ∧ v.2 ≠ []

theorem full_solid {p : Pair} (hp : Full p) : ∀ e ∈ p.events, Solid e := by
  obtain ⟨h1, v, h2, h3⟩ := hp
  intro e he
  simp only [Pair.events, h2, List.mem_append, List.mem_cons, List.not_mem_nil, or_false] at he
  rcases he with (rfl | rfl) | rfl
  · exact ⟨nofun, nofun⟩
  · exact ⟨by simpa using h1, nofun⟩
  · exact ⟨nofun, by simpa using h3⟩

theorem pairs_read : ∀ (ps : List Pair) (s : State), (∀ p ∈ ps, Full p) →
    (s.state ≠ .value → s.nameBuf = [] ∧ s.valueBuf = []) → ∀ n,
    (s.onAll (ps.flatMap Pair.events ++ [.bodyFinished])).parameters.get n =
      (lastValue ps n).or (s.flush.parameters.get n)
  | [], s, _, _, n => rfl
  | p :: ps, s, hp, hs, n => by
    obtain ⟨h1, v, h2, h3⟩ := hp p (by simp)
    have e2 : (s.on (.urlEncodedName p.nameMeaning)).on (.urlEncodedValue v.2) =
        { s.flush with nameBuf := p.nameMeaning, valueBuf := v.2, state := .value } := by
      simp only [State.on]
      by_cases h : s.state = .value
      · rw [if_pos h]; simp [State.flush]
      · obtain ⟨h1, h2⟩ := hs h
        rw [if_neg h]; simp [State.flush, h1, h2]
    have e3 : s.onAll ((p :: ps).flatMap Pair.events ++ [.bodyFinished]) =
        State.onAll { s.flush with nameBuf := p.nameMeaning, valueBuf := v.2, state := .value }
          (ps.flatMap Pair.events ++ [.bodyFinished]) := by
      rw [← e2, List.flatMap_cons, List.append_assoc, append]
      simp only [Pair.events, h2]
      rfl
    rw [e3]
    refine (pairs_read ps { s.flush with nameBuf := p.nameMeaning, valueBuf := v.2, state := .value }
      (fun q hq => hp q (by simp [hq])) (fun h => absurd rfl h) n).trans ?_
    have e4 : (State.flush { s.flush with nameBuf := p.nameMeaning, valueBuf := v.2, state := .value }).parameters =
        s.flush.parameters.insert p.nameMeaning v.2 := by
      simp only [State.flush]
      rw [if_pos ⟨List.length_pos_iff.2 h1, List.length_pos_iff.2 h3⟩]
    rw [e4, get_insert]
    unfold lastValue
    rw [List.reverse_cons, List.find?_append]
    cases hf : ps.reverse.find? (fun q => q.nameMeaning = n) with
    | some z =>
      obtain ⟨-, w, h5, -⟩ := hp z (by
        have := List.mem_of_find?_eq_some hf
        simp only [List.mem_reverse] at this
        simp [this])
      simp [h5]
    | none =>
      by_cases h : p.nameMeaning = n
      · subst h; simp [h2]
      · rw [if_neg (Ne.symm h)]; simp [h]

end Verif.Http1.UrlForm
