import Verif.Http1.HeadProgramRun
import Verif.Http1.JoinSpec

/-!
# What the documented program stores for any accepted head

Lemmas for the property theorems in Verif/Props/Http1AnyHead.lean.
-/

namespace Verif.Http1.Doc

/-- The map after these fields. -/
def put (m : Map) (fs : List (Bytes × Bytes)) : Map := fs.foldl (fun m f => m.insert f.1 f.2) m

theorem get_put : ∀ (fs : List (Bytes × Bytes)) (m : Map) (n : Bytes),
    (put m fs).get n = (lastOf fs n).or (m.get n)
  | [], _, _ => rfl
  | (a, b) :: fs, m, n => by
    rw [show put m ((a, b) :: fs) = put (m.insert a b) fs from rfl, get_put fs]
    unfold lastOf
    rw [List.reverse_cons, List.lookup_append]
    cases fs.reverse.lookup n with
    | some z => rfl
    | none =>
      rw [get_insert]
      by_cases h : n = a
      · subst h; simp
      · rw [if_neg h]
        have : (n == a) = false := by simpa using h
        simp [List.lookup_cons, this]

/-- The state of the handler after these lines. -/
def stateAfter (st : HState) : List Line → HState
  | [] => st
  | .fold _ v :: ls => if v = [] then stateAfter st ls else stateAfter .headerValue ls
  | .field _ _ _ :: ls => stateAfter .headerValue ls

theorem flush_clean {s t : Handler} : s.flush = some t → t.headerName = [] ∧ t.headerValue = [] := by
  simp only [Handler.flush]
  split
  · split
    · rintro ⟨⟩; exact ⟨rfl, rfl⟩
    · exact fun h => by cases h
  · rintro ⟨⟩; exact ⟨rfl, rfl⟩

theorem flush_with (s : Handler) (f : HState → HState) (b : Bool) :
    Handler.flush { s with state := f s.state, headersFinished := b } =
      s.flush.map fun t => { t with state := f s.state, headersFinished := b } := by
  simp only [Handler.flush]
  split
  · split <;> rfl
  · rfl

/-- A line that has no name: more of the value. -/
theorem on_more (s : Handler) (v : Bytes) (l : List Ev) :
    s.onAll (flatEv (.headerValue v) ++ l) =
      Handler.onAll { s with state := if v = [] then s.state else .headerValue, headerValue := s.headerValue ++ v } l := by
  by_cases hv : v = []
  · subst hv; simp [flatEv]
  · rw [onAll_append, on_flat _ _ (by simpa [flatEv] using hv)]
    simp [Handler.on, hv]

/-- What the handler does with the lines of a header block: what is left over gets the text without a name, is stored,
and then the fields, unless one of the values is not UTF-8. -/
theorem on_lines : ∀ (ls : List Line) (s : Handler), (∀ y ∈ ls, y.OK) →
    (s.state ≠ .headerValue → s.headerName = [] ∧ s.headerValue = []) →
    s.onAll (flat (ls.flatMap Line.events ++ [.headersFinished])) =
      (Handler.flush { s with headerValue := s.headerValue ++ (joined ls).1 }).bind fun t =>
        if ∀ f ∈ (joined ls).2, Util.UTF8 f.2 then
          some { t with headersFinished := true, headers := put t.headers (joined ls).2, state := stateAfter s.state ls }
        else none
  | [], s, _, hs => by
    simp only [List.flatMap_nil, List.nil_append, joined, List.append_nil, List.not_mem_nil, false_implies, implies_true,
      if_true, put, List.foldl_nil, stateAfter]
    rw [show flat [Ev.headersFinished] = [.headersFinished] from rfl]
    simp only [Handler.onAll, Handler.on]
    have := flush_with s id true
    simp only [id] at this
    rw [this]
    cases s.flush <;> simp
  | .fold b v :: ls, s, hy, hs => by
    rw [show flat ((Line.fold b v :: ls).flatMap Line.events ++ [.headersFinished]) =
      flatEv (.headerValue v) ++ flat (ls.flatMap Line.events ++ [.headersFinished]) from rfl, on_more]
    by_cases hv : v = []
    · subst hv
      simp only [if_true, List.append_nil, joined, List.nil_append, stateAfter]
      exact on_lines ls s (fun y h => hy y (by simp [h])) hs
    · rw [on_lines ls _ (fun y h => hy y (by simp [h])) (fun h => absurd (by simp [hv]) h)]
      simp only [joined, stateAfter, if_neg hv, List.append_assoc]
      have := flush_with { s with headerValue := s.headerValue ++ (v ++ (joined ls).1) } (fun _ => .headerValue) s.headersFinished
      simp only at this
      rw [this]
      cases Handler.flush { s with headerValue := s.headerValue ++ (v ++ (joined ls).1) } <;> rfl
  | .field n bl v :: ls, s, hy, hs => by
    obtain ⟨hn, -, -, b0, w0, e0, -⟩ := hy (.field n bl v) (by simp)
    have hv : v ≠ [] := by rw [e0]; simp
    rw [show flat ((Line.field n bl v :: ls).flatMap Line.events ++ [.headersFinished]) =
      flatEv (.headerName (Verif.lower n)) ++ (flatEv (.headerValue v) ++
        flat (ls.flatMap Line.events ++ [.headersFinished])) from by simp [flat, Line.events]]
    by_cases hn0 : n = []
    · subst hn0
      rw [show flatEv (.headerName (Verif.lower [])) = [] from rfl, List.nil_append, on_more,
        on_lines ls _ (fun y h => hy y (by simp [h])) (fun h => absurd (by simp [hv]) h)]
      simp only [joined, stateAfter, if_neg hv, if_true, List.append_assoc]
      have := flush_with { s with headerValue := s.headerValue ++ (v ++ (joined ls).1) } (fun _ => .headerValue) s.headersFinished
      simp only at this
      rw [this]
      cases Handler.flush { s with headerValue := s.headerValue ++ (v ++ (joined ls).1) } <;> rfl
    · have hl : Verif.lower n ≠ [] := fun h => hn0 (List.map_eq_nil_iff.1 h)
      have h1 : s.on (.headerName (Verif.lower n)) = s.flush.bind fun t =>
          some { t with state := if s.state = .headerValue then .headerName else s.state, headerName := Verif.lower n } := by
        simp only [Handler.on]
        by_cases h : s.state = .headerValue
        · simp only [if_pos h]
          cases hf : s.flush with
          | none => rfl
          | some t => simp [(flush_clean hf).1]
        · obtain ⟨h1, h2⟩ := hs h
          simp only [if_neg h]
          simp [Handler.flush, h1, h2]
      rw [onAll_append, on_flat _ _ (by simpa [flatEv] using hl), h1]
      simp only [joined, if_neg hn0, List.append_nil, stateAfter]
      cases hf : s.flush with
      | none => rfl
      | some t =>
        obtain ⟨c1, c2⟩ := flush_clean hf
        simp only [Option.bind_some]
        rw [on_more, on_lines ls _ (fun y h => hy y (by simp [h])) (fun h => absurd (by simp [hv]) h)]
        simp only [if_neg hv, c2, List.nil_append]
        have hp : (Verif.lower n).length > 0 ∧ (v ++ (joined ls).1).length > 0 :=
          ⟨List.length_pos_iff.2 hl, by rw [e0]; simp⟩
        simp only [Handler.flush, if_pos hp]
        by_cases hu : Util.UTF8 (v ++ (joined ls).1)
        · rw [if_pos ⟨utf8_name hn, hu⟩]
          simp only [Option.bind_some, List.forall_mem_cons, hu, true_and]
          by_cases ha : ∀ f ∈ (joined ls).2, Util.UTF8 f.2
          · rw [if_pos ha, if_pos ha]
            simp [put, c1, c2]
          · rw [if_neg ha, if_neg ha]
        · rw [if_neg fun h => hu h.2, if_neg fun h => hu (h _ (List.mem_cons_self ..))]
          rfl

end Verif.Http1.Doc
