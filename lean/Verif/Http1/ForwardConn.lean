import Verif.Http1.ForwardConnSpec
import Verif.Http1.ForwardBody
import Verif.Http1.ForwardParts
import Verif.Http1.Lengths

/-!
# Lemmas: passing a connection on

Used by C106.
-/

namespace Verif.Http1

/-- What is written for a history about one head or body. -/
def Mode.passFrom (m : Mode) (last : Last) : List Ev → Bytes
  | [] => []
  | e :: l => m.pass last e ++ m.passFrom e.last l

theorem passFrom_head : ∀ (j : Last) (l : List Ev), Mode.head.passFrom j l = forwardFrom j l
  | _, [] => rfl
  | j, e :: l => by rw [Mode.passFrom, forwardFrom, passFrom_head]; rfl

theorem passFrom_chunked : ∀ (j : Last) (l : List Ev), Mode.chunked.passFrom j l = forwardBodyFrom j l
  | _, [] => rfl
  | j, e :: l => by rw [Mode.passFrom, forwardBodyFrom, passFrom_chunked]; rfl

theorem passFrom_form (n : Nat) : ∀ (j : Last) (l : List Ev), (Mode.form n).passFrom j l = forwardBodyFrom j l
  | _, [] => rfl
  | j, e :: l => by rw [Mode.passFrom, forwardBodyFrom, passFrom_form]; rfl

theorem passFrom_multipart (bd : Bytes) : ∀ (j : Last) (l : List Ev),
    (Mode.multipart bd).passFrom j l = forwardPartsFrom bd j l
  | _, [] => rfl
  | j, e :: l => by rw [Mode.passFrom, forwardPartsFrom, passFrom_multipart]; rfl

theorem passFrom_flat (m : Mode) {l : List Ev} (h : ∀ e ∈ l, flatEv e ≠ []) (j : Last) :
    m.passFrom j (flat l) = m.passFrom j l := by
  cases m with
  | head => rw [passFrom_head, passFrom_head, fw_flat j l h]
  | chunked => rw [passFrom_chunked, passFrom_chunked, fb_flat j l h]
  | form n => rw [passFrom_form, passFrom_form, fb_flat j l h]
  | multipart bd => rw [passFrom_multipart, passFrom_multipart, fm_flat j l h]

/-- One head or body, and what follows. -/
theorem forwardConn_stage (next : List Ev → Option Mode) (m : Mode) (u : List Ev) : ∀ (t past : List Ev) (j : Last), m.ends ∉ t →
    forwardConnFrom next m past j (t ++ [m.ends] ++ u) = m.passFrom j (t ++ [m.ends]) ++
      match next (past ++ (t ++ [m.ends])) with
      | none => []
      | some m' => forwardConnFrom next m' (past ++ (t ++ [m.ends])) .none u
  | [], past, j, _ => by
    simp only [List.nil_append, List.cons_append, forwardConnFrom, Mode.passFrom, if_pos, List.append_nil]
    cases next (past ++ [m.ends]) <;> rfl
  | e :: t, past, j, h => by
    have he : e ≠ m.ends := fun h' => h (by simp [h'])
    have ih := forwardConn_stage next m u t (past ++ [e]) e.last fun h' => h (by simp [h'])
    rw [List.cons_append, List.cons_append, forwardConnFrom, if_neg he, ih, Mode.passFrom, List.append_assoc, List.append_assoc,
      List.singleton_append]

theorem flatEv_ends (m : Mode) : flatEv m.ends = [m.ends] := by cases m <;> rfl

theorem mem_flatEv_ends (m : Mode) {e : Ev} (h : m.ends ∈ flatEv e) : e = m.ends := by
  cases m <;> cases e <;> simp [Mode.ends, flatEv] at h ⊢

/-- The end is the last callback, however the data was cut. -/
theorem ends_last (m : Mode) : ∀ (t a : List Ev), (∀ e ∈ t, flatEv e ≠ []) → flat t = a ++ [m.ends] → m.ends ∉ a →
    ∃ t0, t = t0 ++ [m.ends] ∧ m.ends ∉ t0
  | [], a, _, h, _ => by simp [flat] at h
  | e :: t, a, hn, h, ha => by
    rw [flat, List.flatMap_cons] at h
    change flatEv e ++ flat t = _ at h
    by_cases he : e = m.ends
    · subst he
      rw [flatEv_ends] at h
      cases a with
      | nil =>
        have ht : flat t = [] := (List.cons.inj h).2
        cases t with
        | nil => exact ⟨[], rfl, by simp⟩
        | cons x t =>
          rw [flat, List.flatMap_cons, List.append_eq_nil_iff] at ht
          exact absurd ht.1 (hn x (by simp))
      | cons b a => exact absurd ((List.cons.inj h).1 ▸ List.mem_cons_self ..) ha
    · rw [List.append_eq_append_iff] at h
      rcases h with ⟨c, h1, h2⟩ | ⟨c, h1, h2⟩
      · subst h1
        obtain ⟨t0, rfl, h3⟩ := ends_last m t c (fun x hx => hn x (by simp [hx])) h2 fun hc => ha (by simp [hc])
        exact ⟨e :: t0, rfl, by
          intro h4
          rcases List.mem_cons.1 h4 with h4 | h4
          · exact he h4.symm
          · exact h3 h4⟩
      · cases c with
        | nil =>
          rw [List.nil_append] at h2
          obtain ⟨t0, rfl, h3⟩ := ends_last m t [] (fun x hx => hn x (by simp [hx])) (by rw [← h2]; rfl) (by simp)
          exact ⟨e :: t0, rfl, by
            intro h4
            rcases List.mem_cons.1 h4 with h4 | h4
            · exact he h4.symm
            · exact h3 h4⟩
        | cons x c =>
          have : x = m.ends := (List.cons.inj h2).1.symm
          exact absurd (mem_flatEv_ends m (by rw [h1, ← this]; simp)) he

theorem ends_unique {m : Mode} {x : List Ev} {t : List Ev} (hn : ∀ e ∈ t, flatEv e ≠ []) (h : flat t = flat (x ++ [m.ends]))
    (hx : m.ends ∉ x) : ∃ t0, t = t0 ++ [m.ends] ∧ m.ends ∉ t0 := by
  refine ends_last m t (flat x) hn ?_ ?_
  · rw [h, flat_app]
    simp [flat, flatEv_ends]
  · intro h1
    obtain ⟨e, h2, h3⟩ := List.mem_flatMap.1 h1
    rw [mem_flatEv_ends m h3] at h2
    exact hx h2

/-! ## The pieces of the data -/

theorem conn_free (next : List Ev → Option Mode) (m : Mode) (r : List Ev) : ∀ (s past : List Ev) (j : Last), m.ends ∉ s →
    forwardConnFrom next m past j (s ++ r) = m.passFrom j s ++
      forwardConnFrom next m (past ++ s) (s.foldl (fun _ e => e.last) j) r
  | [], past, j, _ => by simp [Mode.passFrom]
  | e :: s, past, j, h => by
    have he : e ≠ m.ends := fun h' => h (by simp [h'])
    have hs : m.ends ∉ s := fun h' => h (by simp [h'])
    have ih := conn_free next m r s (past ++ [e]) e.last hs
    rw [List.cons_append, forwardConnFrom, if_neg he, ih, Mode.passFrom, List.append_assoc, List.append_assoc, List.singleton_append]
    rfl

theorem last_piece {e : Ev} (h : flatEv e ≠ []) (j : Last) : (flatEv e).foldl (fun _ e => e.last) j = e.last := by
  have key : ∀ (f : UInt8 → Ev) (k : Last), (∀ b, (f b).last = k) → ∀ (d : Bytes) (j : Last), d.map f ≠ [] →
      (d.map f).foldl (fun _ e => e.last) j = k := by
    intro f k hf d
    induction d with
    | nil => intro j h; exact absurd rfl h
    | cons b d ih =>
      intro j _
      cases d with
      | nil => exact hf b
      | cons c d => rw [List.map_cons, List.foldl_cons]; exact ih _ (by simp)
  cases e with
  | method d => exact key (fun b => .method [b]) .other (fun _ => rfl) d j h
  | url d => exact key (fun b => .url [b]) .url (fun _ => rfl) d j h
  | status d => exact key (fun b => .status [b]) .status (fun _ => rfl) d j h
  | headerName d => exact key (fun b => .headerName [b]) .name (fun _ => rfl) d j h
  | headerValue d => exact key (fun b => .headerValue [b]) .value (fun _ => rfl) d j h
  | chunkData d => exact key (fun b => .chunkData [b]) .other (fun _ => rfl) d j h
  | chunkExtensionName d => exact key (fun b => .chunkExtensionName [b]) .extensionName (fun _ => rfl) d j h
  | chunkExtensionValue d => exact key (fun b => .chunkExtensionValue [b]) .extensionValue (fun _ => rfl) d j h
  | multipartData d => exact key (fun b => .multipartData [b]) .other (fun _ => rfl) d j h
  | urlEncodedName d => exact key (fun b => .urlEncodedName [b]) .other (fun _ => rfl) d j h
  | urlEncodedValue d => exact key (fun b => .urlEncodedValue [b]) .fieldValue (fun _ => rfl) d j h
  | _ => rfl

/-- What is written does not depend on the pieces. -/
theorem conn_flat {next : List Ev → Option Mode} (hn : ∀ l l', flat l = flat l' → next l = next l') :
    ∀ (l past past' : List Ev) (m : Mode) (j : Last), (∀ e ∈ l, flatEv e ≠ []) → flat past = flat past' →
    forwardConnFrom next m past j (flat l) = forwardConnFrom next m past' j l
  | [], _, _, _, _, _, _ => rfl
  | e :: l, past, past', m, j, h, hp => by
    have ih := fun past past' m j hp => conn_flat hn l past past' m j (fun x hx => h x (by simp [hx])) hp
    rw [flat, List.flatMap_cons]
    change forwardConnFrom next m past j (flatEv e ++ flat l) = _
    by_cases he : e = m.ends
    · rw [he, flatEv_ends, List.singleton_append, forwardConnFrom, forwardConnFrom, if_pos rfl, if_pos rfl]
      have h1 : flat (past ++ [m.ends]) = flat (past' ++ [m.ends]) := by rw [flat_app, flat_app, hp]
      rw [hn _ _ h1]
      cases next (past' ++ [m.ends]) with
      | none => rfl
      | some m' => dsimp only; rw [ih _ _ _ _ h1]
    · rw [conn_free _ _ _ _ _ _ (fun h1 => he (mem_flatEv_ends m h1)), last_piece (h e (by simp)), forwardConnFrom, if_neg he]
      have h2 : m.passFrom j (flatEv e) = m.pass j e := by
        have := passFrom_flat m (l := [e]) (by simpa using h e (by simp)) j
        simpa [flat, Mode.passFrom] using this
      rw [h2, ih]
      rw [flat_app, flat_app, hp]
      have := flat_flat [e]
      rw [show flat [e] = flatEv e from List.append_nil _] at this
      rw [this, show flat [e] = flatEv e from List.append_nil _]

end Verif.Http1
