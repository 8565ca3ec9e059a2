import Verif.Http1.HeadProgram
import Verif.Http1.ProgramSpec
import Verif.Http1.Call
import Verif.Props.Decode

/-!
# What the documented program stores

Lemmas for the property theorems in Verif/Props/Http1Programs.lean.
-/

namespace Verif.Http1

/-- No data callback of a run that finishes is passed empty data. -/
theorem drive_data {h : Http1.Handler} : ∀ (ks : List Nat) (e0 : End) (w : World) (msg : Bytes),
    (∀ e ∈ w.log, flatEv e ≠ []) → (drive h e0 ks w msg).last = .finished →
    ∀ e ∈ (drive h e0 ks w msg).world.log, flatEv e ≠ []
  | [], _, w, msg, hw, _ => hw
  | k :: ks, e0, w, msg, hw, hl => by
    have H := newData (h := h) (w := w) (s := msg.take k)
    simp only [drive] at hl ⊢
    rcases hr : resume h w (msg.take k) with ⟨r, w'⟩
    rw [hr] at H hl
    have key : Grew w.log w'.log → ∀ e ∈ w'.log, flatEv e ≠ [] := by
      rintro ⟨t, h1, h2⟩ e he
      rw [h1, List.mem_append] at he
      exact he.elim (hw e) (h2 e)
    rcases r with (n | n | n) | e | _ | _ | _
    · exact drive_data ks _ w' _ (key H) hl
    · exact drive_data ks _ w' _ (key H) hl
    · exact key H
    all_goals cases hl

namespace Doc

theorem onAll_append : ∀ (l m : List Ev) (s : Handler), s.onAll (l ++ m) = (s.onAll l).bind fun t => t.onAll m
  | [], m, s => rfl
  | e :: l, m, s => by
    simp only [List.cons_append, Handler.onAll]
    cases s.on e with
    | none => rfl
    | some t => exact onAll_append l m t

theorem on_names : ∀ (d : Bytes) (s : Handler), s.state ≠ .headerValue →
    s.onAll (d.map fun b => .headerName [b]) = some { s with headerName := s.headerName ++ d }
  | [], s, _ => by simp [Handler.onAll]
  | b :: d, s, h => by
    simp only [List.map_cons, Handler.onAll, Handler.on, if_neg h]
    refine (on_names d _ (by exact h)).trans ?_
    simp

theorem on_values : ∀ (d : Bytes) (s : Handler), d ≠ [] →
    s.onAll (d.map fun b => .headerValue [b]) = s.on (.headerValue d)
  | [], _, h => absurd rfl h
  | [b], s, _ => by simp [Handler.onAll, Handler.on]
  | b :: c :: d, s, _ => by
    rw [List.map_cons]
    simp only [Handler.onAll, Handler.on]
    rw [on_values (c :: d) _ (by simp)]
    simp [Handler.on]

/-- How the data is cut into pieces makes no difference. -/
theorem on_flat (s : Handler) (e : Ev) (he : flatEv e ≠ []) : s.onAll (flatEv e) = s.on e := by
  have acc : ∀ (f : Bytes → Ev) (g : Handler → Bytes → Handler), (∀ s d, s.on (f d) = some (g s d)) →
      (∀ s d e, g (g s d) e = g s (d ++ e)) → ∀ (d : Bytes) (s : Handler), d ≠ [] →
      s.onAll (d.map fun b => f [b]) = s.on (f d) := by
    intro f g h1 h2 d
    induction d with
    | nil => exact fun s h => absurd rfl h
    | cons b d ih =>
      intro s _
      rw [List.map_cons, Handler.onAll, h1]
      rcases d with _ | ⟨c, d⟩
      · simp [Handler.onAll, h1]
      · simp only
        rw [ih _ (by simp), h1, h2, h1]
        rfl
  have nn : ∀ {d : Bytes} {f : UInt8 → Ev}, d.map f ≠ [] → d ≠ [] := by
    rintro d f h rfl; exact h rfl
  cases e with
  | headerName d =>
    have hd := nn he
    rcases d with _ | ⟨b, d⟩
    · exact absurd rfl hd
    simp only [flatEv, List.map_cons, Handler.onAll, Handler.on]
    by_cases hs : s.state = .headerValue
    · rw [if_pos hs, if_pos hs]
      cases s.flush with
      | none => rfl
      | some t =>
        simp only
        rw [on_names _ _ (by simp)]
        simp
    · rw [if_neg hs, if_neg hs]
      refine (on_names d _ (by exact hs)).trans ?_
      simp
  | headerValue d => exact on_values d s (nn he)
  | method d => exact acc .method (fun s d => { s with method := s.method ++ d }) (fun _ _ => rfl) (by simp) d s (nn he)
  | url d => exact acc .url (fun s d => { s with url := s.url ++ d }) (fun _ _ => rfl) (by simp) d s (nn he)
  | status d => exact acc .status (fun s d => { s with status := s.status ++ d }) (fun _ _ => rfl) (by simp) d s (nn he)
  | chunkData d => exact acc .chunkData (fun s _ => s) (fun _ _ => rfl) (by simp) d s (nn he)
  | chunkExtensionName d => exact acc .chunkExtensionName (fun s _ => s) (fun _ _ => rfl) (by simp) d s (nn he)
  | chunkExtensionValue d => exact acc .chunkExtensionValue (fun s _ => s) (fun _ _ => rfl) (by simp) d s (nn he)
  | multipartData d => exact acc .multipartData (fun s _ => s) (fun _ _ => rfl) (by simp) d s (nn he)
  | urlEncodedName d => exact acc .urlEncodedName (fun s _ => s) (fun _ _ => rfl) (by simp) d s (nn he)
  | urlEncodedValue d => exact acc .urlEncodedValue (fun s _ => s) (fun _ _ => rfl) (by simp) d s (nn he)
  | _ =>
    simp only [flatEv, Handler.onAll]
    cases s.on _ <;> rfl

theorem onAll_flat : ∀ (l : List Ev) (s : Handler), (∀ e ∈ l, flatEv e ≠ []) → s.onAll (flat l) = s.onAll l
  | [], _, _ => rfl
  | e :: l, s, h => by
    show s.onAll (flatEv e ++ flat l) = _
    rw [onAll_append, on_flat s e (h e (by simp)), Handler.onAll]
    cases s.on e with
    | none => rfl
    | some t => exact onAll_flat l t fun e he => h e (by simp [he])

/-! ## Header fields -/

/-- The map after these header fields. -/
def store (m : Map) (ys : List Header) : Map := ys.foldl (fun m y => m.insert (Verif.lower y.name) y.text) m

theorem get_insert (m : Map) (k v n : Bytes) : (m.insert k v).get n = if n = k then some v else m.get n := by
  unfold Map.insert Map.get
  by_cases h : n = k
  · subst h; simp
  · rw [if_neg h, List.lookup_cons]
    have : (n == k) = false := by simpa using h
    rw [this]
    simp only
    induction m with
    | nil => rfl
    | cons e m ih =>
      by_cases he : e.1 = k
      · rw [List.filter_cons_of_neg (by simpa using he), ih, List.lookup_cons]
        have : (n == e.1) = false := by rw [he]; simpa using h
        rw [this]
      · rw [List.filter_cons_of_pos (by simpa using he), List.lookup_cons, List.lookup_cons, ih]

theorem get_store : ∀ (ys : List Header) (m : Map) (n : Bytes),
    (store m ys).get n = (lastText ys n).or (m.get n)
  | [], _, _ => rfl
  | y :: ys, m, n => by
    rw [show store m (y :: ys) = store (m.insert (Verif.lower y.name) y.text) ys from rfl, get_store ys]
    unfold lastText
    rw [List.reverse_cons, List.find?_append]
    cases ys.reverse.find? (fun y => Verif.lower y.name = n) with
    | some z => rfl
    | none =>
      rw [get_insert]
      by_cases h : Verif.lower y.name = n
      · subst h; simp
      · rw [if_neg (Ne.symm h)]; simp [h]

theorem utf8_name {n : Bytes} (h : ∀ b ∈ n, TokenByte b) : Util.UTF8 (Verif.lower n) := by
  refine Util.utf8_ascii fun b hb => ?_
  simp only [Verif.lower, List.mem_map] at hb
  obtain ⟨c, hc, rfl⟩ := hb
  have key : ∀ c : UInt8, 0x21 ≤ c ∧ c ≤ 0x7E → (if UpperByte c then c + 32 else c) < 0x80 := by
    apply forall_u8; unfold UpperByte; decide +kernel
  exact key c ⟨(h c hc).1, (h c hc).2.1⟩

theorem header_data {y : Header} (hy : y.OK) : Verif.lower y.name ≠ [] ∧ y.text ≠ [] := by
  constructor
  · intro h
    exact hy.name.1 (List.map_eq_nil_iff.1 h)
  · obtain ⟨b, v, e, -⟩ := hy.first
    simp [Header.text, e]

/-- What the handler does after the request or status line: flush what is left over, store the header fields, or panic
if one of the values is not UTF-8. -/
theorem on_headers : ∀ (ys : List Header) (s : Handler), (∀ y ∈ ys, y.OK) →
    (s.state ≠ .headerValue → s.headerName = [] ∧ s.headerValue = []) →
    s.onAll (ys.flatMap Header.events ++ [.headersFinished]) = s.flush.bind fun t =>
      if ∀ y ∈ ys, Util.UTF8 y.text then
        some { t with headersFinished := true, headers := store t.headers ys,
                      state := if ys = [] then s.state else .headerValue }
      else none
  | [], s, _, hs => by
    simp only [List.flatMap_nil, List.nil_append, Handler.onAll, Handler.on, Handler.flush]
    by_cases c1 : s.headerName.length > 0 ∧ s.headerValue.length > 0
    · by_cases c2 : Util.UTF8 s.headerName ∧ Util.UTF8 s.headerValue
      · simp only [if_pos c1, if_pos c2]; simp [store]
      · simp only [if_pos c1, if_neg c2]; rfl
    · simp only [if_neg c1]; simp [store]
  | y :: ys, s, hy, hs => by
    have hy1 := hy y (by simp)
    have hn : s.on (.headerName (Verif.lower y.name)) = s.flush.bind fun t =>
        some { t with state := if s.state = .headerValue then .headerName else s.state, headerName := Verif.lower y.name } := by
      simp only [Handler.on]
      by_cases h : s.state = .headerValue
      · simp only [if_pos h]
        by_cases c1 : s.headerName.length > 0 ∧ s.headerValue.length > 0
        · by_cases c2 : Util.UTF8 s.headerName ∧ Util.UTF8 s.headerValue
          · simp only [Handler.flush, if_pos c1, if_pos c2]; simp
          · simp only [Handler.flush, if_pos c1, if_neg c2]; rfl
        · simp only [Handler.flush, if_neg c1]; simp
      · obtain ⟨h1, h2⟩ := hs h
        simp only [if_neg h]
        simp [Handler.flush, h1, h2]
    have hf : ∀ t, s.flush = some t → t.headerValue = [] ∧ t.headerName = [] := by
      intro t
      simp only [Handler.flush]
      split
      · split
        · rintro ⟨⟩; exact ⟨rfl, rfl⟩
        · exact fun h => by cases h
      · rintro ⟨⟩; exact ⟨rfl, rfl⟩
    have e : (y :: ys).flatMap Header.events ++ [.headersFinished] =
        .headerName (Verif.lower y.name) :: .headerValue y.text :: (ys.flatMap Header.events ++ [.headersFinished]) := rfl
    rw [e, Handler.onAll, hn]
    cases hfl : s.flush with
    | none => rfl
    | some t =>
      obtain ⟨h1, h2⟩ := hf t hfl
      simp only [Option.bind_some, Handler.onAll, Handler.on, h1, List.nil_append]
      rw [on_headers ys _ (fun z hz => hy z (by simp [hz])) (fun h => absurd rfl h)]
      obtain ⟨hd1, hd2⟩ := header_data hy1
      simp only [Handler.flush]
      rw [if_pos ⟨List.length_pos_iff.2 hd1, List.length_pos_iff.2 hd2⟩]
      by_cases hu : Util.UTF8 y.text
      · rw [if_pos ⟨utf8_name hy1.name.2, hu⟩]
        simp only [Option.bind_some, List.forall_mem_cons, hu, true_and]
        by_cases ha : ∀ z ∈ ys, Util.UTF8 z.text
        · rw [if_pos ha, if_pos ha]
          simp [store, h1, h2]
        · rw [if_neg ha, if_neg ha]
      · rw [if_neg fun h => hu h.2]
        rw [if_neg (c := ∀ z ∈ y :: ys, Util.UTF8 z.text) fun h => hu (h y (by simp))]
        rfl

theorem headers_data {ys : List Header} (hy : ∀ y ∈ ys, y.OK) : ∀ e ∈ ys.flatMap Header.events, flatEv e ≠ [] := by
  intro e he
  obtain ⟨y, hm, he⟩ := List.mem_flatMap.1 he
  obtain ⟨h1, h2⟩ := header_data (hy y hm)
  simp only [Header.events, List.mem_cons, List.not_mem_nil, or_false] at he
  rcases he with rfl | rfl
  · simpa [flatEv] using h1
  · simpa [flatEv, Header.text] using h2

end Doc
end Verif.Http1
