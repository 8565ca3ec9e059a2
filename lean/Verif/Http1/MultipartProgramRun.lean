import Verif.Http1.HeadProgramRun
import Verif.Http1.MultipartProgram
import Verif.Http1.Stops
import Verif.Props.Http1Pauses
import Verif.Props.Field

/-!
# What the program that reads a multipart form does (helper lemmas)
-/

namespace Verif.Http1

/-- No data callback of the loop is passed empty data. -/
theorem feed_data {h : Handler} : ∀ (n : Nat) (w : World) (s : Bytes), (∀ e ∈ w.log, flatEv e ≠ []) →
    Back (feed h n w s) → ∀ e ∈ (feed h n w s).world.log, flatEv e ≠ []
  | 0, w, s, hw, _ => hw
  | n + 1, w, s, hw, hb => by
    have H := newData (h := h) (w := w) (s := s)
    rw [feed] at hb ⊢
    rcases hr : resume h w s with ⟨r, w'⟩
    rw [hr] at H hb
    have key : Grew w.log w'.log → ∀ e ∈ w'.log, flatEv e ≠ [] := by
      rintro ⟨t, h1, h2⟩ e he
      rw [h1, List.mem_append] at he
      exact he.elim (hw e) (h2 e)
    rcases r with (k | k | k) | e | _ | _ | _
    · exact feed_data n w' _ (key H) hb
    · exact key H
    · exact key H
    · exact key H
    · exact absurd rfl hb.1
    · exact absurd rfl hb.2.1
    · exact absurd rfl hb.2.2

namespace Form

open Doc (Map store get_store)

/-- Callbacks about header fields are not passed empty data. -/
def Solid (e : Ev) : Prop := e ≠ .headerName [] ∧ e ≠ .headerValue []

theorem solid_of_flat {e : Ev} (h : flatEv e ≠ []) : Solid e := by
  constructor <;> rintro rfl <;> exact h rfl

theorem collect_append (s : Collect) (l m : List Ev) : s.onAll (l ++ m) = (s.onAll l).onAll m := List.foldl_append
theorem parts_append (s : Parts) (l m : List Ev) : s.onAll (l ++ m) = (s.onAll l).onAll m := List.foldl_append

theorem collect_names : ∀ (d : Bytes) (s : Collect), s.state = .headerName →
    s.onAll (d.map fun b => .headerName [b]) = { s with nameBuf := s.nameBuf ++ d }
  | [], s, _ => by simp [Collect.onAll]
  | b :: d, s, h => by
    have h1 : s.on (.headerName [b]) = { s with nameBuf := s.nameBuf ++ [b], state := .headerName } := by
      simp only [Collect.on]; rw [if_neg (by rw [h]; decide)]
    show Collect.onAll (s.on (.headerName [b])) _ = _
    rw [h1]
    refine (collect_names d _ rfl).trans ?_
    simp [h]

theorem collect_values : ∀ (d : Bytes) (s : Collect), d ≠ [] →
    s.onAll (d.map fun b => .headerValue [b]) = s.on (.headerValue d)
  | [], _, h => absurd rfl h
  | [b], s, _ => rfl
  | b :: c :: d, s, _ => by
    show Collect.onAll (s.on (.headerValue [b])) ((c :: d).map fun b => .headerValue [b]) = _
    rw [collect_values (c :: d) _ (by simp)]
    simp [Collect.on]

theorem collect_flat (s : Collect) (e : Ev) (he : Solid e) : s.onAll (flatEv e) = s.on e := by
  have skip : ∀ (f : Bytes → Ev), (∀ s d, Collect.on s (f d) = s) → ∀ d : Bytes,
      s.onAll (d.map fun b => f [b]) = s := by
    intro f hf d
    induction d with
    | nil => rfl
    | cons b d ih => show Collect.onAll (s.on (f [b])) _ = _; rw [hf]; exact ih
  cases e with
  | headerName d =>
    rcases d with _ | ⟨b, d⟩
    · exact absurd rfl he.1
    show Collect.onAll (s.on (.headerName [b])) _ = _
    refine (collect_names d _ rfl).trans ?_
    simp [Collect.on]
  | headerValue d => exact collect_values d s (by rintro rfl; exact he.2 rfl)
  | method d => exact skip .method (fun _ _ => rfl) d
  | url d => exact skip .url (fun _ _ => rfl) d
  | status d => exact skip .status (fun _ _ => rfl) d
  | chunkData d => exact skip .chunkData (fun _ _ => rfl) d
  | chunkExtensionName d => exact skip .chunkExtensionName (fun _ _ => rfl) d
  | chunkExtensionValue d => exact skip .chunkExtensionValue (fun _ _ => rfl) d
  | multipartData d => exact skip .multipartData (fun _ _ => rfl) d
  | urlEncodedName d => exact skip .urlEncodedName (fun _ _ => rfl) d
  | urlEncodedValue d => exact skip .urlEncodedValue (fun _ _ => rfl) d
  | _ => rfl

theorem collect_all_flat : ∀ (l : List Ev) (s : Collect), (∀ e ∈ l, Solid e) → s.onAll (flat l) = s.onAll l
  | [], _, _ => rfl
  | e :: l, s, h => by
    show s.onAll (flatEv e ++ flat l) = _
    rw [collect_append, collect_flat s e (h e (by simp)), collect_all_flat l _ fun e he => h e (by simp [he])]
    rfl

/-- The two halves of `MultipartHandler` do not disturb each other. -/
theorem parts_eq : ∀ (l : List Ev) (s : Parts), s.onAll l =
    ⟨s.count + l.count .multipartBegin, s.data ++ l.flatMap (fun | .multipartData d => d | _ => []), s.fields.onAll l⟩
  | [], s => by simp [Parts.onAll, Collect.onAll]
  | e :: l, s => by
    show (s.on e).onAll l = _
    rw [parts_eq l]
    cases e <;> simp [Parts.on, Collect.onAll, Collect.on, List.count_cons, Nat.add_comm, Nat.add_left_comm]

theorem handler_eq : handler = pausesAt .multipartBegin := by
  unfold handler pausesAt
  congr 1
  funext l
  rw [parts_eq]
  simp only [Parts.new, Nat.zero_add]
  by_cases h : l.getLast? = some .multipartBegin
  · rw [h, if_pos rfl, decide_not]
    simp only [beq_self_eq_true, Bool.true_and, gt_iff_lt]
  · simp [h]

theorem data_flat : ∀ (l : List Ev), (flat l).flatMap (fun | .multipartData d => d | _ => ([] : Bytes)) =
    l.flatMap (fun | .multipartData d => d | _ => [])
  | [] => rfl
  | e :: l => by
    rw [show flat (e :: l) = flatEv e ++ flat l from rfl, List.flatMap_append, data_flat l, List.flatMap_cons]
    congr 1
    have nope : ∀ (f : UInt8 → Ev) (g : Ev → Bytes), (∀ b, g (f b) = []) → ∀ d : Bytes, (d.map f).flatMap g = [] := by
      intro f g hg d
      induction d with
      | nil => rfl
      | cons b d ih => rw [List.map_cons, List.flatMap_cons, hg, ih]; rfl
    cases e with
    | multipartData d =>
      simp only [flatEv]
      induction d with
      | nil => rfl
      | cons b d ih => rw [List.map_cons, List.flatMap_cons, ih]; rfl
    | _ => first | rfl | exact nope _ _ (fun _ => rfl) _

/-- The header fields. -/
theorem collect_headers : ∀ (ys : List Header) (s : Collect), (∀ y ∈ ys, y.OK) →
    (s.state ≠ .headerValue → s.nameBuf = [] ∧ s.valueBuf = []) →
    (s.onAll (ys.flatMap Header.events ++ [.headersFinished])).headers = store s.flush.headers ys ∧
    (s.onAll (ys.flatMap Header.events ++ [.headersFinished])).nameBuf = [] ∧
    (s.onAll (ys.flatMap Header.events ++ [.headersFinished])).valueBuf = []
  | [], s, _, hs => ⟨rfl, rfl, rfl⟩
  | y :: ys, s, hy, hs => by
    have hy1 := hy y (by simp)
    have e : (y :: ys).flatMap Header.events ++ [.headersFinished] =
        .headerName (Verif.lower y.name) :: .headerValue y.text :: (ys.flatMap Header.events ++ [.headersFinished]) := rfl
    have e2 : (s.on (.headerName (Verif.lower y.name))).on (.headerValue y.text) =
        { s.flush with nameBuf := Verif.lower y.name, valueBuf := y.text, state := .headerValue } := by
      simp only [Collect.on]
      by_cases h : s.state = .headerValue
      · rw [if_pos h]; simp [Collect.flush]
      · obtain ⟨h1, h2⟩ := hs h
        rw [if_neg h]; simp [Collect.flush, h1, h2]
    have e3 : s.onAll ((y :: ys).flatMap Header.events ++ [.headersFinished]) =
        Collect.onAll { s.flush with nameBuf := Verif.lower y.name, valueBuf := y.text, state := .headerValue }
          (ys.flatMap Header.events ++ [.headersFinished]) := by
      rw [e, ← e2]; rfl
    rw [e3]
    obtain ⟨h1, h2, h3⟩ := collect_headers ys
      { s.flush with nameBuf := Verif.lower y.name, valueBuf := y.text, state := .headerValue }
      (fun z hz => hy z (by simp [hz])) (fun h => absurd rfl h)
    refine ⟨h1.trans ?_, h2, h3⟩
    obtain ⟨hd1, hd2⟩ := Doc.header_data hy1
    have : Collect.flush { s.flush with nameBuf := Verif.lower y.name, valueBuf := y.text, state := .headerValue } =
        ⟨s.flush.headers.insert (Verif.lower y.name) y.text, [], .headerValue, []⟩ := by
      simp only [Collect.flush]
      rw [if_pos ⟨List.length_pos_iff.2 hd1, List.length_pos_iff.2 hd2⟩]
    rw [this]
    rfl

/-! ## The parts -/

/-- What the program stores for a part. -/
def Reads (r : Map × Bytes) (x : Part) : Prop := r.2 = x.data ∧ ∀ n, r.1.get n = lastText x.headers n

theorem data_headers (ys : List Header) :
    (ys.flatMap Header.events).flatMap (fun | .multipartData d => d | _ => ([] : Bytes)) = [] := by
  induction ys with
  | nil => rfl
  | cons y ys ih => rw [List.flatMap_cons, List.flatMap_append, ih]; rfl

/-- Nothing is left over from the part before. -/
def Parts.Clear (s : Parts) : Prop := s.data = [] ∧ s.fields.headers = [] ∧ s.fields.nameBuf = [] ∧ s.fields.valueBuf = []

theorem part_read (st : Parts) (hst : st.Clear) (x : Part) (hx : ∀ y ∈ x.headers, y.OK) (t : List Ev)
    (ht : ∀ e ∈ t, flatEv e ≠ []) (pre : List Ev) (hpre : pre = [] ∨ pre = [.multipartBegin]) (z : Ev)
    (hz : z = .multipartBegin ∨ z = .bodyFinished)
    (he : flat t = flat (pre ++ (x.headers.flatMap Header.events ++ [.headersFinished]) ++ [.multipartData x.data, z])) :
    Reads ((st.onAll t).fields.headers, (st.onAll t).data) x ∧ (st.onAll t).clear.Clear := by
  obtain ⟨h1, h2, h3, h4⟩ := hst
  have hf : (st.onAll t).fields = st.fields.onAll (x.headers.flatMap Header.events ++ [.headersFinished]) := by
    rw [parts_eq]
    show st.fields.onAll t = _
    rw [← collect_all_flat t _ fun e h => solid_of_flat (ht e h), he, collect_all_flat]
    · rw [collect_append, collect_append]
      have e1 : st.fields.onAll pre = st.fields := by rcases hpre with rfl | rfl <;> rfl
      rw [e1]
      rcases hz with rfl | rfl <;> rfl
    · intro e hm
      simp only [List.mem_append, List.mem_cons, List.not_mem_nil, or_false] at hm
      rcases hm with (hm | (hm | rfl)) | rfl | rfl
      · rcases hpre with rfl | rfl
        · simp at hm
        · rw [List.mem_singleton] at hm; subst hm; exact ⟨nofun, nofun⟩
      · exact solid_of_flat (Doc.headers_data hx e hm)
      · exact ⟨nofun, nofun⟩
      · exact ⟨nofun, nofun⟩
      · rcases hz with rfl | rfl <;> exact ⟨nofun, nofun⟩
  have hd : (st.onAll t).data = x.data := by
    rw [parts_eq]
    show st.data ++ _ = _
    rw [← data_flat, he, data_flat, h1, List.flatMap_append, List.flatMap_append, List.flatMap_append, data_headers]
    rcases hpre with rfl | rfl <;> rcases hz with rfl | rfl <;> simp
  obtain ⟨h5, h6, h7⟩ := collect_headers x.headers st.fields hx fun _ => ⟨h3, h4⟩
  have h8 : st.fields.flush.headers = [] := by simp [Collect.flush, h2, h3]
  refine ⟨⟨hd, fun n => ?_⟩, rfl, rfl, ?_, ?_⟩
  · show (st.onAll t).fields.headers.get n = _
    rw [hf, h5, h8, get_store]
    cases lastText x.headers n <;> rfl
  · show (st.onAll t).fields.nameBuf = _
    rw [hf]; exact h6
  · show (st.onAll t).fields.valueBuf = _
    rw [hf]; exact h7

theorem feed_one_callback {h : Handler} {w : World} {s : Bytes} {o : Outcome} (ho : feed h 1 w s = o)
    (hl : o.last = .callback) : ∃ k, resume h w s = (.ok (.callback k), o.world) ∧ s.drop k = o.rest := by
  subst ho
  rw [feed] at hl ⊢
  rcases hr : resume h w s with ⟨r, w'⟩
  rw [hr] at hl
  rcases r with (k | k | k) | e | _ | _ | _
  · exact ⟨k, rfl, rfl⟩
  all_goals cases hl

theorem feed_one_finished {h : Handler} {w : World} {s : Bytes} {o : Outcome} (ho : feed h 1 w s = o)
    (hl : o.last = .finished) : ∃ k, resume h w s = (.ok (.finished k), o.world) := by
  subst ho
  rw [feed] at hl ⊢
  rcases hr : resume h w s with ⟨r, w'⟩
  rw [hr] at hl
  rcases r with (k | k | k) | e | _ | _ | _
  · cases hl
  · cases hl
  · exact ⟨k, rfl⟩
  all_goals cases hl

theorem entries_read (bd : Bytes) (hb : bd.length < 16384) (hb' : c! '\r' ∉ bd) (ps : List Part)
    (hp : ∀ x ∈ ps, (∀ y ∈ x.headers, y.OK) ∧ Delimited bd x.data) (rest : Bytes) :
    let o i := feed handler i ⟨(Parser.new.init .multipart).setBoundary bd, []⟩ (writeParts bd ps ++ rest)
    ∀ (j i n : Nat) (st : Parts), i + j = ps.length → 0 < j → j ≤ n → st.Clear →
      ∃ L, entries n (o i).world (o i).rest st = some L ∧ List.Forall₂ Reads L (ps.drop i) := by
  intro o j
  have hC : ∀ i, 0 < i → if i < ps.length then
      (o i).last = .callback ∧ flat (o i).world.log = flat ((ps.take i).flatMap Part.events ++ [.multipartBegin])
      else (o i).last = .finished ∧ (o i).rest = rest ∧
        flat (o i).world.log = flat (ps.flatMap Part.events ++ [.bodyFinished]) := by
    intro i hi
    have := C86_multipart_partial Parser.new .new bd hb hb' ps hp rest i hi
    rw [← handler_eq] at this
    exact this
  induction j with
  | zero => intro i n st _ h; omega
  | succ j ih =>
    intro i n st hij _ hn hst
    obtain ⟨n, rfl⟩ : ∃ m, n = m + 1 := ⟨n - 1, by omega⟩
    have hlt : i < ps.length := by omega
    have hcb : (o i).last = .callback := by
      rcases Nat.eq_zero_or_pos i with rfl | hi
      · rfl
      · have := hC i hi; rw [if_pos hlt] at this; exact this.1
    have hstep : feed handler 1 (o i).world (o i).rest = o (i + 1) := (feed_add i 1 _ _ hcb).symm
    -- the callbacks of this call
    have hB : Back (o (i + 1)) := by
      have := hC (i + 1) (by omega)
      split at this
      · unfold Back; rw [this.1]; exact ⟨nofun, nofun, nofun⟩
      · unfold Back; rw [this.1]; exact ⟨nofun, nofun, nofun⟩
    obtain ⟨t, ht, -⟩ := feed_stops 1 (o i).world (o i).rest (by rw [hstep]; exact hB)
    rw [hstep] at ht
    have hdrop : (o (i + 1)).world.log.drop (o i).world.log.length = t := by rw [ht, List.drop_left]
    have htd : ∀ e ∈ t, flatEv e ≠ [] := fun e he =>
      feed_data (i + 1) _ _ (by simp) hB e (by
        show e ∈ (o (i + 1)).world.log
        rw [ht]; simp [he])
    have hx := (hp ps[i] (List.getElem_mem hlt)).1
    have htake : (ps.take (i + 1)).flatMap Part.events = (ps.take i).flatMap Part.events ++ ps[i].events := by
      rw [List.take_succ_eq_append_getElem hlt, List.flatMap_append]; simp [List.flatMap_cons]
    -- what they are
    have hflat : ∀ z, flat (o (i + 1)).world.log = flat ((ps.take (i + 1)).flatMap Part.events ++ [z]) →
        ∃ pre, (pre = [] ∨ pre = [.multipartBegin]) ∧ flat t =
          flat (pre ++ (ps[i].headers.flatMap Header.events ++ [.headersFinished]) ++ [.multipartData ps[i].data, z]) := by
      intro z hz
      have fa : ∀ a b : List Ev, flat (a ++ b) = flat a ++ flat b := fun a b => List.flatMap_append
      have e1 : ps[i].events ++ [z] = [.multipartBegin] ++
          ((ps[i].headers.flatMap Header.events ++ [.headersFinished]) ++ [.multipartData ps[i].data, z]) := by
        simp [Part.events, Part.headEvents]
      rw [ht, htake, List.append_assoc, e1] at hz
      rcases Nat.eq_zero_or_pos i with h0 | hi
      · refine ⟨[.multipartBegin], .inr rfl, ?_⟩
        have h00 : (o i).world.log = [] := by subst h0; rfl
        rw [h00, List.nil_append] at hz
        have h01 : ps.take i = [] := by subst h0; rfl
        rw [hz, h01]
        simp
      · refine ⟨[], .inl rfl, ?_⟩
        have := hC i hi
        rw [if_pos hlt] at this
        rw [fa, this.2, ← List.append_assoc, fa _ (_ ++ _), List.append_cancel_left_eq] at hz
        rw [hz]; rfl
    rcases Nat.lt_or_ge (i + 1) ps.length with hlt' | hge
    · have hc := hC (i + 1) (by omega)
      rw [if_pos hlt'] at hc
      obtain ⟨k, hk1, hk2⟩ := feed_one_callback hstep hc.1
      obtain ⟨pre, hpre, he⟩ := hflat _ hc.2
      obtain ⟨h1, h2⟩ := part_read st hst ps[i] hx t htd pre hpre .multipartBegin (.inl rfl) he
      obtain ⟨L, h3, h4⟩ := ih (i + 1) n (st.onAll t).clear (by omega) (by omega) (by omega) h2
      refine ⟨((st.onAll t).fields.headers, (st.onAll t).data) :: L, ?_, ?_⟩
      · rw [entries, hk1]
        simp only
        rw [hk2, hdrop, h3]
        rfl
      · rw [List.drop_eq_getElem_cons hlt]
        exact .cons h1 h4
    · have hc := hC (i + 1) (by omega)
      rw [if_neg (by omega)] at hc
      obtain ⟨k, hk1⟩ := feed_one_finished hstep hc.1
      have hall : ps.take (i + 1) = ps := List.take_of_length_le hge
      obtain ⟨pre, hpre, he⟩ := hflat .bodyFinished (by rw [hall]; exact hc.2.2)
      obtain ⟨h1, h2⟩ := part_read st hst ps[i] hx t htd pre hpre .bodyFinished (.inr rfl) he
      refine ⟨[((st.onAll t).fields.headers, (st.onAll t).data)], ?_, ?_⟩
      · rw [entries, hk1]
        simp only
        rw [hdrop]
      · rw [List.drop_eq_getElem_cons hlt, List.drop_of_length_le hge]
        exact .cons h1 .nil

/-! ## The boundary -/

theorem items_yields {it it' : Util.FieldIter} {l : List Util.Item} (h : Util.Yields Util.FieldIter.next it l it') :
    ∀ n, l.length < n → items n it = some l := by
  induction h with
  | stop h =>
    intro n hn
    obtain ⟨m, rfl⟩ : ∃ m, n = m + 1 := ⟨n - 1, by simp at hn; omega⟩
    rw [items, h]
  | item h _ ih =>
    intro n hn
    obtain ⟨m, rfl⟩ : ∃ m, n = m + 1 := ⟨n - 1, by simp at hn; omega⟩
    rw [items, h]
    simp only [List.length_cons] at hn
    simp only
    rw [ih m (by omega)]
    rfl

theorem fields_length {a : Bool} {d : UInt8} {x : Bytes} {l : List Util.Item} (h : Util.Fields a d x l) :
    l.length ≤ x.length := by
  have key : ∀ {q t i}, Util.ItemText d q t i → 1 ≤ t.length := by
    intro q t i h
    cases h with
    | name h => exact List.length_pos_iff.2 h.1
    | value h _ _ => have := List.length_pos_iff.2 h.1; simp; omega
    | quoted h _ _ => have := List.length_pos_iff.2 h.1; simp; omega
  induction h with
  | last h => exact key h
  | cons h _ _ _ ih => have := key h; simp only [List.length_cons, List.length_append]; omega

end Form
end Verif.Http1
