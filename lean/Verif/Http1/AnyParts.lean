import Verif.Http1.AnyRun

/-!
# What the program that reads a multipart form stores for any body (helper lemmas)
-/

namespace Verif.Http1.Form

open Doc (Map get_put)

theorem loose_lines {cl : List Ev → Option Nat} {bd : Bytes} : ∀ (ps : List LoosePart) (t : List Ev), LooseParts cl bd t ps →
    ∀ x ∈ ps, ∀ y ∈ x.lines, y.OK
  | [], _, _, x, hx => by simp at hx
  | p :: ps, t, h, x, hx => by
    rcases List.mem_cons.1 hx with rfl | hx
    · exact h.1
    · exact loose_lines ps _ h.2.2.2 x hx

/-- What the program stores for a part. -/
def AnyReads (r : Map × Bytes) (x : LoosePart) : Prop := r.2 = x.data ∧ ∀ n, r.1.get n = lastOf (joined x.lines).2 n

/-- The data that a callback passes. -/
def dataOf : Ev → Bytes
  | .multipartData d => d
  | _ => []

theorem parts_data (l : List Ev) (s : Parts) : (s.onAll l).data = s.data ++ l.flatMap dataOf := by
  rw [parts_eq]; rfl

theorem dataOf_flat (l : List Ev) : (flat l).flatMap dataOf = l.flatMap dataOf := data_flat l

theorem data_lines (ys : List Line) : (ys.flatMap Line.events).flatMap dataOf = [] := by
  induction ys with
  | nil => rfl
  | cons y ys ih => rw [List.flatMap_cons, List.flatMap_append, ih]; cases y <;> rfl

theorem any_part_read (st : Parts) (hst : st.Clear) (x : LoosePart) (hx : ∀ y ∈ x.lines, y.OK) (t : List Ev)
    (ht : ∀ e ∈ t, flatEv e ≠ []) (pre : List Ev) (hpre : pre = [] ∨ pre = [.multipartBegin]) (z : Ev)
    (hz : z = .multipartBegin ∨ z = .bodyFinished)
    (he : flat t = flat (pre ++ (x.lines.flatMap Line.events ++ [.headersFinished]) ++ [.multipartData x.data, z])) :
    AnyReads ((st.onAll t).fields.headers, (st.onAll t).data) x ∧ (st.onAll t).clear.Clear := by
  obtain ⟨h1, h2, h3, h4⟩ := hst
  have fa : ∀ a b : List Ev, flat (a ++ b) = flat a ++ flat b := fun a b => List.flatMap_append
  have hf : (st.onAll t).fields = st.fields.onAll (flat (x.lines.flatMap Line.events ++ [.headersFinished])) := by
    rw [parts_eq]
    show st.fields.onAll t = _
    rw [← collect_all_flat t _ fun e h => solid_of_flat (ht e h), he, fa, fa, collect_append, collect_append]
    have e1 : st.fields.onAll (flat pre) = st.fields := by rcases hpre with rfl | rfl <;> rfl
    rw [e1]
    rw [collect_all_flat [_, _] _ (by
      intro e hm
      simp only [List.mem_cons, List.not_mem_nil, or_false] at hm
      rcases hm with rfl | rfl
      · exact ⟨nofun, nofun⟩
      · rcases hz with rfl | rfl <;> exact ⟨nofun, nofun⟩)]
    rcases hz with rfl | rfl <;> rfl
  have hd : (st.onAll t).data = x.data := by
    rw [parts_data, ← dataOf_flat, he, dataOf_flat, h1, List.flatMap_append, List.flatMap_append, List.flatMap_append, data_lines]
    rcases hpre with rfl | rfl <;> rcases hz with rfl | rfl <;> simp [dataOf]
  obtain ⟨h5, h6, h7⟩ := collect_lines x.lines st.fields hx fun _ => ⟨h3, h4⟩
  have h8 : (Collect.flush { st.fields with valueBuf := st.fields.valueBuf ++ (joined x.lines).1 }).headers = [] := by
    simp [Collect.flush, h2, h3]
  refine ⟨⟨hd, fun n => ?_⟩, rfl, rfl, ?_, ?_⟩
  · show (st.onAll t).fields.headers.get n = _
    rw [hf, h5, h8, get_put]
    cases lastOf (joined x.lines).2 n <;> rfl
  · show (st.onAll t).fields.nameBuf = _
    rw [hf]; exact h6
  · show (st.onAll t).fields.valueBuf = _
    rw [hf]; exact h7

theorem any_part_entries (bd : Bytes) (hb : bd.length < 16384) (hb' : c! '\r' ∉ bd) (ps : List LoosePart)
    (hp : LooseParts (fun _ => none) bd [] ps) (rest : Bytes) :
    let o i := feed handler i ⟨(Parser.new.init .multipart).setBoundary bd, []⟩ (writeLoose bd ps ++ rest)
    ∀ (j i n : Nat) (st : Parts), i + j = ps.length → 0 < j → j ≤ n → st.Clear →
      ∃ L, entries n (o i).world (o i).rest st = some L ∧ List.Forall₂ AnyReads L (ps.drop i) := by
  intro o j
  have hC : ∀ i, 0 < i → if i < ps.length then
      (o i).last = .callback ∧ flat (o i).world.log = flat ((ps.take i).flatMap LoosePart.events ++ [.multipartBegin])
      else (o i).last = .finished ∧ (o i).rest = rest ∧
        flat (o i).world.log = flat (ps.flatMap LoosePart.events ++ [.bodyFinished]) := by
    intro i hi
    have := C86_any_multipart_partial Parser.new .new bd hb hb' ps hp rest i hi
    rw [← handler_eq] at this
    exact this
  induction j with
  | zero => intro i n st _ h; omega
  | succ j ih =>
    intro i n st hij _ hn hst
    obtain ⟨n, rfl⟩ : ∃ m, n = m + 1 := ⟨n - 1, by omega⟩
    have hlt : i < ps.length := by omega
    have hcb : (o i).last = .callback := by
      rcases Nat.eq_zero_or_pos i with rfl | hi
      · rfl
      · have := hC i hi; rw [if_pos hlt] at this; exact this.1
    have hstep : feed handler 1 (o i).world (o i).rest = o (i + 1) := (feed_add i 1 _ _ hcb).symm
    -- the callbacks of this call
    have hB : Back (o (i + 1)) := by
      have := hC (i + 1) (by omega)
      split at this
      · unfold Back; rw [this.1]; exact ⟨nofun, nofun, nofun⟩
      · unfold Back; rw [this.1]; exact ⟨nofun, nofun, nofun⟩
    obtain ⟨t, ht, -⟩ := feed_stops 1 (o i).world (o i).rest (by rw [hstep]; exact hB)
    rw [hstep] at ht
    have hdrop : (o (i + 1)).world.log.drop (o i).world.log.length = t := by rw [ht, List.drop_left]
    have htd : ∀ e ∈ t, flatEv e ≠ [] := fun e he =>
      feed_data (i + 1) _ _ (by simp) hB e (by
        show e ∈ (o (i + 1)).world.log
        rw [ht]; simp [he])
    have hx := loose_lines ps [] hp ps[i] (List.getElem_mem hlt)
    have htake : (ps.take (i + 1)).flatMap LoosePart.events = (ps.take i).flatMap LoosePart.events ++ ps[i].events := by
      rw [List.take_succ_eq_append_getElem hlt, List.flatMap_append]; simp [List.flatMap_cons]
    -- what they are
    have hflat : ∀ z, flat (o (i + 1)).world.log = flat ((ps.take (i + 1)).flatMap LoosePart.events ++ [z]) →
        ∃ pre, (pre = [] ∨ pre = [.multipartBegin]) ∧ flat t =
          flat (pre ++ (ps[i].lines.flatMap Line.events ++ [.headersFinished]) ++ [.multipartData ps[i].data, z]) := by
      intro z hz
      have fa : ∀ a b : List Ev, flat (a ++ b) = flat a ++ flat b := fun a b => List.flatMap_append
      have e1 : ps[i].events ++ [z] = [.multipartBegin] ++
          ((ps[i].lines.flatMap Line.events ++ [.headersFinished]) ++ [.multipartData ps[i].data, z]) := by
        simp [LoosePart.events, LoosePart.headEvents]
      rw [ht, htake, List.append_assoc, e1] at hz
      rcases Nat.eq_zero_or_pos i with h0 | hi
      · refine ⟨[.multipartBegin], .inr rfl, ?_⟩
        have h00 : (o i).world.log = [] := by subst h0; rfl
        rw [h00, List.nil_append] at hz
        have h01 : ps.take i = [] := by subst h0; rfl
        rw [hz, h01]
        simp
      · refine ⟨[], .inl rfl, ?_⟩
        have := hC i hi
        rw [if_pos hlt] at this
        rw [fa, this.2, ← List.append_assoc, fa _ (_ ++ _), List.append_cancel_left_eq] at hz
        rw [hz]; rfl
    rcases Nat.lt_or_ge (i + 1) ps.length with hlt' | hge
    · have hc := hC (i + 1) (by omega)
      rw [if_pos hlt'] at hc
      obtain ⟨k, hk1, hk2⟩ := feed_one_callback hstep hc.1
      obtain ⟨pre, hpre, he⟩ := hflat _ hc.2
      obtain ⟨h1, h2⟩ := any_part_read st hst ps[i] hx t htd pre hpre .multipartBegin (.inl rfl) he
      obtain ⟨L, h3, h4⟩ := ih (i + 1) n (st.onAll t).clear (by omega) (by omega) (by omega) h2
      refine ⟨((st.onAll t).fields.headers, (st.onAll t).data) :: L, ?_, ?_⟩
      · rw [entries, hk1]
        simp only
        rw [hk2, hdrop, h3]
        rfl
      · rw [List.drop_eq_getElem_cons hlt]
        exact .cons h1 h4
    · have hc := hC (i + 1) (by omega)
      rw [if_neg (by omega)] at hc
      obtain ⟨k, hk1⟩ := feed_one_finished hstep hc.1
      have hall : ps.take (i + 1) = ps := List.take_of_length_le hge
      obtain ⟨pre, hpre, he⟩ := hflat .bodyFinished (by rw [hall]; exact hc.2.2)
      obtain ⟨h1, h2⟩ := any_part_read st hst ps[i] hx t htd pre hpre .bodyFinished (.inr rfl) he
      refine ⟨[((st.onAll t).fields.headers, (st.onAll t).data)], ?_, ?_⟩
      · rw [entries, hk1]
        simp only
        rw [hdrop]
      · rw [List.drop_eq_getElem_cons hlt, List.drop_of_length_le hge]
        exact .cons h1 .nil

/-- A body without parts is one call, and nothing is stored. -/
theorem no_part_entries (bd : Bytes) (hb : bd.length < 16384) (hb' : c! '\r' ∉ bd) (rest : Bytes) (n : Nat) :
    entries (n + 1) ⟨(Parser.new.init .multipart).setBoundary bd, []⟩ (writeLoose bd [] ++ rest) .new = some [([], [])] := by
  have h := C86_any_multipart_partial Parser.new .new bd hb hb' [] trivial rest 1 (by omega)
  rw [if_neg (by simp), ← handler_eq] at h
  obtain ⟨k, hk⟩ := feed_one_finished rfl h.1
  have hB : Back (feed handler 1 ⟨(Parser.new.init .multipart).setBoundary bd, []⟩ (writeLoose bd [] ++ rest)) := by
    unfold Back; rw [h.1]; exact ⟨nofun, nofun, nofun⟩
  have hd := feed_data (h := handler) 1 ⟨(Parser.new.init .multipart).setBoundary bd, []⟩ (writeLoose bd [] ++ rest) (by simp) hB
  rw [entries, hk]
  simp only [List.length_nil, List.drop_zero]
  generalize hw : (feed handler 1 ⟨(Parser.new.init .multipart).setBoundary bd, []⟩ (writeLoose bd [] ++ rest)).world.log = t
  rw [hw] at hd
  have h3 := h.2.2
  rw [hw] at h3
  have e : Parts.new.onAll t = .new := by
    have ef : Collect.new.onAll t = .new := by
      rw [← collect_all_flat t _ fun e he => solid_of_flat (hd e he), h3]
      rfl
    have ed : (Parts.new.onAll t).data = [] := by
      rw [parts_data, ← dataOf_flat, h3]; rfl
    have ec : t.count .multipartBegin = 0 := by
      rw [← count_flat (e := .multipartBegin) rfl, h3]; rfl
    rw [parts_eq] at ed ⊢
    simp only at ed
    rw [ed, ec]
    show (⟨0 + 0, [], Collect.new.onAll t⟩ : Parts) = _
    rw [ef]
    rfl
  rw [e]
  rfl

/-- When the loop of calls comes to its end, the parser has finished. -/
theorem entries_finish : ∀ (n : Nat) (w : World) (s : Bytes) (st : Parts) (L : List (Map × Bytes)),
    entries n w s st = some L → ∃ m, (feed handler m w s).last = .finished
  | 0, _, _, _, _, h => by cases h
  | n + 1, w, s, st, L, h => by
    rw [entries] at h
    rcases hr : resume handler w s with ⟨r, w'⟩
    rw [hr] at h
    rcases r with (k | k | k) | e | _ | _ | _
    · simp only [Option.map_eq_some_iff] at h
      obtain ⟨L', h, -⟩ := h
      obtain ⟨m, hm⟩ := entries_finish n w' _ _ L' h
      exact ⟨m + 1, by rw [feed, hr]; exact hm⟩
    · cases h
    · exact ⟨1, by rw [feed, hr]⟩
    all_goals cases h

end Verif.Http1.Form
