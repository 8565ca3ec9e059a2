import Verif.Http2.RunsFrame
import Verif.Http2.Drive
import Mathlib.Data.List.Forall2

/-!
# Sequences of frames, and the history of callbacks (helper lemmas)
-/

namespace Verif.Http2

theorem flat_add (a b : List Ev) : flat (a ++ b) = flat a ++ flat b := by simp [flat]

theorem late_eq {f : Frame} (hw : f.body.waits = true) : [f.format] ++ f.body.early ++ f.late = f.events := by
  obtain ⟨fl, r, id, b⟩ := f
  simp only at hw
  unfold Frame.late Frame.events
  simp only [hw, if_true]
  cases b <;> simp [Body.early]

theorem pred_frames : ∀ (fs : List Frame), (∀ f ∈ fs, f.OK) → ∀ (s : Core) (tr : List Ev), s.st = .frameLength1 →
    ∃ x, pred tr s (fs.flatMap Frame.write) = (tr ++ x, .eos) ∧ x ++ late fs = fs.flatMap Frame.events
  | [], _, s, tr, hs => by
    refine ⟨[], ?_, rfl⟩
    rw [List.flatMap_nil, pred, norm_of_imm (by rw [hs]; rfl)]
  | [f], hf, s, tr, hs => by
    obtain ⟨h1, h2⟩ := pred_frame (hf f (by simp)) s hs tr []
    simp only [List.flatMap_cons, List.flatMap_nil, List.append_nil] at h1 ⊢
    cases hw : f.body.waits with
    | false =>
      refine ⟨f.events, ?_, ?_⟩
      · rw [h1 (.inr hw), pred]
        simp [norm, s0]
      · simp [late, Frame.late, hw]
    | true =>
      refine ⟨[f.format] ++ f.body.early, ?_, ?_⟩
      · rw [h2 hw, List.append_assoc]
      · simpa [late] using late_eq hw
  | f :: g :: fs, hf, s, tr, hs => by
    have hne : (g :: fs).flatMap Frame.write ≠ [] := by
      simp [Frame.write, be]
    obtain ⟨h1, -⟩ := pred_frame (hf f (by simp)) s hs tr ((g :: fs).flatMap Frame.write)
    obtain ⟨x, hx, hl⟩ := pred_frames (g :: fs) (fun e he => hf e (by simp [he])) s0 (tr ++ f.events) rfl
    refine ⟨f.events ++ x, ?_, ?_⟩
    · rw [List.flatMap_cons, h1 (.inl hne), hx, List.append_assoc]
    · rw [List.flatMap_cons, ← hl, List.append_assoc]
      rfl

/-! ## From what was delivered to the callbacks -/

theorem Good.flat_ne {e : Ev} (he : Good e) : flatEv e ≠ [] := by
  cases e with
  | payload k d f =>
    cases f with
    | true => simp [flatEv]
    | false => simpa [flatEv] using he rfl
  | _ => simp [flatEv]

theorem GoodLog.tail {e : Ev} {l : List Ev} (h : GoodLog (e :: l)) : GoodLog l := fun x hx => h x (List.mem_cons_of_mem _ hx)

theorem GoodLog.nil_of_flat {l : List Ev} (h : GoodLog l) (hf : flat l = []) : l = [] := by
  cases l with
  | nil => rfl
  | cons e l =>
    have := (h e (by simp)).flat_ne
    simp [flat, this] at hf

/-- An event that is not the data of a payload. -/
def NoData : Ev → Prop
  | .payload .. => False
  | _ => True

theorem uncons {l : List Ev} {e : Ev} {R : List Ev} (he : NoData e) (hl : GoodLog l) (h : flat l = e :: R) :
    ∃ l', l = e :: l' ∧ flat l' = R := by
  cases l with
  | nil => simp [flat] at h
  | cons x l =>
    have hx := hl x (by simp)
    simp only [flat, List.flatMap_cons] at h
    cases x with
    | payload k d f =>
      exfalso
      cases d with
      | nil =>
        cases f with
        | false => exact hx rfl rfl
        | true =>
          simp only [flatEv, List.map_nil, if_true, List.nil_append, List.cons_append, List.cons.injEq] at h
          rw [← h.1] at he; exact he
      | cons b d =>
        simp only [flatEv, List.map_cons, List.cons_append, List.cons.injEq] at h
        rw [← h.1] at he; exact he
    | _ =>
      simp only [flatEv, List.cons_append, List.nil_append, List.cons.injEq] at h
      exact ⟨l, by rw [h.1], h.2⟩

theorem uncons_many : ∀ {es : List Ev} {l R : List Ev}, (∀ e ∈ es, NoData e) → GoodLog l → flat l = es ++ R →
    ∃ l', l = es ++ l' ∧ flat l' = R ∧ GoodLog l'
  | [], l, R, _, hl, h => ⟨l, rfl, h, hl⟩
  | e :: es, l, R, he, hl, h => by
    obtain ⟨l1, rfl, h1⟩ := uncons (he e (by simp)) hl h
    obtain ⟨l2, rfl, h2⟩ := uncons_many (fun x hx => he x (by simp [hx])) hl.tail h1
    exact ⟨l2, rfl, h2⟩

theorem bytes_split {k k' : Kind} : ∀ {a d : Bytes} {X R : List Ev},
    bytesEv k' a ++ X = bytesEv k d ++ .payload k [] true :: R → (a ≠ [] → k' = k) ∧
      ∃ d', d = a ++ d' ∧ X = bytesEv k d' ++ .payload k [] true :: R
  | [], d, X, R, h => ⟨fun hn => absurd rfl hn, d, rfl, h⟩
  | x :: a, [], X, R, h => by simp [bytesEv] at h
  | x :: a, y :: d, X, R, h => by
    simp only [bytesEv, List.map_cons, List.cons_append, List.cons.injEq, Ev.payload.injEq] at h
    obtain ⟨⟨rfl, ⟨rfl, -⟩, -⟩, h⟩ := h
    obtain ⟨-, d', rfl, hX⟩ := bytes_split (a := a) (d := d) h
    exact ⟨fun _ => rfl, d', rfl, hX⟩

theorem unpayload {k : Kind} : ∀ {l : List Ev} {d : Bytes} {R : List Ev}, GoodLog l →
    flat l = bytesEv k d ++ .payload k [] true :: R →
    ∃ (ds : List Bytes) (last : Bytes) (l' : List Ev), l = ds.map (.payload k · false) ++ .payload k last true :: l' ∧
      ds.flatten ++ last = d ∧ [] ∉ ds ∧ flat l' = R ∧ GoodLog l'
  | [], d, R, _, h => by simp [flat] at h
  | e :: l, d, R, hl, h => by
    have he := hl e (by simp)
    rw [show flat (e :: l) = flatEv e ++ flat l by simp [flat]] at h
    have bad : ∀ e', NoData e' → ¬ (e' :: flat l = bytesEv k d ++ .payload k [] true :: R) := by
      intro e' hn he'
      cases d with
      | nil => simp only [bytesEv, List.map_nil, List.nil_append, List.cons.injEq] at he'; rw [he'.1] at hn; exact hn
      | cons => simp only [bytesEv, List.map_cons, List.cons_append, List.cons.injEq] at he'; rw [he'.1] at hn; exact hn
    cases e with
    | payload k' a f =>
      simp only [flatEv, List.append_assoc] at h
      obtain ⟨hk, d', rfl, hX⟩ := bytes_split (a := a) h
      cases f with
      | false =>
        obtain rfl := hk (he rfl)
        obtain ⟨ds, last, l', rfl, h1, h2, h3⟩ := unpayload hl.tail hX
        refine ⟨a :: ds, last, l', rfl, by simp [← h1], ?_, h3⟩
        simp only [List.mem_cons, not_or]
        exact ⟨fun h => he rfl h.symm, h2⟩
      | true =>
        simp only [if_true, List.singleton_append] at hX
        cases d' with
        | cons => simp [bytesEv] at hX
        | nil =>
          simp only [bytesEv, List.map_nil, List.nil_append, List.cons.injEq, Ev.payload.injEq, and_true] at hX
          obtain ⟨rfl, hX⟩ := hX
          exact ⟨[], a, l, rfl, by simp, by simp, hX, hl.tail⟩
    | _ => exact absurd h (bad _ trivial)

theorem field_noData (b : Body) : ∀ e ∈ b.fieldEvents, NoData e := by
  intro e he
  unfold Body.fieldEvents at he
  split at he <;> simp_all [NoData]

theorem delivered_one {f : Frame} {l R : List Ev} (hl : GoodLog l) (h : flat l = f.events ++ R) :
    ∃ a l', l = a ++ l' ∧ f.Delivered a ∧ flat l' = R ∧ GoodLog l' := by
  have h0 : ∀ e ∈ f.format :: f.body.fieldEvents, NoData e := by
    intro e he
    rcases List.mem_cons.mp he with rfl | he
    · trivial
    · exact field_noData _ e he
  unfold Frame.events Body.blobEvents at h
  unfold Frame.Delivered
  cases hb : f.body.blob with
  | none =>
    simp only [hb, List.append_nil] at h
    obtain ⟨l', rfl, h1, h2⟩ := uncons_many h0 hl h
    exact ⟨_, l', rfl, rfl, h1, h2⟩
  | some kd =>
    obtain ⟨k, d⟩ := kd
    simp only [hb] at h
    obtain ⟨l1, rfl, h1, h2⟩ := uncons_many (R := bytesEv k d ++ .payload k [] true :: R) h0 hl
      (by rw [h]; simp [bytesEv])
    obtain ⟨ds, last, l', rfl, h3, h4, h5, h6⟩ := unpayload h2 h1
    exact ⟨f.format :: (f.body.fieldEvents ++ ds.map (.payload k · false) ++ [.payload k last true]), l', by simp,
      ⟨ds, last, rfl, h3, h4⟩, h5, h6⟩

theorem delivered_all : ∀ {fs : List Frame} {l : List Ev}, GoodLog l → flat l = fs.flatMap Frame.events →
    ∃ ls, l = ls.flatten ∧ List.Forall₂ Frame.Delivered fs ls
  | [], l, hl, h => ⟨[], hl.nil_of_flat h, .nil⟩
  | f :: fs, l, hl, h => by
    rw [List.flatMap_cons] at h
    obtain ⟨a, l', rfl, h1, h2, h3⟩ := delivered_one hl h
    obtain ⟨ls, rfl, h4⟩ := delivered_all h3 h2
    exact ⟨a :: ls, rfl, .cons h1 h4⟩

theorem late_good (fs : List Frame) : GoodLog (late fs) ∧ flat (late fs) = late fs := by
  unfold late
  split
  · rename_i f _
    unfold Frame.late
    split
    · rename_i hw
      have hb : GoodLog f.body.blobEvents ∧ flat f.body.blobEvents = f.body.blobEvents := by
        unfold Body.waits at hw
        unfold Body.blobEvents
        split at hw
        · rename_i k hk
          rw [hk]
          exact ⟨by simp [GoodLog, Good], by simp [flat, flatEv]⟩
        · cases hw
      split
      · rename_i hbody
        rw [hbody] at hb ⊢
        refine ⟨?_, ?_⟩
        · intro e he
          rcases List.mem_append.mp he with he | he
          · simp only [Body.fieldEvents, List.mem_singleton] at he
            subst he; trivial
          · exact hb.1 e he
        · rw [flat_add, hb.2]
          rfl
      · exact hb
    · exact ⟨by simp [GoodLog], rfl⟩
  · exact ⟨by simp [GoodLog], rfl⟩

end Verif.Http2
