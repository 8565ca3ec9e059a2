import Verif.Http1.Call
import Verif.Http1.Drive

/-!
# Handlers that answer differently about the length of a part

The simulation assumes that the answers of `content_length` depend on the flat history only. A single run asks at most
once per history, so there is always a handler with this property that leads to the same run. Here it is constructed.
-/

namespace Verif.Http1

/-- The same handler with other answers about lengths. -/
def Handler.telling (h : Handler) (cl : List Ev → Option Nat) : Handler := { h with contentLength := cl }

/-- The answers of two handlers are the same on all histories between `a` and `b`. -/
def SameBetween (h : Handler) (cl : List Ev → Option Nat) (a b : List Ev) : Prop :=
  ∀ t, a <+: t → t <+: b → cl t = h.contentLength t

theorem SameBetween.narrow {h : Handler} {cl : List Ev → Option Nat} {a b a' b' : List Ev}
    (H : SameBetween h cl a b) (ha : a <+: a') (hb : b' <+: b) : SameBetween h cl a' b' :=
  fun t h1 h2 => H t (ha.trans h1) (h2.trans hb)

variable {h : Handler} {cl : List Ev → Option Nat}

theorem step_telling {c : Cfg} (hc : cl c.log = h.contentLength c.log) : step (h.telling cl) c = step h c := by
  unfold step
  split <;> first | rfl | skip
  unfold multipart_detect_data
  rw [show (h.telling cl).contentLength c.log = _ from hc]

theorem parse_grew (h : Handler) : ∀ (n : Nat) (c : Cfg), CtxOK c.ctx → Grew c.log (parse h n c).2.log
  | 0, _, _ => .refl
  | n + 1, c, hok => by
    have hs := fr_step h c hok
    simp only [parse]
    cases heq : step h c with
    | cont c' =>
      rw [heq] at hs
      exact hs.1.log.trans (parse_grew h n c' hs.1.ok)
    | exit s c' =>
      rw [heq] at hs
      cases s <;> exact hs.1.log
    | err e c' =>
      rw [heq] at hs
      have he : Ext c c' := hs
      exact he.log
    | panic => exact .refl
    | ub => exact .refl

theorem parse_telling : ∀ (n : Nat) (c : Cfg), CtxOK c.ctx → SameBetween h cl c.log (parse h n c).2.log →
    parse (h.telling cl) n c = parse h n c
  | 0, _, _, _ => rfl
  | n + 1, c, hok, hs => by
    have e := step_telling (hs c.log List.prefix_rfl (parse_grew h (n + 1) c hok).prefix)
    have hf := fr_step h c hok
    simp only [parse] at hs ⊢
    rw [e]
    cases heq : step h c with
    | cont c' =>
      rw [heq] at hs hf
      exact parse_telling n c' hf.1.ok (hs.narrow hf.1.log.prefix List.prefix_rfl)
    | _ => rfl

theorem parse_grew_new (h : Handler) (n : Nat) (p : Parser) (s : Bytes) (l : List Ev) :
    Grew l (parse h n ⟨p, Ctx.new s, l⟩).2.log := parse_grew h n _ (ctxOK_new s)

theorem resume_grew (h : Handler) (w : World) (s : Bytes) : Grew w.log (resume h w s).2.log := by
  by_cases hp : w.p.ptype = .urlEncoded
  · rw [resume_url hp rfl]
    generalize (if w.p.length < s.length then s.take w.p.length else s) = st
    have hfuel : 2 ≤ fuel st.length := by simp only [fuel]; omega
    have hpl := parse_grew_new h (fuel st.length) w.p st w.log
    generalize parse h (fuel st.length) ⟨w.p, Ctx.new st, w.log⟩ = rc at hpl ⊢
    obtain ⟨r, c'⟩ := rc
    cases r with
    | ok su =>
      cases su with
      | callback n => simp only [urlPost]; split <;> exact hpl
      | eos n =>
        simp only [urlPost]
        split
        · exact hpl
        · split
          · rw [parse_bodyFinished hfuel rfl]
            split <;> exact hpl.snoc (by simp [flatEv])
          · exact hpl
      | finished n => exact hpl
    | _ => exact hpl
  · rw [resume_plain hp]
    exact parse_grew_new h _ _ _ _

theorem resume_telling {w : World} {s : Bytes} (hs : SameBetween h cl w.log (resume h w s).2.log) :
    resume (h.telling cl) w s = resume h w s := by
  by_cases hp : w.p.ptype = .urlEncoded
  · have key : ∀ st : Bytes, w.log <+: (parse h (fuel st.length) ⟨w.p, Ctx.new st, w.log⟩).2.log := fun st =>
      (parse_grew_new h (fuel st.length) w.p st w.log).prefix
    have tell := fun st : Bytes => parse_telling (h := h) (cl := cl) (fuel st.length) ⟨w.p, Ctx.new st, w.log⟩ (ctxOK_new st)
    rw [resume_url hp rfl] at hs ⊢
    rw [resume_url hp rfl]
    revert hs
    generalize (if w.p.length < s.length then s.take w.p.length else s) = st
    intro hs
    have hfuel : 2 ≤ fuel st.length := by simp only [fuel]; omega
    have low : (parse h (fuel st.length) ⟨w.p, Ctx.new st, w.log⟩).2.log <+:
        (urlPost h (fuel st.length) (parse h (fuel st.length) ⟨w.p, Ctx.new st, w.log⟩)).2.log := by
      generalize parse h (fuel st.length) ⟨w.p, Ctx.new st, w.log⟩ = rc
      obtain ⟨r, c'⟩ := rc
      cases r with
      | ok su =>
        cases su with
        | callback n => simp only [urlPost]; split <;> exact List.prefix_rfl
        | eos n =>
          simp only [urlPost]
          split
          · exact List.prefix_rfl
          · split
            · rw [parse_bodyFinished hfuel rfl]
              split <;> exact List.prefix_append _ _
            · exact List.prefix_rfl
        | finished n => exact List.prefix_rfl
      | _ => exact List.prefix_rfl
    rw [tell st (hs.narrow List.prefix_rfl low)]
    generalize parse h (fuel st.length) ⟨w.p, Ctx.new st, w.log⟩ = rc
    obtain ⟨r, c'⟩ := rc
    cases r with
    | ok su =>
      cases su with
      | eos n =>
        simp only [urlPost]
        split
        · rfl
        · split
          · rw [parse_bodyFinished hfuel rfl, parse_bodyFinished hfuel rfl]
            rfl
          · rfl
      | _ => rfl
    | _ => rfl
  · rw [resume_plain hp] at hs ⊢
    rw [resume_plain hp, parse_telling _ _ (ctxOK_new s) hs]

theorem drive_grew (h : Handler) : ∀ (ks : List Nat) (last : End) (w : World) (msg : Bytes),
    Grew w.log (drive h last ks w msg).world.log
  | [], _, _, _ => .refl
  | k :: ks, _, w, msg => by
    have H := resume_grew h w (msg.take k)
    simp only [drive]
    generalize resume h w (msg.take k) = rw at H ⊢
    obtain ⟨r, w'⟩ := rw
    cases r with
    | ok s =>
      cases s with
      | callback n => exact H.trans (drive_grew h ks _ _ _)
      | eos n => exact H.trans (drive_grew h ks _ _ _)
      | finished n => exact H
    | _ => exact H

theorem drive_telling : ∀ (ks : List Nat) (last : End) (w : World) (msg : Bytes),
    SameBetween h cl w.log (drive h last ks w msg).world.log →
    drive (h.telling cl) last ks w msg = drive h last ks w msg
  | [], _, _, _, _ => rfl
  | k :: ks, _, w, msg, hs => by
    have G := (resume_grew h w (msg.take k)).prefix
    have E := resume_telling (h := h) (cl := cl) (w := w) (s := msg.take k)
    simp only [drive] at hs ⊢
    revert G E hs
    generalize hR : resume h w (msg.take k) = rw
    intro hs G E
    obtain ⟨r, w'⟩ := rw
    have hE : SameBetween h cl w.log w'.log := by
      cases r with
      | ok s =>
        cases s with
        | callback n => exact hs.narrow List.prefix_rfl (drive_grew h ks _ _ _).prefix
        | eos n => exact hs.narrow List.prefix_rfl (drive_grew h ks _ _ _).prefix
        | finished n => exact hs
      | _ => exact hs
    rw [E hE]
    cases r with
    | ok s =>
      cases s with
      | callback n => exact drive_telling ks _ _ _ (hs.narrow G List.prefix_rfl)
      | eos n => exact drive_telling ks _ _ _ (hs.narrow G List.prefix_rfl)
      | finished n => rfl
    | _ => rfl

/-- `cl` tells what the handler has answered in a run from the history `l` to the history `L`. (About other histories
it tells what the handler would answer, cut in some way.) -/
def Tells (h : Handler) (l L : List Ev) (cl : List Ev → Option Nat) : Prop :=
  (∀ t, l ++ t <+: L → cl (flat t) = h.contentLength (l ++ t)) ∧
  ∀ es, ∃ p, flat p = flat (l ++ es) ∧ cl es = h.contentLength p

theorem flat_append' (a b : List Ev) : flat (a ++ b) = flat a ++ flat b := by simp [flat]

/-- Two beginnings of a history without empty data that stand for the same bytes are the same. -/
theorem flat_inj : ∀ {T a b : List Ev}, (∀ e ∈ T, flatEv e ≠ []) → a <+: T → b <+: T → flat a = flat b → a = b
  | _, [], [], _, _, _, _ => rfl
  | _, [], e :: b, hT, _, hb, h => by
    have := hT e (hb.subset (by simp))
    simp [flat] at h
    exact absurd h.1 this
  | _, e :: a, [], hT, ha, _, h => by
    have := hT e (ha.subset (by simp))
    simp [flat] at h
    exact absurd h.1 this
  | T, e :: a, f :: b, hT, ha, hb, h => by
    obtain ⟨s, rfl⟩ := ha
    obtain ⟨u, hu⟩ := hb
    simp only [List.cons_append, List.cons.injEq] at hu
    obtain ⟨rfl, hu⟩ := hu
    have h : flatEv f ++ flat a = flatEv f ++ flat b := by simpa [flat] using h
    rw [flat_inj (T := a ++ s) (fun e he => hT e (by simp at he ⊢; tauto)) (List.prefix_append _ _) ⟨u, hu⟩
      (List.append_cancel_left h)]

open Classical in
/-- A run of any handler is a run of a handler whose answers depend on the flat history only. -/
theorem exists_telling (h : Handler) (k : List Nat) (w : World) (msg : Bytes) :
    ∃ cl cl' : List Ev → Option Nat, Tells h w.log (drive h .idle k w msg).world.log cl ∧
      (∀ es, cl es = cl' (flat w.log ++ es)) ∧ (∀ f, ∃ p, flat p = flat f ∧ cl' f = h.contentLength p) ∧
      drive (h.telling (fun l => cl' (flat l))) .idle k w msg = drive h .idle k w msg := by
  obtain ⟨T, hT, hne⟩ := drive_grew h k .idle w msg
  generalize hL : (drive h .idle k w msg).world.log = L at hT ⊢
  let cl' : List Ev → Option Nat := fun f =>
    if H : ∃ t, t <+: T ∧ flat w.log ++ flat t = f then h.contentLength (w.log ++ H.choose) else h.contentLength f
  have hcl : ∀ t, t <+: T → cl' (flat w.log ++ flat t) = h.contentLength (w.log ++ t) := by
    intro t ht
    have H : ∃ t', t' <+: T ∧ flat w.log ++ flat t' = flat w.log ++ flat t := ⟨t, ht, rfl⟩
    show dite _ _ _ = _
    rw [dif_pos H, flat_inj hne H.choose_spec.1 ht (List.append_cancel_left H.choose_spec.2)]
  have hcl2 : ∀ f, ∃ p, flat p = flat f ∧ cl' f = h.contentLength p := by
    intro f
    by_cases H : ∃ t, t <+: T ∧ flat w.log ++ flat t = f
    · refine ⟨w.log ++ H.choose, ?_, dif_pos H⟩
      rw [flat_append', H.choose_spec.2]
      conv_rhs => rw [← H.choose_spec.2]
      rw [← flat_append', flat_flat, flat_append', H.choose_spec.2]
    · exact ⟨f, rfl, dif_neg H⟩
  refine ⟨fun es => cl' (flat w.log ++ es), cl', ⟨?_, ?_⟩, fun _ => rfl, hcl2, drive_telling _ _ _ _ ?_⟩
  · intro t ht
    rw [hT] at ht
    exact hcl t ((List.prefix_append_right_inj _).1 ht)
  · intro es
    obtain ⟨p, h1, h2⟩ := hcl2 (flat w.log ++ es)
    exact ⟨p, by rw [h1, flat_append', flat_append', flat_flat], h2⟩
  · intro t h1 h2
    rw [hL, hT] at h2
    obtain ⟨u, rfl⟩ := h1
    have := hcl u ((List.prefix_append_right_inj _).1 h2)
    rw [← flat_append'] at this
    exact this

end Verif.Http1
