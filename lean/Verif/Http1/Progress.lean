import Verif.Http1.Reach
import Verif.Http1.Feed

/-!
# Every client run comes to an end (helper lemmas)
-/

namespace Verif.Http1

variable {h : Handler} {c : Cfg}

/-- A state function that pauses has made progress, or it has used up the slice. -/
theorem step_callback {n : Nat} {c1 : Cfg} (hok : CtxOK c.ctx) (hs : step h c = .exit (.callback n) c1) :
    Ext c c1 ∧ n = c1.ctx.idx ∧
      (meas c1 < meas c ∨ (c1.ctx.idx = c1.ctx.stream.length ∧ eosSt c1.p.fn = true)) := by
  have h1 := fr_step h c hok
  rw [hs] at h1
  refine ⟨h1.1, h1.2, ?_⟩
  have h2 := fr_step h.yes c hok
  rcases z_step (h := h) (c := c) with e | ⟨c2, e1, -, e2⟩
  · have h3 := aux_step (h := h.yes) (sf := False) (l0 := c.log) (c := c) ⟨False.elim, .refl⟩
    rw [← e, hs] at h3
    obtain ⟨-, l, e, -, -, -, h6⟩ := h3
    cases h6
  · rw [hs] at e1
    cases e1
    rcases e2 with e2 | ⟨e2, e3⟩
    · rw [e2] at h2
      exact .inl h2.2
    · rw [e2] at h2
      exact .inr ⟨h2.2.2, e3⟩

/-- The same for the parser loop. -/
theorem parse_callback : ∀ (f n : Nat) (c c1 : Cfg), CtxOK c.ctx → parse h f c = (.ok (.callback n), c1) →
    meas c1 < meas c ∨ (c1.ctx.idx = c1.ctx.stream.length ∧ eosSt c1.p.fn = true)
  | 0, n, c, c1, hok, hp => by cases hp
  | f + 1, n, c, c1, hok, hp => by
    have h1 := fr_step h c hok
    rw [parse] at hp
    cases hs : step h c with
    | cont c' =>
      rw [hs] at hp h1
      rcases parse_callback f n c' c1 h1.1.ok hp with h2 | h2
      · exact .inl (Nat.lt_trans h2 h1.2)
      · exact .inr h2
    | exit s c' =>
      rw [hs] at hp
      cases s with
      | callback k =>
        obtain ⟨-, -, h2⟩ := step_callback hok hs
        cases hp
        exact h2
      | eos k => cases hp
      | finished k => cases hp
    | err e c' => rw [hs] at hp; cases hp
    | panic => rw [hs] at hp; cases hp
    | ub => rw [hs] at hp; cases hp

/-- The potential of a client: the unread bytes and the state function. -/
def pot (p : Parser) (m : Bytes) : Nat :=
  8 * m.length + rank p.fn m[0]? + if p.fn = .finished then 0 else 1

theorem pot_le (p : Parser) (m : Bytes) : pot p m ≤ 8 * m.length + 6 := by
  have := rank_le p.fn m[0]?
  unfold pot; split <;> omega

theorem pot_drop {p p' : Parser} {m : Bytes} {n : Nat} (hn : 1 ≤ n) (hm : n ≤ m.length) :
    pot p' (m.drop n) < pot p m := by
  have := pot_le p' (m.drop n)
  rw [List.length_drop] at this
  unfold pot; unfold pot at this; omega

/-- What is left to do after a call. -/
def Less (p : Parser) (m : Bytes) (p' : Parser) (m' : Bytes) : Prop :=
  pot p' m' < pot p m ∨ (m' = [] ∧ eosSt p'.fn = true)

theorem take_head {m : Bytes} {k : Nat} (hk : 0 < k) : (m.take k)[0]? = m[0]? := by
  cases m with
  | nil => simp
  | cons b m => cases k with
    | zero => exact absurd hk (Nat.lt_irrefl _)
    | succ k => rfl

theorem parse_less {p p' : Parser} {m s : Bytes} {l : List Ev} {f n : Nat} {c1 : Cfg}
    (hs : s <+: m) (h0 : s[0]? = m[0]?) (hf : p.fn ≠ .finished) (h1 : s = [] → m = [])
    (hp : parse h f ⟨p, Ctx.new s, l⟩ = (.ok (.callback n), c1)) (hn : n = c1.ctx.idx) (hle : n ≤ s.length)
    (hst : c1.ctx.stream = s) (hp' : p'.fn = c1.p.fn) : Less p m p' (m.drop n) := by
  have hsl := hs.length_le
  rcases Nat.eq_zero_or_pos n with h2 | h2
  · subst h2
    rcases parse_callback f 0 _ c1 (ctxOK_new s) hp with h3 | ⟨h3, h4⟩
    · left
      simp only [meas, ← hn, hst, Ctx.new, h0] at h3
      unfold pot
      rw [List.drop_zero, hp', if_neg hf]
      split <;> omega
    · right
      have : s = [] := List.length_eq_zero_iff.mp (by rw [← hst]; omega)
      rw [List.drop_zero]
      exact ⟨h1 this, by rw [hp']; exact h4⟩
  · exact .inl (pot_drop h2 (by omega))

/-- In URL-encoded mode, a pause in an empty slice comes from a plus sign that was read before. -/
theorem url_nil {p : Parser} {l : List Ev} {f n : Nat} {c1 : Cfg} (hu : UrlSt p.fn)
    (hp : parse h f ⟨p, Ctx.new [], l⟩ = (.ok (.callback n), c1)) (o : Option UInt8) :
    rank c1.p.fn o < rank p.fn o := by
  cases f with
  | zero => cases hp
  | succ f =>
    have plus : ∀ (e : Ev) (s : St), eosSt s = true → rank s o = 0 → rank p.fn o = 1 →
        step h ⟨p, Ctx.new [], l⟩ = callbackTransitionData h ⟨p, Ctx.new [], l⟩ e s s →
        rank c1.p.fn o < rank p.fn o := by
      intro e s h1 h2 h3 h4
      rw [parse, h4] at hp
      unfold callbackTransitionData callbackData at hp
      by_cases hr : h.ret ((setState ⟨p, Ctx.new [], l⟩ s s).log ++ [e]) = true
      · simp only [hr, if_true, remark] at hp
        cases f with
        | zero => cases hp
        | succ f =>
          have := eosSt_nil (h := h) (p := { p with state := s, fn := s }) (l := l ++ [e]) h1
          rw [parse] at hp
          change (match step h ⟨{ p with state := s, fn := s }, Ctx.new [], l ++ [e]⟩ with
            | .cont c' => parse h f c' | .exit s c' => _ | .err e c' => _ | .panic => _ | .ub => _) = _ at hp
          rw [this] at hp
          cases hp
      · simp only [hr] at hp
        cases hp
        rw [h3]
        show rank s o < 1
        omega
    have eos : step h ⟨p, Ctx.new [], l⟩ = exitEos ⟨p, Ctx.new [], l⟩ → rank c1.p.fn o < rank p.fn o := by
      intro e
      rw [parse, e] at hp
      cases hp
    unfold UrlSt at hu
    split at hu
    all_goals first
      | exact hu.elim
      | (rename_i hf
         first
           | exact eos (by unfold step; simp only [hf]; rfl)
           | exact plus (.urlEncodedName b!" ") .urlEncodedName rfl rfl (by rw [hf]; rfl)
               (by unfold step; simp only [hf]; rfl)
           | exact plus (.urlEncodedValue b!" ") .urlEncodedValue rfl rfl (by rw [hf]; rfl)
               (by unfold step; simp only [hf]; rfl)
           | (exfalso
              have : step h ⟨p, Ctx.new [], l⟩ = finished ⟨p, Ctx.new [], l⟩ := by
                unfold step; simp only [hf]
              rw [parse, this] at hp
              cases hp))

/-- After a call that ends in a pause there is less to do. -/
theorem resume_callback {w w' : World} {m : Bytes} {k n : Nat} (hu : UrlOK w.p) (hk : 0 < k)
    (hr : resume h w (m.take k) = (.ok (.callback n), w')) : Less w.p m w'.p (m.drop n) := by
  have hfin : w.p.fn ≠ .finished := by
    intro e
    rw [resume_finished e] at hr
    cases hr
  have hle : n ≤ (m.take k).length := by
    have := callOK (h := h) (s := m.take k) hu
    rw [hr] at this
    exact this.1
  have hpre : m.take k <+: m := List.take_prefix k m
  have hnil : m.take k = [] → m = [] := by
    cases m with
    | nil => simp
    | cons b m => cases k with
      | zero => exact absurd hk (Nat.lt_irrefl _)
      | succ k => simp
  by_cases hp : w.p.ptype = .urlEncoded
  · rcases hu hp with hu | hd
    case inr => rw [resume_dead hd] at hr; cases hr
    rw [resume_urlPost (p := w.p) (l := w.log) hp] at hr
    generalize hst : (m.take k).take w.p.length = st at hr
    have hok := parse_new_ok h w.p st w.log
    have hpre' : st <+: m := hst ▸ (List.take_prefix _ _).trans hpre
    rcases hh : parse h (fuel st.length) ⟨w.p, Ctx.new st, w.log⟩ with ⟨r, c1⟩
    rw [hh] at hr hok
    cases r with
    | ok su =>
      cases su with
      | callback j =>
        unfold urlPost at hr
        simp only at hr
        split at hr
        · cases hr
        · cases hr
          by_cases hs0 : st = []
          · subst hs0
            have h1 := url_nil hu hh m[0]?
            have hn0 : n = 0 := by
              have := hok.1.ok.idx_le
              rw [hok.1.stream] at this
              have h2 := hok.2
              simp [Ctx.new] at this
              omega
            subst hn0
            left
            unfold pot
            simp only [List.drop_zero]
            rw [if_neg hfin]
            split <;> omega
          · have h0 : st[0]? = m[0]? := by
              cases st with
              | nil => exact absurd rfl hs0
              | cons b st => obtain ⟨t, rfl⟩ := hpre'; rfl
            refine parse_less hpre' h0 hfin (fun h => absurd h hs0) hh hok.2 ?_ hok.1.stream rfl
            have := hok.1.ok.idx_le
            rw [hok.1.stream] at this
            rw [hok.2]; exact this
      | eos j =>
        unfold urlPost at hr
        simp only at hr
        split at hr
        · cases hr
        · split at hr
          · rw [parse_bodyFinished (Nat.le_refl 2) rfl] at hr
            split at hr
            · cases hr
            · cases hr
              left
              have := pot_le w.p m
              have hm : c1.ctx.idx ≤ m.length := Nat.le_trans hle hpre.length_le
              unfold pot
              rw [if_neg hfin, if_pos rfl, List.length_drop]
              show 8 * (m.length - c1.ctx.idx) + 0 + 0 < _
              omega
          · cases hr
      | finished j => unfold urlPost at hr; cases hr
    | err e => unfold urlPost at hr; cases hr
    | panic => unfold urlPost at hr; cases hr
    | ub => unfold urlPost at hr; cases hr
    | diverge => unfold urlPost at hr; cases hr
  · rw [resume_plain hp] at hr
    have hok := parse_new_ok h w.p (m.take k) w.log
    rcases hh : parse h (fuel (m.take k).length) ⟨w.p, Ctx.new (m.take k), w.log⟩ with ⟨r, c1⟩
    rw [hh] at hr hok
    simp only [Prod.mk.injEq] at hr
    obtain ⟨rfl, rfl⟩ := hr
    exact parse_less hpre (take_head hk) hfin hnil hh hok.2 hle hok.1.stream rfl

/-- A call in a state that waits for data, when there is none. -/
theorem resume_eosSt {w : World} (he : eosSt w.p.fn = true) :
    (∃ w', resume h w [] = (.ok (.eos 0), w')) ∨ (∃ w', resume h w [] = (.ok (.finished 0), w')) ∨
    (∃ w', resume h w [] = (.panic, w')) ∨
    (∃ w', resume h w [] = (.ok (.callback 0), w') ∧ w'.p.fn = .finished) := by
  have hp : parse h (fuel 0) ⟨w.p, Ctx.new [], w.log⟩ = (.ok (.eos 0), fin ⟨w.p, Ctx.new [], w.log⟩) := by
    rw [show fuel 0 = 7 + 1 from rfl, parse, eosSt_nil he]
    rfl
  by_cases ht : w.p.ptype = .urlEncoded
  · rw [resume_urlPost (p := w.p) (l := w.log) ht]
    rw [List.take_nil, List.length_nil, hp]
    unfold urlPost
    simp only
    split
    · exact .inr (.inr (.inl ⟨_, rfl⟩))
    · split
      · rw [parse_bodyFinished (Nat.le_refl 2) rfl]
        split
        · exact .inr (.inl ⟨_, rfl⟩)
        · exact .inr (.inr (.inr ⟨_, rfl, rfl⟩))
      · exact .inl ⟨_, rfl⟩
  · rw [resume_plain ht, List.length_nil, hp]
    exact .inl ⟨_, rfl⟩

/-- A waiting parser without data is done after at most two more calls. -/
theorem drive_eosSt {w : World} {a : End} (he : eosSt w.p.fn = true) (k k' : Nat) (ks : List Nat) :
    ∃ j ≤ 2, (drive h a ((k :: k' :: ks).take j) w []).complete := by
  rcases resume_eosSt (h := h) he with ⟨w', e⟩ | ⟨w', e⟩ | ⟨w', e⟩ | ⟨w', e, hf⟩
  · exact ⟨1, by omega, by simp [drive, e, Outcome.complete]⟩
  · exact ⟨1, by omega, by simp [drive, e, Outcome.complete]⟩
  · exact ⟨1, by omega, by simp [drive, e, Outcome.complete]⟩
  · refine ⟨2, by omega, ?_⟩
    simp [drive, e, resume_finished hf, Outcome.complete]

theorem drive_cons {a : End} {w : World} {m : Bytes} {k : Nat} {ks : List Nat} :
    drive h a (k :: ks) w m = match resume h w (m.take k) with
      | (.ok (.callback n), w') => drive h .callback ks w' (m.drop n)
      | (.ok (.eos n), w') => drive h .eos ks w' (m.drop n)
      | (.ok (.finished n), w') => ⟨.finished, w', m.drop n⟩
      | (.err e, w') => ⟨.err e, w', m.drop (w'.p.byteCount - w.p.byteCount)⟩
      | (.panic, w') => ⟨.panic, w', m⟩
      | (.ub, w') => ⟨.ub, w', m⟩
      | (.diverge, w') => ⟨.diverge, w', m⟩ := by rw [drive]; rfl

theorem drive_ends : ∀ (b : Nat) (a : End) (st : Stage) (w : World) (m : Bytes) (ks : List Nat),
    Reach anyBoundary st w.p → (st = .fresh → m ≠ []) → (∀ k ∈ ks, 0 < k) → pot w.p m ≤ b → b + 3 ≤ ks.length →
    ∃ j ≤ b + 3, (drive h a (ks.take j) w m).complete := by
  intro b
  induction b with
  | zero =>
    intro a st w m ks hr hs hk hb hl
    cases ks with
    | nil => simp at hl
    | cons k ks =>
      refine ⟨1, by omega, ?_⟩
      have hf : w.p.fn = .finished := by
        unfold pot at hb
        by_contra hf
        rw [if_neg hf] at hb
        omega
      rw [List.take_succ_cons, drive_cons, resume_finished hf]
      trivial
  | succ b ih =>
    intro a st w m ks hr hs hk hb hl
    match ks, hl with
    | k :: k' :: k'' :: ks, hl =>
      have hk0 := hk k (by simp)
      have hmode := (reach_mode hr).1
      have hu : UrlOK w.p := fun hp => urlSt_of_mode (by rwa [hp] at hmode)
      have hok := callOK (h := h) (s := m.take k) hu
      have hsafe := safe_resume (h := h) (s := m.take k) (mp := False) hmode False.elim
      have one : ∀ r, (drive h a [k] w m) = r → r.complete →
          ∃ j ≤ b + 1 + 3, (drive h a ((k :: k' :: k'' :: ks).take j) w m).complete :=
        fun r e hc => ⟨1, by omega, by rw [List.take_succ_cons, List.take_zero, e]; exact hc⟩
      rcases he : resume h w (m.take k) with ⟨r, w'⟩
      rw [he] at hok hsafe
      have next : ∀ (a' : End) (m' : Bytes), pot w'.p m' < pot w.p m → Reach anyBoundary .running w'.p →
          (∀ l, drive h a (k :: l) w m = drive h a' l w' m') →
          ∃ j ≤ b + 1 + 3, (drive h a ((k :: k' :: k'' :: ks).take j) w m).complete := by
        intro a' m' h1 h2 h3
        obtain ⟨j, hj, hc⟩ := ih a' .running w' m' (k' :: k'' :: ks) h2 nofun
          (fun x hx => hk x (List.mem_cons_of_mem _ hx)) (by omega) (by simp at hl ⊢; omega)
        exact ⟨j + 1, by omega, by rw [List.take_succ_cons, h3]; exact hc⟩
      cases r with
      | ok su =>
        have hr' : Reach anyBoundary .running w'.p := .resumeOk hr h _ he
        cases su with
        | callback n =>
          rcases resume_callback hu hk0 he with h1 | ⟨h1, h2⟩
          · exact next .callback _ h1 hr' (fun l => by rw [drive_cons, he])
          · obtain ⟨j, hj, hc⟩ := drive_eosSt (h := h) (a := .callback) h2 k' k'' ks
            refine ⟨j + 1, by omega, ?_⟩
            rw [List.take_succ_cons, drive_cons, he]
            simp only [h1]
            exact hc
        | eos n =>
          by_cases hn : m.drop n = []
          · exact one _ rfl (by rw [drive_cons, he]; simp [drive, Outcome.complete, hn])
          · refine next .eos _ ?_ hr' (fun l => by rw [drive_cons, he])
            have hne : m ≠ [] := by rintro rfl; simp at hn
            have h2 : 0 < m.length := List.length_pos_iff.mpr hne
            have h1 := hok.1
            rw [List.length_take] at h1
            exact pot_drop (by omega) (by omega)
        | finished n => exact one _ rfl (by rw [drive_cons, he]; trivial)
      | err e => exact one _ rfl (by rw [drive_cons, he]; trivial)
      | panic => exact one _ rfl (by rw [drive_cons, he]; trivial)
      | ub =>
        obtain ⟨h2, h4⟩ := hsafe
        exfalso
        by_cases hst : st = .fresh
        · have := hs hst
          cases m with
          | nil => exact this rfl
          | cons b m => cases k with
            | zero => omega
            | succ k => simp at h4
        · exact ((reach_mode hr).2.1 hst).1 h2
      | diverge => exact hok.elim

end Verif.Http1
