import Verif.Http1.AnyHead
import Verif.Http1.Runs
import Verif.Http1.DetectSpec
import Verif.Util.ByteLemmas

/-!
# Heads whose first token is read in small pieces (helper lemmas)
-/

set_option linter.unusedSimpArgs false
set_option linter.unusedVariables false

namespace Verif.Http1

variable {env : Env} {fut : Bytes} {K : List Ev × Fin} {h : Handler} {c : Cfg} {w : World}

/-! ## The machine forgets its trace -/

theorem norm_noCl (he : env.cl = noCl) (tr tr' : List Ev) (s : AS) :
    norm env tr s = norm env tr' s := by
  cases s <;> first | rfl | simp [norm, he, noCl]

theorem pred_tr (he : env.cl = noCl) : ∀ (m : Bytes) (tr : List Ev) (s : AS),
    pred env tr s m = (tr ++ (pred env [] s m).1, (pred env [] s m).2)
  | [], tr, s => by
    simp only [pred, norm_noCl he tr [] s, List.nil_append]
  | b :: r, tr, s => by
    simp only [pred, norm_noCl he tr [] s, List.nil_append]
    split
    · rfl
    · cases bstep env (norm env [] s).2 b with
      | next es s' =>
        dsimp only
        rw [pred_tr he r (tr ++ _ ++ es) s', pred_tr he r (_ ++ es) s']
        simp
      | err es e => simp
      | errB => rfl
      | panic => rfl

/-! ## The first token -/

theorem Differs.cases {p : Bytes} {b : UInt8} (h : Differs p b) :
    (p = b!"H" ∧ b ≠ c! 'T') ∨ (p = b!"HT" ∧ b ≠ c! 'T') ∨ (p = b!"HTT" ∧ b ≠ c! 'P') ∨
      (p = b!"HTTP" ∧ b ≠ c! '/') := by
  obtain ⟨⟨t, ht⟩, hn, hd⟩ := h
  have hp : p = (b!"HTTP").take p.length := by
    rw [← ht, List.take_left]
  have hl : p.length ≤ 4 := by
    have := congrArg List.length ht
    simp at this
    omega
  have h0 : p.length ≠ 0 := by simpa using hn
  have hb : ∀ (x : UInt8) (y : Bytes), b!"HTTP/" = p ++ x :: y → b ≠ x := by
    rintro x y e rfl
    exact hd ⟨y, by rw [e]; simp⟩
  generalize hk : p.length = k at *
  match k, hl, h0 with
  | 1, _, _ => exact .inl ⟨hp, hb (c! 'T') b!"TP/" (by rw [hp]; rfl)⟩
  | 2, _, _ => exact .inr (.inl ⟨hp, hb (c! 'T') b!"P/" (by rw [hp]; rfl)⟩)
  | 3, _, _ => exact .inr (.inr (.inl ⟨hp, hb (c! 'P') b!"/" (by rw [hp]; rfl)⟩))
  | 4, _, _ => exact .inr (.inr (.inr ⟨hp, hb (c! '/') [] (by rw [hp]; rfl)⟩))

/-- The prediction for a token that is recognised. -/
theorem pred_differs {p : Bytes} {b : UInt8} (h : Differs p b) (tr : List Ev) (r : Bytes) :
    pred env tr .detect1 (p ++ b :: r) = pred env (tr ++ p.map fun b => .method [b]) .method (b :: r) := by
  rcases h.cases with ⟨rfl, hb⟩ | ⟨rfl, hb⟩ | ⟨rfl, hb⟩ | ⟨rfl, hb⟩
  · show pred env tr .detect1 (c! 'H' :: b :: r) = _
    rw [pred_next (s1 := .detect1) (es0 := []) (es := []) (s' := .det2) rfl nofun rfl,
      pred_det_miss (s := .det2) (buf := b!"H") rfl nofun (by simp [bstep, bDet, hb])]
    simp [flatEv]
  · show pred env tr .detect1 (c! 'H' :: c! 'T' :: b :: r) = _
    rw [pred_next (s1 := .detect1) (es0 := []) (es := []) (s' := .det2) rfl nofun rfl,
      pred_next (s1 := .det2) (es0 := []) (es := []) (s' := .det3) rfl nofun rfl,
      pred_det_miss (s := .det3) (buf := b!"HT") rfl nofun (by simp [bstep, bDet, hb])]
    simp [flatEv]
  · show pred env tr .detect1 (c! 'H' :: c! 'T' :: c! 'T' :: b :: r) = _
    rw [pred_next (s1 := .detect1) (es0 := []) (es := []) (s' := .det2) rfl nofun rfl,
      pred_next (s1 := .det2) (es0 := []) (es := []) (s' := .det3) rfl nofun rfl,
      pred_next (s1 := .det3) (es0 := []) (es := []) (s' := .det4) rfl nofun rfl,
      pred_det_miss (s := .det4) (buf := b!"HTT") rfl nofun (by simp [bstep, bDet, hb])]
    simp [flatEv]
  · show pred env tr .detect1 (c! 'H' :: c! 'T' :: c! 'T' :: c! 'P' :: b :: r) = _
    rw [pred_next (s1 := .detect1) (es0 := []) (es := []) (s' := .det2) rfl nofun rfl,
      pred_next (s1 := .det2) (es0 := []) (es := []) (s' := .det3) rfl nofun rfl,
      pred_next (s1 := .det3) (es0 := []) (es := []) (s' := .det4) rfl nofun rfl,
      pred_next (s1 := .det4) (es0 := []) (es := []) (s' := .det5) rfl nofun rfl,
      pred_det_miss (s := .det5) (buf := b!"HTTP") rfl nofun (by simp [bstep, bDet, hb])]
    simp [flatEv]

theorem pred_lmiss {s s' : AS} {x b : UInt8} {r : Bytes} {tr : List Ev}
    (hn : norm env tr s = ([], s)) (hf : s ≠ .fin) (hs : bstep env s b = bLDet x s' b) (hx : b ≠ x) (hb : b ≠ c! ' ') :
    pred env tr s (b :: r) = pred env tr .method (b :: r) := by
  have h2 : bstep env .method b = bMethod b := rfl
  have hn2 : norm env tr .method = ([], .method) := rfl
  simp only [pred, hn, hs, hn2, h2, if_neg hf, reduceCtorEq, ↓reduceIte, List.append_nil]
  simp [bLDet, bMethod, hx, hb]

theorem pred_lspace {s s' : AS} {x : UInt8} {r : Bytes} {tr : List Ev}
    (hn : norm env tr s = ([], s)) (hf : s ≠ .fin) (hs : bstep env s (c! ' ') = bLDet x s' (c! ' ')) (hx : c! ' ' ≠ x) :
    pred env tr s (c! ' ' :: r) = (tr, .err (.method (c! ' ')) r) := by
  have e : bLDet x s' (c! ' ') = .err [] (.method (c! ' ')) := by
    unfold bLDet
    rw [if_neg (by simpa using hx), if_neg (by decide)]
  simp only [pred, hn, hs, e, if_neg hf, List.append_nil]

/-- The prediction for a token of which fewer than nine bytes are available. -/
theorem pred_lost {p : Bytes} {b : UInt8} (h : Differs p b) (hb : b ≠ c! ' ') (tr : List Ev) (r : Bytes) :
    pred env tr .ldet2 (p.tail ++ b :: r) = pred env tr .method (b :: r) := by
  rcases h.cases with ⟨rfl, hx⟩ | ⟨rfl, hx⟩ | ⟨rfl, hx⟩ | ⟨rfl, hx⟩
  · exact pred_lmiss rfl nofun rfl hx hb
  · show pred env tr .ldet2 (c! 'T' :: b :: r) = _
    rw [pred_next (s1 := .ldet2) (es0 := []) (es := []) (s' := .ldet3) rfl nofun rfl]
    simpa using pred_lmiss (s := .ldet3) rfl nofun rfl hx hb
  · show pred env tr .ldet2 (c! 'T' :: c! 'T' :: b :: r) = _
    rw [pred_next (s1 := .ldet2) (es0 := []) (es := []) (s' := .ldet3) rfl nofun rfl,
      pred_next (s1 := .ldet3) (es0 := []) (es := []) (s' := .ldet4) rfl nofun rfl]
    simpa using pred_lmiss (s := .ldet4) rfl nofun rfl hx hb
  · show pred env tr .ldet2 (c! 'T' :: c! 'T' :: c! 'P' :: b :: r) = _
    rw [pred_next (s1 := .ldet2) (es0 := []) (es := []) (s' := .ldet3) rfl nofun rfl,
      pred_next (s1 := .ldet3) (es0 := []) (es := []) (s' := .ldet4) rfl nofun rfl,
      pred_next (s1 := .ldet4) (es0 := []) (es := []) (s' := .ldet5) rfl nofun rfl]
    simpa using pred_lmiss (s := .ldet5) rfl nofun rfl hx hb

theorem pred_lost_space {p : Bytes} (h : Differs p (c! ' ')) (tr : List Ev) (r : Bytes) :
    pred env tr .ldet2 (p.tail ++ c! ' ' :: r) = (tr, .err (.method (c! ' ')) r) := by
  rcases h.cases with ⟨rfl, hx⟩ | ⟨rfl, hx⟩ | ⟨rfl, hx⟩ | ⟨rfl, hx⟩
  · exact pred_lspace rfl nofun rfl hx
  · show pred env tr .ldet2 (c! 'T' :: c! ' ' :: r) = _
    rw [pred_next (s1 := .ldet2) (es0 := []) (es := []) (s' := .ldet3) rfl nofun rfl]
    simpa using pred_lspace (s := .ldet3) rfl nofun rfl hx
  · show pred env tr .ldet2 (c! 'T' :: c! 'T' :: c! ' ' :: r) = _
    rw [pred_next (s1 := .ldet2) (es0 := []) (es := []) (s' := .ldet3) rfl nofun rfl,
      pred_next (s1 := .ldet3) (es0 := []) (es := []) (s' := .ldet4) rfl nofun rfl]
    simpa using pred_lspace (s := .ldet4) rfl nofun rfl hx
  · show pred env tr .ldet2 (c! 'T' :: c! 'T' :: c! 'P' :: c! ' ' :: r) = _
    rw [pred_next (s1 := .ldet2) (es0 := []) (es := []) (s' := .ldet3) rfl nofun rfl,
      pred_next (s1 := .ldet3) (es0 := []) (es := []) (s' := .ldet4) rfl nofun rfl,
      pred_next (s1 := .ldet4) (es0 := []) (es := []) (s' := .ldet5) rfl nofun rfl]
    simpa using pred_lspace (s := .ldet5) rfl nofun rfl hx

/-- The first token of a message that starts with `H` and differs from `HTTP/`. -/
theorem exists_differs {x : Bytes} (h1 : x.head? = some (c! 'H')) (h2 : ¬ b!"HTTP/" <+: x)
    (h3 : ¬ x <+: b!"HTTP/") : ∃ p b r, x = p ++ b :: r ∧ Differs p b := by
  have key : ∀ (lit x : Bytes), ¬ lit <+: x → ¬ x <+: lit →
      ∃ p a b r y, x = p ++ b :: r ∧ lit = p ++ a :: y ∧ a ≠ b := by
    intro lit
    induction lit with
    | nil => intro x h; exact absurd (List.nil_prefix) h
    | cons a lit ih =>
      intro x h h'
      cases x with
      | nil => exact absurd List.nil_prefix h'
      | cons b x =>
        by_cases e : a = b
        · subst e
          obtain ⟨p, a', b', r, y, e1, e2, e3⟩ := ih x (fun h1 => h (by simpa using h1)) (fun h1 => h' (by simpa using h1))
          exact ⟨a :: p, a', b', r, y, by simp [e1], by simp [e2], e3⟩
        · exact ⟨[], a, b, x, lit, rfl, rfl, e⟩
  obtain ⟨p, a, b, r, y, rfl, e2, e3⟩ := key _ _ h2 h3
  refine ⟨p, b, r, rfl, ?_, ?_, ?_⟩
  · have h4 : p <+: b!"HTTP/" := ⟨_, e2.symm⟩
    have hl : p.length < 5 := by
      have := congrArg List.length e2
      simp at this
      omega
    have hp : p = (b!"HTTP/").take p.length := by rw [e2, List.take_left]
    rw [hp]
    have : ((b!"HTTP/").take 4) = b!"HTTP" := rfl
    rw [← this]
    exact List.take_prefix_take_left (by omega)
  · rintro rfl
    simp at h1 e2
    exact e3 (e2.1.symm.trans h1.symm)
  · rintro ⟨t, ht⟩
    rw [e2] at ht
    simp at ht
    exact e3 ht.1.symm

/-! ## Calls -/

theorem drop_blanks {s : Bytes} (h : ∀ b ∈ s, isBlank b = true) : s.dropWhile isBlank = [] := by
  induction s with
  | nil => rfl
  | cons a l ih =>
    simp only [List.dropWhile, h a (by simp)]
    exact ih fun b hb => h b (by simp [hb])

theorem drop_blanks_append {s : Bytes} (h : ∀ b ∈ s, isBlank b = true) (r : Bytes) :
    (s ++ r).dropWhile isBlank = r.dropWhile isBlank := by
  induction s with
  | nil => rfl
  | cons a l ih =>
    simp only [List.cons_append, List.dropWhile, h a (by simp)]
    exact ih fun b hb => h b (by simp [hb])

theorem blanks_of_drop {s : Bytes} (h : s.dropWhile isBlank = []) : ∀ b ∈ s, isBlank b = true := by
  induction s with
  | nil => nofun
  | cons a l ih =>
    cases ha : isBlank a
    · simp [List.dropWhile, ha] at h
    · simp only [List.dropWhile, ha] at h
      intro b hb
      rcases List.mem_cons.1 hb with rfl | hb
      · exact ha
      · exact ih h b hb

theorem parse_short (hB : BdOK env) (hC : ClOK env h) (n : Nat) (c : Cfg) (hok : CtxOK c.ctx)
    (hf : c.p.fn = .detect1) (hpt : c.p.ptype = env.ptype)
    (hnm : c.p.ptype ≠ .multipart) (hbd : c.p.boundary = env.boundary) {r : Bytes}
    (hr : c.ctx.rest = c! 'H' :: r) (hl : (c! 'H' :: r).length < 9) :
    ParseSim env fut (pred env (flat c.log) .ldet2 (r ++ fut)) (parse h n c) := by
  cases n with
  | zero => trivial
  | succ n =>
    have hs : step h c = .cont ⟨{ c.p with state := .detect2, fn := .detect2 }, (c.ctx.jump 1).setMark, c.log⟩ := by
      have hav : c.ctx.available = (c! 'H' :: r).length := by rw [avail_rest, hr]
      simp only [step, hf, detect1]
      rw [if_neg (by rw [hav]; simp), if_pos (by simp [Ctx.startsWith, Ctx.rest] at hr ⊢; simp [hr]),
        if_neg (by simp only [List.length_cons] at hl; simp [Ctx.hasBytes, hav]; omega)]
      rfl
    have hfr := fr_step h c hok
    rw [hs] at hfr
    simp only [parse, hs]
    have hrest : ((c.ctx.jump 1).setMark).rest = r := by
      simp [Ctx.rest] at hr ⊢
      simp [Ctx.setMark, Ctx.jump]
      rw [← List.drop_drop, hr]; rfl
    refine sim_parse hB hC n _ hfr.1.ok ⟨fun _ => rfl, hnm, ⟨.inl trivial, nofun⟩⟩ ?_ hpt hbd
    simp only [predOf, pend, pendEv, abs, List.append_nil, hrest]

/-- One call for a parser that has read only blanks so far, and gets only blanks. -/
theorem call_blanks (hu : w.p.ptype = .head) (hf : w.p.fn = .stripDetect) {s : Bytes}
    (hs : ∀ b ∈ s, isBlank b = true) :
    ∃ w', resume h w s = (.ok (.eos s.length), w') ∧ w'.log = w.log ∧ w'.p.fn = .stripDetect ∧
      w'.p.ptype = w.p.ptype ∧ w'.p.boundary = w.p.boundary := by
  have hnu : w.p.ptype ≠ .urlEncoded := by rw [hu]; nofun
  have hrs : (Ctx.new s).rest = s := rfl
  have hsp := collectGo_spec (fun b => if isBlank b then .cont else .brk) (Ctx.new s).rest (Ctx.new s)
  have hst : step h ⟨w.p, Ctx.new s, w.log⟩ = strip_detect ⟨w.p, Ctx.new s, w.log⟩ := by
    simp only [step, hf]
  obtain ⟨n, hn⟩ : ∃ n, fuel s.length = n + 1 := ⟨8 * s.length + 7, rfl⟩
  unfold strip_detect Ctx.collect at hst
  dsimp only at hst
  have bad : ∀ (pre : Bytes) (b : UInt8) (post : Bytes) (a : Ctx.Act), (Ctx.new s).rest = pre ++ b :: post →
      (if isBlank b then Ctx.Act.cont else .brk) = a → a ≠ .cont → False := by
    intro pre b post a e h2 h3
    rw [hrs] at e
    rw [hs b (by rw [e]; simp)] at h2
    exact h3 h2.symm
  cases heq : Ctx.collectGo (fun b => if isBlank b then Ctx.Act.cont else .brk) (Ctx.new s).rest (Ctx.new s) with
  | eos x =>
    rw [heq] at hsp hst
    obtain ⟨h1, h2, h3, h4⟩ := hsp
    have e : x.idx = s.length := by rw [h4, hrs]; simp [Ctx.new]
    have hr : resume h w s = ((parse h (fuel s.length) ⟨w.p, Ctx.new s, w.log⟩).1,
      ⟨(parse h (fuel s.length) ⟨w.p, Ctx.new s, w.log⟩).2.p,
       (parse h (fuel s.length) ⟨w.p, Ctx.new s, w.log⟩).2.log⟩) := by
      unfold resume
      split
      · rename_i h; exact absurd h hnu
      · rfl
    rw [hr, hn]
    simp only [parse, hst, collecting, exitEos, e]
    exact ⟨_, rfl, rfl, hf, rfl, rfl⟩
  | brk x =>
    rw [heq] at hsp
    obtain ⟨pre, b, post, hr, h1, h2, rfl⟩ := hsp
    exact (bad _ _ _ _ hr h2 nofun).elim
  | fail x =>
    rw [heq] at hsp
    obtain ⟨pre, b, post, hr, h1, h2, -⟩ := hsp
    exact (bad _ _ _ _ hr h2 nofun).elim
  | panic =>
    rw [heq] at hsp
    obtain ⟨pre, b, post, hr, h1, h2⟩ := hsp
    exact (bad _ _ _ _ hr h2 nofun).elim

/-- One call for a parser that has read only blanks so far, and gets a part of the first token. -/
theorem call_short (hB : BdOK env) (hC : ClOK env h) (hu : env.ptype = .head) (w : World) (s r : Bytes)
    (hf : w.p.fn = .stripDetect) (hpt : w.p.ptype = env.ptype) (hbd : w.p.boundary = env.boundary)
    (hs : s.dropWhile isBlank = c! 'H' :: r) (hl : (c! 'H' :: r).length < 9) :
    CallSim (fun w' m => WOK env w' m (pred env (flat w.log) .ldet2 (r ++ fut))) w s fut
      (pred env (flat w.log) .ldet2 (r ++ fut)) (resume h w s) := by
  have hnu : w.p.ptype ≠ .urlEncoded := by rw [hpt, hu]; nofun
  have hnm : w.p.ptype ≠ .multipart := by rw [hpt, hu]; nofun
  have hrs : (Ctx.new s).rest = s := rfl
  have hsp := collectGo_spec (fun b => if isBlank b then .cont else .brk) (Ctx.new s).rest (Ctx.new s)
  have hst : step h ⟨w.p, Ctx.new s, w.log⟩ = strip_detect ⟨w.p, Ctx.new s, w.log⟩ := by
    simp only [step, hf]
  obtain ⟨n, hn⟩ : ∃ n, fuel s.length = n + 1 := ⟨8 * s.length + 7, rfl⟩
  have hact : ∀ b, (if isBlank b then Ctx.Act.cont else .brk) = .cont → isBlank b = true := by
    intro b h1; split at h1
    · assumption
    · cases h1
  unfold strip_detect Ctx.collect at hst
  dsimp only at hst
  cases heq : Ctx.collectGo (fun b => if isBlank b then Ctx.Act.cont else .brk) (Ctx.new s).rest (Ctx.new s) with
  | eos x =>
    rw [heq] at hsp
    have h1 := hsp.1
    rw [hrs] at h1
    have : s.dropWhile isBlank = [] := drop_blanks fun b hb => hact b (h1 b hb)
    rw [this] at hs
    cases hs
  | brk x =>
    rw [heq] at hsp hst
    obtain ⟨pre, b, post, hr, h1, h2, rfl⟩ := hsp
    have B := brk_of (ctxOK_new s) hr
    simp only [collecting, replay, if_neg B.idx] at hst
    have hc : step h ⟨w.p, Ctx.new s, w.log⟩ = .cont ⟨{ w.p with state := .detect1, fn := .detect1 },
      (Ctx.replay { (Ctx.new s) with idx := (Ctx.new s).idx + pre.length + 1, byte := b }).setMark, w.log⟩ := by
      rw [hst]; rfl
    have hfr := fr_step h ⟨w.p, Ctx.new s, w.log⟩ (ctxOK_new s)
    rw [hc] at hfr
    have hnb : isBlank b = false := by
      cases hb : isBlank b
      · rfl
      · simp [hb] at h2
    have hsd : s.dropWhile isBlank = b :: post := by
      rw [hrs] at hr
      rw [hr]
      clear hr B hst hc hfr heq
      induction pre with
      | nil => simp [hnb]
      | cons a l ih =>
        simp [hact a (h1 a (by simp))]
        exact ih fun b hb => h1 b (by simp [hb])
    rw [hsd] at hs
    simp only [List.cons.injEq] at hs
    obtain ⟨rfl, rfl⟩ := hs
    refine call_of_resume (resume_of_parse hnu hpt hbd ?_)
    rw [hn, parse, hc]
    exact parse_short hB hC n ⟨{ w.p with state := .detect1, fn := .detect1 }, _, w.log⟩ hfr.1.ok rfl hpt hnm hbd B.restR hl
  | fail x =>
    rw [heq] at hsp
    obtain ⟨pre, b, post, hr, h1, h2, -⟩ := hsp
    exfalso
    split at h2 <;> cases h2
  | panic =>
    rw [heq] at hsp
    obtain ⟨pre, b, post, hr, h1, h2⟩ := hsp
    exfalso
    split at h2 <;> cases h2

/-! ## Runs -/

theorem isBlank_lead : isBlank = lead := by
  funext b
  revert b
  apply Util.forall_u8
  decide +kernel

theorem dropWhile_append {s r : Bytes} (h : s.dropWhile lead ≠ []) :
    (s ++ r).dropWhile lead = s.dropWhile lead ++ r := by
  induction s with
  | nil => exact absurd rfl h
  | cons a l ih =>
    cases ha : lead a
    · simp [List.dropWhile, ha]
    · simp only [List.cons_append, List.dropWhile, ha] at h ⊢
      exact ih h

/-- A complete run from the start of a head, with any slices. -/
theorem drive_exact (hB : BdOK env) (hC : ClOK env h) (hu : env.ptype = .head) :
    ∀ (ks : List Nat) (last : End) (w : World) (msg : Bytes), last = .idle ∨ last = .eos →
    w.p.fn = .stripDetect → w.p.ptype = env.ptype → w.p.boundary = env.boundary →
    (drive h last ks w msg).complete →
    (HWord msg → (tokenSlice ks msg).length < 9 →
      DriveSim (fun _ _ => True) (pred env (flat w.log) .ldet2 (msg.dropWhile lead).tail) (drive h last ks w msg)) ∧
    (¬ HWord msg ∨ 9 ≤ (tokenSlice ks msg).length →
      DriveSim (fun _ _ => True) (pred env (flat w.log) .stripDetect msg) (drive h last ks w msg))
  | [], last, w, msg, hl, hf, hpt, hbd, hc => by
    rcases hl with rfl | rfl
    · exact hc.elim
    · have hm : msg = [] := hc
      subst hm
      refine ⟨fun h1 => ?_, fun _ => ?_⟩
      · obtain ⟨h1, -⟩ := h1; simp at h1
      · refine ⟨trivial, fun _ => ?_⟩
        show pred env (flat w.log) .stripDetect [] = (flat w.log, .eos)
        simp [pred, norm]
  | k :: ks, last, w, msg, hl, hf, hpt, hbd, hc => by
    have weak : ∀ {K o}, DriveSim (Inv env K) K o → DriveSim (fun _ _ => True) K o := by
      intro K o H
      obtain ⟨la, wo, re⟩ := o
      cases la <;> simp only [DriveSim] at H ⊢
      · exact ⟨trivial, H.2⟩
      all_goals exact H
    have run : ∀ {K}, CallSim (Inv env K) w (msg.take k) (msg.drop k) K (resume h w (msg.take k)) →
        DriveSim (fun _ _ => True) K (drive h last (k :: ks) w msg) := fun H =>
      weak (drive_call (fun last w rem hl => drive_sim (fun _ _ _ hi => call_sim hB hC hi.start) ks last w rem
        (.inr hl)) H)
    have hcat : msg.take k ++ msg.drop k = msg := List.take_append_drop k msg
    by_cases hs : (msg.take k).dropWhile lead = []
    · have hbl := blanks_of_drop (s := msg.take k) (by rw [isBlank_lead]; exact hs)
      obtain ⟨w', h1, h2, h3, h4, h5⟩ := call_blanks (h := h) (hpt.trans hu) hf hbl
      have e' : msg.drop (msg.take k).length = msg.drop k := by
        rw [List.length_take]
        rcases Nat.le_total k msg.length with h | h
        · rw [Nat.min_eq_left h]
        · rw [Nat.min_eq_right h, List.drop_length, List.drop_of_length_le h]
      have ed : drive h last (k :: ks) w msg = drive h .eos ks w' (msg.drop k) := by
        simp only [drive, h1, e']
      have ht : tokenSlice (k :: ks) msg = tokenSlice ks (msg.drop k) := by
        simp only [tokenSlice, if_pos hs]
      have hd : msg.dropWhile lead = (msg.drop k).dropWhile lead := by
        conv_lhs => rw [← hcat]
        rw [← isBlank_lead]
        exact drop_blanks_append hbl _
      have hw : HWord msg ↔ HWord (msg.drop k) := by unfold HWord; rw [hd]
      rw [ed] at hc ⊢
      have ih := drive_exact hB hC hu ks .eos w' (msg.drop k) (.inr rfl) h3 (h4.trans hpt) (h5.trans hbd) hc
      rw [h2] at ih
      rw [ht, hw, hd]
      refine ⟨ih.1, fun h6 => ?_⟩
      have hp : pred env (flat w.log) .stripDetect msg = pred env (flat w.log) .stripDetect (msg.drop k) := by
        conv_lhs => rw [← hcat]
        have := pred_loop (env := env) (s := .stripDetect) (ev := fun _ => []) (fun _ => rfl) nofun
          (msg.take k) (flat w.log) (msg.drop k) (fun b hb => by simp [bstep, hbl b hb])
        rw [this, show (msg.take k).flatMap (fun _ => ([] : List Ev)) = [] by simp, List.append_nil]
      rw [hp]
      exact ih.2 h6
    · have ht : tokenSlice (k :: ks) msg = (msg.take k).dropWhile lead := by
        simp only [tokenSlice, if_neg hs]
      have hd : msg.dropWhile lead = (msg.take k).dropWhile lead ++ msg.drop k := by
        conv_lhs => rw [← hcat]
        exact dropWhile_append hs
      rw [ht]
      refine ⟨fun h1 h2 => ?_, fun h1 => ?_⟩
      · obtain ⟨a, r, e⟩ := List.exists_cons_of_ne_nil hs
        obtain ⟨h3, -⟩ := h1
        rw [hd, e] at h3
        simp at h3
        subst h3
        rw [e] at h2
        rw [hd, e]
        have := call_short (fut := msg.drop k) hB hC hu w (msg.take k) r hf hpt hbd (by rw [isBlank_lead]; exact e) h2
        rw [inv_wok hu] at this
        exact run this
      · refine run (call_sim hB hC ?_)
        unfold Start
        rw [if_neg (by rw [hu]; nofun)]
        refine ⟨?_, ?_, ?_, hpt, hbd⟩
        · simp only [Live, hf]; rw [hpt, hu]; nofun
        · rw [hf]
          refine ⟨?_, nofun⟩
          rcases h1 with h1 | h1
          · left
            show HStart ((msg.take k ++ msg.drop k).dropWhile isBlank)
            rw [isBlank_lead]
            rw [hcat]
            unfold HWord at h1
            unfold HStart Compat
            by_cases a : (msg.dropWhile lead).head? = some (c! 'H')
            · right
              by_contra hh
              exact h1 ⟨a, fun x => hh (.inl x), fun x => hh (.inr x)⟩
            · exact .inl a
          · exact .inr (.inl ⟨rfl, by rw [isBlank_lead]; exact h1⟩)
        · rw [hcat]
          simp only [abs, hf]

theorem strip_first {b : UInt8} {r : Bytes} {tr : List Ev} (hb : lead b = false) :
    pred env tr .stripDetect (b :: r) = pred env tr .detect1 (b :: r) := by
  rw [← isBlank_lead] at hb
  simp [pred, norm, bstep, hb]

theorem drive_exact_new (hB : BdOK env) (hC : ClOK env h) (hu : env.ptype = .head) (k : Nat) (ks : List Nat)
    (w : World) (msg : Bytes) (hf : w.p.fn = .detect1) (hpt : w.p.ptype = env.ptype)
    (hbd : w.p.boundary = env.boundary) {b : UInt8} (hb : (msg.take k).head? = some b) (hl : lead b = false) :
    (HWord msg → (tokenSlice (k :: ks) msg).length < 9 →
      DriveSim (fun _ _ => True) (pred env (flat w.log) .ldet2 (msg.dropWhile lead).tail) (drive h .idle (k :: ks) w msg)) ∧
    (¬ HWord msg ∨ 9 ≤ (tokenSlice (k :: ks) msg).length →
      DriveSim (fun _ _ => True) (pred env (flat w.log) .stripDetect msg) (drive h .idle (k :: ks) w msg)) := by
  have hnu : w.p.ptype ≠ .urlEncoded := by rw [hpt, hu]; nofun
  have hnm : w.p.ptype ≠ .multipart := by rw [hpt, hu]; nofun
  have weak : ∀ {K o}, DriveSim (Inv env K) K o → DriveSim (fun _ _ => True) K o := by
    intro K o H
    obtain ⟨la, wo, re⟩ := o
    cases la <;> simp only [DriveSim] at H ⊢
    · exact ⟨trivial, H.2⟩
    all_goals exact H
  have run : ∀ {K}, CallSim (Inv env K) w (msg.take k) (msg.drop k) K (resume h w (msg.take k)) →
      DriveSim (fun _ _ => True) K (drive h .idle (k :: ks) w msg) := fun H =>
    weak (drive_call (fun last w rem hl => drive_sim (fun _ _ _ hi => call_sim hB hC hi.start) ks last w rem
      (.inr hl)) H)
  have hcat : msg.take k ++ msg.drop k = msg := List.take_append_drop k msg
  obtain ⟨s, hs⟩ : ∃ s, msg.take k = b :: s := by
    cases hm : msg.take k with
    | nil => rw [hm] at hb; cases hb
    | cons a s => rw [hm] at hb; cases hb; exact ⟨s, rfl⟩
  have hd0 : (msg.take k).dropWhile lead = b :: s := by rw [hs]; simp [List.dropWhile, hl]
  have hm : msg = b :: (s ++ msg.drop k) := by
    conv_lhs => rw [← hcat]
    rw [hs]; rfl
  have hd : msg.dropWhile lead = msg := by
    conv_lhs => rw [hm]
    conv_rhs => rw [hm]
    simp only [List.dropWhile, hl]
  have ht : tokenSlice (k :: ks) msg = b :: s := by
    simp only [tokenSlice, hd0]
    rw [if_neg nofun]
  rw [ht, hd]
  refine ⟨fun h1 h2 => ?_, fun h1 => ?_⟩
  · obtain ⟨h3, -⟩ := h1
    rw [hd, hm] at h3
    simp at h3
    subst h3
    have hp := parse_short (fut := msg.drop k) hB hC (fuel (msg.take k).length) ⟨w.p, Ctx.new (msg.take k), w.log⟩
      (ctxOK_new _) hf hpt hnm hbd (h := h) hs h2
    have k3 := call_of_resume (resume_of_parse hnu hpt hbd hp)
    rw [inv_wok hu] at k3
    have e : msg.tail = s ++ msg.drop k := by
      conv_lhs => rw [hm]
      rfl
    rw [e]
    exact run k3
  · refine run (call_sim hB hC ?_)
    unfold Start
    rw [if_neg (by rw [hu]; nofun)]
    refine ⟨?_, ?_, ?_, hpt, hbd⟩
    · simp only [Live, hf]; exact hnm
    · rw [hf]
      refine ⟨?_, fun _ => by rw [hs]; nofun⟩
      rcases h1 with h1 | h1
      · left
        show HStart (msg.take k ++ msg.drop k)
        rw [hcat]
        unfold HWord at h1
        rw [hd] at h1
        unfold HStart Compat
        by_cases a : msg.head? = some (c! 'H')
        · right
          by_contra hh
          exact h1 ⟨a, fun x => hh (.inl x), fun x => hh (.inr x)⟩
        · exact .inl a
      · exact .inr (.inr ⟨rfl, by rw [hs]; exact h1⟩)
    · rw [hcat]
      simp only [abs, hf]
      rw [hm]
      exact (strip_first hl).symm

/-! ## Two readings -/

theorem loses_of_sim {I J : World → Bytes → Prop} {l gone t : List Ev} {f : Fin} {a b : Outcome}
    (ha : DriveSim I (flat l ++ gone ++ t, f) a) (hb : DriveSim J (flat l ++ t, f) b)
    (hf : ∀ r, f ≠ .errB r) (ca : a.complete) (cb : b.complete) : Loses gone l a b := by
  obtain ⟨la, wa, ra⟩ := a
  obtain ⟨lb, wb, rb⟩ := b
  have fa : ∀ {X : List Ev}, ((X, f) : List Ev × Fin).2 = f := rfl
  cases la <;> simp only [Outcome.complete] at ca <;> cases lb <;>
    simp only [Outcome.complete] at cb <;> simp only [DriveSim] at ha hb <;> simp only [Loses]
  case eos.eos =>
    have ha := ha.2 ca
    have hb := hb.2 cb
    simp only [Prod.mk.injEq] at ha hb
    exact ⟨t, ha.1.symm, hb.1.symm, by rw [ca, cb]⟩
  case finished.finished =>
    simp only [Prod.mk.injEq] at ha hb
    have := ha.2.symm.trans hb.2
    simp only [Fin.finished.injEq] at this
    exact ⟨t, ha.1.symm, hb.1.symm, this⟩
  case err.err =>
    rcases ha with ⟨d, hd, ha⟩ | ⟨⟨_, -, ha⟩, -⟩
    · rcases hb with ⟨d', hd', hb⟩ | ⟨⟨_, -, hb⟩, -⟩
      · simp only [Prod.mk.injEq] at ha hb
        have := ha.2.symm.trans hb.2
        simp only [Fin.err.injEq] at this
        exact ⟨this.1, this.2, t, d, d', hd, hd', ha.1.symm, hb.1.symm⟩
      · simp only [Prod.mk.injEq] at hb; exact absurd hb.2 (hf _)
    · simp only [Prod.mk.injEq] at ha; exact absurd ha.2 (hf _)
  all_goals
    simp only [Prod.mk.injEq, ca, cb, true_imp_iff, forall_const] at ha hb
  case eos.finished => have := ha.2.2.symm.trans hb.2; cases this
  case eos.panic => obtain ⟨-, -, -, hb⟩ := hb; have := ha.2.2.symm.trans hb; cases this
  case eos.err =>
    rcases hb with ⟨d', hd', hb⟩ | ⟨⟨_, -, hb⟩, hx'⟩
    · have := ha.2.2.symm.trans hb.2; cases this
    · exact absurd hb.2 (hf _)
  case finished.eos => have := ha.2.symm.trans hb.2.2; cases this
  case finished.panic => obtain ⟨-, -, -, hb⟩ := hb; have := ha.2.symm.trans hb; cases this
  case finished.err =>
    rcases hb with ⟨d', hd', hb⟩ | ⟨⟨_, -, hb⟩, hx'⟩
    · have := ha.2.symm.trans hb.2; cases this
    · exact absurd hb.2 (hf _)
  case err.eos =>
    rcases ha with ⟨d', hd', ha⟩ | ⟨⟨_, -, ha⟩, hx'⟩
    · have := ha.2.symm.trans hb.2.2; cases this
    · exact absurd ha.2 (hf _)
  case err.finished =>
    rcases ha with ⟨d', hd', ha⟩ | ⟨⟨_, -, ha⟩, hx'⟩
    · have := ha.2.symm.trans hb.2; cases this
    · exact absurd ha.2 (hf _)
  case err.panic =>
    obtain ⟨-, -, -, hb⟩ := hb
    rcases ha with ⟨d', hd', ha⟩ | ⟨⟨_, -, ha⟩, hx'⟩
    · have := ha.2.symm.trans hb; cases this
    · exact absurd ha.2 (hf _)
  case panic.eos => obtain ⟨-, -, -, ha⟩ := ha; have := ha.symm.trans hb.2.2; cases this
  case panic.finished => obtain ⟨-, -, -, ha⟩ := ha; have := ha.symm.trans hb.2; cases this
  case panic.err =>
    obtain ⟨-, -, -, ha⟩ := ha
    rcases hb with ⟨d', hd', hb⟩ | ⟨⟨_, -, hb⟩, hx'⟩
    · have := ha.symm.trans hb.2; cases this
    · exact absurd hb.2 (hf _)
  case panic.panic =>
    obtain ⟨d, hd, ha, -⟩ := ha
    obtain ⟨d', hd', hb, -⟩ := hb
    exact ⟨t, d, d', hd, hd', ha.symm, hb.symm⟩

/-! ## Completeness -/

theorem complete_call (hB : BdOK env) (hC : ClOK env h) (ks : List Nat) (k : Nat) (last : End)
    (w : World) (m : Bytes) (hu : UrlOK w.p)
    (h1 : CallSim (Inv env K) w (m.take k) (m.drop k) K (resume h w (m.take k))) (hk : ∀ x ∈ k :: ks, 0 < x)
    (hl : m.length + K.1.length ≤ ks.length + (flat w.log).length) :
    (drive h last (k :: ks) w m).complete := by
  have h2 := callOK (h := h) (s := m.take k) hu
  have ih : ∀ last w m, ks ≠ [] → Inv env K w m →
    m.length + K.1.length < ks.length + (flat w.log).length →
    (drive h last ks w m).complete := by
    intro last w m hks hi hl
    cases ks with
    | nil => exact absurd rfl hks
    | cons k' ks' =>
      refine complete_gen hB hC ks' k' last w m (Inv.start (by simpa using hi))
        (fun x hx => hk x (List.mem_cons_of_mem _ hx)) ?_
      simp at hl
      omega
  simp only [drive]
  revert h1 h2
  generalize resume h w (m.take k) = r
  obtain ⟨r, w'⟩ := r
  intro h1 h2
  have hcat : m.take k ++ m.drop k = m := List.take_append_drop k m
  cases r with
  | ok s =>
    cases s with
    | callback n =>
      have hi := h1.2
      rw [hcat] at hi
      obtain ⟨l, e, a1, a2, a3⟩ := h2.2.2.2.2.2.1
      have b1 := flat_lt a1 a3
      rw [← a2] at b1
      have b2 := (Inv.prefix hi).length_le
      have b3 : (m.drop n).length ≤ m.length := by simp
      refine ih _ _ _ ?_ hi (by omega)
      rintro rfl
      simp at hl
      omega
    | eos n =>
      obtain ⟨e, hi, hz⟩ := h1
      have e' : m.drop n = m.drop k := by
        rw [e, List.length_take]
        rcases Nat.le_total k m.length with h | h
        · rw [Nat.min_eq_left h]
        · rw [Nat.min_eq_right h, List.drop_length, List.drop_of_length_le h]
      simp only [e']
      by_cases hm : m.drop k = []
      · rw [hm] at hi ⊢
        exact complete_tail hB hC ks w' hi (hz hm)
      · have hk0 : 0 < k := hk k (List.mem_cons_self ..)
        have b1 : (flat w.log).length ≤ (flat w'.log).length := by
          obtain ⟨t, ht⟩ := h2.2.2.2.2.2
          rw [← ht]; simp [flat]
        have b2 := (Inv.prefix hi).length_le
        have b3 : (m.drop k).length < m.length := by
          simp at hm ⊢; omega
        refine ih _ _ _ ?_ hi (by omega)
        rintro rfl
        simp at hl
        have : 0 < (m.drop k).length := List.length_pos_iff.2 hm
        omega
    | finished n => trivial
  | err e => trivial
  | panic => trivial
  | ub => exact h1.elim
  | diverge => exact h1.elim

theorem complete_blank : ∀ (ks : List Nat) (w : World), w.p.ptype = .head → w.p.fn = .stripDetect →
    (drive h .eos ks w []).complete
  | [], _, _, _ => rfl
  | k :: ks, w, hp, hf => by
    obtain ⟨w', h1, h2, h3, h4, -⟩ := call_blanks (h := h) (s := []) hp hf nofun
    simp only [drive, List.take_nil, h1, List.drop_nil]
    exact complete_blank ks w' (h4.trans hp) h3

/-- A bound on the number of calls. -/
def enough (env : Env) (l : List Ev) (msg : Bytes) : Nat :=
  msg.length + (pred env l .ldet2 (msg.dropWhile lead).tail).1.length + (pred env l .stripDetect msg).1.length

theorem complete_exact (hB : BdOK env) (hC : ClOK env h) (hu : env.ptype = .head) :
    ∀ (ks : List Nat) (k : Nat) (last : End) (w : World) (msg : Bytes),
    w.p.fn = .stripDetect → w.p.ptype = env.ptype → w.p.boundary = env.boundary → (∀ x ∈ k :: ks, 0 < x) →
    enough env (flat w.log) msg ≤ ks.length + (flat w.log).length → (drive h last (k :: ks) w msg).complete
  | ks, k, last, w, msg, hf, hpt, hbd, hk, hl => by
    have hcat : msg.take k ++ msg.drop k = msg := List.take_append_drop k msg
    have hUrl : UrlOK w.p := fun hx => by rw [hpt, hu] at hx; cases hx
    have l1 := (pred_prefix (env := env) (msg.dropWhile lead).tail (flat w.log) .ldet2).length_le
    have l2 := (pred_prefix (env := env) msg (flat w.log) .stripDetect).length_le
    by_cases hs : (msg.take k).dropWhile lead = []
    · have hbl := blanks_of_drop (s := msg.take k) (by rw [isBlank_lead]; exact hs)
      obtain ⟨w', h1, h2, h3, h4, h5⟩ := call_blanks (h := h) (hpt.trans hu) hf hbl
      have e' : msg.drop (msg.take k).length = msg.drop k := by
        rw [List.length_take]
        rcases Nat.le_total k msg.length with h | h
        · rw [Nat.min_eq_left h]
        · rw [Nat.min_eq_right h, List.drop_length, List.drop_of_length_le h]
      have ed : drive h last (k :: ks) w msg = drive h .eos ks w' (msg.drop k) := by
        simp only [drive, h1, e']
      rw [ed]
      have hd : msg.dropWhile lead = (msg.drop k).dropWhile lead := by
        conv_lhs => rw [← hcat]
        rw [← isBlank_lead]
        exact drop_blanks_append hbl _
      have hp : pred env (flat w.log) .stripDetect msg = pred env (flat w.log) .stripDetect (msg.drop k) := by
        conv_lhs => rw [← hcat]
        have := pred_loop (env := env) (s := .stripDetect) (ev := fun _ => []) (fun _ => rfl) nofun
          (msg.take k) (flat w.log) (msg.drop k) (fun b hb => by simp [bstep, hbl b hb])
        rw [this, show (msg.take k).flatMap (fun _ => ([] : List Ev)) = [] by simp, List.append_nil]
      by_cases hm : msg.drop k = []
      · rw [hm]
        exact complete_blank ks w' (h4.trans (hpt.trans hu)) h3
      · have hk0 : 0 < k := hk k (List.mem_cons_self ..)
        have b3 : (msg.drop k).length < msg.length := by
          simp at hm ⊢; omega
        have b4 : 0 < (msg.drop k).length := List.length_pos_iff.2 hm
        unfold enough at hl
        cases ks with
        | nil => simp only [List.length_nil] at hl; omega
        | cons k' ks =>
          refine complete_exact hB hC hu ks k' .eos w' (msg.drop k) h3 (h4.trans hpt) (h5.trans hbd)
            (fun x hx => hk x (List.mem_cons_of_mem _ hx)) ?_
          rw [h2]
          unfold enough
          rw [hd, hp] at hl
          simp only [List.length_cons] at hl
          omega
    · have hd : msg.dropWhile lead = (msg.take k).dropWhile lead ++ msg.drop k := by
        conv_lhs => rw [← hcat]
        exact dropWhile_append hs
      unfold enough at hl
      by_cases a : HWord msg ∧ ((msg.take k).dropWhile lead).length < 9
      · obtain ⟨h1, h2⟩ := a
        obtain ⟨a, r, e⟩ := List.exists_cons_of_ne_nil hs
        obtain ⟨h3, -⟩ := h1
        rw [hd, e] at h3
        simp at h3
        subst h3
        rw [e] at h2
        rw [hd, e] at hl
        have := call_short (fut := msg.drop k) hB hC hu w (msg.take k) r hf hpt hbd (by rw [isBlank_lead]; exact e) h2
          (h := h)
        rw [inv_wok hu] at this
        refine complete_call hB hC ks k last w msg hUrl this hk ?_
        have : ((72 :: r) ++ List.drop k msg).tail = r ++ msg.drop k := rfl
        rw [this] at hl
        omega
      · refine complete_gen (K := pred env (flat w.log) .stripDetect msg) hB hC ks k last w msg ?_ hk (by omega)
        unfold Start
        rw [if_neg (by rw [hu]; nofun)]
        refine ⟨?_, ?_, ?_, hpt, hbd⟩
        · simp only [Live, hf]; rw [hpt, hu]; nofun
        · rw [hf]
          refine ⟨?_, nofun⟩
          by_cases h1 : HWord msg
          · refine .inr (.inl ⟨rfl, ?_⟩)
            rw [isBlank_lead]
            by_contra hh
            exact a ⟨h1, by omega⟩
          · left
            show HStart ((msg.take k ++ msg.drop k).dropWhile isBlank)
            rw [isBlank_lead]
            rw [hcat]
            unfold HWord at h1
            unfold HStart Compat
            by_cases a : (msg.dropWhile lead).head? = some (c! 'H')
            · right
              by_contra hh
              exact h1 ⟨a, fun x => hh (.inl x), fun x => hh (.inr x)⟩
            · exact .inl a
        · rw [hcat]
          simp only [abs, hf]

end Verif.Http1
