import Verif.Http1.Start

/-!
# Runs over heads with any slices, also those that lose a byte (helper lemmas)
-/

set_option linter.unusedSimpArgs false
set_option linter.unusedVariables false

namespace Verif.Http1

variable {env : Env} {fut : Bytes} {K : List Ev × Fin} {h : Handler} {c : Cfg}

/-- `m'` is `m` without some blanks at its start. -/
def Skip (m m' : Bytes) : Prop := ∃ bl, (∀ b ∈ bl, isBlank b = true) ∧ m = bl ++ m'

theorem Skip.refl (m : Bytes) : Skip m m := ⟨[], by simp, rfl⟩

theorem Skip.trans {a b c : Bytes} (h1 : Skip b c) (h2 : Skip a b) : Skip a c := by
  obtain ⟨x, hx, rfl⟩ := h1
  obtain ⟨y, hy, rfl⟩ := h2
  refine ⟨y ++ x, ?_, by simp⟩
  intro b hb
  rcases List.mem_append.1 hb with h | h
  · exact hy b h
  · exact hx b h

/-- The predictions for the rest `m` of a head. -/
def HeadK (env : Env) (l : List Ev) (m : Bytes) (K : List Ev × Fin) : Prop :=
  (∃ s m', (s = .stripDetect ∨ s = .detect1) ∧ Skip m m' ∧ K = pred env (flat l) s m') ∨
  ∃ m', Skip m (c! 'H' :: m') ∧ K = pred env (flat l) .ldet2 m'

theorem HeadK.mono {l : List Ev} {m m' : Bytes} (h : HeadK env l m K) (hm : Skip m' m) :
    HeadK env l m' K := by
  rcases h with ⟨s, x, h1, h2, h3⟩ | ⟨x, h1, h2⟩
  · exact .inl ⟨s, x, h1, h2.trans hm, h3⟩
  · exact .inr ⟨x, h1.trans hm, h2⟩

theorem parse_any_detect1 (hB : BdOK env) (hC : ClOK env h) (n : Nat) (c : Cfg) (hok : CtxOK c.ctx)
    (hf : c.p.fn = .detect1) (hmk : c.ctx.mark = c.ctx.idx) (hpt : c.p.ptype = env.ptype)
    (hnm : c.p.ptype ≠ .multipart) (hbd : c.p.boundary = env.boundary) (hne : c.ctx.rest ≠ []) :
    ∃ K, HeadK env c.log (c.ctx.rest ++ fut) K ∧ ParseSim env fut K (parse h n c) := by
  by_cases H : HOK c.p.fn c.ctx.rest fut
  · refine ⟨pred env (flat c.log) .detect1 (c.ctx.rest ++ fut),
      .inl ⟨.detect1, _, .inr rfl, Skip.refl _, rfl⟩, ?_⟩
    refine sim_parse hB hC n c hok ⟨fun _ => hmk, by simp only [Live, hf]; exact hnm, H⟩ ?_ hpt hbd
    simp only [predOf, pend, hf, pendEv, abs, List.append_nil]
  · cases hr : c.ctx.rest with
    | nil => exact absurd hr hne
    | cons b r =>
      have hb : b = c! 'H' ∧ (b :: r).length < 9 := by
        constructor
        · by_contra hb
          refine H ⟨.inl ?_, fun _ => hne⟩
          rw [hf, hr]
          left; simpa using hb
        · by_contra hl
          refine H ⟨.inr (.inr ⟨hf, ?_⟩), fun _ => hne⟩
          rw [hr]; omega
      obtain ⟨rfl, hl⟩ := hb
      refine ⟨pred env (flat c.log) .ldet2 (r ++ fut), .inr ⟨r ++ fut, ?_, rfl⟩, ?_⟩
      · simp [Skip.refl]
      · cases n with
        | zero => trivial
        | succ n =>
          have hs : step h c = .cont ⟨{ c.p with state := .detect2, fn := .detect2 }, (c.ctx.jump 1).setMark, c.log⟩ := by
            have hav : c.ctx.available = (c! 'H' :: r).length := by rw [avail_rest, hr]
            simp only [step, hf, detect1]
            rw [if_neg (by rw [hav]; simp), if_pos (by simp [Ctx.startsWith, Ctx.rest] at hr ⊢; simp [hr]),
              if_neg (by simp only [List.length_cons] at hl; simp [Ctx.hasBytes, hav]; omega)]
            rfl
          have hfr := fr_step h c hok
          rw [hs] at hfr
          simp only [parse, hs]
          have hrest : ((c.ctx.jump 1).setMark).rest = r := by
            simp [Ctx.rest] at hr ⊢
            simp [Ctx.setMark, Ctx.jump]
            rw [← List.drop_drop, hr]; rfl
          refine sim_parse hB hC n _ hfr.1.ok ⟨fun _ => rfl, hnm, ⟨.inl trivial, nofun⟩⟩ ?_ hpt hbd
          simp only [predOf, pend, pendEv, abs, List.append_nil, hrest]

/-- One call for a parser that has read only blanks so far. -/
theorem resume_any (hB : BdOK env) (hC : ClOK env h) (hu : env.ptype = .head) (w : World) (s : Bytes)
    (hf : w.p.fn = .stripDetect) (hpt : w.p.ptype = env.ptype) (hbd : w.p.boundary = env.boundary) :
    (∃ K, HeadK env w.log (s ++ fut) K ∧
      CallSim (fun w m => WOK env w m K) w s fut K (resume h w s)) ∨
    (∃ w', resume h w s = (.ok (.eos s.length), w') ∧ w'.log = w.log ∧ w'.p.fn = .stripDetect ∧
      w'.p.ptype = w.p.ptype ∧ w'.p.boundary = w.p.boundary ∧ ∀ b ∈ s, isBlank b = true) := by
  have hnu : w.p.ptype ≠ .urlEncoded := by rw [hpt, hu]; nofun
  have hnm : w.p.ptype ≠ .multipart := by rw [hpt, hu]; nofun
  have hrs : (Ctx.new s).rest = s := rfl
  have hsp := collectGo_spec (fun b => if isBlank b then .cont else .brk) (Ctx.new s).rest (Ctx.new s)
  have hst : step h ⟨w.p, Ctx.new s, w.log⟩ = strip_detect ⟨w.p, Ctx.new s, w.log⟩ := by
    simp only [step, hf]
  have hfu : ∃ n, fuel s.length = n + 1 := ⟨8 * s.length + 7, rfl⟩
  obtain ⟨n, hn⟩ := hfu
  unfold strip_detect Ctx.collect at hst
  dsimp only at hst
  cases heq : Ctx.collectGo (fun b => if isBlank b then Ctx.Act.cont else .brk) (Ctx.new s).rest (Ctx.new s) with
  | eos x =>
    rw [heq] at hsp hst
    right
    obtain ⟨h1, h2, h3, h4⟩ := hsp
    have e : x.idx = s.length := by rw [h4, hrs]; simp [Ctx.new]
    have hr : resume h w s = ((parse h (fuel s.length) ⟨w.p, Ctx.new s, w.log⟩).1,
      ⟨(parse h (fuel s.length) ⟨w.p, Ctx.new s, w.log⟩).2.p,
       (parse h (fuel s.length) ⟨w.p, Ctx.new s, w.log⟩).2.log⟩) := by
      unfold resume
      split
      · rename_i h; exact absurd h hnu
      · rfl
    rw [hr, hn]
    simp only [parse, hst, collecting, exitEos, e]
    refine ⟨_, rfl, rfl, hf, rfl, rfl, ?_⟩
    intro b hb
    have := h1 b hb
    cases hx : isBlank b
    · simp [hx] at this
    · rfl
  | brk x =>
    rw [heq] at hsp hst
    left
    obtain ⟨pre, b, post, hr, h1, h2, rfl⟩ := hsp
    have B := brk_of (ctxOK_new s) hr
    simp only [collecting, replay, if_neg B.idx] at hst
    have hc : step h ⟨w.p, Ctx.new s, w.log⟩ = .cont ⟨{ w.p with state := .detect1, fn := .detect1 },
      (Ctx.replay { (Ctx.new s) with idx := (Ctx.new s).idx + pre.length + 1, byte := b }).setMark, w.log⟩ := by
      rw [hst]; rfl
    have hfr := fr_step h ⟨w.p, Ctx.new s, w.log⟩ (ctxOK_new s)
    rw [hc] at hfr
    obtain ⟨K, k1, k2⟩ := parse_any_detect1 (fut := fut) hB hC n ⟨{ w.p with state := .detect1, fn := .detect1 },
      (Ctx.replay { (Ctx.new s) with idx := (Ctx.new s).idx + pre.length + 1, byte := b }).setMark, w.log⟩
      hfr.1.ok rfl rfl hpt hnm hbd (by
        show (Ctx.replay { (Ctx.new s) with idx := (Ctx.new s).idx + pre.length + 1, byte := b }).rest ≠ []
        rw [B.restR]; simp)
    refine ⟨K, k1.mono ?_, ?_⟩
    · show Skip (s ++ fut)
        ((Ctx.replay { (Ctx.new s) with idx := (Ctx.new s).idx + pre.length + 1, byte := b }).rest ++ fut)
      have hbl : ∀ b ∈ pre, isBlank b = true := by
        intro b hb
        have := h1 b hb
        cases hx : isBlank b
        · simp [hx] at this
        · rfl
      rw [B.restR]
      rw [hrs] at hr
      exact ⟨pre, hbl, by rw [hr]; simp⟩
    · refine call_of_resume (resume_of_parse hnu hpt hbd ?_)
      rw [hn, parse, hc]
      exact k2
  | fail x =>
    rw [heq] at hsp
    obtain ⟨pre, b, post, hr, h1, h2, -⟩ := hsp
    exfalso
    split at h2 <;> cases h2
  | panic =>
    rw [heq] at hsp
    obtain ⟨pre, b, post, hr, h1, h2⟩ := hsp
    exfalso
    split at h2 <;> cases h2

/-- What any run over a head tells. -/
structure HeadRun (env : Env) (l : List Ev) (msg : Bytes) (K : List Ev × Fin) (o : Outcome) : Prop where
  form : HeadK env l msg K
  pre : flat o.world.log <+: K.1
  fin : o.last = .finished → K = (flat o.world.log, .finished o.rest)
  err : ∀ e, o.last = .err e → ∃ d, isData d = true ∧ K = (flat o.world.log ++ flatEv d, .err e o.rest)
  eos : o.last = .eos → o.rest = [] → K = (flat o.world.log, .eos)
  noUb : o.last ≠ .ub

theorem inv_wok (hu : env.ptype = .head) : (fun w m => WOK env w m K) = Inv env K := by
  funext w m
  unfold Inv
  rw [if_neg (by rw [hu]; nofun)]

theorem pred_no_errB (hb : env.boundary = none) : ∀ (m : Bytes) (tr : List Ev) (s : AS),
    ∀ r', (pred env tr s m).2 ≠ .errB r'
  | [], tr, s => by simp only [pred]; split <;> nofun
  | b :: r, tr, s => by
    simp only [pred]
    split
    · nofun
    · cases hs : bstep env (norm env tr s).2 b with
      | next es s' => exact pred_no_errB hb r _ _
      | err es e => nofun
      | errB =>
        exfalso
        revert hs
        generalize (norm env tr s).2 = t
        intro hs
        cases t <;> simp only [bstep, bHdrCheck, bHdrFirst, bHdrName, bHdrVal, bHdrQuot, bMethod, bDetect1,
          bDet, bLDet, bExpect, bVerEnd, bSizeEnd, bExtName, bExtVal, bExtQuot, bMpByte, bUName, bUVal, bStrip, hb] at hs <;>
          (repeat' split at hs) <;> cases hs
      | panic => nofun

theorem headRun_of_sim (hu : env.ptype = .head) (hb : env.boundary = none) {l : List Ev} {msg : Bytes}
    {o : Outcome} (hK : HeadK env l msg K) (H : DriveSim (Inv env K) K o) : HeadRun env l msg K o := by
  have hne : ∀ r, K.2 ≠ .errB r := by
    rcases hK with ⟨s, m', _, _, rfl⟩ | ⟨m', _, rfl⟩ <;> exact pred_no_errB hb _ _ _
  have hp := H.prefix
  obtain ⟨la, wo, re⟩ := o
  refine ⟨hK, hp, ?_, ?_, ?_, ?_⟩
  · rintro rfl; exact H
  · rintro e rfl
    rcases H with ⟨d, h1, h2⟩ | ⟨⟨r, _, h1⟩, _⟩
    · exact ⟨d, h1, h2⟩
    · rw [h1] at hne; exact absurd rfl (hne r)
  · rintro rfl h; exact H.2 h
  · rintro rfl; exact H

theorem drive_any (hB : BdOK env) (hC : ClOK env h) (hu : env.ptype = .head) (hb : env.boundary = none) :
    ∀ (ks : List Nat) (last : End) (w : World) (msg : Bytes), last = .idle ∨ last = .eos →
    w.p.fn = .stripDetect → w.p.ptype = env.ptype → w.p.boundary = env.boundary →
    ∃ K, HeadRun env w.log msg K (drive h last ks w msg)
  | [], last, w, msg, hl, hf, hpt, hbd => by
    refine ⟨pred env (flat w.log) .stripDetect msg, .inl ⟨_, msg, .inl rfl, Skip.refl _, rfl⟩,
      pred_prefix _ _ _, ?_, ?_, ?_, ?_⟩ <;> simp only [drive]
    · rintro rfl; simp at hl
    · rintro e rfl; simp at hl
    · rintro _ rfl; simp [pred, norm]
    · rintro rfl; simp at hl
  | k :: ks, last, w, msg, hl, hf, hpt, hbd => by
    rcases resume_any (fut := msg.drop k) hB hC hu w (msg.take k) hf hpt hbd with
      ⟨K, k1, k2⟩ | ⟨w', h1, h2, h3, h4, h5, h6⟩
    · rw [List.take_append_drop] at k1
      refine ⟨K, headRun_of_sim hu hb k1 ?_⟩
      rw [inv_wok hu] at k2
      exact drive_call (fun last w rem hl => drive_sim (fun _ _ _ hi => call_sim hB hC hi.start) ks last w rem
        (.inr hl)) k2
    · obtain ⟨K, H⟩ := drive_any hB hC hu hb ks .eos w' (msg.drop (msg.take k).length) (.inr rfl) h3
        (h4.trans hpt) (h5.trans hbd)
      refine ⟨K, ?_, ?_, ?_, ?_, ?_, ?_⟩
      · rw [← h2]; exact H.form.mono ⟨msg.take (msg.take k).length,
          by rwa [← List.prefix_iff_eq_take.1 (List.take_prefix k msg)], (List.take_append_drop _ _).symm⟩
      all_goals simp only [drive, h1]
      · exact H.pre
      · exact H.fin
      · exact H.err
      · exact H.eos
      · exact H.noUb

/-- The same for a parser made with `new` whose first slice is not empty. -/
theorem drive_any_new (hB : BdOK env) (hC : ClOK env h) (hu : env.ptype = .head) (hb : env.boundary = none)
    (k : Nat) (ks : List Nat) (w : World) (msg : Bytes) (hf : w.p.fn = .detect1)
    (hpt : w.p.ptype = env.ptype) (hbd : w.p.boundary = env.boundary) (hne : msg.take k ≠ []) :
    ∃ K, HeadRun env w.log msg K (drive h .idle (k :: ks) w msg) := by
  have hnu : w.p.ptype ≠ .urlEncoded := by rw [hpt, hu]; nofun
  have hnm : w.p.ptype ≠ .multipart := by rw [hpt, hu]; nofun
  obtain ⟨K, k1, k2⟩ := parse_any_detect1 (fut := msg.drop k) hB hC (fuel (msg.take k).length)
    ⟨w.p, Ctx.new (msg.take k), w.log⟩ (ctxOK_new _) hf rfl hpt hnm hbd hne
  have hr : (Ctx.new (msg.take k)).rest = msg.take k := rfl
  simp only [hr, List.take_append_drop] at k1
  have k3 := call_of_resume (resume_of_parse hnu hpt hbd k2)
  rw [inv_wok hu] at k3
  refine ⟨K, headRun_of_sim hu hb k1 ?_⟩
  exact drive_call (fun last w rem hl => drive_sim (fun _ _ _ hi => call_sim hB hC hi.start) ks last w rem
    (.inr hl)) k3

end Verif.Http1
