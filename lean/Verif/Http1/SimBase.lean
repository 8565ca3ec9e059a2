import Verif.Http1.Sim

/-!
# Simulation of every state function (helper lemmas)
-/

namespace Verif.Http1

variable {env : Env} {fut : Bytes} {K : List Ev × Fin} {L : List Ev} {h : Handler} {c : Cfg}

theorem sim_transition {s f : St} (hg : GoodX fut (setState c s f))
    (hK : pred env (flat c.log) (abs (setState c s f).p) (c.ctx.rest ++ fut) = K) :
    SimOK env fut K L (transition c s f) := sim_remark hg hK

theorem sim_callbackTransitionData {e : Ev} {s f : St} (hg : GoodX fut (setState c s f))
    (hK : pred env (flat c.log ++ flatEv e) (abs (setState c s f).p) (c.ctx.rest ++ fut) = K) :
    SimOK env fut K L (callbackTransitionData h c e s f) := sim_callbackData hg hK

theorem sim_replay {k : Cfg → Out} (hi : c.ctx.idx ≠ 0)
    (hk : SimOK env fut K L (k { c with ctx := c.ctx.replay })) : SimOK env fut K L (replay c k) := by
  unfold replay; rw [if_neg hi]; exact hk

theorem sim_ite {p : Prop} [Decidable p] {a b : Out} (h1 : p → SimOK env fut K L a)
    (h2 : ¬ p → SimOK env fut K L b) : SimOK env fut K L (if p then a else b) := by
  split
  · exact h1 ‹_›
  · exact h2 ‹_›

/-- Hypotheses of the simulation of one call. -/
structure Pre (env : Env) (fut : Bytes) (K : List Ev × Fin) (c : Cfg) (f : St) : Prop where
  ok : CtxOK c.ctx
  fn : c.p.fn = f
  good : Good fut c
  K : predOf env fut c = K
  ptype : c.p.ptype = env.ptype
  boundary : c.p.boundary = env.boundary

theorem Pre.start {f : St} (H : Pre env fut K c f) (hp : pendEv f = none) :
    pred env (flat c.log) (abs c.p) (c.ctx.rest ++ fut) = K := by
  have := H.K
  simpa [predOf, pend, H.fn, hp] using this

theorem Pre.goodX {f : St} (H : Pre env fut K c f) (hx : ∀ m, HX f m) (nd : f ≠ .detect1) :
    GoodX fut c :=
  ⟨H.good.live, by rw [H.fn]; exact hx _, by rw [H.fn]; exact nd⟩

@[simp] theorem adv_byte (b : UInt8) : (adv c b).ctx.byte = b := rfl
@[simp] theorem adv_p (b : UInt8) : (adv c b).p = c.p := rfl
@[simp] theorem adv_log (b : UInt8) : (adv c b).log = c.log := rfl
@[simp] theorem adv_idx (b : UInt8) : (adv c b).ctx.idx ≠ 0 := by simp [adv]

/-- Read one byte in a state without marked data. -/
theorem Pre.read {f : St} {k : Cfg → Out} (H : Pre env fut K c f) (hp : pendEv f = none)
    (hx : ∀ m, HX f m) (nd : f ≠ .detect1)
    (hq : Quiet env (flat c.log) (abs c.p))
    (hk : ∀ b, c.ctx.rest = b :: (adv c b).ctx.rest →
      (adv c b).ctx.replay.rest = b :: (adv c b).ctx.rest →
      pred env (flat c.log) (abs c.p) (b :: ((adv c b).ctx.rest ++ fut)) = K →
      SimOK env fut K L (k (adv c b))) :
    SimOK env fut K L (exitIfEos c (next c k)) :=
  sim_read (H.goodX hx nd) (H.start hp) hq hk

theorem forall_u8 {P : UInt8 → Prop} (h : ∀ n : _root_.Fin 256, P (UInt8.ofFin n)) : ∀ b, P b := by
  intro b
  have := h b.toFin
  simpa using this

theorem sim_next {k : Cfg → Out} (hav : 0 < c.ctx.available)
    (hk : ∀ b, c.ctx.rest = b :: (adv c b).ctx.rest → SimOK env fut K L (k (adv c b))) :
    SimOK env fut K L (next c k) := by
  simp only [next, Ctx.next]
  cases hb : c.ctx.stream[c.ctx.idx]? with
  | none =>
    simp only [Ctx.available] at hav
    have := List.getElem?_eq_none_iff.1 hb
    omega
  | some b => exact hk b (rest_cons hb)

theorem sim_transitionNoRemark {s f : St} {ev : UInt8 → Ev} (hp : pendEv f = some ev)
    (hg : GoodX fut (setState c s f))
    (hK : pred env (flat c.log ++ c.ctx.slice.map ev) (abs (setState c s f).p)
      (c.ctx.rest ++ fut) = K) :
    SimOK env fut K L (transitionNoRemark c s f) := by
  refine ⟨⟨?_, hg.live, hok_of_hx hg.hx hg.nd⟩, ?_⟩
  · intro h'; simp [setState, hp] at h'
  · simp only [predOf, pend]
    rw [show (setState c s f).p.fn = f from rfl, hp]
    exact hK

theorem slice_adv {b : UInt8} (hm : c.ctx.mark = c.ctx.idx)
    (hr : c.ctx.rest = b :: (adv c b).ctx.rest) : (adv c b).ctx.slice = [b] := by
  have h' : c.ctx.stream.drop c.ctx.idx = b :: (adv c b).ctx.rest := hr
  simp [Ctx.slice, adv, hm, h']

/-! ## After a collection loop -/

theorem brk_ignore {x : Ctx} {d post : Bytes} {b : UInt8} {mk : Bytes → Ev} {s f : St}
    (B : Brk x d b post) (hmk : IsMk mk) (hlive : Live (setState c s f).p) (hx : ∀ m, HX f m)
    (nd : f ≠ .detect1)
    (hK : pred env (flat c.log ++ d.map fun b => mk [b]) (abs (setState c s f).p)
      (post ++ fut) = K) :
    SimOK env fut K L (callbackIgnoreTransition h { c with ctx := x } mk s f) := by
  refine sim_callbackIgnore hmk B.ok ⟨hlive, hx _, nd⟩ ?_
  simp only [B.ign, B.rest]
  exact hK

theorem brk_replay {x : Ctx} {d post : Bytes} {b : UInt8} {mk : Bytes → Ev} {s f : St}
    (B : Brk x d b post) (hmk : IsMk mk) (hlive : Live (setState c s f).p) (hx : ∀ m, HX f m)
    (nd : f ≠ .detect1)
    (hK : pred env (flat c.log ++ d.map fun b => mk [b]) (abs (setState c s f).p)
      (b :: (post ++ fut)) = K) :
    SimOK env fut K L (replay { c with ctx := x } fun c => callbackTransition h c mk s f) := by
  refine sim_replay B.idx (sim_callbackTransition hmk B.okr ⟨hlive, hx _, nd⟩ ?_)
  simp only [B.sliceR, B.restR]
  exact hK

theorem brk_noRemark {x : Ctx} {d post : Bytes} {b : UInt8} {ev : UInt8 → Ev} {s f : St}
    (B : Brk x d b post) (hp : pendEv f = some ev) (hlive : Live (setState c s f).p)
    (hx : ∀ m, HX f m) (nd : f ≠ .detect1)
    (hK : pred env (flat c.log ++ d.map ev ++ [ev b]) (abs (setState c s f).p)
      (post ++ fut) = K) :
    SimOK env fut K L (transitionNoRemark { c with ctx := x } s f) := by
  refine sim_transitionNoRemark hp ⟨hlive, hx _, nd⟩ ?_
  simp only [B.slice, B.rest, List.map_append, List.map_cons, List.map_nil]
  rw [← List.append_assoc]
  exact hK

theorem brk_err {x : Ctx} {d post : Bytes} {b : UInt8} {mk : Bytes → Ev} {e : PErr}
    (B : Brk x d b post) (hmk : IsMk mk)
    (hK : (flat c.log ++ d.map fun b => mk [b], Fin.err e (post ++ fut)) = K) :
    SimOK env fut K L (.err e { c with ctx := x }) := by
  refine sim_err_data (d := d) hmk ?_
  simp only [B.rest]
  exact hK.symm

theorem brk_err0 {x : Ctx} {d post : Bytes} {b : UInt8} {e : PErr} (B : Brk x d b post)
    (hK : (flat c.log, Fin.err e (post ++ fut)) = K) :
    SimOK env fut K L (.err e { c with ctx := x }) := by
  refine sim_err ?_
  simp only [B.rest]
  exact hK.symm

theorem brk_transition {x : Ctx} {d post : Bytes} {b : UInt8} {s f : St}
    (B : Brk x d b post) (hlive : Live (setState c s f).p) (hx : ∀ m, HX f m)
    (nd : f ≠ .detect1)
    (hK : pred env (flat c.log) (abs (setState c s f).p) (b :: (post ++ fut)) = K) :
    SimOK env fut K L (replay { c with ctx := x } fun c => transition c s f) := by
  refine sim_replay B.idx (sim_transition ⟨hlive, hx _, nd⟩ ?_)
  simp only [B.restR]
  exact hK

/-! ## Tactics -/

set_option hygiene false in
/-- Read a byte; the prediction is unfolded by one step. -/
macro "sim_read1" : tactic => `(tactic|
  (have hfn := H.fn
   have hl := H.good.live
   simp only [Live, hfn] at hl
   refine H.read rfl (fun _ => trivial) nofun (by simp [Quiet, abs, hfn, norm]) fun b hr hrr hK => ?_
   have hK0 := hK
   simp only [abs, hfn, pred, norm, bstep, reduceCtorEq, ↓reduceIte, List.append_nil] at hK))

set_option hygiene false in
/-- Case distinction on the byte just read. -/
macro "sim_if" : tactic => `(tactic|
  (refine sim_ite (fun hb => ?_) (fun hb => ?_) <;> simp only [adv_byte] at hb <;>
    simp only [hb, reduceCtorEq, ↓reduceIte, List.append_nil, Bool.false_eq_true] at hK))

set_option hygiene false in
/-- Prove the `Live` side condition. -/
macro "live_tac" : tactic => `(tactic|
  first
  | exact hl
  | exact hl.1
  | exact trivial
  | exact fun _ => hl
  | exact fun h' => absurd h' hl
  | exact fun h' => absurd h' hl.1
  | (simp [Live, setState] at hl ⊢; done)
  | (simpa [Live, setState] using hl))

set_option hygiene false in
/-- Prove the side condition about the prediction. -/
macro "pred_tac" : tactic => `(tactic|
  first
  | exact hK
  | (simpa [abs, setState, flatEv] using hK)
  | (simpa [abs, setState, hrr, pred, norm, bstep] using hK)
  | (simpa [abs, setState, hrr, pred, norm, bstep, hb] using hK))

set_option hygiene false in
/-- Close a leaf. -/
macro "sim_leaf" : tactic => `(tactic|
  first
  | (refine sim_err ?_
     simpa using hK.symm)
  | ((with_reducible refine sim_transition (c := _) ?_ ?_)
     · exact ⟨by live_tac, trivial, nofun⟩
     · pred_tac)
  | ((with_reducible refine sim_callbackTransitionData (c := _) ?_ ?_)
     · exact ⟨by live_tac, trivial, nofun⟩
     · pred_tac)
  | ((with_reducible refine sim_callbackData (c := _) ?_ ?_)
     · exact ⟨by live_tac, trivial, nofun⟩
     · pred_tac)
  | ((with_reducible refine sim_replay (adv_idx _) (sim_transition ?_ ?_))
     · exact ⟨by live_tac, trivial, nofun⟩
     · pred_tac))

end Verif.Http1
