import Verif.Http1.Yes
import Verif.Http1.SimCall
import Verif.Http1.Call
import Mathlib.Tactic.Linarith

/-!
# Pausing a callback is invisible (helper lemmas)
-/

set_option linter.unusedSimpArgs false
set_option linter.unusedVariables false

namespace Verif.Http1

variable {env : Env} {fut : Bytes} {K : List Ev × Fin} {h : Handler} {c : Cfg}

/-! ## URL-encoded mode does not look at the length -/

/-- Another length in the parser. -/
def setLen (x : Nat) (c : Cfg) : Cfg := { c with p := { c.p with length := x } }

/-- Another length in the result of a state function. -/
def outLen (x : Nat) : Out → Out
  | .cont c => .cont (setLen x c)
  | .exit s c => .exit s (setLen x c)
  | .err e c => .err e (setLen x c)
  | .panic => .panic
  | .ub => .ub

/-- The results differ in the length only. -/
def W (x : Nat) (o o' : Out) : Prop := o' = outLen x o

theorem w_ite {x : Nat} {p : Prop} {dp dq : Decidable p} {a b a' b' : Out} (h1 : W x a a')
    (h2 : W x b b') : W x (@ite _ p dp a b) (@ite _ p dq a' b') := by
  by_cases hp : p
  · rw [if_pos hp, if_pos hp]; exact h1
  · rw [if_neg hp, if_neg hp]; exact h2

theorem w_data {x : Nat} {e : Ev} {k k' : Cfg → Out} (hk : ∀ c, W x (k c) (k' (setLen x c))) :
    W x (callbackData h c e k) (callbackData h (setLen x c) e k') := by
  unfold callbackData
  exact w_ite (hk _) rfl

theorem w_eos {x : Nat} {mk : Bytes → Ev} :
    W x (callbackEos h c mk) (callbackEos h (setLen x c) mk) := by
  unfold callbackEos callbackSlice
  exact w_ite rfl (w_ite (w_data fun c => rfl) rfl)

theorem w_ctd {x : Nat} {e : Ev} {s f : St} :
    W x (callbackTransitionData h c e s f) (callbackTransitionData h (setLen x c) e s f) := by
  unfold callbackTransitionData
  exact w_data (c := setState c s f) fun c => rfl

theorem w_ign {x : Nat} {mk : Bytes → Ev} {s f : St} :
    W x (callbackIgnoreTransition h c mk s f) (callbackIgnoreTransition h (setLen x c) mk s f) := by
  unfold callbackIgnoreTransition
  exact w_ite rfl (w_ite (w_data (c := setState c s f) fun c => rfl) rfl)

theorem w_collecting {x : Nat} {r : Ctx.Collect} {e k e' k' : Cfg → Out}
    (he : ∀ c, W x (e c) (e' (setLen x c))) (hk : ∀ c, W x (k c) (k' (setLen x c))) :
    W x (collecting c r e k) (collecting (setLen x c) r e' k') := by
  cases r
  · exact he _
  · exact hk _
  · rfl
  · rfl

theorem w_read {x : Nat} {k k' : Cfg → Out} (hk : ∀ c, W x (k c) (k' (setLen x c))) :
    W x (exitIfEos c (next c k)) (exitIfEos (setLen x c) (next (setLen x c) k')) := by
  unfold exitIfEos
  refine w_ite rfl ?_
  unfold next
  show W x _ (match c.ctx.next with | some ctx => _ | none => _)
  cases c.ctx.next
  · rfl
  · exact hk _

theorem len_step {x : Nat} (hs : UrlSt c.p.fn) : W x (step h c) (step h (setLen x c)) := by
  cases hfn : c.p.fn <;> rw [hfn] at hs <;> simp only [UrlSt] at hs <;>
    simp only [step, hfn, show (setLen x c).p.fn = _ from hfn]
  case firstUrlEncodedName =>
    unfold first_url_encoded_name exitIfEos
    exact w_ite rfl w_ctd
  case urlEncodedName =>
    unfold url_encoded_name
    exact w_collecting (fun c => w_eos) fun c => w_ite w_ign (w_ite w_ign (w_ite w_ign (w_ite w_ign rfl)))
  case urlEncodedValue =>
    unfold url_encoded_value
    exact w_collecting (fun c => w_eos) fun c => w_ite w_ign (w_ite w_ign (w_ite w_ign rfl))
  case urlEncodedNameHex1 =>
    unfold url_encoded_name_hex1
    refine w_read fun c => ?_
    simp only [show (setLen x c).ctx = c.ctx from rfl]
    cases hexDigit c.ctx.byte <;> rfl
  case urlEncodedValueHex1 =>
    unfold url_encoded_value_hex1
    refine w_read fun c => ?_
    simp only [show (setLen x c).ctx = c.ctx from rfl]
    cases hexDigit c.ctx.byte <;> rfl
  case urlEncodedNameHex2 =>
    unfold url_encoded_name_hex2
    refine w_read fun c => ?_
    simp only [show (setLen x c).ctx = c.ctx from rfl]
    cases hexDigit c.ctx.byte
    · rfl
    · exact w_ctd
  case urlEncodedValueHex2 =>
    unfold url_encoded_value_hex2
    refine w_read fun c => ?_
    simp only [show (setLen x c).ctx = c.ctx from rfl]
    cases hexDigit c.ctx.byte
    · rfl
    · exact w_ctd
  case urlEncodedNamePlus => exact w_ctd
  case urlEncodedValuePlus => exact w_ctd
  case finished => rfl
/-! ## Feeding a slice -/

/-- The outcome of a single call. -/
def out1 (n0 : Nat) (s : Bytes) : Res × World → Outcome
  | (.ok (.callback k), w') => ⟨.callback, w', s.drop k⟩
  | (.ok (.eos k), w') => ⟨.eos, w', s.drop k⟩
  | (.ok (.finished k), w') => ⟨.finished, w', s.drop k⟩
  | (.err e, w') => ⟨.err e, w', s.drop (w'.p.byteCount - n0)⟩
  | (.panic, w') => ⟨.panic, w', s⟩
  | (.ub, w') => ⟨.ub, w', s⟩
  | (.diverge, w') => ⟨.diverge, w', s⟩

theorem feed_one {w : World} {s : Bytes} : feed h 1 w s = out1 w.p.byteCount s (resume h w s) := by
  rw [feed]
  rcases resume h w s with ⟨r, w'⟩
  cases r with
  | ok su => cases su <;> rfl
  | err e => rfl
  | panic => rfl
  | ub => rfl
  | diverge => rfl

theorem feed_cb {w w' : World} {s : Bytes} {k n : Nat} (hr : resume h w s = (.ok (.callback k), w')) :
    feed h (n + 1) w s = feed h n w' (s.drop k) := by
  rw [feed, hr]

theorem feed_stop {w : World} {s : Bytes} {n : Nat}
    (hr : ∀ k w', resume h w s ≠ (.ok (.callback k), w')) :
    feed h (n + 1) w s = out1 w.p.byteCount s (resume h w s) := by
  rw [feed]
  revert hr
  rcases resume h w s with ⟨r, w'⟩
  intro hr
  cases r with
  | ok su =>
    cases su with
    | callback k => exact absurd rfl (hr k w')
    | eos k => rfl
    | finished k => rfl
  | err e => rfl
  | panic => rfl
  | ub => rfl
  | diverge => rfl

/-- The result of a run without the slice. -/
def World.of (rc : Res × Cfg) : Res × World := (rc.1, ⟨rc.2.p, rc.2.log⟩)

theorem yes_parse {f : Nat} {c c' : Cfg} {k : Nat} : parse h.yes f c ≠ (.ok (.callback k), c') := by
  intro he
  have := aux_parse (h := h.yes) (sf := False) (l0 := c.log) f c ⟨False.elim, .refl⟩
  rw [he] at this
  obtain ⟨-, l, e, -, -, -, h6⟩ := this
  cases h6

/-- Equal outcomes, or both crashed after the same callbacks. -/
def SameP (a b : Outcome) : Prop :=
  a = b ∨ (a.last = b.last ∧ (a.last = .panic ∨ a.last = .ub) ∧ a.world.log = b.world.log)

theorem feed_plain : ∀ (f : Nat) (p : Parser) (s : Bytes) (l : List Ev), p.ptype ≠ .urlEncoded →
    (parse h.yes f ⟨p, Ctx.new s, l⟩).1 ≠ .diverge →
    ∃ N, ∀ n, N ≤ n → SameP (feed h n ⟨p, l⟩ s)
      (out1 p.byteCount s (World.of (parse h.yes f ⟨p, Ctx.new s, l⟩))) := by
  intro f
  induction f using Nat.strongRecOn with
  | _ f ih =>
    intro p s l hp hd
    have hok := parse_new_ok h p s l
    have hnd : (parse h (fuel s.length) ⟨p, Ctx.new s, l⟩).1 ≠ .diverge := by
      intro e
      rcases hh : parse h (fuel s.length) ⟨p, Ctx.new s, l⟩ with ⟨r, c⟩
      rw [hh] at hok e
      cases e
      exact hok
    have hres : resume h ⟨p, l⟩ s = World.of (parse h (fuel s.length) ⟨p, Ctx.new s, l⟩) :=
      resume_plain (w := ⟨p, l⟩) hp
    rcases z_parse (h := h) f ⟨p, Ctx.new s, l⟩ with e | ⟨c1, e1, e2, e3⟩
    · have hd' : (parse h f ⟨p, Ctx.new s, l⟩).1 ≠ .diverge := by rw [e]; exact hd
      rw [parse_fuel' hnd hd', e] at hres
      refine ⟨1, fun n hn => ?_⟩
      obtain ⟨n, rfl⟩ : ∃ m, n = m + 1 := ⟨n - 1, by omega⟩
      rw [feed_stop, hres]
      · exact .inl rfl
      · intro k w' hw
        rw [hres] at hw
        rcases hh : parse h.yes f ⟨p, Ctx.new s, l⟩ with ⟨r, c⟩
        rw [hh] at hw
        simp only [World.of, Prod.mk.injEq] at hw
        rw [hw.1] at hh
        exact yes_parse hh
    · have hd' : (parse h f ⟨p, Ctx.new s, l⟩).1 ≠ .diverge := by rw [e1]; simp
      rw [parse_fuel' hnd hd', e1] at hres hok
      obtain ⟨hr, -⟩ := hok
      have hbc : c1.p.byteCount = p.byteCount := by
        have h1 := hr.byteCount
        simp only [fin] at h1
        omega
      have hst : c1.ctx.stream = s := hr.stream
      obtain ⟨k, hk⟩ : ∃ k, c1.ctx.idx = k := ⟨_, rfl⟩
      have hks : k ≤ s.length := by
        have := hr.ok.idx_le
        simp only [fin] at this
        rw [← hk, ← hst]; exact this
      rcases e3 with ⟨f', hf', e3⟩ | ⟨e3, e4⟩
      · have hrel : Rel k p.byteCount (p.byteCount + k) { c1 with ctx := c1.ctx.setMark }
            ⟨(fin c1).p, Ctx.new (s.drop k), c1.log⟩ := by
          refine ⟨c1.p, s, 0, 0, c1.ctx.byte, (Ctx.new (s.drop k)).byte, c1.log, ?_, ?_, fun h => absurd h e2⟩
          · rcases c1 with ⟨⟨⟩, ⟨⟩, l1⟩
            simp only [Ctx.setMark, LL] at *
            simp [*]
          · rcases c1 with ⟨⟨⟩, ⟨⟩, l1⟩
            simp only [fin, RR] at *
            simp [*, Ctx.new]
        have hpt := t_parse (h := h.yes) f' _ _ hrel
        rw [e3] at hd ⊢
        have hd2 : (parse h.yes f' ⟨(fin c1).p, Ctx.new (s.drop k), c1.log⟩).1 ≠ .diverge := by
          revert hpt hd
          rcases parse h.yes f' { c1 with ctx := c1.ctx.setMark } with ⟨r, c⟩
          rcases parse h.yes f' ⟨(fin c1).p, Ctx.new (s.drop k), c1.log⟩ with ⟨r', c'⟩
          rintro hd hpt rfl
          cases r <;> first | exact hpt | exact hd rfl
        obtain ⟨N, hN⟩ := ih f' hf' (fin c1).p (s.drop k) c1.log (by rw [hr.ptype]; exact hp) hd2
        refine ⟨N + 1, fun n hn => ?_⟩
        obtain ⟨n, rfl⟩ : ∃ m, n = m + 1 := ⟨n - 1, by omega⟩
        rw [feed_cb (show resume h ⟨p, l⟩ s = (.ok (.callback c1.ctx.idx), ⟨(fin c1).p, c1.log⟩) from hres), hk]
        have h2 := hN n (by omega)
        have hbc2 : (fin c1).p.byteCount = p.byteCount + k := by rw [fin]; simp only [hbc, hk]
        rw [hbc2] at h2
        -- the two reference runs
        have key : SameP (out1 (p.byteCount + k) (s.drop k)
              (World.of (parse h.yes f' ⟨(fin c1).p, Ctx.new (s.drop k), c1.log⟩)))
            (out1 p.byteCount s (World.of (parse h.yes f' { c1 with ctx := c1.ctx.setMark }))) := by
          revert hpt hd
          rcases parse h.yes f' { c1 with ctx := c1.ctx.setMark } with ⟨r, c⟩
          rcases parse h.yes f' ⟨(fin c1).p, Ctx.new (s.drop k), c1.log⟩ with ⟨r', c'⟩
          intro hd hpt
          cases r with
          | ok su =>
            cases r' with
            | ok su' =>
              obtain ⟨hs, P, S, i, m, b, b', l, rfl, rfl, -⟩ := hpt
              have e : p.byteCount + (i + k) = p.byteCount + k + i := by omega
              cases su <;> cases su' <;> simp only [relS, LL, RR] at hs <;> left <;>
                simp only [World.of, out1, LL, RR, hs.1, hs.2, List.drop_drop, e, Nat.add_comm k i]
            | _ => exact hpt.elim
          | err x =>
            cases r' with
            | err x' =>
              obtain ⟨rfl, P, S, i, m, b, b', l, rfl, rfl, -⟩ := hpt
              have e : p.byteCount + (i + k) = p.byteCount + k + i := by omega
              have e' : k + (p.byteCount + k + i - (p.byteCount + k)) = p.byteCount + k + i - p.byteCount := by omega
              left
              simp only [World.of, out1, LL, RR, List.drop_drop, e, e']
            | _ => exact hpt.elim
          | panic =>
            cases r' with
            | panic => exact .inr ⟨rfl, .inl rfl, Eq.symm hpt⟩
            | _ => exact hpt.elim
          | ub =>
            cases r' with
            | ub => exact .inr ⟨rfl, .inr rfl, Eq.symm hpt⟩
            | _ => exact hpt.elim
          | diverge =>
            cases r' with
            | diverge => exact absurd rfl hd
            | _ => exact hpt.elim
        rcases h2 with h2 | ⟨h2, h3, h4⟩
        · rw [h2]; exact key
        · rcases key with k1 | ⟨k1, k2, k3⟩
          · rw [← k1]; exact .inr ⟨h2, h3, h4⟩
          · exact .inr ⟨h2.trans k1, h3, h4.trans k3⟩
      · refine ⟨2, fun n hn => ?_⟩
        obtain ⟨n, rfl⟩ : ∃ m, n = m + 2 := ⟨n - 2, by omega⟩
        rw [feed_cb (show resume h ⟨p, l⟩ s = (.ok (.callback c1.ctx.idx), ⟨(fin c1).p, c1.log⟩) from hres)]
        have hks' : s.drop c1.ctx.idx = [] := by
          have := parse_new_ok h.yes p s l
          rw [parse_fuel' (h := h.yes) (g := f) ?_ hd, e3] at this
          · obtain ⟨-, -, h3⟩ := this
            simp only [fin] at h3
            rw [h3, hst, List.drop_length]
          · intro e
            rcases hh : parse h.yes (fuel s.length) ⟨p, Ctx.new s, l⟩ with ⟨r, c⟩
            rw [hh] at this e
            cases e
            exact this
        have hr2 : resume h ⟨(fin c1).p, c1.log⟩ [] = (.ok (.eos 0), ⟨(fin c1).p, c1.log⟩) := by
          rw [resume_plain (by rw [hr.ptype]; exact hp)]
          rw [show fuel ([] : Bytes).length = 7 + 1 from rfl, parse, eosSt_nil (by exact e4)]
          rfl
        rw [hks', feed_stop (by rw [hr2]; intro k w' h; cases h), hr2, e3]
        left
        simp only [out1, World.of, hks']
        rfl

/-! ## Feeding a slice of a URL-encoded body -/

theorem len_parse {x : Nat} : ∀ (f : Nat) (c : Cfg), UrlSt c.p.fn →
    parse h f (setLen x c) = ((parse h f c).1, setLen x (parse h f c).2)
  | 0, c, _ => rfl
  | f + 1, c, hs => by
    have h1 : step h (setLen x c) = outLen x (step h c) := len_step hs
    have h2 := outU_step (h := h) hs
    simp only [parse]
    rw [h1]
    cases hst : step h c with
    | cont c1 => rw [hst] at h2; exact len_parse f c1 h2.1
    | exit s c1 => cases s <;> rfl
    | err e c1 => rfl
    | panic => rfl
    | ub => rfl

theorem same_trans {a b c : Outcome} (h1 : SameOut a b) (h2 : SameOut b c) : SameOut a c := by
  rcases h1 with rfl | ⟨a1, a2, a7⟩ | ⟨a1, a2, a3, a4, a5, n, m, a6⟩
  · exact h2
  · rcases h2 with rfl | ⟨b1, b2, b7⟩ | ⟨b1, b2, b3, b4, b5, n, m, b6⟩
    · exact .inr (.inl ⟨a1, a2, a7⟩)
    · exact .inr (.inl ⟨a1.trans b1, a2, a7.trans b7⟩)
    · rw [← a1] at b2
      rcases a2 with a2 | a2 <;> rcases b2 with b2 | ⟨e, b2⟩ <;> rw [a2] at b2 <;> cases b2
  · rcases h2 with rfl | ⟨b1, b2, b7⟩ | ⟨b1, b2, b3, b4, b5, n', m', b6⟩
    · exact .inr (.inr ⟨a1, a2, a3, a4, a5, n, m, a6⟩)
    · rw [← a1] at b2
      rcases b2 with b2 | b2 <;> rcases a2 with a2 | ⟨e, a2⟩ <;> rw [a2] at b2 <;> cases b2
    · exact .inr (.inr ⟨a1.trans b1, a2, a3, a4.trans b4, a5.trans b5, n', m', by rw [b6, a6]⟩)

/-- What a call on a URL-encoded body returns, given the result of the parser loop. -/
def urlOut (h : Handler) (n0 : Nat) (s : Bytes) (rc : Res × Cfg) : Outcome :=
  out1 n0 s (urlPost h 2 rc)

theorem urlPost_fuel {n : Nat} (hn : 2 ≤ n) (rc : Res × Cfg) : urlPost h n rc = urlPost h 2 rc := by
  rcases rc with ⟨r, c⟩
  cases r with
  | ok su =>
    cases su with
    | eos k =>
      simp only [urlPost]
      rw [parse_bodyFinished hn rfl, parse_bodyFinished (Nat.le_refl 2) rfl]
    | callback k => rfl
    | finished k => rfl
  | err e => rfl
  | panic => rfl
  | ub => rfl
  | diverge => rfl

theorem resume_urlPost {p : Parser} {s : Bytes} {l : List Ev} (hp : p.ptype = .urlEncoded) :
    resume h ⟨p, l⟩ s = urlPost h 2 (parse h (fuel (s.take p.length).length)
      ⟨p, Ctx.new (s.take p.length), l⟩) := by
  rw [resume_url (w := ⟨p, l⟩) (st := s.take p.length) hp, urlPost_fuel (by simp [fuel])]
  split
  · rfl
  · rw [List.take_of_length_le (by rename_i hn; simp only at hn; omega)]

theorem feed_urlStop {p : Parser} {s st : Bytes} {l : List Ev} {r : Res} {c : Cfg}
    (hncb : ∀ k, r ≠ .ok (.callback k)) (hok : RunOK ⟨p, Ctx.new st, l⟩ (r, c))
    (hres : resume h ⟨p, l⟩ s = urlPost h 2 (r, c)) :
    ∃ N, ∀ n, N ≤ n → SameOut (feed h n ⟨p, l⟩ s) (urlOut h.yes p.byteCount s (r, c)) := by
  have stop : (∀ k w', urlPost h 2 (r, c) ≠ (.ok (.callback k), w')) →
      urlPost h 2 (r, c) = urlPost h.yes 2 (r, c) →
      ∃ N, ∀ n, N ≤ n → SameOut (feed h n ⟨p, l⟩ s) (urlOut h.yes p.byteCount s (r, c)) := by
    intro h1 h2
    refine ⟨1, fun n hn => ?_⟩
    obtain ⟨n, rfl⟩ : ∃ m, n = m + 1 := ⟨n - 1, by omega⟩
    rw [feed_stop (by rw [hres]; exact h1), hres, h2]
    exact .inl rfl
  cases r with
  | ok su =>
    cases su with
    | callback k => exact absurd rfl (hncb k)
    | finished k => exact stop (by intro k w' h; cases h) rfl
    | eos k =>
      obtain ⟨hr, rfl, hk⟩ := hok
      by_cases h1 : c.p.length < c.ctx.idx
      · refine stop ?_ ?_
        · simp only [urlPost, if_pos h1]; intro k w' h; cases h
        · simp only [urlPost, if_pos h1]
      · by_cases h2 : c.p.length - c.ctx.idx = 0
        · simp only [urlPost, if_neg h1, if_pos h2] at hres
          rw [parse_bodyFinished (Nat.le_refl 2) rfl] at hres
          simp only [urlOut, urlPost, if_neg h1, if_pos h2]
          rw [parse_bodyFinished (Nat.le_refl 2) rfl]
          rw [if_pos (show h.yes.ret _ = true from rfl)]
          split at hres
          · refine ⟨1, fun n hn => ?_⟩
            obtain ⟨n, rfl⟩ : ∃ m, n = m + 1 := ⟨n - 1, by omega⟩
            rw [feed_stop (by rw [hres]; intro k w' h; cases h), hres]
            exact .inl rfl
          · refine ⟨2, fun n hn => ?_⟩
            obtain ⟨n, rfl⟩ : ∃ m, n = m + 2 := ⟨n - 2, by omega⟩
            rw [feed_cb hres, feed_stop (by rw [resume_finished rfl]; intro k w' h; cases h),
              resume_finished rfl]
            left
            simp only [out1, List.drop_zero]
        · refine stop ?_ ?_
          · simp only [urlPost, if_neg h1, if_neg h2]; intro k w' h; cases h
          · simp only [urlPost, if_neg h1, if_neg h2]
  | err e => exact stop (by intro k w' h; cases h) rfl
  | panic => exact stop (by intro k w' h; cases h) rfl
  | ub => exact stop (by intro k w' h; cases h) rfl
  | diverge => exact stop (by intro k w' h; cases h) rfl

theorem feed_url : ∀ (f : Nat) (p : Parser) (s : Bytes) (l : List Ev), p.ptype = .urlEncoded →
    UrlSt p.fn → (parse h.yes f ⟨p, Ctx.new (s.take p.length), l⟩).1 ≠ .diverge →
    ∃ N, ∀ n, N ≤ n → SameOut (feed h n ⟨p, l⟩ s)
      (urlOut h.yes p.byteCount s (parse h.yes f ⟨p, Ctx.new (s.take p.length), l⟩)) := by
  intro f
  induction f using Nat.strongRecOn with
  | _ f ih =>
    intro p s l hp hu hd
    obtain ⟨st, hst0⟩ : ∃ st, s.take p.length = st := ⟨_, rfl⟩
    have hres := resume_urlPost (h := h) (s := s) (l := l) hp
    rw [hst0] at hd ⊢ hres
    have hok := parse_new_ok h p st l
    have hnd : (parse h (fuel st.length) ⟨p, Ctx.new st, l⟩).1 ≠ .diverge := by
      intro e
      rcases hh : parse h (fuel st.length) ⟨p, Ctx.new st, l⟩ with ⟨r, c⟩
      rw [hh] at hok e
      cases e
      exact hok
    have hstl : st.length ≤ p.length := by rw [← hst0, List.length_take]; omega
    rcases z_parse (h := h) f ⟨p, Ctx.new st, l⟩ with e | ⟨c1, e1, e2, e3⟩
    · have hd' : (parse h f ⟨p, Ctx.new st, l⟩).1 ≠ .diverge := by rw [e]; exact hd
      rw [parse_fuel' hnd hd', e] at hres hok
      rcases hh : parse h.yes f ⟨p, Ctx.new st, l⟩ with ⟨r, c⟩
      rw [hh] at hres hok
      exact feed_urlStop (fun k e => yes_parse (e ▸ hh)) hok hres
    · have hd' : (parse h f ⟨p, Ctx.new st, l⟩).1 ≠ .diverge := by rw [e1]; simp
      rw [parse_fuel' hnd hd', e1] at hres hok
      obtain ⟨hr, -⟩ := hok
      have hU := outU_parse f ⟨p, Ctx.new st, l⟩ hu _ _ e1
      have hbc : c1.p.byteCount = p.byteCount := by
        have h1 := hr.byteCount
        simp only [fin] at h1
        omega
      have hst : c1.ctx.stream = st := hr.stream
      obtain ⟨k, hk⟩ : ∃ k, c1.ctx.idx = k := ⟨_, rfl⟩
      have hks : k ≤ st.length := by
        have := hr.ok.idx_le
        simp only [fin] at this
        rw [← hk, ← hst]; exact this
      have hL : (fin c1).p.length = p.length := hU.2
      simp only [urlPost, hL, hk] at hres
      rw [if_neg (by omega)] at hres
      have htk : (s.drop k).take (p.length - k) = st.drop k := by
        rw [← hst0, List.drop_take]
      have hRok : RunOK ⟨p, Ctx.new st, l⟩ (parse h.yes f ⟨p, Ctx.new st, l⟩) := by
        have := parse_new_ok h.yes p st l
        rw [parse_fuel' (h := h.yes) (g := f) ?_ hd] at this
        · exact this
        · intro e
          rcases hh : parse h.yes (fuel st.length) ⟨p, Ctx.new st, l⟩ with ⟨r, c⟩
          rw [hh] at this e
          cases e
          exact this
      rcases e3 with ⟨f', hf', e3⟩ | ⟨e3, e4⟩
      · have hrel : Rel k p.byteCount (p.byteCount + k) { c1 with ctx := c1.ctx.setMark }
            ⟨(fin c1).p, Ctx.new (st.drop k), c1.log⟩ := by
          refine ⟨c1.p, st, 0, 0, c1.ctx.byte, (Ctx.new (st.drop k)).byte, c1.log, ?_, ?_, fun h => absurd h e2⟩
          · rcases c1 with ⟨⟨⟩, ⟨⟩, l1⟩
            simp only [Ctx.setMark, LL] at *
            simp [*]
          · rcases c1 with ⟨⟨⟩, ⟨⟩, l1⟩
            simp only [fin, RR] at *
            simp [*, Ctx.new]
        have hpt := t_parse (h := h.yes) f' _ _ hrel
        have hlp := len_parse (h := h.yes) (x := p.length - k) f'
          ⟨(fin c1).p, Ctx.new (st.drop k), c1.log⟩ hU.1
        have hUR := outU_parse (h := h.yes) f' { c1 with ctx := c1.ctx.setMark } hU.1
        rw [e3] at hd hRok ⊢
        have ih' := ih f' hf' { (fin c1).p with length := p.length - k } (s.drop k) c1.log
          (by exact hr.ptype.trans hp) hU.1
        rw [show ({ (fin c1).p with length := p.length - k } : Parser).length = p.length - k from rfl, htk] at ih'
        rw [show parse h.yes f' ⟨{ (fin c1).p with length := p.length - k }, Ctx.new (st.drop k), c1.log⟩
          = _ from hlp] at ih'
        have hbc2 : ({ (fin c1).p with length := p.length - k } : Parser).byteCount = p.byteCount + k := by
          simp only [fin, hbc, hk]
        rw [hbc2] at ih'
        have hd2 : (parse h.yes f' ⟨(fin c1).p, Ctx.new (st.drop k), c1.log⟩).1 ≠ .diverge := by
          revert hpt hd
          rcases parse h.yes f' { c1 with ctx := c1.ctx.setMark } with ⟨r, c⟩
          rcases parse h.yes f' ⟨(fin c1).p, Ctx.new (st.drop k), c1.log⟩ with ⟨r', c'⟩
          rintro hd hpt rfl
          cases r <;> first | exact hpt | exact hd rfl
        obtain ⟨N, hN⟩ := ih' hd2
        refine ⟨N + 1, fun n hn => ?_⟩
        obtain ⟨n, rfl⟩ : ∃ m, n = m + 1 := ⟨n - 1, by omega⟩
        rw [feed_cb hres]
        refine same_trans (hN n (by omega)) ?_
        clear hN ih' ih hlp
        have hncb : ∀ x c', parse h.yes f' { c1 with ctx := c1.ctx.setMark } ≠ (.ok (.callback x), c') :=
          fun x c' => yes_parse
        generalize parse h.yes f' { c1 with ctx := c1.ctx.setMark } = R at hd hpt hUR hRok hncb ⊢
        generalize parse h.yes f' ⟨(fin c1).p, Ctx.new (st.drop k), c1.log⟩ = R' at hpt hd2 ⊢
        obtain ⟨r, c⟩ := R
        obtain ⟨r', c'⟩ := R'
        cases r with
        | ok su =>
          cases r' with
          | ok su' =>
            obtain ⟨hs, P, S, i, m, b, b', l, rfl, rfl, -⟩ := hpt
            have e : p.byteCount + (i + k) = p.byteCount + k + i := by omega
            have hPl : P.length = p.length := ((hUR _ _ rfl).2 : P.length = c1.p.length).trans hL
            cases su with
            | callback x => exact absurd rfl (hncb x _)
            | eos x =>
              cases su' <;> simp only [relS, LL, RR] at hs
              obtain ⟨hr2, -⟩ := hRok
              have hPt : P.ptype = .urlEncoded := hr2.ptype.trans hp
              simp only [urlOut, urlPost, hs.1, hs.2, setLen, RR, LL, hPl]
              by_cases h1 : p.length < i + k
              · rw [if_pos h1, if_pos (by omega)]
                exact .inr (.inl ⟨rfl, .inl rfl, rfl⟩)
              · rw [if_neg h1, if_neg (by omega)]
                by_cases h2 : p.length - (i + k) = 0
                · rw [if_pos h2, if_pos (by omega), parse_bodyFinished (Nat.le_refl 2) rfl,
                    parse_bodyFinished (Nat.le_refl 2) rfl, if_pos (show h.yes.ret _ = true from rfl),
                    if_pos (show h.yes.ret _ = true from rfl)]
                  refine .inr (.inr ⟨rfl, .inl rfl, hPt, rfl, ?_, ⟨_, _, rfl⟩⟩)
                  simp only [out1, List.drop_drop, Nat.add_comm k i]
                · rw [if_neg h2, if_neg (by omega)]
                  left
                  simp only [out1, List.drop_drop, Nat.add_comm k i, e,
                    show p.length - k - i = p.length - (i + k) by omega]
            | finished x =>
              cases su' <;> simp only [relS, LL, RR] at hs
              obtain ⟨hr2, -⟩ := hRok
              have hPt : P.ptype = .urlEncoded := hr2.ptype.trans hp
              refine .inr (.inr ⟨rfl, .inl rfl, hPt, rfl, ?_, ⟨_, _, rfl⟩⟩)
              simp only [urlOut, urlPost, out1, hs.1, hs.2, List.drop_drop, Nat.add_comm k i]
          | _ => exact hpt.elim
        | err x =>
          cases r' with
          | err x' =>
            obtain ⟨rfl, P, S, i, m, b, b', l, rfl, rfl, -⟩ := hpt
            obtain ⟨hr2, -⟩ := hRok
            have hPt : P.ptype = .urlEncoded := hr2.ptype.trans hp
            refine .inr (.inr ⟨rfl, .inr ⟨_, rfl⟩, hPt, rfl, ?_, ⟨_, _, rfl⟩⟩)
            simp only [urlOut, urlPost, out1, List.drop_drop, LL, RR, setLen]
            congr 1
            omega
          | _ => exact hpt.elim
        | panic =>
          cases r' with
          | panic => exact .inr (.inl ⟨rfl, .inl rfl, Eq.symm hpt⟩)
          | _ => exact hpt.elim
        | ub =>
          cases r' with
          | ub => exact .inr (.inl ⟨rfl, .inr rfl, Eq.symm hpt⟩)
          | _ => exact hpt.elim
        | diverge => exact absurd rfl hd
      · rw [e3] at hRok ⊢
        obtain ⟨-, -, h3⟩ := hRok
        have h3 : c1.ctx.idx = c1.ctx.stream.length := h3
        rw [hst, hk] at h3
        have hnil : st.drop k = [] := by rw [h3, List.drop_length]
        have hres2 := resume_urlPost (h := h) (s := s.drop k) (l := c1.log)
          (p := { (fin c1).p with length := p.length - k }) (by exact hr.ptype.trans hp)
        have hrun : parse h (fuel ([] : Bytes).length) ⟨{ (fin c1).p with length := p.length - k }, Ctx.new [], c1.log⟩
            = (.ok (.eos 0), ⟨{ (fin c1).p with length := p.length - k }, Ctx.new [], c1.log⟩) := by
          rw [show fuel ([] : Bytes).length = 7 + 1 from rfl, parse, eosSt_nil (by exact e4)]
          rfl
        rw [show ({ (fin c1).p with length := p.length - k } : Parser).length = p.length - k from rfl, htk,
          hnil, hrun] at hres2
        have hok2 := parse_new_ok h { (fin c1).p with length := p.length - k } [] c1.log
        rw [hrun] at hok2
        obtain ⟨N, hN⟩ := feed_urlStop (by intro k h; cases h) hok2 hres2
        refine ⟨N + 1, fun n hn => ?_⟩
        obtain ⟨n, rfl⟩ : ∃ m, n = m + 1 := ⟨n - 1, by omega⟩
        rw [feed_cb hres]
        refine same_trans (hN n (by omega)) ?_
        have hPt : (fin c1).p.ptype = .urlEncoded := hr.ptype.trans hp
        simp only [urlOut, urlPost, hk, hL]
        rw [if_neg (show ¬ p.length - k < 0 by omega), if_neg (show ¬ p.length < k by omega)]
        by_cases h2 : p.length - k = 0
        · rw [if_pos h2, if_pos (show p.length - k - 0 = 0 by omega), parse_bodyFinished (Nat.le_refl 2) rfl,
            parse_bodyFinished (Nat.le_refl 2) rfl, if_pos (show h.yes.ret _ = true from rfl),
            if_pos (show h.yes.ret _ = true from rfl)]
          refine .inr (.inr ⟨rfl, .inl rfl, hPt, rfl, ?_, ⟨_, _, rfl⟩⟩)
          simp only [out1, fin, hk]
          rfl
        · rw [if_neg h2, if_neg (show ¬ p.length - k - 0 = 0 by omega)]
          left
          rfl

/-- Pausing is invisible. -/
theorem feed_same {w : World} {s : Bytes} (hu : UrlOK w.p) :
    ∃ N, ∀ n, N ≤ n → SameOut (feed h n w s) (feed h.yes 1 w s) := by
  have nd : ∀ (hh : Handler) (p : Parser) (s : Bytes) (l : List Ev),
      (parse hh (fuel s.length) ⟨p, Ctx.new s, l⟩).1 ≠ .diverge := by
    intro hh p s l e
    have hok := parse_new_ok hh p s l
    rcases h2 : parse hh (fuel s.length) ⟨p, Ctx.new s, l⟩ with ⟨r, c⟩
    rw [h2] at hok e
    cases e
    exact hok
  by_cases hp : w.p.ptype = .urlEncoded
  · rcases hu hp with hu | hu
    · obtain ⟨N, hN⟩ := feed_url (h := h) _ w.p s w.log hp hu (nd _ _ _ _)
      refine ⟨N, fun n hn => ?_⟩
      rw [feed_one, resume_urlPost (h := h.yes) (p := w.p) (l := w.log) hp]
      exact hN n hn
    · refine ⟨1, fun n hn => .inl ?_⟩
      obtain ⟨n, rfl⟩ : ∃ m, n = m + 1 := ⟨n - 1, by omega⟩
      rw [feed_stop (by rw [resume_dead hu]; intro k w' h; cases h), feed_one, resume_dead hu, resume_dead hu]
  · obtain ⟨N, hN⟩ := feed_plain (h := h) _ w.p s w.log hp (nd _ _ _ _)
    refine ⟨N, fun n hn => ?_⟩
    rw [feed_one, resume_plain (h := h.yes) hp]
    rcases hN n hn with e | e
    · exact .inl e
    · exact .inr (.inl e)

end Verif.Http1
