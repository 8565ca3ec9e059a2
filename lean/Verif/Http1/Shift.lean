import Verif.Http1.Reach
import Mathlib.Tactic.Linarith

/-!
# Parsing the rest of a slice (helper lemmas)
-/

set_option linter.unusedSimpArgs false
set_option linter.unusedVariables false

namespace Verif.Http1

variable {env : Env} {fut : Bytes} {K : List Ev × Fin} {h : Handler} {c : Cfg}

/-! ## The same configuration on a shorter slice

`LL` is a configuration on the slice `S`, `RR` the same one when the first `k` bytes of `S` have been
dropped and another number of bytes has been counted. -/

/-- The configuration with the whole slice. -/
def LL (P : Parser) (n : Nat) (S : Bytes) (k i m : Nat) (b : UInt8) (l : List Ev) : Cfg :=
  ⟨{ P with byteCount := n }, ⟨S, i + k, m + k, b⟩, l⟩

/-- The same one without the first `k` bytes of the slice. -/
def RR (P : Parser) (n : Nat) (S : Bytes) (k i m : Nat) (b : UInt8) (l : List Ev) : Cfg :=
  ⟨{ P with byteCount := n }, ⟨S.drop k, i, m, b⟩, l⟩

/-- States whose function looks at the byte read last before it reads one. -/
def Stale (f : St) : Prop := f = .detect1 ∨ f = .firstHeaderName

instance (f : St) : Decidable (Stale f) := inferInstanceAs (Decidable (_ ∨ _))

/-- `LL` and `RR`, with any last bytes in the states that do not look at them. -/
def Rel (k n n' : Nat) (c c' : Cfg) : Prop :=
  ∃ P S i m b b' l, c = LL P n S k i m b l ∧ c' = RR P n' S k i m b' l ∧
    (Stale P.fn → b = b')

/-- Both calls return the same, with their own counts. -/
def relS (i i' : Nat) : Success → Success → Prop
  | .callback n, .callback n' => n = i ∧ n' = i'
  | .eos n, .eos n' => n = i ∧ n' = i'
  | .finished n, .finished n' => n = i ∧ n' = i'
  | _, _ => False

/-- Both state functions return the same, up to the shift. -/
def T (k n n' : Nat) : Out → Out → Prop
  | .cont c, .cont c' => Rel k n n' c c'
  | .exit s c, .exit s' c' => Rel k n n' c c' ∧ relS c.ctx.idx c'.ctx.idx s s'
  | .err e c, .err e' c' => e = e' ∧ Rel k n n' c c'
  | .panic, .panic => True
  | .ub, .ub => True
  | _, _ => False

variable {P : Parser} {n n' k i m : Nat} {S : Bytes} {b b' : UInt8} {l : List Ev}

section
variable (P n S k i m b l)
theorem l_byte : (LL P n S k i m b l).ctx.byte = b := rfl
theorem r_byte : (RR P n S k i m b l).ctx.byte = b := rfl
theorem l_log : (LL P n S k i m b l).log = l := rfl
theorem r_log : (RR P n S k i m b l).log = l := rfl
theorem l_len : (LL P n S k i m b l).p.length = P.length := rfl
theorem r_len : (RR P n S k i m b l).p.length = P.length := rfl
theorem l_bd : (LL P n S k i m b l).p.boundary = P.boundary := rfl
theorem r_bd : (RR P n S k i m b l).p.boundary = P.boundary := rfl
theorem l_pt : (LL P n S k i m b l).p.ptype = P.ptype := rfl
theorem r_pt : (RR P n S k i m b l).p.ptype = P.ptype := rfl
theorem l_lo : getLower14 (LL P n S k i m b l).p = getLower14 P := rfl
theorem r_lo : getLower14 (RR P n S k i m b l).p = getLower14 P := rfl
theorem l_up : getUpper14 (LL P n S k i m b l).p = getUpper14 P := rfl
theorem r_up : getUpper14 (RR P n S k i m b l).p = getUpper14 P := rfl
theorem l_av : (LL P n S k i m b l).ctx.available = S.length - (i + k) := rfl
theorem r_av : (RR P n S k i m b l).ctx.available = S.length - (i + k) := by
  simp only [RR, Ctx.available, List.length_drop]; omega
theorem l_hb (x : Nat) : (LL P n S k i m b l).ctx.hasBytes x = (x ≤ S.length - (i + k) : Bool) := rfl
theorem r_hb (x : Nat) : (RR P n S k i m b l).ctx.hasBytes x = (x ≤ S.length - (i + k) : Bool) := by
  rw [Ctx.hasBytes, r_av]
theorem l_sw (x : Bytes) : (LL P n S k i m b l).ctx.startsWith x = x.isPrefixOf (S.drop (i + k)) := rfl
theorem r_sw (x : Bytes) : (RR P n S k i m b l).ctx.startsWith x = x.isPrefixOf (S.drop (i + k)) := by
  simp only [RR, Ctx.startsWith, Ctx.rest, List.drop_drop]; rw [Nat.add_comm]
theorem l_set (s f : St) : setState (LL P n S k i m b l) s f =
    LL { P with state := s, fn := f } n S k i m b l := rfl
theorem r_set (s f : St) : setState (RR P n S k i m b l) s f =
    RR { P with state := s, fn := f } n S k i m b l := rfl
theorem l_jump (x : Nat) : jump (LL P n S k i m b l) x = LL P n S k (i + x) m b l := by
  simp only [jump, LL, Ctx.jump, Cfg.mk.injEq, Ctx.mk.injEq, true_and, and_true]; omega
theorem r_jump (x : Nat) : jump (RR P n S k i m b l) x = RR P n S k (i + x) m b l := rfl
theorem l_withP (f : Parser → Parser) (hf : f { P with byteCount := n } = { f P with byteCount := n }) :
    withP (LL P n S k i m b l) f = LL (f P) n S k i m b l := by
  simp only [withP, LL, hf]
theorem r_withP (f : Parser → Parser) (hf : f { P with byteCount := n } = { f P with byteCount := n }) :
    withP (RR P n S k i m b l) f = RR (f P) n S k i m b l := by
  simp only [withP, RR, hf]
end

theorem rel_mk (hb : Stale P.fn → b = b') : Rel k n n' (LL P n S k i m b l) (RR P n' S k i m b' l) :=
  ⟨P, S, i, m, b, b', l, rfl, rfl, hb⟩

theorem t_ite {p : Prop} {dp dq : Decidable p} {a a' d d' : Out} (h1 : p → T k n n' a a')
    (h2 : ¬ p → T k n n' d d') : T k n n' (@ite _ p dp a d) (@ite _ p dq a' d') := by
  by_cases h : p
  · rw [if_pos h, if_pos h]; exact h1 h
  · rw [if_neg h, if_neg h]; exact h2 h
theorem t_panic : T k n n' .panic .panic := trivial
theorem t_err {e : PErr} (hb : Stale P.fn → b = b') :
    T k n n' (.err e (LL P n S k i m b l)) (.err e (RR P n' S k i m b' l)) := ⟨rfl, rel_mk hb⟩
theorem t_exitEos (hb : Stale P.fn → b = b') :
    T k n n' (exitEos (LL P n S k i m b l)) (exitEos (RR P n' S k i m b' l)) :=
  ⟨rel_mk hb, rfl, rfl⟩
theorem t_exitCb (hb : Stale P.fn → b = b') :
    T k n n' (exitCallback (LL P n S k i m b l)) (exitCallback (RR P n' S k i m b' l)) :=
  ⟨rel_mk hb, rfl, rfl⟩
theorem t_remark (hb : Stale P.fn → b = b') :
    T k n n' (remark (LL P n S k i m b l)) (remark (RR P n' S k i m b' l)) :=
  rel_mk (m := i) hb
theorem t_tr {s f : St} (hb : Stale f → b = b') :
    T k n n' (transition (LL P n S k i m b l) s f) (transition (RR P n' S k i m b' l) s f) := by
  unfold transition; rw [l_set, r_set]; exact t_remark hb
theorem t_trn {s f : St} (hb : Stale f → b = b') :
    T k n n' (transitionNoRemark (LL P n S k i m b l) s f)
      (transitionNoRemark (RR P n' S k i m b' l) s f) := by
  unfold transitionNoRemark; rw [l_set, r_set]; exact rel_mk hb
theorem t_ifEos {X Y : Out} (hb : Stale P.fn → b = b') (hk : T k n n' X Y) :
    T k n n' (exitIfEos (LL P n S k i m b l) X) (exitIfEos (RR P n' S k i m b' l) Y) := by
  unfold exitIfEos; rw [l_av, r_av]; exact t_ite (fun _ => t_exitEos hb) fun _ => hk
theorem t_next {K K' : Cfg → Out}
    (hk : ∀ b, T k n n' (K (LL P n S k (i + 1) m b l)) (K' (RR P n' S k (i + 1) m b l))) :
    T k n n' (next (LL P n S k i m b l) K) (next (RR P n' S k i m b' l) K') := by
  unfold next
  have e1 : (LL P n S k i m b l).ctx.next =
      match S[i + k]? with | some b => some ⟨S, i + k + 1, m + k, b⟩ | none => none := rfl
  have e2 : (RR P n' S k i m b' l).ctx.next =
      match S[i + k]? with | some b => some ⟨S.drop k, i + 1, m, b⟩ | none => none := by
    simp only [RR, Ctx.next, List.getElem?_drop, Nat.add_comm k i]; rfl
  rw [e1, e2]
  cases S[i + k]? with
  | none => trivial
  | some x =>
    have := hk x
    simp only [LL, RR] at this ⊢
    rw [show i + k + 1 = i + 1 + k by omega]
    exact this
theorem t_replay {K K' : Cfg → Out}
    (hk : T k n n' (K (LL P n S k i m b l)) (K' (RR P n' S k i m b' l))) :
    T k n n' (replay (LL P n S k (i + 1) m b l) K) (replay (RR P n' S k (i + 1) m b' l) K') := by
  unfold replay
  rw [if_neg (show ¬ ((LL P n S k (i + 1) m b l).ctx.idx = 0) by simp only [LL]; omega),
    if_neg (show ¬ ((RR P n' S k (i + 1) m b' l).ctx.idx = 0) by simp only [RR]; omega)]
  have e : ({ LL P n S k (i + 1) m b l with ctx := (LL P n S k (i + 1) m b l).ctx.replay } : Cfg) =
      LL P n S k i m b l := by
    simp only [LL, Ctx.replay, Cfg.mk.injEq, Ctx.mk.injEq, true_and, and_true]; omega
  rw [e]
  exact hk
theorem t_data {e : Ev} {K K' : Cfg → Out} (hb : Stale P.fn → b = b')
    (hk : ∀ l, T k n n' (K (LL P n S k i m b l)) (K' (RR P n' S k i m b' l))) :
    T k n n' (callbackData h (LL P n S k i m b l) e K) (callbackData h (RR P n' S k i m b' l) e K') := by
  simp only [callbackData]
  refine t_ite (fun _ => hk (l ++ [e])) fun _ => t_exitCb (l := l ++ [e]) hb
theorem t_slice {mk : Bytes → Ev} {K K' : Cfg → Out} (hb : Stale P.fn → b = b')
    (hk : ∀ l, T k n n' (K (LL P n S k i m b l)) (K' (RR P n' S k i m b' l))) :
    T k n n' (callbackSlice h (LL P n S k i m b l) mk K) (callbackSlice h (RR P n' S k i m b' l) mk K') := by
  unfold callbackSlice
  have e1 : ((LL P n S k i m b l).ctx.idx < (LL P n S k i m b l).ctx.mark) ↔ i < m := by
    simp only [LL]; omega
  have e2 : ((RR P n' S k i m b' l).ctx.idx < (RR P n' S k i m b' l).ctx.mark) ↔ i < m := Iff.rfl
  have e3 : (LL P n S k i m b l).ctx.sliceLength = i - m := by
    simp only [LL, Ctx.sliceLength]; omega
  have e4 : (RR P n' S k i m b' l).ctx.sliceLength = i - m := rfl
  have e5 : (LL P n S k i m b l).ctx.slice = (RR P n' S k i m b' l).ctx.slice := by
    simp only [LL, RR, Ctx.slice, List.drop_drop]
    rw [Nat.add_comm k m, show i + k - (m + k) = i - m by omega]
  simp only [e1, e2, e3, e4, e5]
  exact t_ite (fun _ => trivial) fun _ => t_ite (fun _ => t_data hb hk) fun _ => hk l
theorem t_eos {mk : Bytes → Ev} (hb : Stale P.fn → b = b') :
    T k n n' (callbackEos h (LL P n S k i m b l) mk) (callbackEos h (RR P n' S k i m b' l) mk) :=
  t_slice hb fun _ => t_exitEos hb
theorem t_ign {mk : Bytes → Ev} {s f : St} (hb : Stale f → b = b') :
    T k n n' (callbackIgnoreTransition h (LL P n S k i m b l) mk s f)
      (callbackIgnoreTransition h (RR P n' S k i m b' l) mk s f) := by
  unfold callbackIgnoreTransition
  rw [l_set, r_set]
  generalize hP : ({ P with state := s, fn := f } : Parser) = P'
  have hb' : Stale P'.fn → b = b' := by rw [← hP]; exact hb
  have e1 : ((LL P' n S k i m b l).ctx.idx < (LL P' n S k i m b l).ctx.mark) ↔ i < m := by
    simp only [LL]; omega
  have e2 : ((RR P' n' S k i m b' l).ctx.idx < (RR P' n' S k i m b' l).ctx.mark) ↔ i < m := Iff.rfl
  have e3 : (LL P' n S k i m b l).ctx.sliceLength = i - m := by
    simp only [LL, Ctx.sliceLength]; omega
  have e4 : (RR P' n' S k i m b' l).ctx.sliceLength = i - m := rfl
  have e5 : (LL P' n S k i m b l).ctx.sliceIgnore = (RR P' n' S k i m b' l).ctx.sliceIgnore := by
    simp only [LL, RR, Ctx.sliceIgnore, List.drop_drop]
    rw [Nat.add_comm k m, show i + k - 1 - (m + k) = i - 1 - m by omega]
  simp only [e1, e2, e3, e4, e5]
  exact t_ite (fun _ => trivial) fun _ =>
    t_ite (fun _ => t_data hb' fun _ => t_remark hb') fun _ => t_remark hb'
theorem t_td {e : Ev} {s f : St} (hb : Stale f → b = b') :
    T k n n' (callbackTransitionData h (LL P n S k i m b l) e s f)
      (callbackTransitionData h (RR P n' S k i m b' l) e s f) := by
  unfold callbackTransitionData; rw [l_set, r_set]
  exact t_data hb fun _ => t_remark hb
theorem t_ts {mk : Bytes → Ev} {s f : St} (hb : Stale f → b = b') :
    T k n n' (callbackTransition h (LL P n S k i m b l) mk s f)
      (callbackTransition h (RR P n' S k i m b' l) mk s f) := by
  unfold callbackTransition; rw [l_set, r_set]
  exact t_slice hb fun _ => t_remark hb

/-- The two results of a collection loop. -/
inductive CollT (S : Bytes) (k m : Nat) : Ctx.Collect → Ctx.Collect → Prop
  | eos (j : Nat) (b b' : UInt8) :
      CollT S k m (.eos ⟨S, j + k, m + k, b⟩) (.eos ⟨S.drop k, j, m, b'⟩)
  | brk (j : Nat) (b : UInt8) :
      CollT S k m (.brk ⟨S, j + 1 + k, m + k, b⟩) (.brk ⟨S.drop k, j + 1, m, b⟩)
  | fail (j : Nat) (b : UInt8) :
      CollT S k m (.fail ⟨S, j + 1 + k, m + k, b⟩) (.fail ⟨S.drop k, j + 1, m, b⟩)
  | panic : CollT S k m .panic .panic

theorem collT_go (act : UInt8 → Ctx.Act) : ∀ (r : Bytes) (i : Nat) (b b' : UInt8),
    CollT S k m (Ctx.collectGo act r ⟨S, i + k, m + k, b⟩)
      (Ctx.collectGo act r ⟨S.drop k, i, m, b'⟩)
  | [], i, b, b' => .eos i b b'
  | x :: r, i, b, b' => by
    simp only [Ctx.collectGo]
    cases act x with
    | cont =>
      have := collT_go act r (i + 1) x x
      rw [show i + 1 + k = i + k + 1 by omega] at this
      exact this
    | brk => rw [show i + k + 1 = i + 1 + k by omega]; exact .brk i x
    | fail => rw [show i + k + 1 = i + 1 + k by omega]; exact .fail i x
    | panic => exact .panic

theorem collT (act : UInt8 → Ctx.Act) :
    CollT S k m ((LL P n S k i m b l).ctx.collect act) ((RR P n' S k i m b' l).ctx.collect act) := by
  simp only [Ctx.collect]
  have e : (RR P n' S k i m b' l).ctx.rest = (LL P n S k i m b l).ctx.rest := by
    simp only [LL, RR, Ctx.rest, List.drop_drop]; rw [Nat.add_comm]
  rw [e]
  exact collT_go act _ i b b'

theorem collT_ls :
    CollT S k m ((LL P n S k i m b l).ctx.consumeLinearSpace)
      ((RR P n' S k i m b' l).ctx.consumeLinearSpace) := by
  unfold Ctx.consumeLinearSpace
  rw [l_av, r_av, l_sw, r_sw, l_sw, r_sw]
  split
  · exact .eos i b b'
  · split
    · exact collT _
    · have e1 : (LL P n S k i m b l).ctx.next =
          match S[i + k]? with | some b => some ⟨S, i + k + 1, m + k, b⟩ | none => none := rfl
      have e2 : (RR P n' S k i m b' l).ctx.next =
          match S[i + k]? with | some b => some ⟨S.drop k, i + 1, m, b⟩ | none => none := by
        simp only [RR, Ctx.next, List.getElem?_drop, Nat.add_comm k i]; rfl
      rw [e1, e2]
      cases S[i + k]? with
      | none => exact .panic
      | some x =>
        simp only
        rw [show i + k + 1 = i + 1 + k by omega]
        exact .brk i x

theorem t_coll {r r' : Ctx.Collect} {E E' K K' : Cfg → Out} (hr : CollT S k m r r')
    (he : ∀ i b b', T k n n' (E (LL P n S k i m b l)) (E' (RR P n' S k i m b' l)))
    (hk : ∀ i b, T k n n' (K (LL P n S k (i + 1) m b l)) (K' (RR P n' S k (i + 1) m b l))) :
    T k n n' (collecting (LL P n S k i m b l) r E K) (collecting (RR P n' S k i m b' l) r' E' K') := by
  unfold collecting
  cases hr with
  | eos j b b' => exact he j b b'
  | brk j b => exact hk j b
  | fail j b => trivial
  | panic => trivial

set_option hygiene false in
macro "tstale" : tactic => `(tactic| first
  | exact fun _ => rfl
  | (intro hs; exact absurd hs (by decide))
  | (intro hs; exact absurd hs (by dsimp only; decide))
  | (intro hs; exact absurd hs hN)
  | exact hB)

macro "tnorm" : tactic => `(tactic|
  simp only [l_byte, r_byte, l_log, r_log, l_len, r_len, l_bd, r_bd, l_pt, r_pt, l_lo, r_lo, l_up,
    r_up, l_av, r_av, l_hb, r_hb, l_sw, r_sw, l_set, r_set, l_jump, r_jump])

macro "ttac" : tactic => `(tactic| (
  try tnorm
  repeat' first
    | apply t_panic
    | (apply t_err; tstale)
    | (apply t_exitEos; tstale)
    | (apply t_tr; tstale)
    | (apply t_trn; tstale)
    | (apply t_td; tstale)
    | (apply t_ts; tstale)
    | (apply t_ign; tstale)
    | (apply t_eos; tstale)
    | (apply t_remark; tstale)
    | (refine t_ifEos (by tstale) ?_; try tnorm)
    | (refine t_data (by tstale) fun _ => ?_; try tnorm)
    | (refine t_next fun _ => ?_; try tnorm)
    | (refine t_replay ?_; try tnorm)
    | (refine t_coll (collT _) (fun _ _ _ => ?_) (fun _ _ => ?_) <;> try tnorm)
    | (refine t_coll collT_ls (fun _ _ _ => ?_) (fun _ _ => ?_) <;> try tnorm)
    | (rw [l_withP, r_withP] <;> first | rfl | (try tnorm))
    | (refine t_ite (fun _ => ?_) (fun _ => ?_))))

theorem t_dead (hN : ¬ Stale P.fn) :
    T k n n' (dead (LL P n S k i m b l)) (dead (RR P n' S k i m b' l)) := by
  unfold dead; ttac

theorem t_strip_detect (hN : ¬ Stale P.fn) :
    T k n n' (strip_detect (LL P n S k i m b l)) (strip_detect (RR P n' S k i m b' l)) := by
  unfold strip_detect; ttac

theorem t_detect2 (hN : ¬ Stale P.fn) :
    T k n n' (detect2 (LL P n S k i m b l)) (detect2 (RR P n' S k i m b' l)) := by
  unfold detect2 detectByte; ttac

theorem t_detect3 (hN : ¬ Stale P.fn) :
    T k n n' (detect3 (LL P n S k i m b l)) (detect3 (RR P n' S k i m b' l)) := by
  unfold detect3 detectByte; ttac

theorem t_detect4 (hN : ¬ Stale P.fn) :
    T k n n' (detect4 (LL P n S k i m b l)) (detect4 (RR P n' S k i m b' l)) := by
  unfold detect4 detectByte; ttac

theorem t_detect5 (hN : ¬ Stale P.fn) :
    T k n n' (detect5 (LL P n S k i m b l)) (detect5 (RR P n' S k i m b' l)) := by
  unfold detect5 detectByte; ttac

theorem t_request_method (hN : ¬ Stale P.fn) :
    T k n n' (request_method h (LL P n S k i m b l)) (request_method h (RR P n' S k i m b' l)) := by
  unfold request_method; ttac

theorem t_request_url1 (hN : ¬ Stale P.fn) :
    T k n n' (request_url1 (LL P n S k i m b l)) (request_url1 (RR P n' S k i m b' l)) := by
  unfold request_url1; ttac

theorem t_request_url2 (hN : ¬ Stale P.fn) :
    T k n n' (request_url2 h (LL P n S k i m b l)) (request_url2 h (RR P n' S k i m b' l)) := by
  unfold request_url2; ttac

theorem t_request_http1 (hN : ¬ Stale P.fn) :
    T k n n' (request_http1 h (LL P n S k i m b l)) (request_http1 h (RR P n' S k i m b' l)) := by
  unfold request_http1 expectVersion; ttac

theorem t_request_http2 (hN : ¬ Stale P.fn) :
    T k n n' (request_http2 (LL P n S k i m b l)) (request_http2 (RR P n' S k i m b' l)) := by
  unfold request_http2 expectVersion; ttac

theorem t_request_http3 (hN : ¬ Stale P.fn) :
    T k n n' (request_http3 (LL P n S k i m b l)) (request_http3 (RR P n' S k i m b' l)) := by
  unfold request_http3 expectVersion; ttac

theorem t_request_http4 (hN : ¬ Stale P.fn) :
    T k n n' (request_http4 (LL P n S k i m b l)) (request_http4 (RR P n' S k i m b' l)) := by
  unfold request_http4 expectVersion; ttac

theorem t_request_http5 (hN : ¬ Stale P.fn) :
    T k n n' (request_http5 (LL P n S k i m b l)) (request_http5 (RR P n' S k i m b' l)) := by
  unfold request_http5 expectVersion; ttac

theorem t_request_version_major1 (hN : ¬ Stale P.fn) :
    T k n n' (request_version_major1 (LL P n S k i m b l)) (request_version_major1 (RR P n' S k i m b' l)) := by
  unfold request_version_major1 versionMajor1; ttac

theorem t_request_version_major2 (hN : ¬ Stale P.fn) :
    T k n n' (request_version_major2 (LL P n S k i m b l)) (request_version_major2 (RR P n' S k i m b' l)) := by
  unfold request_version_major2 versionMajorN; ttac

theorem t_request_version_major3 (hN : ¬ Stale P.fn) :
    T k n n' (request_version_major3 (LL P n S k i m b l)) (request_version_major3 (RR P n' S k i m b' l)) := by
  unfold request_version_major3 versionMajorN; ttac

theorem t_request_version_period (hN : ¬ Stale P.fn) :
    T k n n' (request_version_period (LL P n S k i m b l)) (request_version_period (RR P n' S k i m b' l)) := by
  unfold request_version_period expectVersion; ttac

theorem t_request_version_minor1 (hN : ¬ Stale P.fn) :
    T k n n' (request_version_minor1 (LL P n S k i m b l)) (request_version_minor1 (RR P n' S k i m b' l)) := by
  unfold request_version_minor1 versionMinor1; ttac

theorem t_request_version_minor2 (hN : ¬ Stale P.fn) :
    T k n n' (request_version_minor2 (LL P n S k i m b l)) (request_version_minor2 (RR P n' S k i m b' l)) := by
  unfold request_version_minor2 versionMinorN; ttac

theorem t_request_version_minor3 (hN : ¬ Stale P.fn) :
    T k n n' (request_version_minor3 (LL P n S k i m b l)) (request_version_minor3 (RR P n' S k i m b' l)) := by
  unfold request_version_minor3 versionMinorN; ttac

theorem t_request_version_cr (hN : ¬ Stale P.fn) :
    T k n n' (request_version_cr h (LL P n S k i m b l)) (request_version_cr h (RR P n' S k i m b' l)) := by
  unfold request_version_cr versionEnd; ttac

theorem t_response_version_major1 (hN : ¬ Stale P.fn) :
    T k n n' (response_version_major1 (LL P n S k i m b l)) (response_version_major1 (RR P n' S k i m b' l)) := by
  unfold response_version_major1 versionMajor1; ttac

theorem t_response_version_major2 (hN : ¬ Stale P.fn) :
    T k n n' (response_version_major2 (LL P n S k i m b l)) (response_version_major2 (RR P n' S k i m b' l)) := by
  unfold response_version_major2 versionMajorN; ttac

theorem t_response_version_major3 (hN : ¬ Stale P.fn) :
    T k n n' (response_version_major3 (LL P n S k i m b l)) (response_version_major3 (RR P n' S k i m b' l)) := by
  unfold response_version_major3 versionMajorN; ttac

theorem t_response_version_period (hN : ¬ Stale P.fn) :
    T k n n' (response_version_period (LL P n S k i m b l)) (response_version_period (RR P n' S k i m b' l)) := by
  unfold response_version_period expectVersion; ttac

theorem t_response_version_minor1 (hN : ¬ Stale P.fn) :
    T k n n' (response_version_minor1 (LL P n S k i m b l)) (response_version_minor1 (RR P n' S k i m b' l)) := by
  unfold response_version_minor1 versionMinor1; ttac

theorem t_response_version_minor2 (hN : ¬ Stale P.fn) :
    T k n n' (response_version_minor2 (LL P n S k i m b l)) (response_version_minor2 (RR P n' S k i m b' l)) := by
  unfold response_version_minor2 versionMinorN; ttac

theorem t_response_version_minor3 (hN : ¬ Stale P.fn) :
    T k n n' (response_version_minor3 (LL P n S k i m b l)) (response_version_minor3 (RR P n' S k i m b' l)) := by
  unfold response_version_minor3 versionMinorN; ttac

theorem t_response_version_space (hN : ¬ Stale P.fn) :
    T k n n' (response_version_space h (LL P n S k i m b l)) (response_version_space h (RR P n' S k i m b' l)) := by
  unfold response_version_space versionEnd; ttac

theorem t_response_status_code1 (hN : ¬ Stale P.fn) :
    T k n n' (response_status_code1 (LL P n S k i m b l)) (response_status_code1 (RR P n' S k i m b' l)) := by
  unfold response_status_code1; ttac

theorem t_response_status_code2 (hN : ¬ Stale P.fn) :
    T k n n' (response_status_code2 (LL P n S k i m b l)) (response_status_code2 (RR P n' S k i m b' l)) := by
  unfold response_status_code2; ttac

theorem t_response_status_code3 (hN : ¬ Stale P.fn) :
    T k n n' (response_status_code3 (LL P n S k i m b l)) (response_status_code3 (RR P n' S k i m b' l)) := by
  unfold response_status_code3; ttac

theorem t_response_status_code_space (hN : ¬ Stale P.fn) :
    T k n n' (response_status_code_space h (LL P n S k i m b l)) (response_status_code_space h (RR P n' S k i m b' l)) := by
  unfold response_status_code_space; ttac

theorem t_response_status1 (hN : ¬ Stale P.fn) :
    T k n n' (response_status1 (LL P n S k i m b l)) (response_status1 (RR P n' S k i m b' l)) := by
  unfold response_status1; ttac

theorem t_initial_end (hN : ¬ Stale P.fn) :
    T k n n' (initial_end h (LL P n S k i m b l)) (initial_end h (RR P n' S k i m b' l)) := by
  unfold initial_end; ttac

theorem t_initial_lf (hN : ¬ Stale P.fn) :
    T k n n' (initial_lf (LL P n S k i m b l)) (initial_lf (RR P n' S k i m b' l)) := by
  unfold initial_lf expectCrlf; ttac

theorem t_check_header_name (hN : ¬ Stale P.fn) :
    T k n n' (check_header_name (LL P n S k i m b l)) (check_header_name (RR P n' S k i m b' l)) := by
  unfold check_header_name; ttac

theorem t_upper_header_name (hN : ¬ Stale P.fn) :
    T k n n' (upper_header_name h (LL P n S k i m b l)) (upper_header_name h (RR P n' S k i m b' l)) := by
  unfold upper_header_name; ttac

theorem t_lower_header_name (hN : ¬ Stale P.fn) :
    T k n n' (lower_header_name h (LL P n S k i m b l)) (lower_header_name h (RR P n' S k i m b' l)) := by
  unfold lower_header_name; ttac

theorem t_strip_header_value (hN : ¬ Stale P.fn) :
    T k n n' (strip_header_value (LL P n S k i m b l)) (strip_header_value (RR P n' S k i m b' l)) := by
  unfold strip_header_value; ttac

theorem t_header_value (hN : ¬ Stale P.fn) :
    T k n n' (header_value h (LL P n S k i m b l)) (header_value h (RR P n' S k i m b' l)) := by
  unfold header_value; ttac

theorem t_header_quoted_value (hN : ¬ Stale P.fn) :
    T k n n' (header_quoted_value h (LL P n S k i m b l)) (header_quoted_value h (RR P n' S k i m b' l)) := by
  unfold header_quoted_value; ttac

theorem t_header_escaped_value (hN : ¬ Stale P.fn) :
    T k n n' (header_escaped_value h (LL P n S k i m b l)) (header_escaped_value h (RR P n' S k i m b' l)) := by
  unfold header_escaped_value; ttac

theorem t_header_cr1 (hN : ¬ Stale P.fn) :
    T k n n' (header_cr1 (LL P n S k i m b l)) (header_cr1 (RR P n' S k i m b' l)) := by
  unfold header_cr1 expectCrlf; ttac

theorem t_header_lf1 (hN : ¬ Stale P.fn) :
    T k n n' (header_lf1 (LL P n S k i m b l)) (header_lf1 (RR P n' S k i m b' l)) := by
  unfold header_lf1 expectCrlf; ttac

theorem t_header_cr2 (hN : ¬ Stale P.fn) :
    T k n n' (header_cr2 (LL P n S k i m b l)) (header_cr2 (RR P n' S k i m b' l)) := by
  unfold header_cr2; ttac

theorem t_header_lf2 (hN : ¬ Stale P.fn) :
    T k n n' (header_lf2 (LL P n S k i m b l)) (header_lf2 (RR P n' S k i m b' l)) := by
  unfold header_lf2 expectCrlf; ttac

theorem t_chunk_length1 (hN : ¬ Stale P.fn) :
    T k n n' (chunk_length1 h (LL P n S k i m b l)) (chunk_length1 h (RR P n' S k i m b' l)) := by
  unfold chunk_length1; ttac

theorem t_chunk_length2 (hN : ¬ Stale P.fn) :
    T k n n' (chunk_length2 (LL P n S k i m b l)) (chunk_length2 (RR P n' S k i m b' l)) := by
  unfold chunk_length2 chunkLengthN pushHex; ttac

theorem t_chunk_length3 (hN : ¬ Stale P.fn) :
    T k n n' (chunk_length3 (LL P n S k i m b l)) (chunk_length3 (RR P n' S k i m b' l)) := by
  unfold chunk_length3 chunkLengthN pushHex; ttac

theorem t_chunk_length4 (hN : ¬ Stale P.fn) :
    T k n n' (chunk_length4 (LL P n S k i m b l)) (chunk_length4 (RR P n' S k i m b' l)) := by
  unfold chunk_length4 chunkLengthN pushHex; ttac

theorem t_chunk_length5 (hN : ¬ Stale P.fn) :
    T k n n' (chunk_length5 (LL P n S k i m b l)) (chunk_length5 (RR P n' S k i m b' l)) := by
  unfold chunk_length5 chunkLengthN pushHex; ttac

theorem t_chunk_length6 (hN : ¬ Stale P.fn) :
    T k n n' (chunk_length6 (LL P n S k i m b l)) (chunk_length6 (RR P n' S k i m b' l)) := by
  unfold chunk_length6 chunkLengthN pushHex; ttac

theorem t_chunk_length7 (hN : ¬ Stale P.fn) :
    T k n n' (chunk_length7 (LL P n S k i m b l)) (chunk_length7 (RR P n' S k i m b' l)) := by
  unfold chunk_length7 chunkLengthN pushHex; ttac

theorem t_chunk_length8 (hN : ¬ Stale P.fn) :
    T k n n' (chunk_length8 (LL P n S k i m b l)) (chunk_length8 (RR P n' S k i m b' l)) := by
  unfold chunk_length8 chunkLengthN pushHex; ttac

theorem t_chunk_length_cr (hN : ¬ Stale P.fn) :
    T k n n' (chunk_length_cr h (LL P n S k i m b l)) (chunk_length_cr h (RR P n' S k i m b' l)) := by
  unfold chunk_length_cr; ttac

theorem t_chunk_length_lf (hN : ¬ Stale P.fn) :
    T k n n' (chunk_length_lf (LL P n S k i m b l)) (chunk_length_lf (RR P n' S k i m b' l)) := by
  unfold chunk_length_lf expectCrlf; ttac

theorem t_strip_chunk_extension_name (hN : ¬ Stale P.fn) :
    T k n n' (strip_chunk_extension_name (LL P n S k i m b l)) (strip_chunk_extension_name (RR P n' S k i m b' l)) := by
  unfold strip_chunk_extension_name; ttac

theorem t_lower_chunk_extension_name (hN : ¬ Stale P.fn) :
    T k n n' (lower_chunk_extension_name h (LL P n S k i m b l)) (lower_chunk_extension_name h (RR P n' S k i m b' l)) := by
  unfold lower_chunk_extension_name; ttac

theorem t_upper_chunk_extension_name (hN : ¬ Stale P.fn) :
    T k n n' (upper_chunk_extension_name h (LL P n S k i m b l)) (upper_chunk_extension_name h (RR P n' S k i m b' l)) := by
  unfold upper_chunk_extension_name; ttac

theorem t_strip_chunk_extension_value (hN : ¬ Stale P.fn) :
    T k n n' (strip_chunk_extension_value (LL P n S k i m b l)) (strip_chunk_extension_value (RR P n' S k i m b' l)) := by
  unfold strip_chunk_extension_value; ttac

theorem t_chunk_extension_value (hN : ¬ Stale P.fn) :
    T k n n' (chunk_extension_value h (LL P n S k i m b l)) (chunk_extension_value h (RR P n' S k i m b' l)) := by
  unfold chunk_extension_value; ttac

theorem t_chunk_extension_quoted_value (hN : ¬ Stale P.fn) :
    T k n n' (chunk_extension_quoted_value h (LL P n S k i m b l)) (chunk_extension_quoted_value h (RR P n' S k i m b' l)) := by
  unfold chunk_extension_quoted_value; ttac

theorem t_chunk_extension_escaped_value (hN : ¬ Stale P.fn) :
    T k n n' (chunk_extension_escaped_value h (LL P n S k i m b l)) (chunk_extension_escaped_value h (RR P n' S k i m b' l)) := by
  unfold chunk_extension_escaped_value; ttac

theorem t_chunk_extension_finished (hN : ¬ Stale P.fn) :
    T k n n' (chunk_extension_finished h (LL P n S k i m b l)) (chunk_extension_finished h (RR P n' S k i m b' l)) := by
  unfold chunk_extension_finished
  refine t_ifEos (by tstale) (t_next fun x => ?_)
  by_cases hx : (x == c! '\r') = true
  · have h1 : ((LL P n S k (i + 1) m x l).ctx.byte == c! '\r') = true := hx
    have h2 : ((RR P n' S k (i + 1) m x l).ctx.byte == c! '\r') = true := hx
    rw [if_pos h1, if_pos h2]; ttac
  · have h1 : ¬ ((LL P n S k (i + 1) m x l).ctx.byte == c! '\r') = true := hx
    have h2 : ¬ ((RR P n' S k (i + 1) m x l).ctx.byte == c! '\r') = true := hx
    rw [if_neg h1, if_neg h2]; ttac

theorem t_chunk_extensions_finished (hN : ¬ Stale P.fn) :
    T k n n' (chunk_extensions_finished h (LL P n S k i m b l)) (chunk_extensions_finished h (RR P n' S k i m b' l)) := by
  unfold chunk_extensions_finished; ttac

theorem t_chunk_data (hN : ¬ Stale P.fn) :
    T k n n' (chunk_data h (LL P n S k i m b l)) (chunk_data h (RR P n' S k i m b' l)) := by
  unfold chunk_data collectLength; ttac

theorem t_chunk_data_cr (hN : ¬ Stale P.fn) :
    T k n n' (chunk_data_cr (LL P n S k i m b l)) (chunk_data_cr (RR P n' S k i m b' l)) := by
  unfold chunk_data_cr expectCrlf; ttac

theorem t_chunk_data_lf (hN : ¬ Stale P.fn) :
    T k n n' (chunk_data_lf (LL P n S k i m b l)) (chunk_data_lf (RR P n' S k i m b' l)) := by
  unfold chunk_data_lf expectCrlf; ttac

theorem t_multipart_hyphen1 (hN : ¬ Stale P.fn) :
    T k n n' (multipart_hyphen1 h (LL P n S k i m b l)) (multipart_hyphen1 h (RR P n' S k i m b' l)) := by
  unfold multipart_hyphen1; ttac

theorem t_multipart_hyphen2 (hN : ¬ Stale P.fn) :
    T k n n' (multipart_hyphen2 h (LL P n S k i m b l)) (multipart_hyphen2 h (RR P n' S k i m b' l)) := by
  unfold multipart_hyphen2; ttac

theorem t_multipart_boundary_cr (hN : ¬ Stale P.fn) :
    T k n n' (multipart_boundary_cr h (LL P n S k i m b l)) (multipart_boundary_cr h (RR P n' S k i m b' l)) := by
  unfold multipart_boundary_cr; ttac

theorem t_multipart_boundary_lf (hN : ¬ Stale P.fn) :
    T k n n' (multipart_boundary_lf (LL P n S k i m b l)) (multipart_boundary_lf (RR P n' S k i m b' l)) := by
  unfold multipart_boundary_lf expectBoundary; ttac

theorem t_multipart_data_by_length (hN : ¬ Stale P.fn) :
    T k n n' (multipart_data_by_length h (LL P n S k i m b l)) (multipart_data_by_length h (RR P n' S k i m b' l)) := by
  unfold multipart_data_by_length collectLength; ttac

theorem t_multipart_data_by_length_cr (hN : ¬ Stale P.fn) :
    T k n n' (multipart_data_by_length_cr (LL P n S k i m b l)) (multipart_data_by_length_cr (RR P n' S k i m b' l)) := by
  unfold multipart_data_by_length_cr expectBoundary; ttac

theorem t_multipart_data_by_length_lf (hN : ¬ Stale P.fn) :
    T k n n' (multipart_data_by_length_lf (LL P n S k i m b l)) (multipart_data_by_length_lf (RR P n' S k i m b' l)) := by
  unfold multipart_data_by_length_lf expectBoundary; ttac

theorem t_multipart_data_by_byte (hN : ¬ Stale P.fn) :
    T k n n' (multipart_data_by_byte h (LL P n S k i m b l)) (multipart_data_by_byte h (RR P n' S k i m b' l)) := by
  unfold multipart_data_by_byte; ttac

theorem t_multipart_data_by_byte_lf (hN : ¬ Stale P.fn) :
    T k n n' (multipart_data_by_byte_lf h (LL P n S k i m b l)) (multipart_data_by_byte_lf h (RR P n' S k i m b' l)) := by
  unfold multipart_data_by_byte_lf; ttac

theorem t_multipart_end (hN : ¬ Stale P.fn) :
    T k n n' (multipart_end (LL P n S k i m b l)) (multipart_end (RR P n' S k i m b' l)) := by
  unfold multipart_end expectBoundary; ttac

theorem t_first_url_encoded_name (hN : ¬ Stale P.fn) :
    T k n n' (first_url_encoded_name h (LL P n S k i m b l)) (first_url_encoded_name h (RR P n' S k i m b' l)) := by
  unfold first_url_encoded_name; ttac

theorem t_url_encoded_name (hN : ¬ Stale P.fn) :
    T k n n' (url_encoded_name h (LL P n S k i m b l)) (url_encoded_name h (RR P n' S k i m b' l)) := by
  unfold url_encoded_name; ttac

theorem t_url_encoded_name_hex1 (hN : ¬ Stale P.fn) :
    T k n n' (url_encoded_name_hex1 (LL P n S k i m b l)) (url_encoded_name_hex1 (RR P n' S k i m b' l)) := by
  unfold url_encoded_name_hex1
  refine t_ifEos (by tstale) (t_next fun x => ?_)
  tnorm
  cases hexDigit x <;> dsimp only <;> ttac

theorem t_url_encoded_name_hex2 (hN : ¬ Stale P.fn) :
    T k n n' (url_encoded_name_hex2 h (LL P n S k i m b l)) (url_encoded_name_hex2 h (RR P n' S k i m b' l)) := by
  unfold url_encoded_name_hex2
  refine t_ifEos (by tstale) (t_next fun x => ?_)
  tnorm
  cases hexDigit x <;> dsimp only <;> ttac

theorem t_url_encoded_name_plus (hN : ¬ Stale P.fn) :
    T k n n' (url_encoded_name_plus h (LL P n S k i m b l)) (url_encoded_name_plus h (RR P n' S k i m b' l)) := by
  unfold url_encoded_name_plus; ttac

theorem t_url_encoded_value (hN : ¬ Stale P.fn) :
    T k n n' (url_encoded_value h (LL P n S k i m b l)) (url_encoded_value h (RR P n' S k i m b' l)) := by
  unfold url_encoded_value; ttac

theorem t_url_encoded_value_hex1 (hN : ¬ Stale P.fn) :
    T k n n' (url_encoded_value_hex1 (LL P n S k i m b l)) (url_encoded_value_hex1 (RR P n' S k i m b' l)) := by
  unfold url_encoded_value_hex1
  refine t_ifEos (by tstale) (t_next fun x => ?_)
  tnorm
  cases hexDigit x <;> dsimp only <;> ttac

theorem t_url_encoded_value_hex2 (hN : ¬ Stale P.fn) :
    T k n n' (url_encoded_value_hex2 h (LL P n S k i m b l)) (url_encoded_value_hex2 h (RR P n' S k i m b' l)) := by
  unfold url_encoded_value_hex2
  refine t_ifEos (by tstale) (t_next fun x => ?_)
  tnorm
  cases hexDigit x <;> dsimp only <;> ttac

theorem t_url_encoded_value_plus (hN : ¬ Stale P.fn) :
    T k n n' (url_encoded_value_plus h (LL P n S k i m b l)) (url_encoded_value_plus h (RR P n' S k i m b' l)) := by
  unfold url_encoded_value_plus; ttac

theorem t_body_finished (hN : ¬ Stale P.fn) :
    T k n n' (body_finished h (LL P n S k i m b l)) (body_finished h (RR P n' S k i m b' l)) := by
  unfold body_finished; ttac

theorem t_finished (hN : ¬ Stale P.fn) :
    T k n n' (finished (LL P n S k i m b l)) (finished (RR P n' S k i m b' l)) := by
  unfold finished; ttac

theorem t_detect1Method (hB : b = b') :
    T k n n' (detect1Method h (LL P n S k i m b l)) (detect1Method h (RR P n' S k i m b' l)) := by
  subst hB
  unfold detect1Method; ttac

theorem t_ub : T k n n' .ub .ub := trivial

theorem t_detect1 (hB : b = b') :
    T k n n' (detect1 h (LL P n S k i m b l)) (detect1 h (RR P n' S k i m b' l)) := by
  have e := t_detect1Method (h := h) (k := k) (P := P) (n := n) (n' := n') (S := S) (i := i)
    (m := m) (l := l) hB
  unfold detect1
  tnorm
  refine t_ite (fun _ => t_ub) fun _ => t_ite (fun _ => t_ite (fun _ => ?_) fun _ => ?_) fun _ => e
  · refine t_ite (fun _ => by ttac) fun _ => t_ite (fun _ => by ttac) fun _ =>
      t_ite (fun _ => by ttac) fun _ => t_ite (fun _ => by ttac) fun _ => e
  · ttac

theorem fhf_shift (P : Parser) (n n' : Nat) (S : Bytes) (k i m : Nat) (b : UInt8) (l : List Ev) :
    firstHeaderFast (LL P n S k i m b l).ctx = firstHeaderFast (RR P n' S k i m b l).ctx := by
  have e : ∀ x, firstHeaderFast x = firstHeaderFast ⟨x.rest, 0, 0, x.byte⟩ := fun _ => rfl
  rw [e (LL P n S k i m b l).ctx, e (RR P n' S k i m b l).ctx]
  have h1 : (RR P n' S k i m b l).ctx.rest = (LL P n S k i m b l).ctx.rest := by
    simp only [LL, RR, Ctx.rest, List.drop_drop]; rw [Nat.add_comm]
  rw [h1]
  rfl

theorem t_first_header_name (hB : b = b') :
    T k n n' (first_header_name h (LL P n S k i m b l)) (first_header_name h (RR P n' S k i m b' l)) := by
  subst hB
  have e : T k n n' (firstHeaderNameSlow (LL P n S k i m b l))
      (firstHeaderNameSlow (RR P n' S k i m b l)) := by
    unfold firstHeaderNameSlow; ttac
  unfold first_header_name
  rw [← fhf_shift P n n' S k i m b l]
  tnorm
  refine t_ite (fun _ => ?_) fun _ => e
  cases firstHeaderFast (LL P n S k i m b l).ctx with
  | none => exact e
  | some x => obtain ⟨x, y⟩ := x; dsimp only; ttac

theorem t_response_status2 (hN : ¬ Stale P.fn) :
    T k n n' (response_status2 h (LL P n S k i m b l)) (response_status2 h (RR P n' S k i m b' l)) := by
  unfold response_status2
  have hr := collT (P := P) (n := n) (n' := n') (S := S) (k := k) (i := i) (m := m) (b := b)
    (b' := b') (l := l) (fun b =>
      if isNonControl b then .cont else if b == c! '\r' then .brk else .fail)
  revert hr
  generalize (LL P n S k i m b l).ctx.collect _ = r
  generalize (RR P n' S k i m b' l).ctx.collect _ = r'
  intro hr
  cases hr with
  | eos j b b' => exact t_eos (by tstale)
  | brk j b => exact t_ign (by tstale)
  | fail j b => exact t_err (by tstale)
  | panic => trivial

theorem t_header_end (hN : ¬ Stale P.fn) :
    T k n n' (header_end h (LL P n S k i m b l)) (header_end h (RR P n' S k i m b' l)) := by
  unfold header_end
  tnorm
  cases P.ptype <;> dsimp only <;> ttac

theorem t_multipart_boundary (hN : ¬ Stale P.fn) :
    T k n n' (multipart_boundary h (LL P n S k i m b l)) (multipart_boundary h (RR P n' S k i m b' l)) := by
  unfold multipart_boundary
  refine t_ifEos (by tstale) ?_
  rw [l_bd, r_bd]
  cases P.boundary with
  | none => trivial
  | some bd =>
    dsimp only
    have e2 : (if bd.length - (getUpper14 (RR P n' S k i m b' l).p).toNat ≤
        (RR P n' S k i m b' l).ctx.available then bd.drop (getUpper14 (RR P n' S k i m b' l).p).toNat
        else (bd.drop (getUpper14 (RR P n' S k i m b' l).p).toNat).take
          (RR P n' S k i m b' l).ctx.available) =
        (if bd.length - (getUpper14 (LL P n S k i m b l).p).toNat ≤
        (LL P n S k i m b l).ctx.available then bd.drop (getUpper14 (LL P n S k i m b l).p).toNat
        else (bd.drop (getUpper14 (LL P n S k i m b l).p).toNat).take
          (LL P n S k i m b l).ctx.available) := by
      rw [r_av]; rfl
    rw [e2]
    generalize (if bd.length - (getUpper14 (LL P n S k i m b l).p).toNat ≤
        (LL P n S k i m b l).ctx.available then bd.drop (getUpper14 (LL P n S k i m b l).p).toNat
        else (bd.drop (getUpper14 (LL P n S k i m b l).p).toNat).take
          (LL P n S k i m b l).ctx.available) = sl
    tnorm
    refine t_ite (fun _ => t_panic) fun _ => t_ite (fun _ => t_ite (fun _ => ?_) fun _ => ?_) fun _ => ?_
    · ttac
    · ttac
    · ttac

theorem t_multipart_detect_data (hN : ¬ Stale P.fn) :
    T k n n' (multipart_detect_data h (LL P n S k i m b l))
      (multipart_detect_data h (RR P n' S k i m b' l)) := by
  unfold multipart_detect_data
  tnorm
  cases h.contentLength l <;> dsimp only <;> ttac

theorem t_step (hs : Stale P.fn → b = b') :
    T k n n' (step h (LL P n S k i m b l)) (step h (RR P n' S k i m b' l)) := by
  have e1 : (LL P n S k i m b l).p.fn = P.fn := rfl
  have e2 : (RR P n' S k i m b' l).p.fn = P.fn := rfl
  unfold step
  rw [e1, e2]
  cases hf : P.fn <;> rw [hf] at hs <;> dsimp only
  case dead => exact t_dead (by rw [hf]; decide)
  case stripDetect => exact t_strip_detect (by rw [hf]; decide)
  case detect1 => exact t_detect1 (hs (by decide))
  case detect2 => exact t_detect2 (by rw [hf]; decide)
  case detect3 => exact t_detect3 (by rw [hf]; decide)
  case detect4 => exact t_detect4 (by rw [hf]; decide)
  case detect5 => exact t_detect5 (by rw [hf]; decide)
  case requestMethod => exact t_request_method (by rw [hf]; decide)
  case requestUrl1 => exact t_request_url1 (by rw [hf]; decide)
  case requestUrl2 => exact t_request_url2 (by rw [hf]; decide)
  case requestHttp1 => exact t_request_http1 (by rw [hf]; decide)
  case requestHttp2 => exact t_request_http2 (by rw [hf]; decide)
  case requestHttp3 => exact t_request_http3 (by rw [hf]; decide)
  case requestHttp4 => exact t_request_http4 (by rw [hf]; decide)
  case requestHttp5 => exact t_request_http5 (by rw [hf]; decide)
  case requestVersionMajor1 => exact t_request_version_major1 (by rw [hf]; decide)
  case requestVersionMajor2 => exact t_request_version_major2 (by rw [hf]; decide)
  case requestVersionMajor3 => exact t_request_version_major3 (by rw [hf]; decide)
  case requestVersionPeriod => exact t_request_version_period (by rw [hf]; decide)
  case requestVersionMinor1 => exact t_request_version_minor1 (by rw [hf]; decide)
  case requestVersionMinor2 => exact t_request_version_minor2 (by rw [hf]; decide)
  case requestVersionMinor3 => exact t_request_version_minor3 (by rw [hf]; decide)
  case requestVersionCr => exact t_request_version_cr (by rw [hf]; decide)
  case responseVersionMajor1 => exact t_response_version_major1 (by rw [hf]; decide)
  case responseVersionMajor2 => exact t_response_version_major2 (by rw [hf]; decide)
  case responseVersionMajor3 => exact t_response_version_major3 (by rw [hf]; decide)
  case responseVersionPeriod => exact t_response_version_period (by rw [hf]; decide)
  case responseVersionMinor1 => exact t_response_version_minor1 (by rw [hf]; decide)
  case responseVersionMinor2 => exact t_response_version_minor2 (by rw [hf]; decide)
  case responseVersionMinor3 => exact t_response_version_minor3 (by rw [hf]; decide)
  case responseVersionSpace => exact t_response_version_space (by rw [hf]; decide)
  case responseStatusCode1 => exact t_response_status_code1 (by rw [hf]; decide)
  case responseStatusCode2 => exact t_response_status_code2 (by rw [hf]; decide)
  case responseStatusCode3 => exact t_response_status_code3 (by rw [hf]; decide)
  case responseStatusCodeSpace => exact t_response_status_code_space (by rw [hf]; decide)
  case responseStatus1 => exact t_response_status1 (by rw [hf]; decide)
  case responseStatus2 => exact t_response_status2 (by rw [hf]; decide)
  case initialEnd => exact t_initial_end (by rw [hf]; decide)
  case initialLf => exact t_initial_lf (by rw [hf]; decide)
  case checkHeaderName => exact t_check_header_name (by rw [hf]; decide)
  case firstHeaderName => exact t_first_header_name (hs (by decide))
  case upperHeaderName => exact t_upper_header_name (by rw [hf]; decide)
  case lowerHeaderName => exact t_lower_header_name (by rw [hf]; decide)
  case stripHeaderValue => exact t_strip_header_value (by rw [hf]; decide)
  case headerValue => exact t_header_value (by rw [hf]; decide)
  case headerQuotedValue => exact t_header_quoted_value (by rw [hf]; decide)
  case headerEscapedValue => exact t_header_escaped_value (by rw [hf]; decide)
  case headerCr1 => exact t_header_cr1 (by rw [hf]; decide)
  case headerLf1 => exact t_header_lf1 (by rw [hf]; decide)
  case headerCr2 => exact t_header_cr2 (by rw [hf]; decide)
  case headerLf2 => exact t_header_lf2 (by rw [hf]; decide)
  case headerEnd => exact t_header_end (by rw [hf]; decide)
  case chunkLength1 => exact t_chunk_length1 (by rw [hf]; decide)
  case chunkLength2 => exact t_chunk_length2 (by rw [hf]; decide)
  case chunkLength3 => exact t_chunk_length3 (by rw [hf]; decide)
  case chunkLength4 => exact t_chunk_length4 (by rw [hf]; decide)
  case chunkLength5 => exact t_chunk_length5 (by rw [hf]; decide)
  case chunkLength6 => exact t_chunk_length6 (by rw [hf]; decide)
  case chunkLength7 => exact t_chunk_length7 (by rw [hf]; decide)
  case chunkLength8 => exact t_chunk_length8 (by rw [hf]; decide)
  case chunkLengthCr => exact t_chunk_length_cr (by rw [hf]; decide)
  case chunkLengthLf => exact t_chunk_length_lf (by rw [hf]; decide)
  case stripChunkExtensionName => exact t_strip_chunk_extension_name (by rw [hf]; decide)
  case lowerChunkExtensionName => exact t_lower_chunk_extension_name (by rw [hf]; decide)
  case upperChunkExtensionName => exact t_upper_chunk_extension_name (by rw [hf]; decide)
  case stripChunkExtensionValue => exact t_strip_chunk_extension_value (by rw [hf]; decide)
  case chunkExtensionValue => exact t_chunk_extension_value (by rw [hf]; decide)
  case chunkExtensionQuotedValue => exact t_chunk_extension_quoted_value (by rw [hf]; decide)
  case chunkExtensionEscapedValue => exact t_chunk_extension_escaped_value (by rw [hf]; decide)
  case chunkExtensionFinished => exact t_chunk_extension_finished (by rw [hf]; decide)
  case chunkExtensionsFinished => exact t_chunk_extensions_finished (by rw [hf]; decide)
  case chunkData => exact t_chunk_data (by rw [hf]; decide)
  case chunkDataCr => exact t_chunk_data_cr (by rw [hf]; decide)
  case chunkDataLf => exact t_chunk_data_lf (by rw [hf]; decide)
  case multipartHyphen1 => exact t_multipart_hyphen1 (by rw [hf]; decide)
  case multipartHyphen2 => exact t_multipart_hyphen2 (by rw [hf]; decide)
  case multipartBoundary => exact t_multipart_boundary (by rw [hf]; decide)
  case multipartBoundaryCr => exact t_multipart_boundary_cr (by rw [hf]; decide)
  case multipartBoundaryLf => exact t_multipart_boundary_lf (by rw [hf]; decide)
  case multipartDetectData => exact t_multipart_detect_data (by rw [hf]; decide)
  case multipartDataByLength => exact t_multipart_data_by_length (by rw [hf]; decide)
  case multipartDataByLengthCr => exact t_multipart_data_by_length_cr (by rw [hf]; decide)
  case multipartDataByLengthLf => exact t_multipart_data_by_length_lf (by rw [hf]; decide)
  case multipartDataByByte => exact t_multipart_data_by_byte (by rw [hf]; decide)
  case multipartDataByByteLf => exact t_multipart_data_by_byte_lf (by rw [hf]; decide)
  case multipartEnd => exact t_multipart_end (by rw [hf]; decide)
  case firstUrlEncodedName => exact t_first_url_encoded_name (by rw [hf]; decide)
  case urlEncodedName => exact t_url_encoded_name (by rw [hf]; decide)
  case urlEncodedNameHex1 => exact t_url_encoded_name_hex1 (by rw [hf]; decide)
  case urlEncodedNameHex2 => exact t_url_encoded_name_hex2 (by rw [hf]; decide)
  case urlEncodedNamePlus => exact t_url_encoded_name_plus (by rw [hf]; decide)
  case urlEncodedValue => exact t_url_encoded_value (by rw [hf]; decide)
  case urlEncodedValueHex1 => exact t_url_encoded_value_hex1 (by rw [hf]; decide)
  case urlEncodedValueHex2 => exact t_url_encoded_value_hex2 (by rw [hf]; decide)
  case urlEncodedValuePlus => exact t_url_encoded_value_plus (by rw [hf]; decide)
  case bodyFinished => exact t_body_finished (by rw [hf]; decide)
  case finished => exact t_finished (by rw [hf]; decide)

/-- Two runs of the parser loop. -/
def PT (k n n' : Nat) : Res × Cfg → Res × Cfg → Prop
  | (.ok s, c), (.ok s', c') => relS c.ctx.idx c'.ctx.idx s s' ∧
      ∃ P S i m b b' l, c = LL P (n + (i + k)) S k i m b l ∧ c' = RR P (n' + i) S k i m b' l ∧
        (Stale P.fn → b = b')
  | (.err e, c), (.err e', c') => e = e' ∧
      ∃ P S i m b b' l, c = LL P (n + (i + k)) S k i m b l ∧ c' = RR P (n' + i) S k i m b' l ∧
        (Stale P.fn → b = b')
  | (.panic, c), (.panic, c') => c.log = c'.log
  | (.ub, c), (.ub, c') => c.log = c'.log
  | (.diverge, _), (.diverge, _) => True
  | _, _ => False

theorem t_parse : ∀ (f : Nat) (c c' : Cfg), Rel k n n' c c' → PT k n n' (parse h f c) (parse h f c')
  | 0, c, c', _ => trivial
  | f + 1, c, c', hr => by
    obtain ⟨P, S, i, m, b, b', l, rfl, rfl, hb⟩ := hr
    have ht := t_step (h := h) (k := k) (n := n) (n' := n') (S := S) (i := i) (m := m) (l := l) hb
    simp only [parse]
    revert ht
    cases step h (LL P n S k i m b l) <;> cases step h (RR P n' S k i m b' l) <;> intro ht <;>
      simp only [T] at ht
    · exact t_parse f _ _ ht
    · rename_i s c s' c'
      obtain ⟨⟨P, S, i, m, b, b', l, rfl, rfl, hb⟩, hs⟩ := ht
      cases s <;> cases s' <;> simp only [relS] at hs
      · exact ⟨hs, P, S, i, m, b, b', l, rfl, rfl, hb⟩
      · exact ⟨hs, P, S, i, m, b, b', l, rfl, rfl, hb⟩
      · exact ⟨hs, { P with state := .finished }, S, i, m, b, b', l, rfl, rfl, hb⟩
    · obtain ⟨rfl, P, S, i, m, b, b', l, rfl, rfl, hb⟩ := ht
      exact ⟨rfl, { P with state := .dead, fn := .dead }, S, i, m, b, b', l, rfl, rfl,
        fun hs => absurd hs (by dsimp only; decide)⟩
    · rfl
    · rfl

end Verif.Http1
