import Verif.Http1.FrameRun
import Verif.Http1.SimBase
import Mathlib.Tactic.Linarith

/-!
# Where the parser can panic (helper lemmas)
-/

set_option linter.unusedSimpArgs false
set_option linter.unusedVariables false

namespace Verif.Http1

variable {env : Env} {fut : Bytes} {K : List Ev × Fin} {h : Handler} {c : Cfg}

/-- What is said about one state function call: a panic is excused by `P`, there is no read outside
the slice, and `detect1` follows only with a byte to read. -/
def NP (P : Prop) : Out → Prop
  | .panic => P
  | .ub => False
  | .cont c => c.p.fn ≠ .detect1 ∨ c.ctx.idx < c.ctx.stream.length
  | .exit _ c => c.p.fn ≠ .detect1
  | .err _ _ => True

/-- Position and mark are inside the slice `S`. -/
structure NC (S : Bytes) (c : Cfg) : Prop where
  stream : c.ctx.stream = S
  mark : c.ctx.mark ≤ c.ctx.idx
  idx : c.ctx.idx ≤ S.length
  nd : c.p.fn ≠ .detect1

variable {P : Prop} {S : Bytes}

theorem np_ite {p : Prop} [Decidable p] {a b : Out} (h1 : p → NP P a) (h2 : ¬ p → NP P b) :
    NP P (if p then a else b) := by split <;> [exact h1 ‹_›; exact h2 ‹_›]
theorem np_err {e : PErr} : NP P (.err e c) := trivial
theorem np_exit {s : Success} (N : NC S c) : NP P (.exit s c) := N.nd
theorem np_exitEos (N : NC S c) : NP P (exitEos c) := N.nd
theorem np_remark (N : NC S c) : NP P (remark c) := .inl N.nd
theorem np_transition {s f : St} (hf : f ≠ .detect1) : NP P (transition c s f) := .inl hf
theorem np_transitionNR {s f : St} (hf : f ≠ .detect1) : NP P (transitionNoRemark c s f) := .inl hf
theorem np_exitIfEos {k : Out} (N : NC S c) (hk : c.ctx.idx < S.length → NP P k) :
    NP P (exitIfEos c k) := by
  unfold exitIfEos
  refine np_ite (fun _ => N.nd) fun h => hk ?_
  simp only [Ctx.available, N.stream] at h
  omega
theorem np_next {k : Cfg → Out} (N : NC S c) (hlt : c.ctx.idx < S.length)
    (hk : ∀ c', NC S c' → c'.ctx.idx = c.ctx.idx + 1 → c'.ctx.mark < c'.ctx.idx → NP P (k c')) :
    NP P (next c k) := by
  have hlt' : c.ctx.idx < c.ctx.stream.length := by rw [N.stream]; exact hlt
  simp only [next, Ctx.next, List.getElem?_eq_getElem hlt']
  have := N.mark
  exact hk _ ⟨N.stream, by simp only; omega, by simp only; omega, N.nd⟩ rfl (by simp only; omega)
theorem np_replay {k : Cfg → Out} (N : NC S c) (hlt : c.ctx.mark < c.ctx.idx)
    (hk : ∀ c', NC S c' → NP P (k c')) : NP P (replay c k) := by
  unfold replay
  have := N.idx
  refine np_ite (fun h => by omega) fun h => hk _ ⟨N.stream, ?_, ?_, N.nd⟩ <;>
    simp only [Ctx.replay] <;> omega
theorem np_data {e : Ev} {k : Cfg → Out} (N : NC S c) (hk : ∀ c', NC S c' → NP P (k c')) :
    NP P (callbackData h c e k) := by
  simp only [callbackData]
  split
  · exact hk _ ⟨N.stream, N.mark, N.idx, N.nd⟩
  · exact N.nd
theorem np_slice {mk : Bytes → Ev} {k : Cfg → Out} (N : NC S c)
    (hk : ∀ c', NC S c' → NP P (k c')) : NP P (callbackSlice h c mk k) := by
  unfold callbackSlice
  have := N.mark
  exact np_ite (fun h => by omega) fun _ => np_ite (fun _ => np_data N hk) fun _ => hk _ N
theorem NC.set (N : NC S c) (s : St) {f : St} (hf : f ≠ .detect1) : NC S (setState c s f) :=
  ⟨N.stream, N.mark, N.idx, hf⟩
theorem NC.withP (N : NC S c) (f : Parser → Parser) (hf : (f c.p).fn = c.p.fn) :
    NC S (withP c f) := ⟨N.stream, N.mark, N.idx, fun h => N.nd (hf.symm.trans h)⟩
theorem NC.jump (N : NC S c) {n : Nat} (hn : c.ctx.idx + n ≤ S.length) : NC S (jump c n) :=
  ⟨N.stream, by have := N.mark; simp only [Http1.jump, Ctx.jump]; omega, hn, N.nd⟩
theorem np_eos {mk : Bytes → Ev} (N : NC S c) : NP P (callbackEos h c mk) :=
  np_slice N fun _ N => N.nd
theorem np_ts {mk : Bytes → Ev} {s f : St} (N : NC S c) (hf : f ≠ .detect1) :
    NP P (callbackTransition h c mk s f) :=
  np_slice (N.set s hf) fun _ N => .inl N.nd
theorem np_dataR {e : Ev} (hf : c.p.fn ≠ .detect1) : NP P (callbackData h c e remark) := by
  unfold callbackData; simp only; split
  · exact .inl hf
  · exact hf
theorem np_td {e : Ev} {s f : St} (hf : f ≠ .detect1) :
    NP P (callbackTransitionData h c e s f) := np_dataR hf
theorem np_ign {mk : Bytes → Ev} {s f : St} (N : NC S c) (hf : f ≠ .detect1) :
    NP P (callbackIgnoreTransition h c mk s f) := by
  unfold callbackIgnoreTransition
  have := N.mark
  exact np_ite (fun h => by simp only [setState] at h; omega) fun _ =>
    np_ite (fun _ => np_dataR hf) fun _ => .inl hf

/-- A loop that panics on byte 255 only and does not fail. -/
def SafeAct (act : UInt8 → Ctx.Act) : Prop := ∀ b, (act b = .panic → b = 255) ∧ act b ≠ .fail

/-- What a collecting loop leaves behind unless `P`. -/
def CollNP (P : Prop) (x : Ctx) : Ctx.Collect → Prop
  | .eos x' => x'.stream = x.stream ∧ x'.mark = x.mark ∧ x.idx ≤ x'.idx ∧ x'.idx ≤ x.stream.length
  | .brk x' => BrkOK x x'
  | _ => P

theorem coll_np {act : UInt8 → Ctx.Act} (ha : SafeAct act) (hP : 255 ∈ S → P) (N : NC S c) :
    CollNP P c.ctx (c.ctx.collect act) := by
  have h1 := collect_ok act c.ctx (by rw [N.stream]; exact N.idx)
  have h2 := collectGo_spec act c.ctx.rest c.ctx
  revert h1 h2
  simp only [Ctx.collect]
  cases Ctx.collectGo act c.ctx.rest c.ctx with
  | eos x => intro h1 _; exact ⟨h1.1, h1.2.1, h1.2.2.1, by rw [h1.2.2.2]⟩
  | brk x => intro h1 _; exact h1
  | fail x => rintro - ⟨pre, b, post, -, -, hb, -⟩; exact absurd hb (ha b).2
  | panic =>
    rintro - ⟨pre, b, post, hr, -, hb⟩
    refine hP ?_
    have hb' := (ha b).1 hb
    have : b ∈ c.ctx.rest := by rw [hr]; simp
    rw [← N.stream, ← hb']
    exact List.mem_of_mem_drop this

theorem coll_np_ls (N : NC S c) : CollNP P c.ctx c.ctx.consumeLinearSpace := by
  have h1 := consumeLinearSpace_ok c.ctx (by rw [N.stream]; exact N.idx)
  revert h1
  have h3 : ∀ x, c.ctx.consumeLinearSpace ≠ .fail x ∧ c.ctx.consumeLinearSpace ≠ .panic := by
    intro x
    unfold Ctx.consumeLinearSpace
    split
    · exact ⟨nofun, nofun⟩
    · split
      · have h2 := collectGo_spec (fun b => if b == c! ' ' || b == c! '\t' then .cont else .brk)
          c.ctx.rest c.ctx
        simp only [Ctx.linearSpaceLoop, Ctx.collect]
        constructor
        · intro he
          rw [he] at h2
          obtain ⟨_, b, _, -, -, hb, -⟩ := h2
          split at hb <;> cases hb
        · intro he
          rw [he] at h2
          obtain ⟨_, b, _, -, -, hb⟩ := h2
          split at hb <;> cases hb
      · rename_i hav _
        simp only [Ctx.available] at hav
        have hlt : c.ctx.idx < c.ctx.stream.length := by omega
        simp only [Ctx.next, List.getElem?_eq_getElem hlt]
        exact ⟨nofun, nofun⟩
  cases h : c.ctx.consumeLinearSpace with
  | eos x => intro h1; exact ⟨h1.1, h1.2.1, h1.2.2.1, by rw [h1.2.2.2]⟩
  | brk x => intro h1; exact h1
  | fail x => exact absurd h (h3 x).1
  | panic => exact absurd h (h3 c.ctx).2

theorem np_collecting {r : Ctx.Collect} {e k : Cfg → Out} (N : NC S c) (hr : CollNP P c.ctx r)
    (he : ∀ c', NC S c' → NP P (e c'))
    (hk : ∀ c', NC S c' → c'.ctx.mark < c'.ctx.idx → NP P (k c')) :
    NP P (collecting c r e k) := by
  have := N.mark
  cases r with
  | eos x =>
    obtain ⟨h1, h2, h3, h4⟩ := hr
    exact he _ ⟨h1.trans N.stream, by simp only [h2]; omega, by rw [← N.stream]; exact h4, N.nd⟩
  | brk x =>
    have h1 := hr.lt
    have h2 := hr.mark
    exact hk _ ⟨hr.stream.trans N.stream, by simp only [h2]; omega, by rw [← N.stream]; exact hr.le, N.nd⟩
      (by simp only [h2]; omega)
  | fail x => exact hr
  | panic => exact hr

theorem safe_class {cls : UInt8 → Option Bool} {stop : UInt8 → Bool}
    (hc : ∀ b, cls b = none → b = 255) : SafeAct (Ctx.classAct cls stop) := by
  intro b
  unfold Ctx.classAct
  cases h : cls b with
  | none => exact ⟨fun _ => hc b h, nofun⟩
  | some t => cases t <;> simp <;> split <;> simp

theorem isToken_none : ∀ b, isToken b = none → b = 255 :=
  forall_u8 (by decide +kernel)
theorem isHeaderField_none : ∀ b, isHeaderField b = none → b = 255 :=
  forall_u8 (by decide +kernel)
theorem isQuotedHeaderField_none : ∀ b, isQuotedHeaderField b = none → b = 255 :=
  forall_u8 (by decide +kernel)

theorem safe_if {p : UInt8 → Bool} : SafeAct (fun b => if p b then .brk else .cont) := by
  intro b; dsimp only; split <;> exact ⟨nofun, nofun⟩
theorem safe_if' {p : UInt8 → Bool} : SafeAct (fun b => if p b then .cont else .brk) := by
  intro b; dsimp only; split <;> exact ⟨nofun, nofun⟩

theorem np_response_status2 (N : NC S c) (hP : 255 ∈ S → P) : NP P (response_status2 h c) := by
  unfold response_status2
  have h1 := collect_ok (fun b => if isNonControl b then .cont else if b == c! '\r' then .brk
    else .fail) c.ctx (by rw [N.stream]; exact N.idx)
  have h2 := collectGo_spec (fun b => if isNonControl b then .cont else if b == c! '\r' then .brk
    else .fail) c.ctx.rest c.ctx
  have := N.mark
  split <;> rename_i heq <;> rw [heq] at h1
  · obtain ⟨h1, h2, h3, h4⟩ := h1
    exact np_eos ⟨h1.trans N.stream, by simp only [h2]; omega, by rw [h4, N.stream], N.nd⟩
  · have h3 := h1.lt
    exact np_ign ⟨h1.stream.trans N.stream, by simp only [h1.mark]; omega,
      by rw [← N.stream]; exact h1.le, N.nd⟩ nofun
  · exact np_err
  · simp only [Ctx.collect] at heq
    rw [heq] at h2
    obtain ⟨_, b, _, -, -, hb⟩ := h2
    repeat' (split at hb <;> try cases hb)

/-- When `multipart_boundary` can panic. -/
def BdBad (c : Cfg) : Prop :=
  c.p.fn = .multipartBoundary ∧ ∀ bd, c.p.boundary = some bd → bd.length < (getUpper14 c.p).toNat

set_option hygiene false in
macro "np_tac" : tactic => `(tactic|
  repeat' first
    | exact np_err
    | exact np_exit (S := S) (by assumption)
    | exact np_exitEos (NC.withP (NC.jump (by assumption) (by have hst := N.stream; simp only [Ctx.available, List.length_drop, List.length_take, hst] at *; omega)) _ rfl)
    | exact np_exitEos (S := S) (by assumption)
    | exact np_remark (S := S) (by assumption)
    | exact np_transition (by intro hx; cases hx; done)
    | exact np_transitionNR (by intro hx; cases hx; done)
    | exact np_td (by intro hx; cases hx; done)
    | exact np_dataR N.nd
    | exact np_dataR (by intro hx; cases hx; done)
    | assumption
    | (with_reducible refine np_exitIfEos (S := S) ?_ (fun _ => ?_))
    | (with_reducible refine np_next (S := S) ?_ ?_ (fun c' _ _ _ => ?_))
    | (with_reducible refine np_replay (S := S) ?_ ?_ (fun c' _ => ?_))
    | (with_reducible refine np_eos (S := S) ?_)
    | (with_reducible refine np_ign (S := S) ?_ ?_)
    | (with_reducible refine np_ts (S := S) ?_ ?_)
    | (with_reducible refine np_collecting (S := S) ?_ ?_ (fun c' _ => ?_) (fun c' _ _ => ?_))
    | exact coll_np_ls (by assumption)
    | exact coll_np (safe_class isToken_none) hP (by assumption)
    | exact coll_np (safe_class isHeaderField_none) hP (by assumption)
    | exact coll_np (safe_class isQuotedHeaderField_none) hP (by assumption)
    | exact coll_np safe_if hP (by assumption)
    | exact coll_np safe_if' hP (by assumption)
    | (with_reducible refine np_ite (fun _ => ?_) (fun _ => ?_))
    | (with_reducible refine NC.withP ?_ _ ?_)
    | rfl
    | (refine NC.jump (by assumption) ?_)
    | (refine NC.jump (NC.withP (by assumption) _ rfl) ?_)
    | (have hst := N.stream; simp only [Ctx.available, withP, hst] at *; omega)
    | decide
    | split)

theorem np_multipart_boundary (N : NC S c) (hB : BdBad c → P) (hfn : c.p.fn = .multipartBoundary) :
    NP P (multipart_boundary h c) := by
  unfold multipart_boundary
  refine np_exitIfEos (S := S) N fun hav => ?_
  split
  · rename_i hb
    exact hB ⟨hfn, fun bd h => by rw [hb] at h; cases h⟩
  · rename_i bd hb
    dsimp only
    refine np_ite (fun hu => hB ⟨hfn, fun bd' h => ?_⟩) fun hu => ?_
    · rw [hb] at h; cases h; exact hu
    · np_tac

macro "np_un" f:ident : tactic => `(tactic|
  simp only [$f:ident, detect1Method, detectByte, expectVersion, versionMajor1, versionMajorN,
    versionMinor1, versionMinorN, versionEnd, expectCrlf, firstHeaderNameSlow, chunkLengthN,
    collectLength, expectBoundary, pushHex])

theorem np_dead (N : NC S c) (hP : 255 ∈ S → P) : NP P (dead c) := by
  np_un dead
  np_tac

theorem np_strip_detect (N : NC S c) : NP P (strip_detect c) := by
  unfold strip_detect
  refine np_collecting N ?_ (fun c' N => N.nd) (fun c' N' hlt => ?_)
  · have := coll_np (P := False) (S := S) (c := c)
      (act := fun b => if isBlank b then .cont else .brk) safe_if'
    have h1 := collect_ok (fun b => if isBlank b then .cont else .brk) c.ctx
      (by rw [N.stream]; exact N.idx)
    have h2 := collectGo_spec (fun b => if isBlank b then .cont else .brk) c.ctx.rest c.ctx
    revert h1 h2
    simp only [Ctx.collect]
    cases Ctx.collectGo (fun b => if isBlank b then .cont else .brk) c.ctx.rest c.ctx with
    | eos x => intro h1 _; exact ⟨h1.1, h1.2.1, h1.2.2.1, by rw [h1.2.2.2]⟩
    | brk x => intro h1 _; exact h1
    | fail x =>
      rintro - ⟨pre, b, post, -, -, hb, -⟩
      exact absurd hb (safe_if' b).2
    | panic =>
      rintro - ⟨pre, b, post, -, -, hb⟩
      split at hb <;> cases hb
  · unfold replay
    have := N'.idx
    refine np_ite (fun h => by omega) fun h => .inr ?_
    simp only [setState, Ctx.setMark, Ctx.replay, N'.stream]
    omega

theorem np_detect1 (hlt : c.ctx.idx < c.ctx.stream.length) : NP P (detect1 h c) := by
  have hav : ¬ c.ctx.available = 0 := by simp only [Ctx.available]; omega
  have slow : NP P (exitIfEos c <| next c fun c =>
      if isUpper c.ctx.byte then transitionNoRemark c .requestMethod .requestMethod
      else .err (.method c.ctx.byte) c) := by
    simp only [exitIfEos, if_neg hav, next, Ctx.next, List.getElem?_eq_getElem hlt]
    exact np_ite (fun _ => np_transitionNR nofun) fun _ => np_err
  have hm : NP P (detect1Method h c) := by
    unfold detect1Method
    repeat' first
      | exact slow
      | exact np_td nofun
      | (with_reducible refine np_ite (fun _ => ?_) (fun _ => ?_))
  unfold detect1
  simp only [if_neg hav]
  repeat' first
    | exact hm
    | exact np_dataR nofun
    | exact np_transition nofun
    | (with_reducible refine np_ite (fun _ => ?_) (fun _ => ?_))

theorem np_detect2 (N : NC S c) (hP : 255 ∈ S → P) : NP P (detect2 c) := by
  np_un detect2
  np_tac

theorem np_detect3 (N : NC S c) (hP : 255 ∈ S → P) : NP P (detect3 c) := by
  np_un detect3
  np_tac

theorem np_detect4 (N : NC S c) (hP : 255 ∈ S → P) : NP P (detect4 c) := by
  np_un detect4
  np_tac

theorem np_detect5 (N : NC S c) (hP : 255 ∈ S → P) : NP P (detect5 c) := by
  np_un detect5
  np_tac

theorem np_request_method (N : NC S c) (hP : 255 ∈ S → P) : NP P (request_method h c) := by
  np_un request_method
  np_tac

theorem np_request_url1 (N : NC S c) (hP : 255 ∈ S → P) : NP P (request_url1 c) := by
  np_un request_url1
  np_tac

theorem np_request_url2 (N : NC S c) (hP : 255 ∈ S → P) : NP P (request_url2 h c) := by
  np_un request_url2
  np_tac

theorem np_request_http1 (N : NC S c) (hP : 255 ∈ S → P) : NP P (request_http1 h c) := by
  np_un request_http1
  np_tac

theorem np_request_http2 (N : NC S c) (hP : 255 ∈ S → P) : NP P (request_http2 c) := by
  np_un request_http2
  np_tac

theorem np_request_http3 (N : NC S c) (hP : 255 ∈ S → P) : NP P (request_http3 c) := by
  np_un request_http3
  np_tac

theorem np_request_http4 (N : NC S c) (hP : 255 ∈ S → P) : NP P (request_http4 c) := by
  np_un request_http4
  np_tac

theorem np_request_http5 (N : NC S c) (hP : 255 ∈ S → P) : NP P (request_http5 c) := by
  np_un request_http5
  np_tac

theorem np_request_version_major1 (N : NC S c) (hP : 255 ∈ S → P) : NP P (request_version_major1 c) := by
  np_un request_version_major1
  np_tac

theorem np_request_version_major2 (N : NC S c) (hP : 255 ∈ S → P) : NP P (request_version_major2 c) := by
  np_un request_version_major2
  np_tac

theorem np_request_version_major3 (N : NC S c) (hP : 255 ∈ S → P) : NP P (request_version_major3 c) := by
  np_un request_version_major3
  np_tac

theorem np_request_version_period (N : NC S c) (hP : 255 ∈ S → P) : NP P (request_version_period c) := by
  np_un request_version_period
  np_tac

theorem np_request_version_minor1 (N : NC S c) (hP : 255 ∈ S → P) : NP P (request_version_minor1 c) := by
  np_un request_version_minor1
  np_tac

theorem np_request_version_minor2 (N : NC S c) (hP : 255 ∈ S → P) : NP P (request_version_minor2 c) := by
  np_un request_version_minor2
  np_tac

theorem np_request_version_minor3 (N : NC S c) (hP : 255 ∈ S → P) : NP P (request_version_minor3 c) := by
  np_un request_version_minor3
  np_tac

theorem np_request_version_cr (N : NC S c) (hP : 255 ∈ S → P) : NP P (request_version_cr h c) := by
  np_un request_version_cr
  np_tac

theorem np_response_version_major1 (N : NC S c) (hP : 255 ∈ S → P) : NP P (response_version_major1 c) := by
  np_un response_version_major1
  np_tac

theorem np_response_version_major2 (N : NC S c) (hP : 255 ∈ S → P) : NP P (response_version_major2 c) := by
  np_un response_version_major2
  np_tac

theorem np_response_version_major3 (N : NC S c) (hP : 255 ∈ S → P) : NP P (response_version_major3 c) := by
  np_un response_version_major3
  np_tac

theorem np_response_version_period (N : NC S c) (hP : 255 ∈ S → P) : NP P (response_version_period c) := by
  np_un response_version_period
  np_tac

theorem np_response_version_minor1 (N : NC S c) (hP : 255 ∈ S → P) : NP P (response_version_minor1 c) := by
  np_un response_version_minor1
  np_tac

theorem np_response_version_minor2 (N : NC S c) (hP : 255 ∈ S → P) : NP P (response_version_minor2 c) := by
  np_un response_version_minor2
  np_tac

theorem np_response_version_minor3 (N : NC S c) (hP : 255 ∈ S → P) : NP P (response_version_minor3 c) := by
  np_un response_version_minor3
  np_tac

theorem np_response_version_space (N : NC S c) (hP : 255 ∈ S → P) : NP P (response_version_space h c) := by
  np_un response_version_space
  np_tac

theorem np_response_status_code1 (N : NC S c) (hP : 255 ∈ S → P) : NP P (response_status_code1 c) := by
  np_un response_status_code1
  np_tac

theorem np_response_status_code2 (N : NC S c) (hP : 255 ∈ S → P) : NP P (response_status_code2 c) := by
  np_un response_status_code2
  np_tac

theorem np_response_status_code3 (N : NC S c) (hP : 255 ∈ S → P) : NP P (response_status_code3 c) := by
  np_un response_status_code3
  np_tac

theorem np_response_status_code_space (N : NC S c) (hP : 255 ∈ S → P) : NP P (response_status_code_space h c) := by
  np_un response_status_code_space
  np_tac

theorem np_response_status1 (N : NC S c) (hP : 255 ∈ S → P) : NP P (response_status1 c) := by
  np_un response_status1
  np_tac

theorem np_initial_end (N : NC S c) (hP : 255 ∈ S → P) : NP P (initial_end h c) := by
  np_un initial_end
  np_tac

theorem np_initial_lf (N : NC S c) (hP : 255 ∈ S → P) : NP P (initial_lf c) := by
  np_un initial_lf
  np_tac

theorem np_check_header_name (N : NC S c) (hP : 255 ∈ S → P) : NP P (check_header_name c) := by
  np_un check_header_name
  np_tac

theorem np_first_header_name (N : NC S c) (hP : 255 ∈ S → P) : NP P (first_header_name h c) := by
  np_un first_header_name
  np_tac

theorem np_upper_header_name (N : NC S c) (hP : 255 ∈ S → P) : NP P (upper_header_name h c) := by
  np_un upper_header_name
  np_tac

theorem np_lower_header_name (N : NC S c) (hP : 255 ∈ S → P) : NP P (lower_header_name h c) := by
  np_un lower_header_name
  np_tac

theorem np_strip_header_value (N : NC S c) (hP : 255 ∈ S → P) : NP P (strip_header_value c) := by
  np_un strip_header_value
  np_tac

theorem np_header_value (N : NC S c) (hP : 255 ∈ S → P) : NP P (header_value h c) := by
  np_un header_value
  np_tac

theorem np_header_quoted_value (N : NC S c) (hP : 255 ∈ S → P) : NP P (header_quoted_value h c) := by
  np_un header_quoted_value
  np_tac

theorem np_header_escaped_value (N : NC S c) (hP : 255 ∈ S → P) : NP P (header_escaped_value h c) := by
  np_un header_escaped_value
  np_tac

theorem np_header_cr1 (N : NC S c) (hP : 255 ∈ S → P) : NP P (header_cr1 c) := by
  np_un header_cr1
  np_tac

theorem np_header_lf1 (N : NC S c) (hP : 255 ∈ S → P) : NP P (header_lf1 c) := by
  np_un header_lf1
  np_tac

theorem np_header_cr2 (N : NC S c) (hP : 255 ∈ S → P) : NP P (header_cr2 c) := by
  np_un header_cr2
  np_tac

theorem np_header_lf2 (N : NC S c) (hP : 255 ∈ S → P) : NP P (header_lf2 c) := by
  np_un header_lf2
  np_tac

theorem np_header_end (N : NC S c) (hP : 255 ∈ S → P) : NP P (header_end h c) := by
  np_un header_end
  np_tac

theorem np_chunk_length1 (N : NC S c) (hP : 255 ∈ S → P) : NP P (chunk_length1 h c) := by
  np_un chunk_length1
  np_tac

theorem np_chunk_length2 (N : NC S c) (hP : 255 ∈ S → P) : NP P (chunk_length2 c) := by
  np_un chunk_length2
  np_tac

theorem np_chunk_length3 (N : NC S c) (hP : 255 ∈ S → P) : NP P (chunk_length3 c) := by
  np_un chunk_length3
  np_tac

theorem np_chunk_length4 (N : NC S c) (hP : 255 ∈ S → P) : NP P (chunk_length4 c) := by
  np_un chunk_length4
  np_tac

theorem np_chunk_length5 (N : NC S c) (hP : 255 ∈ S → P) : NP P (chunk_length5 c) := by
  np_un chunk_length5
  np_tac

theorem np_chunk_length6 (N : NC S c) (hP : 255 ∈ S → P) : NP P (chunk_length6 c) := by
  np_un chunk_length6
  np_tac

theorem np_chunk_length7 (N : NC S c) (hP : 255 ∈ S → P) : NP P (chunk_length7 c) := by
  np_un chunk_length7
  np_tac

theorem np_chunk_length8 (N : NC S c) (hP : 255 ∈ S → P) : NP P (chunk_length8 c) := by
  np_un chunk_length8
  np_tac

theorem np_chunk_length_cr (N : NC S c) (hP : 255 ∈ S → P) : NP P (chunk_length_cr h c) := by
  np_un chunk_length_cr
  np_tac

theorem np_chunk_length_lf (N : NC S c) (hP : 255 ∈ S → P) : NP P (chunk_length_lf c) := by
  np_un chunk_length_lf
  np_tac

theorem np_strip_chunk_extension_name (N : NC S c) (hP : 255 ∈ S → P) : NP P (strip_chunk_extension_name c) := by
  np_un strip_chunk_extension_name
  np_tac

theorem np_lower_chunk_extension_name (N : NC S c) (hP : 255 ∈ S → P) : NP P (lower_chunk_extension_name h c) := by
  np_un lower_chunk_extension_name
  np_tac

theorem np_upper_chunk_extension_name (N : NC S c) (hP : 255 ∈ S → P) : NP P (upper_chunk_extension_name h c) := by
  np_un upper_chunk_extension_name
  np_tac

theorem np_strip_chunk_extension_value (N : NC S c) (hP : 255 ∈ S → P) : NP P (strip_chunk_extension_value c) := by
  np_un strip_chunk_extension_value
  np_tac

theorem np_chunk_extension_value (N : NC S c) (hP : 255 ∈ S → P) : NP P (chunk_extension_value h c) := by
  np_un chunk_extension_value
  np_tac

theorem np_chunk_extension_quoted_value (N : NC S c) (hP : 255 ∈ S → P) : NP P (chunk_extension_quoted_value h c) := by
  np_un chunk_extension_quoted_value
  np_tac

theorem np_chunk_extension_escaped_value (N : NC S c) (hP : 255 ∈ S → P) : NP P (chunk_extension_escaped_value h c) := by
  np_un chunk_extension_escaped_value
  np_tac

theorem np_chunk_extension_finished (N : NC S c) (hP : 255 ∈ S → P) : NP P (chunk_extension_finished h c) := by
  np_un chunk_extension_finished
  np_tac

theorem np_chunk_extensions_finished (N : NC S c) (hP : 255 ∈ S → P) : NP P (chunk_extensions_finished h c) := by
  np_un chunk_extensions_finished
  np_tac

theorem np_chunk_data (N : NC S c) (hP : 255 ∈ S → P) : NP P (chunk_data h c) := by
  np_un chunk_data
  np_tac

theorem np_chunk_data_cr (N : NC S c) (hP : 255 ∈ S → P) : NP P (chunk_data_cr c) := by
  np_un chunk_data_cr
  np_tac

theorem np_chunk_data_lf (N : NC S c) (hP : 255 ∈ S → P) : NP P (chunk_data_lf c) := by
  np_un chunk_data_lf
  np_tac

theorem np_multipart_hyphen1 (N : NC S c) (hP : 255 ∈ S → P) : NP P (multipart_hyphen1 h c) := by
  np_un multipart_hyphen1
  np_tac

theorem np_multipart_hyphen2 (N : NC S c) (hP : 255 ∈ S → P) : NP P (multipart_hyphen2 h c) := by
  np_un multipart_hyphen2
  np_tac

theorem np_multipart_boundary_cr (N : NC S c) (hP : 255 ∈ S → P) : NP P (multipart_boundary_cr h c) := by
  np_un multipart_boundary_cr
  np_tac

theorem np_multipart_boundary_lf (N : NC S c) (hP : 255 ∈ S → P) : NP P (multipart_boundary_lf c) := by
  np_un multipart_boundary_lf
  np_tac

theorem np_multipart_detect_data (N : NC S c) (hP : 255 ∈ S → P) : NP P (multipart_detect_data h c) := by
  np_un multipart_detect_data
  np_tac

theorem np_multipart_data_by_length (N : NC S c) (hP : 255 ∈ S → P) : NP P (multipart_data_by_length h c) := by
  np_un multipart_data_by_length
  np_tac

theorem np_multipart_data_by_length_cr (N : NC S c) (hP : 255 ∈ S → P) : NP P (multipart_data_by_length_cr c) := by
  np_un multipart_data_by_length_cr
  np_tac

theorem np_multipart_data_by_length_lf (N : NC S c) (hP : 255 ∈ S → P) : NP P (multipart_data_by_length_lf c) := by
  np_un multipart_data_by_length_lf
  np_tac

theorem np_multipart_data_by_byte (N : NC S c) (hP : 255 ∈ S → P) : NP P (multipart_data_by_byte h c) := by
  np_un multipart_data_by_byte
  np_tac

theorem np_multipart_data_by_byte_lf (N : NC S c) (hP : 255 ∈ S → P) : NP P (multipart_data_by_byte_lf h c) := by
  np_un multipart_data_by_byte_lf
  np_tac

theorem np_multipart_end (N : NC S c) (hP : 255 ∈ S → P) : NP P (multipart_end c) := by
  np_un multipart_end
  np_tac

theorem np_first_url_encoded_name (N : NC S c) (hP : 255 ∈ S → P) : NP P (first_url_encoded_name h c) := by
  np_un first_url_encoded_name
  np_tac

theorem np_url_encoded_name (N : NC S c) (hP : 255 ∈ S → P) : NP P (url_encoded_name h c) := by
  np_un url_encoded_name
  np_tac

theorem np_url_encoded_name_hex1 (N : NC S c) (hP : 255 ∈ S → P) : NP P (url_encoded_name_hex1 c) := by
  np_un url_encoded_name_hex1
  np_tac

theorem np_url_encoded_name_hex2 (N : NC S c) (hP : 255 ∈ S → P) : NP P (url_encoded_name_hex2 h c) := by
  np_un url_encoded_name_hex2
  np_tac

theorem np_url_encoded_name_plus (N : NC S c) (hP : 255 ∈ S → P) : NP P (url_encoded_name_plus h c) := by
  np_un url_encoded_name_plus
  np_tac

theorem np_url_encoded_value (N : NC S c) (hP : 255 ∈ S → P) : NP P (url_encoded_value h c) := by
  np_un url_encoded_value
  np_tac

theorem np_url_encoded_value_hex1 (N : NC S c) (hP : 255 ∈ S → P) : NP P (url_encoded_value_hex1 c) := by
  np_un url_encoded_value_hex1
  np_tac

theorem np_url_encoded_value_hex2 (N : NC S c) (hP : 255 ∈ S → P) : NP P (url_encoded_value_hex2 h c) := by
  np_un url_encoded_value_hex2
  np_tac

theorem np_url_encoded_value_plus (N : NC S c) (hP : 255 ∈ S → P) : NP P (url_encoded_value_plus h c) := by
  np_un url_encoded_value_plus
  np_tac

theorem np_body_finished (N : NC S c) (hP : 255 ∈ S → P) : NP P (body_finished h c) := by
  np_un body_finished
  np_tac

theorem np_finished (N : NC S c) (hP : 255 ∈ S → P) : NP P (finished c) := by
  np_un finished
  np_tac

/-- What holds between two state function calls. -/
structure NJ (S : Bytes) (c : Cfg) : Prop where
  stream : c.ctx.stream = S
  mark : c.ctx.mark ≤ c.ctx.idx
  idx : c.ctx.idx ≤ S.length
  nd : c.p.fn ≠ .detect1 ∨ c.ctx.idx < S.length

theorem NJ.nc (N : NJ S c) {f : St} (hf : c.p.fn = f) (hd : f ≠ .detect1) : NC S c :=
  ⟨N.stream, N.mark, N.idx, by rw [hf]; exact hd⟩

theorem np_step (N : NJ S c) (hP : 255 ∈ S → P) (hB : BdBad c → P) : NP P (step h c) := by
  unfold step
  cases hfn : c.p.fn
  case dead => exact np_dead (N.nc hfn nofun) hP
  case stripDetect => exact np_strip_detect (N.nc hfn nofun)
  case detect1 => exact np_detect1 (by have := N.nd; simp only [hfn] at this; rw [N.stream]; simpa using this)
  case detect2 => exact np_detect2 (N.nc hfn nofun) hP
  case detect3 => exact np_detect3 (N.nc hfn nofun) hP
  case detect4 => exact np_detect4 (N.nc hfn nofun) hP
  case detect5 => exact np_detect5 (N.nc hfn nofun) hP
  case requestMethod => exact np_request_method (N.nc hfn nofun) hP
  case requestUrl1 => exact np_request_url1 (N.nc hfn nofun) hP
  case requestUrl2 => exact np_request_url2 (N.nc hfn nofun) hP
  case requestHttp1 => exact np_request_http1 (N.nc hfn nofun) hP
  case requestHttp2 => exact np_request_http2 (N.nc hfn nofun) hP
  case requestHttp3 => exact np_request_http3 (N.nc hfn nofun) hP
  case requestHttp4 => exact np_request_http4 (N.nc hfn nofun) hP
  case requestHttp5 => exact np_request_http5 (N.nc hfn nofun) hP
  case requestVersionMajor1 => exact np_request_version_major1 (N.nc hfn nofun) hP
  case requestVersionMajor2 => exact np_request_version_major2 (N.nc hfn nofun) hP
  case requestVersionMajor3 => exact np_request_version_major3 (N.nc hfn nofun) hP
  case requestVersionPeriod => exact np_request_version_period (N.nc hfn nofun) hP
  case requestVersionMinor1 => exact np_request_version_minor1 (N.nc hfn nofun) hP
  case requestVersionMinor2 => exact np_request_version_minor2 (N.nc hfn nofun) hP
  case requestVersionMinor3 => exact np_request_version_minor3 (N.nc hfn nofun) hP
  case requestVersionCr => exact np_request_version_cr (N.nc hfn nofun) hP
  case responseVersionMajor1 => exact np_response_version_major1 (N.nc hfn nofun) hP
  case responseVersionMajor2 => exact np_response_version_major2 (N.nc hfn nofun) hP
  case responseVersionMajor3 => exact np_response_version_major3 (N.nc hfn nofun) hP
  case responseVersionPeriod => exact np_response_version_period (N.nc hfn nofun) hP
  case responseVersionMinor1 => exact np_response_version_minor1 (N.nc hfn nofun) hP
  case responseVersionMinor2 => exact np_response_version_minor2 (N.nc hfn nofun) hP
  case responseVersionMinor3 => exact np_response_version_minor3 (N.nc hfn nofun) hP
  case responseVersionSpace => exact np_response_version_space (N.nc hfn nofun) hP
  case responseStatusCode1 => exact np_response_status_code1 (N.nc hfn nofun) hP
  case responseStatusCode2 => exact np_response_status_code2 (N.nc hfn nofun) hP
  case responseStatusCode3 => exact np_response_status_code3 (N.nc hfn nofun) hP
  case responseStatusCodeSpace => exact np_response_status_code_space (N.nc hfn nofun) hP
  case responseStatus1 => exact np_response_status1 (N.nc hfn nofun) hP
  case responseStatus2 => exact np_response_status2 (N.nc hfn nofun) hP
  case initialEnd => exact np_initial_end (N.nc hfn nofun) hP
  case initialLf => exact np_initial_lf (N.nc hfn nofun) hP
  case checkHeaderName => exact np_check_header_name (N.nc hfn nofun) hP
  case firstHeaderName => exact np_first_header_name (N.nc hfn nofun) hP
  case upperHeaderName => exact np_upper_header_name (N.nc hfn nofun) hP
  case lowerHeaderName => exact np_lower_header_name (N.nc hfn nofun) hP
  case stripHeaderValue => exact np_strip_header_value (N.nc hfn nofun) hP
  case headerValue => exact np_header_value (N.nc hfn nofun) hP
  case headerQuotedValue => exact np_header_quoted_value (N.nc hfn nofun) hP
  case headerEscapedValue => exact np_header_escaped_value (N.nc hfn nofun) hP
  case headerCr1 => exact np_header_cr1 (N.nc hfn nofun) hP
  case headerLf1 => exact np_header_lf1 (N.nc hfn nofun) hP
  case headerCr2 => exact np_header_cr2 (N.nc hfn nofun) hP
  case headerLf2 => exact np_header_lf2 (N.nc hfn nofun) hP
  case headerEnd => exact np_header_end (N.nc hfn nofun) hP
  case chunkLength1 => exact np_chunk_length1 (N.nc hfn nofun) hP
  case chunkLength2 => exact np_chunk_length2 (N.nc hfn nofun) hP
  case chunkLength3 => exact np_chunk_length3 (N.nc hfn nofun) hP
  case chunkLength4 => exact np_chunk_length4 (N.nc hfn nofun) hP
  case chunkLength5 => exact np_chunk_length5 (N.nc hfn nofun) hP
  case chunkLength6 => exact np_chunk_length6 (N.nc hfn nofun) hP
  case chunkLength7 => exact np_chunk_length7 (N.nc hfn nofun) hP
  case chunkLength8 => exact np_chunk_length8 (N.nc hfn nofun) hP
  case chunkLengthCr => exact np_chunk_length_cr (N.nc hfn nofun) hP
  case chunkLengthLf => exact np_chunk_length_lf (N.nc hfn nofun) hP
  case stripChunkExtensionName => exact np_strip_chunk_extension_name (N.nc hfn nofun) hP
  case lowerChunkExtensionName => exact np_lower_chunk_extension_name (N.nc hfn nofun) hP
  case upperChunkExtensionName => exact np_upper_chunk_extension_name (N.nc hfn nofun) hP
  case stripChunkExtensionValue => exact np_strip_chunk_extension_value (N.nc hfn nofun) hP
  case chunkExtensionValue => exact np_chunk_extension_value (N.nc hfn nofun) hP
  case chunkExtensionQuotedValue => exact np_chunk_extension_quoted_value (N.nc hfn nofun) hP
  case chunkExtensionEscapedValue => exact np_chunk_extension_escaped_value (N.nc hfn nofun) hP
  case chunkExtensionFinished => exact np_chunk_extension_finished (N.nc hfn nofun) hP
  case chunkExtensionsFinished => exact np_chunk_extensions_finished (N.nc hfn nofun) hP
  case chunkData => exact np_chunk_data (N.nc hfn nofun) hP
  case chunkDataCr => exact np_chunk_data_cr (N.nc hfn nofun) hP
  case chunkDataLf => exact np_chunk_data_lf (N.nc hfn nofun) hP
  case multipartHyphen1 => exact np_multipart_hyphen1 (N.nc hfn nofun) hP
  case multipartHyphen2 => exact np_multipart_hyphen2 (N.nc hfn nofun) hP
  case multipartBoundary => exact np_multipart_boundary (N.nc hfn nofun) hB hfn
  case multipartBoundaryCr => exact np_multipart_boundary_cr (N.nc hfn nofun) hP
  case multipartBoundaryLf => exact np_multipart_boundary_lf (N.nc hfn nofun) hP
  case multipartDetectData => exact np_multipart_detect_data (N.nc hfn nofun) hP
  case multipartDataByLength => exact np_multipart_data_by_length (N.nc hfn nofun) hP
  case multipartDataByLengthCr => exact np_multipart_data_by_length_cr (N.nc hfn nofun) hP
  case multipartDataByLengthLf => exact np_multipart_data_by_length_lf (N.nc hfn nofun) hP
  case multipartDataByByte => exact np_multipart_data_by_byte (N.nc hfn nofun) hP
  case multipartDataByByteLf => exact np_multipart_data_by_byte_lf (N.nc hfn nofun) hP
  case multipartEnd => exact np_multipart_end (N.nc hfn nofun) hP
  case firstUrlEncodedName => exact np_first_url_encoded_name (N.nc hfn nofun) hP
  case urlEncodedName => exact np_url_encoded_name (N.nc hfn nofun) hP
  case urlEncodedNameHex1 => exact np_url_encoded_name_hex1 (N.nc hfn nofun) hP
  case urlEncodedNameHex2 => exact np_url_encoded_name_hex2 (N.nc hfn nofun) hP
  case urlEncodedNamePlus => exact np_url_encoded_name_plus (N.nc hfn nofun) hP
  case urlEncodedValue => exact np_url_encoded_value (N.nc hfn nofun) hP
  case urlEncodedValueHex1 => exact np_url_encoded_value_hex1 (N.nc hfn nofun) hP
  case urlEncodedValueHex2 => exact np_url_encoded_value_hex2 (N.nc hfn nofun) hP
  case urlEncodedValuePlus => exact np_url_encoded_value_plus (N.nc hfn nofun) hP
  case bodyFinished => exact np_body_finished (N.nc hfn nofun) hP
  case finished => exact np_finished (N.nc hfn nofun) hP

end Verif.Http1
