import Verif.Http1.Mode
import Verif.Http1.Bits
import Mathlib.Tactic.Linarith

/-!
# The position inside a multipart boundary (helper lemmas)
-/

set_option linter.unusedSimpArgs false
set_option linter.unusedVariables false

namespace Verif.Http1

variable {env : Env} {fut : Bytes} {K : List Ev × Fin} {h : Handler} {c : Cfg}

/-- The position inside the boundary is 0. -/
def UO : Out → Prop
  | .cont c | .exit _ c => getUpper14 c.p = 0
  | _ => True

/-- The upper 14 bits are unused. -/
structure UC (c : Cfg) : Prop where
  up : getUpper14 c.p = 0

theorem uo_ite {p : Prop} [Decidable p] {a b : Out} (h1 : UO a) (h2 : UO b) :
    UO (if p then a else b) := by split <;> assumption
theorem UC.ctx (H : UC c) (x : Ctx) : UC { c with ctx := x } := ⟨H.up⟩
theorem UC.jump (H : UC c) (n : Nat) : UC (jump c n) := ⟨H.up⟩
theorem UC.withP (H : UC c) {f : Parser → Parser} (hf : getUpper14 (f c.p) = getUpper14 c.p) :
    UC (withP c f) := ⟨hf.trans H.up⟩
theorem UC.set (H : UC c) {s f : St} : UC (setState c s f) := ⟨H.up⟩
theorem uo_err {e : PErr} : UO (.err e c) := trivial
theorem uo_panic : UO .panic := trivial
theorem uo_ub : UO .ub := trivial
theorem uo_exit {s : Success} (H : UC c) : UO (.exit s c) := H.up
theorem uo_exitEos (H : UC c) : UO (exitEos c) := H.up
theorem uo_exitIfEos {k : Out} (H : UC c) (hk : UO k) :
    UO (exitIfEos c k) := uo_ite (uo_exitEos H) hk
theorem uo_next {k : Cfg → Out} (H : UC c) (hk : ∀ c', UC c' → UO (k c')) :
    UO (next c k) := by
  unfold next; split
  · exact hk _ (H.ctx _)
  · trivial
theorem uo_replay {k : Cfg → Out} (H : UC c) (hk : ∀ c', UC c' → UO (k c')) :
    UO (replay c k) := uo_ite trivial (hk _ (H.ctx _))
theorem uo_remark (H : UC c) : UO (remark c) := H.up
theorem uo_transition (H : UC c) {s f : St} : UO (transition c s f) := H.up
theorem uo_transitionNR (H : UC c) {s f : St} :
    UO (transitionNoRemark c s f) := H.up
theorem uo_data {e : Ev} {k : Cfg → Out} (H : UC c) (hk : ∀ c', UC c' → UO (k c')) :
    UO (callbackData h c e k) := by
  simp only [callbackData]
  split
  · exact hk _ ⟨H.up⟩
  · exact H.up
theorem uo_slice {mk : Bytes → Ev} {k : Cfg → Out} (H : UC c)
    (hk : ∀ c', UC c' → UO (k c')) : UO (callbackSlice h c mk k) :=
  uo_ite trivial (uo_ite (uo_data H hk) (hk _ H))
theorem uo_eos {mk : Bytes → Ev} (H : UC c) :
    UO (callbackEos h c mk) := uo_slice H fun _ => uo_exitEos
theorem uo_ign {mk : Bytes → Ev} (H : UC c) {s f : St} :
    UO (callbackIgnoreTransition h c mk s f) :=
  uo_ite trivial (uo_ite (uo_data H.set fun _ => uo_remark) (uo_remark H.set))
theorem uo_td {e : Ev} (H : UC c) {s f : St} :
    UO (callbackTransitionData h c e s f) := uo_data H.set fun _ => uo_remark
theorem uo_ts {mk : Bytes → Ev} (H : UC c) {s f : St} :
    UO (callbackTransition h c mk s f) := uo_slice H.set fun _ => uo_remark
theorem uo_collecting {r : Ctx.Collect} {e k : Cfg → Out} (H : UC c)
    (he : ∀ c', UC c' → UO (e c')) (hk : ∀ c', UC c' → UO (k c')) :
    UO (collecting c r e k) := by
  cases r
  · exact he _ (H.ctx _)
  · exact hk _ (H.ctx _)
  · trivial
  · trivial

set_option hygiene false in
macro "uo_tac" : tactic => `(tactic|
  repeat' first
    | with_reducible exact uo_err
    | with_reducible exact uo_panic
    | with_reducible exact uo_ub
    | (guard_target =~ getUpper14 _ = getUpper14 _; first | exact getUpper14_setLower14 _ (by decide) | rfl)
    | with_reducible assumption
    | with_reducible apply uo_exitIfEos
    | (with_reducible refine uo_next ?_ (fun c' _ => ?_))
    | (with_reducible refine uo_replay ?_ (fun c' _ => ?_))
    | with_reducible apply uo_remark
    | with_reducible apply uo_transition
    | with_reducible apply uo_transitionNR
    | with_reducible apply uo_ign
    | with_reducible apply uo_td
    | with_reducible apply uo_ts
    | with_reducible apply uo_eos
    | with_reducible apply uo_exitEos
    | with_reducible apply uo_exit
    | (with_reducible refine uo_data ?_ (fun c' _ => ?_))
    | (with_reducible refine uo_collecting ?_ (fun c' _ => ?_) (fun c' _ => ?_))
    | with_reducible apply uo_ite
    | with_reducible apply UC.set
    | with_reducible apply UC.jump
    | with_reducible apply UC.withP
    | with_reducible apply UC.ctx
    | split)

macro "uo_un" f:ident : tactic => `(tactic|
  simp only [$f:ident, expectCrlf, firstHeaderNameSlow, collectLength, expectBoundary])

theorem uo_dead (H : UC c) : UO (dead c) := by
  uo_un dead
  uo_tac

theorem uo_initial_lf (H : UC c) : UO (initial_lf c) := by
  uo_un initial_lf
  uo_tac

theorem uo_check_header_name (H : UC c) : UO (check_header_name c) := by
  uo_un check_header_name
  uo_tac

theorem uo_first_header_name (H : UC c) : UO (first_header_name h c) := by
  uo_un first_header_name
  uo_tac

theorem uo_upper_header_name (H : UC c) : UO (upper_header_name h c) := by
  uo_un upper_header_name
  uo_tac

theorem uo_lower_header_name (H : UC c) : UO (lower_header_name h c) := by
  uo_un lower_header_name
  uo_tac

theorem uo_strip_header_value (H : UC c) : UO (strip_header_value c) := by
  uo_un strip_header_value
  uo_tac

theorem uo_header_value (H : UC c) : UO (header_value h c) := by
  uo_un header_value
  uo_tac

theorem uo_header_quoted_value (H : UC c) : UO (header_quoted_value h c) := by
  uo_un header_quoted_value
  uo_tac

theorem uo_header_escaped_value (H : UC c) : UO (header_escaped_value h c) := by
  uo_un header_escaped_value
  uo_tac

theorem uo_header_cr1 (H : UC c) : UO (header_cr1 c) := by
  uo_un header_cr1
  uo_tac

theorem uo_header_lf1 (H : UC c) : UO (header_lf1 c) := by
  uo_un header_lf1
  uo_tac

theorem uo_header_cr2 (H : UC c) : UO (header_cr2 c) := by
  uo_un header_cr2
  uo_tac

theorem uo_header_lf2 (H : UC c) : UO (header_lf2 c) := by
  uo_un header_lf2
  uo_tac

theorem uo_header_end (H : UC c) : UO (header_end h c) := by
  unfold header_end
  refine uo_data ?_ fun _ => uo_remark
  split <;> exact H.set

theorem uo_multipart_hyphen1 (H : UC c) : UO (multipart_hyphen1 h c) := by
  uo_un multipart_hyphen1
  uo_tac

theorem uo_multipart_hyphen2 (H : UC c) : UO (multipart_hyphen2 h c) := by
  uo_un multipart_hyphen2
  uo_tac

theorem uo_multipart_boundary_cr (H : UC c) : UO (multipart_boundary_cr h c) := by
  uo_un multipart_boundary_cr
  uo_tac

theorem uo_multipart_boundary_lf (H : UC c) : UO (multipart_boundary_lf c) := by
  uo_un multipart_boundary_lf
  uo_tac

theorem uo_multipart_detect_data (H : UC c) : UO (multipart_detect_data h c) := by
  uo_un multipart_detect_data
  uo_tac

theorem uo_multipart_data_by_length (H : UC c) : UO (multipart_data_by_length h c) := by
  have hl : ∀ {c : Cfg}, UC c → ∀ n : Parser → Nat, UC (withP c fun p => { p with length := n p }) :=
    fun H n => ⟨H.up⟩
  unfold multipart_data_by_length collectLength
  refine uo_exitIfEos H (uo_ite ?_ ?_)
  · exact uo_ts (hl (H.jump _) _)
  · exact uo_ts ((hl H _).jump _)

theorem uo_multipart_data_by_length_cr (H : UC c) : UO (multipart_data_by_length_cr c) := by
  uo_un multipart_data_by_length_cr
  uo_tac

theorem uo_multipart_data_by_length_lf (H : UC c) : UO (multipart_data_by_length_lf c) := by
  uo_un multipart_data_by_length_lf
  uo_tac

theorem uo_multipart_data_by_byte (H : UC c) : UO (multipart_data_by_byte h c) := by
  uo_un multipart_data_by_byte
  uo_tac

theorem uo_multipart_data_by_byte_lf (H : UC c) : UO (multipart_data_by_byte_lf h c) := by
  uo_un multipart_data_by_byte_lf
  uo_tac

theorem uo_multipart_end (H : UC c) : UO (multipart_end c) := by
  uo_un multipart_end
  uo_tac

theorem uo_body_finished (H : UC c) : UO (body_finished h c) := by
  uo_un body_finished
  uo_tac

theorem uo_finished (H : UC c) : UO (finished c) := by
  uo_un finished
  uo_tac

/-- The position inside the boundary is inside the boundary. -/
def UI (p : Parser) : Prop :=
  getUpper14 p = 0 ∨ (p.fn = .multipartBoundary ∧
    ∃ bd, p.boundary = some bd ∧ (getUpper14 p).toNat ≤ bd.length)

/-- The bound on the upper 14 bits for the result of a state function. -/
def UIO : Out → Prop
  | .cont c | .exit _ c => UI c.p
  | _ => True

theorem UO.uio {o : Out} (H : UO o) : UIO o := by
  cases o <;> simp only [UIO] <;> exact .inl H

theorem ui_multipart_boundary (hl : ∀ bd, c.p.boundary = some bd → bd.length < 16384)
    (hfn : c.p.fn = .multipartBoundary) (H : UI c.p) : UIO (multipart_boundary h c) := by
  have s0 : ∀ p, getUpper14 (setUpper14 p 0) = 0 := fun p => getUpper14_setUpper14 p (by decide)
  unfold multipart_boundary exitIfEos
  split
  · exact H
  · split
    · trivial
    · rename_i bd hb
      dsimp only
      split
      · trivial
      · rename_i hup
        have hbl := hl bd hb
        have hs : (if bd.length - (getUpper14 c.p).toNat ≤ c.ctx.available then
            List.drop (getUpper14 c.p).toNat bd
          else List.take c.ctx.available (List.drop (getUpper14 c.p).toNat bd)).length ≤
            bd.length - (getUpper14 c.p).toNat := by
          split
          · simp
          · simp only [List.length_take, List.length_drop]; omega
        revert hs
        generalize (if bd.length - (getUpper14 c.p).toNat ≤ c.ctx.available then
            List.drop (getUpper14 c.p).toNat bd
          else List.take c.ctx.available (List.drop (getUpper14 c.p).toNat bd)) = sl
        intro hs
        split
        · split
          · exact .inl (s0 _)
          · rename_i hne
            refine .inr ⟨hfn, bd, hb, ?_⟩
            show (getUpper14 (incUpper14 c.p sl.length)).toNat ≤ _
            unfold incUpper14
            have hv : (UInt32.ofNat ((getUpper14 c.p).toNat + sl.length)).toNat =
                (getUpper14 c.p).toNat + sl.length := by
              simp only [UInt32.toNat_ofNat']
              omega
            rw [getUpper14_setUpper14 _ (by rw [hv]; omega), hv]
            omega
        · split
          · exact (uo_td (c := withP c fun p => setUpper14 p 0) ⟨s0 _⟩).uio
          · unfold next
            split <;> trivial

theorem ui_step (hp : c.p.ptype = .multipart) (hm : modeSt c.p.ptype c.p.fn = true)
    (hl : ∀ bd, c.p.boundary = some bd → bd.length < 16384) (H : UI c.p) : UIO (step h c) := by
  rw [hp] at hm
  have hc : c.p.fn ≠ .multipartBoundary → UC c := fun hn =>
    ⟨H.resolve_right fun hr => hn hr.1⟩
  unfold step
  cases hfn : c.p.fn <;> simp only [hfn] at hm hc <;> first
    | cases hm; done
    | skip
  case dead => exact (uo_dead (hc nofun)).uio
  case initialLf => exact (uo_initial_lf (hc nofun)).uio
  case checkHeaderName => exact (uo_check_header_name (hc nofun)).uio
  case firstHeaderName => exact (uo_first_header_name (hc nofun)).uio
  case upperHeaderName => exact (uo_upper_header_name (hc nofun)).uio
  case lowerHeaderName => exact (uo_lower_header_name (hc nofun)).uio
  case stripHeaderValue => exact (uo_strip_header_value (hc nofun)).uio
  case headerValue => exact (uo_header_value (hc nofun)).uio
  case headerQuotedValue => exact (uo_header_quoted_value (hc nofun)).uio
  case headerEscapedValue => exact (uo_header_escaped_value (hc nofun)).uio
  case headerCr1 => exact (uo_header_cr1 (hc nofun)).uio
  case headerLf1 => exact (uo_header_lf1 (hc nofun)).uio
  case headerCr2 => exact (uo_header_cr2 (hc nofun)).uio
  case headerLf2 => exact (uo_header_lf2 (hc nofun)).uio
  case headerEnd => exact (uo_header_end (hc nofun)).uio
  case multipartHyphen1 => exact (uo_multipart_hyphen1 (hc nofun)).uio
  case multipartHyphen2 => exact (uo_multipart_hyphen2 (hc nofun)).uio
  case multipartBoundary => exact ui_multipart_boundary hl hfn H
  case multipartBoundaryCr => exact (uo_multipart_boundary_cr (hc nofun)).uio
  case multipartBoundaryLf => exact (uo_multipart_boundary_lf (hc nofun)).uio
  case multipartDetectData => exact (uo_multipart_detect_data (hc nofun)).uio
  case multipartDataByLength => exact (uo_multipart_data_by_length (hc nofun)).uio
  case multipartDataByLengthCr => exact (uo_multipart_data_by_length_cr (hc nofun)).uio
  case multipartDataByLengthLf => exact (uo_multipart_data_by_length_lf (hc nofun)).uio
  case multipartDataByByte => exact (uo_multipart_data_by_byte (hc nofun)).uio
  case multipartDataByByteLf => exact (uo_multipart_data_by_byte_lf (hc nofun)).uio
  case multipartEnd => exact (uo_multipart_end (hc nofun)).uio
  case bodyFinished => exact (uo_body_finished (hc nofun)).uio
  case finished => exact (uo_finished (hc nofun)).uio

end Verif.Http1
