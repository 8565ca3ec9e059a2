import Verif.Http1.SimRun
import Mathlib.Tactic.Linarith

/-!
# State names and pauses (helper lemmas)
-/

set_option linter.unusedSimpArgs false
set_option linter.unusedVariables false

namespace Verif.Http1

variable {env : Env} {fut : Bytes} {K : List Ev × Fin} {h : Handler} {c : Cfg}

/-- The history has grown from `l0` to `l`, and the handler has agreed to every new callback. -/
inductive Went (h : Handler) (l0 : List Ev) : List Ev → Prop
  | refl : Went h l0 l0
  | snoc {l e} : Went h l0 l → h.ret (l ++ [e]) = true → Went h l0 (l ++ [e])

theorem Went.prefix {l0 l : List Ev} (H : Went h l0 l) : l0 <+: l := by
  induction H with
  | refl => exact List.prefix_refl _
  | snoc _ _ ih => exact ih.trans (List.prefix_append _ _)

/-- Simple facts about a state function call: `state` follows the state function, and a pause comes
right after the first callback that answered `false`. -/
def Aux (h : Handler) (sf : Prop) (l0 : List Ev) : Out → Prop
  | .cont c => (sf → c.p.state = c.p.fn) ∧ Went h l0 c.log
  | .exit (.callback _) c => (sf → c.p.state = c.p.fn) ∧
    ∃ l e, Went h l0 l ∧ c.log = l ++ [e] ∧ (CtxOK c.ctx → flatEv e ≠ []) ∧ h.ret c.log = false
  | .exit _ c => (sf → c.p.state = c.p.fn) ∧ Went h l0 c.log
  | .err _ c => Went h l0 c.log
  | _ => True

variable {sf : Prop} {l0 : List Ev}

/-- What stays true while a call runs: `state` and `state_function` agree, and the history grows. -/
structure AuxC (h : Handler) (sf : Prop) (l0 : List Ev) (c : Cfg) : Prop where
  st : sf → c.p.state = c.p.fn
  log : Went h l0 c.log

theorem aux_ite {p : Prop} [Decidable p] {a b : Out} (h1 : Aux h sf l0 a) (h2 : Aux h sf l0 b) :
    Aux h sf l0 (if p then a else b) := by split <;> assumption

theorem AuxC.ctx (H : AuxC h sf l0 c) (x : Ctx) : AuxC h sf l0 { c with ctx := x } := ⟨H.st, H.log⟩
theorem AuxC.jump (H : AuxC h sf l0 c) (n : Nat) : AuxC h sf l0 (jump c n) := ⟨H.st, H.log⟩
theorem AuxC.withP (H : AuxC h sf l0 c) {f : Parser → Parser}
    (hf : (f c.p).state = c.p.state ∧ (f c.p).fn = c.p.fn) : AuxC h sf l0 (withP c f) :=
  ⟨fun h => by show (f c.p).state = (f c.p).fn; rw [hf.1, hf.2]; exact H.st h, H.log⟩
theorem AuxC.set (H : AuxC h sf l0 c) (s : St) : AuxC h sf l0 (setState c s s) := ⟨fun _ => rfl, H.log⟩

theorem aux_err {e : PErr} (H : AuxC h sf l0 c) : Aux h sf l0 (.err e c) := H.log
theorem aux_exitEos (H : AuxC h sf l0 c) : Aux h sf l0 (exitEos c) := ⟨H.st, H.log⟩
theorem aux_exitIfEos {k : Out} (H : AuxC h sf l0 c) (hk : Aux h sf l0 k) :
    Aux h sf l0 (exitIfEos c k) := aux_ite (aux_exitEos H) hk
theorem aux_next {k : Cfg → Out} (H : AuxC h sf l0 c)
    (hk : ∀ c', AuxC h sf l0 c' → Aux h sf l0 (k c')) : Aux h sf l0 (next c k) := by
  unfold next; split
  · exact hk _ (H.ctx _)
  · trivial
theorem aux_replay {k : Cfg → Out} (H : AuxC h sf l0 c)
    (hk : ∀ c', AuxC h sf l0 c' → Aux h sf l0 (k c')) : Aux h sf l0 (replay c k) :=
  aux_ite trivial (hk _ (H.ctx _))
theorem aux_remark (H : AuxC h sf l0 c) : Aux h sf l0 (remark c) := ⟨H.st, H.log⟩
theorem aux_transition (H : AuxC h sf l0 c) (s : St) : Aux h sf l0 (transition c s s) :=
  ⟨fun _ => rfl, H.log⟩
theorem aux_transitionNR (H : AuxC h sf l0 c) (s : St) : Aux h sf l0 (transitionNoRemark c s s) :=
  ⟨fun _ => rfl, H.log⟩
theorem aux_data {e : Ev} {k : Cfg → Out} (H : AuxC h sf l0 c) (he : CtxOK c.ctx → flatEv e ≠ [])
    (hk : ∀ c', AuxC h sf l0 c' → Aux h sf l0 (k c')) : Aux h sf l0 (callbackData h c e k) := by
  simp only [callbackData]
  split
  · rename_i hr
    exact hk _ ⟨H.st, H.log.snoc hr⟩
  · rename_i hr
    exact ⟨H.st, c.log, e, H.log, rfl, he, by simpa using hr⟩
theorem aux_slice {mk : Bytes → Ev} {k : Cfg → Out} (H : AuxC h sf l0 c) (hm : IsMk mk)
    (hk : ∀ c', AuxC h sf l0 c' → Aux h sf l0 (k c')) : Aux h sf l0 (callbackSlice h c mk k) := by
  unfold callbackSlice
  refine aux_ite trivial ?_
  split
  · rename_i hl
    refine aux_data H (fun ok => ?_) hk
    rw [(hm _).2]
    simp only [Ctx.sliceLength] at hl
    have := ok.idx_le
    simp only [ne_eq, List.map_eq_nil_iff, Ctx.slice]
    intro h0
    have := congrArg List.length h0
    simp at this
    omega
  · exact hk _ H
theorem aux_eos {mk : Bytes → Ev} (H : AuxC h sf l0 c) (hm : IsMk mk) :
    Aux h sf l0 (callbackEos h c mk) := aux_slice H hm fun _ => aux_exitEos
theorem aux_ign {mk : Bytes → Ev} (H : AuxC h sf l0 c) (hm : IsMk mk) (s : St) :
    Aux h sf l0 (callbackIgnoreTransition h c mk s s) := by
  unfold callbackIgnoreTransition
  refine aux_ite trivial ?_
  split
  · rename_i hl
    refine aux_data (H.set s) (fun ok => ?_) fun _ => aux_remark
    rw [(hm _).2]
    simp only [Ctx.sliceLength] at hl
    have := ok.idx_le
    simp only [ne_eq, List.map_eq_nil_iff, Ctx.sliceIgnore]
    intro h0
    have := congrArg List.length h0
    simp at this
    omega
  · exact aux_remark (H.set s)
theorem aux_td {e : Ev} (H : AuxC h sf l0 c) (he : flatEv e ≠ []) (s : St) :
    Aux h sf l0 (callbackTransitionData h c e s s) := aux_data (H.set s) (fun _ => he) fun _ => aux_remark
theorem aux_ts {mk : Bytes → Ev} (H : AuxC h sf l0 c) (hm : IsMk mk) (s : St) :
    Aux h sf l0 (callbackTransition h c mk s s) := aux_slice (H.set s) hm fun _ => aux_remark
theorem aux_collecting {r : Ctx.Collect} {e k : Cfg → Out} (H : AuxC h sf l0 c)
    (he : ∀ c', AuxC h sf l0 c' → Aux h sf l0 (e c')) (hk : ∀ c', AuxC h sf l0 c' → Aux h sf l0 (k c')) :
    Aux h sf l0 (collecting c r e k) := by
  cases r
  · exact he _ (H.ctx _)
  · exact hk _ (H.ctx _)
  · trivial
  · trivial

set_option hygiene false in
macro "aux_tac" : tactic => `(tactic|
  repeat' first
    | exact trivial
    | exact H
    | exact H.ctx _
    | assumption
    | exact H.log
    | exact AuxC.log (by assumption)
    | apply AuxC.jump
    | (refine AuxC.withP ?_ ⟨rfl, rfl⟩)
    | apply AuxC.set
    | (apply aux_err)
    | (apply aux_exitIfEos)
    | (apply aux_next)
    | (apply aux_replay)
    | (apply aux_remark)
    | (apply aux_transition)
    | (apply aux_transitionNR)
    | (apply aux_eos)
    | (apply aux_ign)
    | (apply aux_td)
    | (apply aux_ts)
    | (apply aux_data)
    | (apply aux_collecting)
    | (apply aux_exitEos)
    | (exact fun _ => ⟨rfl, rfl⟩)
    | (intro _; simp [flatEv]; done)
    | (simp [flatEv]; done)
    | (exact firstHeaderFast_ne (by assumption))
    | (intro c' H')
    | (exact ⟨H.st, H.log⟩)
    | (apply aux_ite)
    | split)

macro "aux_un" f:ident : tactic => `(tactic|
  simp only [$f:ident, detect1Method, detectByte, expectVersion, versionMajor1, versionMajorN,
    versionMinor1, versionMinorN, versionEnd, expectCrlf, firstHeaderNameSlow, chunkLengthN,
    collectLength, expectBoundary, pushHex])

theorem aux_dead (H : AuxC h sf l0 c) : Aux h sf l0 (dead c) := by
  aux_un dead
  aux_tac

theorem aux_strip_detect (H : AuxC h sf l0 c) : Aux h sf l0 (strip_detect c) := by
  aux_un strip_detect
  aux_tac

theorem aux_detect1 (H : AuxC h sf l0 c) : Aux h sf l0 (detect1 h c) := by
  aux_un detect1
  aux_tac

theorem aux_detect2 (H : AuxC h sf l0 c) : Aux h sf l0 (detect2 c) := by
  aux_un detect2
  aux_tac

theorem aux_detect3 (H : AuxC h sf l0 c) : Aux h sf l0 (detect3 c) := by
  aux_un detect3
  aux_tac

theorem aux_detect4 (H : AuxC h sf l0 c) : Aux h sf l0 (detect4 c) := by
  aux_un detect4
  aux_tac

theorem aux_detect5 (H : AuxC h sf l0 c) : Aux h sf l0 (detect5 c) := by
  aux_un detect5
  aux_tac

theorem aux_request_method (H : AuxC h sf l0 c) : Aux h sf l0 (request_method h c) := by
  aux_un request_method
  aux_tac

theorem aux_request_url1 (H : AuxC h sf l0 c) : Aux h sf l0 (request_url1 c) := by
  aux_un request_url1
  aux_tac

theorem aux_request_url2 (H : AuxC h sf l0 c) : Aux h sf l0 (request_url2 h c) := by
  aux_un request_url2
  aux_tac

theorem aux_request_http1 (H : AuxC h sf l0 c) : Aux h sf l0 (request_http1 h c) := by
  aux_un request_http1
  aux_tac

theorem aux_request_http2 (H : AuxC h sf l0 c) : Aux h sf l0 (request_http2 c) := by
  aux_un request_http2
  aux_tac

theorem aux_request_http3 (H : AuxC h sf l0 c) : Aux h sf l0 (request_http3 c) := by
  aux_un request_http3
  aux_tac

theorem aux_request_http4 (H : AuxC h sf l0 c) : Aux h sf l0 (request_http4 c) := by
  aux_un request_http4
  aux_tac

theorem aux_request_http5 (H : AuxC h sf l0 c) : Aux h sf l0 (request_http5 c) := by
  aux_un request_http5
  aux_tac

theorem aux_request_version_major1 (H : AuxC h sf l0 c) : Aux h sf l0 (request_version_major1 c) := by
  aux_un request_version_major1
  aux_tac

theorem aux_request_version_major2 (H : AuxC h sf l0 c) : Aux h sf l0 (request_version_major2 c) := by
  aux_un request_version_major2
  aux_tac

theorem aux_request_version_major3 (H : AuxC h sf l0 c) : Aux h sf l0 (request_version_major3 c) := by
  aux_un request_version_major3
  aux_tac

theorem aux_request_version_period (H : AuxC h sf l0 c) : Aux h sf l0 (request_version_period c) := by
  aux_un request_version_period
  aux_tac

theorem aux_request_version_minor1 (H : AuxC h sf l0 c) : Aux h sf l0 (request_version_minor1 c) := by
  aux_un request_version_minor1
  aux_tac

theorem aux_request_version_minor2 (H : AuxC h sf l0 c) : Aux h sf l0 (request_version_minor2 c) := by
  aux_un request_version_minor2
  aux_tac

theorem aux_request_version_minor3 (H : AuxC h sf l0 c) : Aux h sf l0 (request_version_minor3 c) := by
  aux_un request_version_minor3
  aux_tac

theorem aux_request_version_cr (H : AuxC h sf l0 c) : Aux h sf l0 (request_version_cr h c) := by
  aux_un request_version_cr
  aux_tac

theorem aux_response_version_major1 (H : AuxC h sf l0 c) : Aux h sf l0 (response_version_major1 c) := by
  aux_un response_version_major1
  aux_tac

theorem aux_response_version_major2 (H : AuxC h sf l0 c) : Aux h sf l0 (response_version_major2 c) := by
  aux_un response_version_major2
  aux_tac

theorem aux_response_version_major3 (H : AuxC h sf l0 c) : Aux h sf l0 (response_version_major3 c) := by
  aux_un response_version_major3
  aux_tac

theorem aux_response_version_period (H : AuxC h sf l0 c) : Aux h sf l0 (response_version_period c) := by
  aux_un response_version_period
  aux_tac

theorem aux_response_version_minor1 (H : AuxC h sf l0 c) : Aux h sf l0 (response_version_minor1 c) := by
  aux_un response_version_minor1
  aux_tac

theorem aux_response_version_minor2 (H : AuxC h sf l0 c) : Aux h sf l0 (response_version_minor2 c) := by
  aux_un response_version_minor2
  aux_tac

theorem aux_response_version_minor3 (H : AuxC h sf l0 c) : Aux h sf l0 (response_version_minor3 c) := by
  aux_un response_version_minor3
  aux_tac

theorem aux_response_version_space (H : AuxC h sf l0 c) : Aux h sf l0 (response_version_space h c) := by
  aux_un response_version_space
  aux_tac

theorem aux_response_status_code1 (H : AuxC h sf l0 c) : Aux h sf l0 (response_status_code1 c) := by
  aux_un response_status_code1
  aux_tac

theorem aux_response_status_code2 (H : AuxC h sf l0 c) : Aux h sf l0 (response_status_code2 c) := by
  aux_un response_status_code2
  aux_tac

theorem aux_response_status_code3 (H : AuxC h sf l0 c) : Aux h sf l0 (response_status_code3 c) := by
  aux_un response_status_code3
  aux_tac

theorem aux_response_status_code_space (H : AuxC h sf l0 c) : Aux h sf l0 (response_status_code_space h c) := by
  aux_un response_status_code_space
  aux_tac

theorem aux_response_status1 (H : AuxC h sf l0 c) : Aux h sf l0 (response_status1 c) := by
  aux_un response_status1
  aux_tac

theorem aux_response_status2 (H : AuxC h sf l0 c) : Aux h sf l0 (response_status2 h c) := by
  aux_un response_status2
  aux_tac

theorem aux_initial_end (H : AuxC h sf l0 c) : Aux h sf l0 (initial_end h c) := by
  aux_un initial_end
  aux_tac

theorem aux_initial_lf (H : AuxC h sf l0 c) : Aux h sf l0 (initial_lf c) := by
  aux_un initial_lf
  aux_tac

theorem aux_check_header_name (H : AuxC h sf l0 c) : Aux h sf l0 (check_header_name c) := by
  aux_un check_header_name
  aux_tac

theorem aux_first_header_name (H : AuxC h sf l0 c) : Aux h sf l0 (first_header_name h c) := by
  aux_un first_header_name
  aux_tac

theorem aux_upper_header_name (H : AuxC h sf l0 c) : Aux h sf l0 (upper_header_name h c) := by
  aux_un upper_header_name
  aux_tac

theorem aux_lower_header_name (H : AuxC h sf l0 c) : Aux h sf l0 (lower_header_name h c) := by
  aux_un lower_header_name
  aux_tac

theorem aux_strip_header_value (H : AuxC h sf l0 c) : Aux h sf l0 (strip_header_value c) := by
  aux_un strip_header_value
  aux_tac

theorem aux_header_value (H : AuxC h sf l0 c) : Aux h sf l0 (header_value h c) := by
  aux_un header_value
  aux_tac

theorem aux_header_quoted_value (H : AuxC h sf l0 c) : Aux h sf l0 (header_quoted_value h c) := by
  aux_un header_quoted_value
  aux_tac

theorem aux_header_escaped_value (H : AuxC h sf l0 c) : Aux h sf l0 (header_escaped_value h c) := by
  aux_un header_escaped_value
  aux_tac

theorem aux_header_cr1 (H : AuxC h sf l0 c) : Aux h sf l0 (header_cr1 c) := by
  aux_un header_cr1
  aux_tac

theorem aux_header_lf1 (H : AuxC h sf l0 c) : Aux h sf l0 (header_lf1 c) := by
  aux_un header_lf1
  aux_tac

theorem aux_header_cr2 (H : AuxC h sf l0 c) : Aux h sf l0 (header_cr2 c) := by
  aux_un header_cr2
  aux_tac

theorem aux_header_lf2 (H : AuxC h sf l0 c) : Aux h sf l0 (header_lf2 c) := by
  aux_un header_lf2
  aux_tac

theorem aux_header_end (H : AuxC h sf l0 c) : Aux h sf l0 (header_end h c) := by
  aux_un header_end
  aux_tac

theorem aux_chunk_length1 (H : AuxC h sf l0 c) : Aux h sf l0 (chunk_length1 h c) := by
  aux_un chunk_length1
  aux_tac

theorem aux_chunk_length2 (H : AuxC h sf l0 c) : Aux h sf l0 (chunk_length2 c) := by
  aux_un chunk_length2
  aux_tac

theorem aux_chunk_length3 (H : AuxC h sf l0 c) : Aux h sf l0 (chunk_length3 c) := by
  aux_un chunk_length3
  aux_tac

theorem aux_chunk_length4 (H : AuxC h sf l0 c) : Aux h sf l0 (chunk_length4 c) := by
  aux_un chunk_length4
  aux_tac

theorem aux_chunk_length5 (H : AuxC h sf l0 c) : Aux h sf l0 (chunk_length5 c) := by
  aux_un chunk_length5
  aux_tac

theorem aux_chunk_length6 (H : AuxC h sf l0 c) : Aux h sf l0 (chunk_length6 c) := by
  aux_un chunk_length6
  aux_tac

theorem aux_chunk_length7 (H : AuxC h sf l0 c) : Aux h sf l0 (chunk_length7 c) := by
  aux_un chunk_length7
  aux_tac

theorem aux_chunk_length8 (H : AuxC h sf l0 c) : Aux h sf l0 (chunk_length8 c) := by
  aux_un chunk_length8
  aux_tac

theorem aux_chunk_length_cr (H : AuxC h sf l0 c) : Aux h sf l0 (chunk_length_cr h c) := by
  aux_un chunk_length_cr
  aux_tac

theorem aux_chunk_length_lf (H : AuxC h sf l0 c) : Aux h sf l0 (chunk_length_lf c) := by
  aux_un chunk_length_lf
  aux_tac

theorem aux_strip_chunk_extension_name (H : AuxC h sf l0 c) : Aux h sf l0 (strip_chunk_extension_name c) := by
  aux_un strip_chunk_extension_name
  aux_tac

theorem aux_lower_chunk_extension_name (H : AuxC h sf l0 c) : Aux h sf l0 (lower_chunk_extension_name h c) := by
  aux_un lower_chunk_extension_name
  aux_tac

theorem aux_upper_chunk_extension_name (H : AuxC h sf l0 c) : Aux h sf l0 (upper_chunk_extension_name h c) := by
  aux_un upper_chunk_extension_name
  aux_tac

theorem aux_strip_chunk_extension_value (H : AuxC h sf l0 c) : Aux h sf l0 (strip_chunk_extension_value c) := by
  aux_un strip_chunk_extension_value
  aux_tac

theorem aux_chunk_extension_value (H : AuxC h sf l0 c) : Aux h sf l0 (chunk_extension_value h c) := by
  aux_un chunk_extension_value
  aux_tac

theorem aux_chunk_extension_quoted_value (H : AuxC h sf l0 c) : Aux h sf l0 (chunk_extension_quoted_value h c) := by
  aux_un chunk_extension_quoted_value
  aux_tac

theorem aux_chunk_extension_escaped_value (H : AuxC h sf l0 c) : Aux h sf l0 (chunk_extension_escaped_value h c) := by
  aux_un chunk_extension_escaped_value
  aux_tac

theorem aux_chunk_extension_finished (H : AuxC h sf l0 c) : Aux h sf l0 (chunk_extension_finished h c) := by
  aux_un chunk_extension_finished
  aux_tac

theorem aux_chunk_extensions_finished (H : AuxC h sf l0 c) : Aux h sf l0 (chunk_extensions_finished h c) := by
  aux_un chunk_extensions_finished
  aux_tac

theorem aux_chunk_data (H : AuxC h sf l0 c) : Aux h sf l0 (chunk_data h c) := by
  aux_un chunk_data
  aux_tac

theorem aux_chunk_data_cr (H : AuxC h sf l0 c) : Aux h sf l0 (chunk_data_cr c) := by
  aux_un chunk_data_cr
  aux_tac

theorem aux_chunk_data_lf (H : AuxC h sf l0 c) : Aux h sf l0 (chunk_data_lf c) := by
  aux_un chunk_data_lf
  aux_tac

theorem aux_multipart_hyphen1 (H : AuxC h sf l0 c) : Aux h sf l0 (multipart_hyphen1 h c) := by
  aux_un multipart_hyphen1
  aux_tac

theorem aux_multipart_hyphen2 (H : AuxC h sf l0 c) : Aux h sf l0 (multipart_hyphen2 h c) := by
  aux_un multipart_hyphen2
  aux_tac

theorem aux_multipart_boundary (H : AuxC h sf l0 c) : Aux h sf l0 (multipart_boundary h c) := by
  aux_un multipart_boundary
  aux_tac

theorem aux_multipart_boundary_cr (H : AuxC h sf l0 c) : Aux h sf l0 (multipart_boundary_cr h c) := by
  aux_un multipart_boundary_cr
  aux_tac

theorem aux_multipart_boundary_lf (H : AuxC h sf l0 c) : Aux h sf l0 (multipart_boundary_lf c) := by
  aux_un multipart_boundary_lf
  aux_tac

theorem aux_multipart_detect_data (H : AuxC h sf l0 c) : Aux h sf l0 (multipart_detect_data h c) := by
  aux_un multipart_detect_data
  aux_tac

theorem aux_multipart_data_by_length (H : AuxC h sf l0 c) : Aux h sf l0 (multipart_data_by_length h c) := by
  aux_un multipart_data_by_length
  aux_tac

theorem aux_multipart_data_by_length_cr (H : AuxC h sf l0 c) : Aux h sf l0 (multipart_data_by_length_cr c) := by
  aux_un multipart_data_by_length_cr
  aux_tac

theorem aux_multipart_data_by_length_lf (H : AuxC h sf l0 c) : Aux h sf l0 (multipart_data_by_length_lf c) := by
  aux_un multipart_data_by_length_lf
  aux_tac

theorem aux_multipart_data_by_byte (H : AuxC h sf l0 c) : Aux h sf l0 (multipart_data_by_byte h c) := by
  aux_un multipart_data_by_byte
  aux_tac

theorem aux_multipart_data_by_byte_lf (H : AuxC h sf l0 c) : Aux h sf l0 (multipart_data_by_byte_lf h c) := by
  aux_un multipart_data_by_byte_lf
  aux_tac

theorem aux_multipart_end (H : AuxC h sf l0 c) : Aux h sf l0 (multipart_end c) := by
  aux_un multipart_end
  aux_tac

theorem aux_first_url_encoded_name (H : AuxC h sf l0 c) : Aux h sf l0 (first_url_encoded_name h c) := by
  aux_un first_url_encoded_name
  aux_tac

theorem aux_url_encoded_name (H : AuxC h sf l0 c) : Aux h sf l0 (url_encoded_name h c) := by
  aux_un url_encoded_name
  aux_tac

theorem aux_url_encoded_name_hex1 (H : AuxC h sf l0 c) : Aux h sf l0 (url_encoded_name_hex1 c) := by
  aux_un url_encoded_name_hex1
  aux_tac

theorem aux_url_encoded_name_hex2 (H : AuxC h sf l0 c) : Aux h sf l0 (url_encoded_name_hex2 h c) := by
  aux_un url_encoded_name_hex2
  aux_tac

theorem aux_url_encoded_name_plus (H : AuxC h sf l0 c) : Aux h sf l0 (url_encoded_name_plus h c) := by
  aux_un url_encoded_name_plus
  aux_tac

theorem aux_url_encoded_value (H : AuxC h sf l0 c) : Aux h sf l0 (url_encoded_value h c) := by
  aux_un url_encoded_value
  aux_tac

theorem aux_url_encoded_value_hex1 (H : AuxC h sf l0 c) : Aux h sf l0 (url_encoded_value_hex1 c) := by
  aux_un url_encoded_value_hex1
  aux_tac

theorem aux_url_encoded_value_hex2 (H : AuxC h sf l0 c) : Aux h sf l0 (url_encoded_value_hex2 h c) := by
  aux_un url_encoded_value_hex2
  aux_tac

theorem aux_url_encoded_value_plus (H : AuxC h sf l0 c) : Aux h sf l0 (url_encoded_value_plus h c) := by
  aux_un url_encoded_value_plus
  aux_tac

theorem aux_body_finished (H : AuxC h sf l0 c) : Aux h sf l0 (body_finished h c) := by
  aux_un body_finished
  aux_tac

theorem aux_finished (H : AuxC h sf l0 c) : Aux h sf l0 (finished c) := by
  aux_un finished
  aux_tac

theorem aux_step (H : AuxC h sf l0 c) : Aux h sf l0 (step h c) := by
  unfold step
  cases c.p.fn
  case dead => exact aux_dead H
  case stripDetect => exact aux_strip_detect H
  case detect1 => exact aux_detect1 H
  case detect2 => exact aux_detect2 H
  case detect3 => exact aux_detect3 H
  case detect4 => exact aux_detect4 H
  case detect5 => exact aux_detect5 H
  case requestMethod => exact aux_request_method H
  case requestUrl1 => exact aux_request_url1 H
  case requestUrl2 => exact aux_request_url2 H
  case requestHttp1 => exact aux_request_http1 H
  case requestHttp2 => exact aux_request_http2 H
  case requestHttp3 => exact aux_request_http3 H
  case requestHttp4 => exact aux_request_http4 H
  case requestHttp5 => exact aux_request_http5 H
  case requestVersionMajor1 => exact aux_request_version_major1 H
  case requestVersionMajor2 => exact aux_request_version_major2 H
  case requestVersionMajor3 => exact aux_request_version_major3 H
  case requestVersionPeriod => exact aux_request_version_period H
  case requestVersionMinor1 => exact aux_request_version_minor1 H
  case requestVersionMinor2 => exact aux_request_version_minor2 H
  case requestVersionMinor3 => exact aux_request_version_minor3 H
  case requestVersionCr => exact aux_request_version_cr H
  case responseVersionMajor1 => exact aux_response_version_major1 H
  case responseVersionMajor2 => exact aux_response_version_major2 H
  case responseVersionMajor3 => exact aux_response_version_major3 H
  case responseVersionPeriod => exact aux_response_version_period H
  case responseVersionMinor1 => exact aux_response_version_minor1 H
  case responseVersionMinor2 => exact aux_response_version_minor2 H
  case responseVersionMinor3 => exact aux_response_version_minor3 H
  case responseVersionSpace => exact aux_response_version_space H
  case responseStatusCode1 => exact aux_response_status_code1 H
  case responseStatusCode2 => exact aux_response_status_code2 H
  case responseStatusCode3 => exact aux_response_status_code3 H
  case responseStatusCodeSpace => exact aux_response_status_code_space H
  case responseStatus1 => exact aux_response_status1 H
  case responseStatus2 => exact aux_response_status2 H
  case initialEnd => exact aux_initial_end H
  case initialLf => exact aux_initial_lf H
  case checkHeaderName => exact aux_check_header_name H
  case firstHeaderName => exact aux_first_header_name H
  case upperHeaderName => exact aux_upper_header_name H
  case lowerHeaderName => exact aux_lower_header_name H
  case stripHeaderValue => exact aux_strip_header_value H
  case headerValue => exact aux_header_value H
  case headerQuotedValue => exact aux_header_quoted_value H
  case headerEscapedValue => exact aux_header_escaped_value H
  case headerCr1 => exact aux_header_cr1 H
  case headerLf1 => exact aux_header_lf1 H
  case headerCr2 => exact aux_header_cr2 H
  case headerLf2 => exact aux_header_lf2 H
  case headerEnd => exact aux_header_end H
  case chunkLength1 => exact aux_chunk_length1 H
  case chunkLength2 => exact aux_chunk_length2 H
  case chunkLength3 => exact aux_chunk_length3 H
  case chunkLength4 => exact aux_chunk_length4 H
  case chunkLength5 => exact aux_chunk_length5 H
  case chunkLength6 => exact aux_chunk_length6 H
  case chunkLength7 => exact aux_chunk_length7 H
  case chunkLength8 => exact aux_chunk_length8 H
  case chunkLengthCr => exact aux_chunk_length_cr H
  case chunkLengthLf => exact aux_chunk_length_lf H
  case stripChunkExtensionName => exact aux_strip_chunk_extension_name H
  case lowerChunkExtensionName => exact aux_lower_chunk_extension_name H
  case upperChunkExtensionName => exact aux_upper_chunk_extension_name H
  case stripChunkExtensionValue => exact aux_strip_chunk_extension_value H
  case chunkExtensionValue => exact aux_chunk_extension_value H
  case chunkExtensionQuotedValue => exact aux_chunk_extension_quoted_value H
  case chunkExtensionEscapedValue => exact aux_chunk_extension_escaped_value H
  case chunkExtensionFinished => exact aux_chunk_extension_finished H
  case chunkExtensionsFinished => exact aux_chunk_extensions_finished H
  case chunkData => exact aux_chunk_data H
  case chunkDataCr => exact aux_chunk_data_cr H
  case chunkDataLf => exact aux_chunk_data_lf H
  case multipartHyphen1 => exact aux_multipart_hyphen1 H
  case multipartHyphen2 => exact aux_multipart_hyphen2 H
  case multipartBoundary => exact aux_multipart_boundary H
  case multipartBoundaryCr => exact aux_multipart_boundary_cr H
  case multipartBoundaryLf => exact aux_multipart_boundary_lf H
  case multipartDetectData => exact aux_multipart_detect_data H
  case multipartDataByLength => exact aux_multipart_data_by_length H
  case multipartDataByLengthCr => exact aux_multipart_data_by_length_cr H
  case multipartDataByLengthLf => exact aux_multipart_data_by_length_lf H
  case multipartDataByByte => exact aux_multipart_data_by_byte H
  case multipartDataByByteLf => exact aux_multipart_data_by_byte_lf H
  case multipartEnd => exact aux_multipart_end H
  case firstUrlEncodedName => exact aux_first_url_encoded_name H
  case urlEncodedName => exact aux_url_encoded_name H
  case urlEncodedNameHex1 => exact aux_url_encoded_name_hex1 H
  case urlEncodedNameHex2 => exact aux_url_encoded_name_hex2 H
  case urlEncodedNamePlus => exact aux_url_encoded_name_plus H
  case urlEncodedValue => exact aux_url_encoded_value H
  case urlEncodedValueHex1 => exact aux_url_encoded_value_hex1 H
  case urlEncodedValueHex2 => exact aux_url_encoded_value_hex2 H
  case urlEncodedValuePlus => exact aux_url_encoded_value_plus H
  case bodyFinished => exact aux_body_finished H
  case finished => exact aux_finished H

end Verif.Http1
