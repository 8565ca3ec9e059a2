import Verif.Http1.SimBase
import Mathlib.Tactic.Linarith

/-!
# Each parser type stays in its states (helper lemmas)
-/

set_option linter.unusedSimpArgs false
set_option linter.unusedVariables false

namespace Verif.Http1

variable {env : Env} {fut : Bytes} {K : List Ev × Fin} {h : Handler} {c : Cfg}

/-- The states that belong to a parser type. -/
def modeSt : PType → St → Bool
  | _, .dead | _, .finished => true
  | t, .bodyFinished => t == .chunked || t == .multipart
  | t, .stripDetect | t, .detect1 | t, .detect2 | t, .detect3 | t, .detect4 | t, .detect5
  | t, .requestMethod | t, .requestUrl1 | t, .requestUrl2 | t, .requestHttp1 | t, .requestHttp2
  | t, .requestHttp3 | t, .requestHttp4 | t, .requestHttp5 | t, .requestVersionMajor1
  | t, .requestVersionMajor2 | t, .requestVersionMajor3 | t, .requestVersionPeriod
  | t, .requestVersionMinor1 | t, .requestVersionMinor2 | t, .requestVersionMinor3
  | t, .requestVersionCr | t, .responseVersionMajor1 | t, .responseVersionMajor2
  | t, .responseVersionMajor3 | t, .responseVersionPeriod | t, .responseVersionMinor1
  | t, .responseVersionMinor2 | t, .responseVersionMinor3 | t, .responseVersionSpace
  | t, .responseStatusCode1 | t, .responseStatusCode2 | t, .responseStatusCode3
  | t, .responseStatusCodeSpace | t, .responseStatus1 | t, .responseStatus2 | t, .initialEnd
   => t == .head
  | t, .initialLf => t == .head || t == .multipart
  | t, .checkHeaderName | t, .firstHeaderName | t, .upperHeaderName | t, .lowerHeaderName
  | t, .stripHeaderValue | t, .headerValue | t, .headerQuotedValue | t, .headerEscapedValue
  | t, .headerCr1 | t, .headerLf1 | t, .headerCr2 | t, .headerLf2 | t, .headerEnd => t != .urlEncoded
  | t, .chunkLength1 | t, .chunkLength2 | t, .chunkLength3 | t, .chunkLength4 | t, .chunkLength5
  | t, .chunkLength6 | t, .chunkLength7 | t, .chunkLength8 | t, .chunkLengthCr
  | t, .chunkLengthLf | t, .stripChunkExtensionName | t, .lowerChunkExtensionName
  | t, .upperChunkExtensionName | t, .stripChunkExtensionValue | t, .chunkExtensionValue
  | t, .chunkExtensionQuotedValue | t, .chunkExtensionEscapedValue | t, .chunkExtensionFinished
  | t, .chunkExtensionsFinished | t, .chunkData | t, .chunkDataCr | t, .chunkDataLf => t == .chunked
  | t, .multipartHyphen1 | t, .multipartHyphen2 | t, .multipartBoundary
  | t, .multipartBoundaryCr | t, .multipartBoundaryLf | t, .multipartDetectData
  | t, .multipartDataByLength | t, .multipartDataByLengthCr | t, .multipartDataByLengthLf
  | t, .multipartDataByByte | t, .multipartDataByByteLf | t, .multipartEnd => t == .multipart
  | t, .firstUrlEncodedName | t, .urlEncodedName | t, .urlEncodedNameHex1
  | t, .urlEncodedNameHex2 | t, .urlEncodedNamePlus | t, .urlEncodedValue
  | t, .urlEncodedValueHex1 | t, .urlEncodedValueHex2 | t, .urlEncodedValuePlus => t == .urlEncoded

/-- A state function call stays in the states of the parser type. -/
def MO (t : PType) : Out → Prop
  | .cont c | .exit _ c => modeSt t c.p.fn = true ∧ c.p.ptype = t
  | _ => True

/-- The parser is in the mode `t`, in a state of this mode. -/
structure MC (t : PType) (c : Cfg) : Prop where
  md : modeSt t c.p.fn = true
  pt : c.p.ptype = t

variable {t : PType}

theorem mo_ite {p : Prop} [Decidable p] {a b : Out} (h1 : MO t a) (h2 : MO t b) :
    MO t (if p then a else b) := by split <;> assumption
theorem MC.ctx (H : MC t c) (x : Ctx) : MC t { c with ctx := x } := ⟨H.md, H.pt⟩
theorem MC.jump (H : MC t c) (n : Nat) : MC t (jump c n) := ⟨H.md, H.pt⟩
theorem MC.withP (H : MC t c) {f : Parser → Parser}
    (hf : (f c.p).ptype = c.p.ptype ∧ (f c.p).fn = c.p.fn) : MC t (withP c f) :=
  ⟨by show modeSt t (f c.p).fn = true; rw [hf.2]; exact H.md,
   by show (f c.p).ptype = t; rw [hf.1]; exact H.pt⟩
theorem MC.set (H : MC t c) {s f : St} (hf : modeSt t f = true) : MC t (setState c s f) := ⟨hf, H.pt⟩
theorem mo_err {e : PErr} : MO t (.err e c) := trivial
theorem mo_panic : MO t .panic := trivial
theorem mo_ub : MO t .ub := trivial
theorem mo_exit {s : Success} (H : MC t c) : MO t (.exit s c) := ⟨H.md, H.pt⟩
theorem mo_exitEos (H : MC t c) : MO t (exitEos c) := ⟨H.md, H.pt⟩
theorem mo_exitIfEos {k : Out} (H : MC t c) (hk : MO t k) :
    MO t (exitIfEos c k) := mo_ite (mo_exitEos H) hk
theorem mo_next {k : Cfg → Out} (H : MC t c) (hk : ∀ c', MC t c' → MO t (k c')) :
    MO t (next c k) := by
  unfold next; split
  · exact hk _ (H.ctx _)
  · trivial
theorem mo_replay {k : Cfg → Out} (H : MC t c) (hk : ∀ c', MC t c' → MO t (k c')) :
    MO t (replay c k) := mo_ite trivial (hk _ (H.ctx _))
theorem mo_remark (H : MC t c) : MO t (remark c) := ⟨H.md, H.pt⟩
theorem mo_transition (H : MC t c) {s f : St} (hf : modeSt t f = true) : MO t (transition c s f) :=
  ⟨hf, H.pt⟩
theorem mo_transitionNR (H : MC t c) {s f : St} (hf : modeSt t f = true) :
    MO t (transitionNoRemark c s f) := ⟨hf, H.pt⟩
theorem mo_data {e : Ev} {k : Cfg → Out} (H : MC t c) (hk : ∀ c', MC t c' → MO t (k c')) :
    MO t (callbackData h c e k) := by
  simp only [callbackData]
  split
  · exact hk _ ⟨H.md, H.pt⟩
  · exact ⟨H.md, H.pt⟩
theorem mo_slice {mk : Bytes → Ev} {k : Cfg → Out} (H : MC t c)
    (hk : ∀ c', MC t c' → MO t (k c')) : MO t (callbackSlice h c mk k) :=
  mo_ite trivial (mo_ite (mo_data H hk) (hk _ H))
theorem mo_eos {mk : Bytes → Ev} (H : MC t c) :
    MO t (callbackEos h c mk) := mo_slice H fun _ => mo_exitEos
theorem mo_ign {mk : Bytes → Ev} (H : MC t c) {s f : St} (hf : modeSt t f = true) :
    MO t (callbackIgnoreTransition h c mk s f) :=
  mo_ite trivial (mo_ite (mo_data (H.set hf) fun _ => mo_remark) (mo_remark (H.set hf)))
theorem mo_td {e : Ev} (H : MC t c) {s f : St} (hf : modeSt t f = true) :
    MO t (callbackTransitionData h c e s f) := mo_data (H.set hf) fun _ => mo_remark
theorem mo_ts {mk : Bytes → Ev} (H : MC t c) {s f : St} (hf : modeSt t f = true) :
    MO t (callbackTransition h c mk s f) := mo_slice (H.set hf) fun _ => mo_remark
theorem mo_collecting {r : Ctx.Collect} {e k : Cfg → Out} (H : MC t c)
    (he : ∀ c', MC t c' → MO t (e c')) (hk : ∀ c', MC t c' → MO t (k c')) :
    MO t (collecting c r e k) := by
  cases r
  · exact he _ (H.ctx _)
  · exact hk _ (H.ctx _)
  · trivial
  · trivial

set_option hygiene false in
macro "mo_tac" : tactic => `(tactic|
  repeat' first
    | exact mo_err
    | exact mo_panic
    | exact mo_ub
    | (guard_target =~ modeSt _ _ = true; cases t <;> first | rfl | exact absurd hm (by decide))
    | assumption
    | exact ⟨rfl, rfl⟩
    | with_reducible apply mo_exitIfEos
    | (with_reducible refine mo_next ?_ (fun c' _ => ?_))
    | (with_reducible refine mo_replay ?_ (fun c' _ => ?_))
    | with_reducible apply mo_remark
    | with_reducible apply mo_transition
    | with_reducible apply mo_transitionNR
    | with_reducible apply mo_ign
    | with_reducible apply mo_td
    | with_reducible apply mo_ts
    | with_reducible apply mo_eos
    | with_reducible apply mo_exitEos
    | with_reducible apply mo_exit
    | (with_reducible refine mo_data ?_ (fun c' _ => ?_))
    | (with_reducible refine mo_collecting ?_ (fun c' _ => ?_) (fun c' _ => ?_))
    | with_reducible apply mo_ite
    | with_reducible apply MC.set
    | with_reducible apply MC.jump
    | with_reducible apply MC.withP
    | with_reducible apply MC.ctx
    | split)

macro "mo_un" f:ident : tactic => `(tactic|
  simp only [$f:ident, detect1Method, detectByte, expectVersion, versionMajor1, versionMajorN,
    versionMinor1, versionMinorN, versionEnd, expectCrlf, firstHeaderNameSlow, chunkLengthN,
    collectLength, expectBoundary, pushHex])

theorem mo_dead (hm : modeSt t .dead = true) (H : MC t c) : MO t (dead c) := by
  mo_un dead
  mo_tac

theorem mo_strip_detect (hm : modeSt t .stripDetect = true) (H : MC t c) : MO t (strip_detect c) := by
  mo_un strip_detect
  mo_tac

theorem mo_detect1 (hm : modeSt t .detect1 = true) (H : MC t c) : MO t (detect1 h c) := by
  mo_un detect1
  mo_tac

theorem mo_detect2 (hm : modeSt t .detect2 = true) (H : MC t c) : MO t (detect2 c) := by
  mo_un detect2
  mo_tac

theorem mo_detect3 (hm : modeSt t .detect3 = true) (H : MC t c) : MO t (detect3 c) := by
  mo_un detect3
  mo_tac

theorem mo_detect4 (hm : modeSt t .detect4 = true) (H : MC t c) : MO t (detect4 c) := by
  mo_un detect4
  mo_tac

theorem mo_detect5 (hm : modeSt t .detect5 = true) (H : MC t c) : MO t (detect5 c) := by
  mo_un detect5
  mo_tac

theorem mo_request_method (hm : modeSt t .requestMethod = true) (H : MC t c) : MO t (request_method h c) := by
  mo_un request_method
  mo_tac

theorem mo_request_url1 (hm : modeSt t .requestUrl1 = true) (H : MC t c) : MO t (request_url1 c) := by
  mo_un request_url1
  mo_tac

theorem mo_request_url2 (hm : modeSt t .requestUrl2 = true) (H : MC t c) : MO t (request_url2 h c) := by
  mo_un request_url2
  mo_tac

theorem mo_request_http1 (hm : modeSt t .requestHttp1 = true) (H : MC t c) : MO t (request_http1 h c) := by
  mo_un request_http1
  mo_tac

theorem mo_request_http2 (hm : modeSt t .requestHttp2 = true) (H : MC t c) : MO t (request_http2 c) := by
  mo_un request_http2
  mo_tac

theorem mo_request_http3 (hm : modeSt t .requestHttp3 = true) (H : MC t c) : MO t (request_http3 c) := by
  mo_un request_http3
  mo_tac

theorem mo_request_http4 (hm : modeSt t .requestHttp4 = true) (H : MC t c) : MO t (request_http4 c) := by
  mo_un request_http4
  mo_tac

theorem mo_request_http5 (hm : modeSt t .requestHttp5 = true) (H : MC t c) : MO t (request_http5 c) := by
  mo_un request_http5
  mo_tac

theorem mo_request_version_major1 (hm : modeSt t .requestVersionMajor1 = true) (H : MC t c) : MO t (request_version_major1 c) := by
  mo_un request_version_major1
  mo_tac

theorem mo_request_version_major2 (hm : modeSt t .requestVersionMajor2 = true) (H : MC t c) : MO t (request_version_major2 c) := by
  mo_un request_version_major2
  mo_tac

theorem mo_request_version_major3 (hm : modeSt t .requestVersionMajor3 = true) (H : MC t c) : MO t (request_version_major3 c) := by
  mo_un request_version_major3
  mo_tac

theorem mo_request_version_period (hm : modeSt t .requestVersionPeriod = true) (H : MC t c) : MO t (request_version_period c) := by
  mo_un request_version_period
  mo_tac

theorem mo_request_version_minor1 (hm : modeSt t .requestVersionMinor1 = true) (H : MC t c) : MO t (request_version_minor1 c) := by
  mo_un request_version_minor1
  mo_tac

theorem mo_request_version_minor2 (hm : modeSt t .requestVersionMinor2 = true) (H : MC t c) : MO t (request_version_minor2 c) := by
  mo_un request_version_minor2
  mo_tac

theorem mo_request_version_minor3 (hm : modeSt t .requestVersionMinor3 = true) (H : MC t c) : MO t (request_version_minor3 c) := by
  mo_un request_version_minor3
  mo_tac

theorem mo_request_version_cr (hm : modeSt t .requestVersionCr = true) (H : MC t c) : MO t (request_version_cr h c) := by
  mo_un request_version_cr
  mo_tac

theorem mo_response_version_major1 (hm : modeSt t .responseVersionMajor1 = true) (H : MC t c) : MO t (response_version_major1 c) := by
  mo_un response_version_major1
  mo_tac

theorem mo_response_version_major2 (hm : modeSt t .responseVersionMajor2 = true) (H : MC t c) : MO t (response_version_major2 c) := by
  mo_un response_version_major2
  mo_tac

theorem mo_response_version_major3 (hm : modeSt t .responseVersionMajor3 = true) (H : MC t c) : MO t (response_version_major3 c) := by
  mo_un response_version_major3
  mo_tac

theorem mo_response_version_period (hm : modeSt t .responseVersionPeriod = true) (H : MC t c) : MO t (response_version_period c) := by
  mo_un response_version_period
  mo_tac

theorem mo_response_version_minor1 (hm : modeSt t .responseVersionMinor1 = true) (H : MC t c) : MO t (response_version_minor1 c) := by
  mo_un response_version_minor1
  mo_tac

theorem mo_response_version_minor2 (hm : modeSt t .responseVersionMinor2 = true) (H : MC t c) : MO t (response_version_minor2 c) := by
  mo_un response_version_minor2
  mo_tac

theorem mo_response_version_minor3 (hm : modeSt t .responseVersionMinor3 = true) (H : MC t c) : MO t (response_version_minor3 c) := by
  mo_un response_version_minor3
  mo_tac

theorem mo_response_version_space (hm : modeSt t .responseVersionSpace = true) (H : MC t c) : MO t (response_version_space h c) := by
  mo_un response_version_space
  mo_tac

theorem mo_response_status_code1 (hm : modeSt t .responseStatusCode1 = true) (H : MC t c) : MO t (response_status_code1 c) := by
  mo_un response_status_code1
  mo_tac

theorem mo_response_status_code2 (hm : modeSt t .responseStatusCode2 = true) (H : MC t c) : MO t (response_status_code2 c) := by
  mo_un response_status_code2
  mo_tac

theorem mo_response_status_code3 (hm : modeSt t .responseStatusCode3 = true) (H : MC t c) : MO t (response_status_code3 c) := by
  mo_un response_status_code3
  mo_tac

theorem mo_response_status_code_space (hm : modeSt t .responseStatusCodeSpace = true) (H : MC t c) : MO t (response_status_code_space h c) := by
  mo_un response_status_code_space
  mo_tac

theorem mo_response_status1 (hm : modeSt t .responseStatus1 = true) (H : MC t c) : MO t (response_status1 c) := by
  mo_un response_status1
  mo_tac

theorem mo_response_status2 (hm : modeSt t .responseStatus2 = true) (H : MC t c) : MO t (response_status2 h c) := by
  mo_un response_status2
  mo_tac

theorem mo_initial_end (hm : modeSt t .initialEnd = true) (H : MC t c) : MO t (initial_end h c) := by
  mo_un initial_end
  mo_tac

theorem mo_initial_lf (hm : modeSt t .initialLf = true) (H : MC t c) : MO t (initial_lf c) := by
  mo_un initial_lf
  mo_tac

theorem mo_check_header_name (hm : modeSt t .checkHeaderName = true) (H : MC t c) : MO t (check_header_name c) := by
  mo_un check_header_name
  mo_tac

theorem mo_first_header_name (hm : modeSt t .firstHeaderName = true) (H : MC t c) : MO t (first_header_name h c) := by
  mo_un first_header_name
  mo_tac

theorem mo_upper_header_name (hm : modeSt t .upperHeaderName = true) (H : MC t c) : MO t (upper_header_name h c) := by
  mo_un upper_header_name
  mo_tac

theorem mo_lower_header_name (hm : modeSt t .lowerHeaderName = true) (H : MC t c) : MO t (lower_header_name h c) := by
  mo_un lower_header_name
  mo_tac

theorem mo_strip_header_value (hm : modeSt t .stripHeaderValue = true) (H : MC t c) : MO t (strip_header_value c) := by
  mo_un strip_header_value
  mo_tac

theorem mo_header_value (hm : modeSt t .headerValue = true) (H : MC t c) : MO t (header_value h c) := by
  mo_un header_value
  mo_tac

theorem mo_header_quoted_value (hm : modeSt t .headerQuotedValue = true) (H : MC t c) : MO t (header_quoted_value h c) := by
  mo_un header_quoted_value
  mo_tac

theorem mo_header_escaped_value (hm : modeSt t .headerEscapedValue = true) (H : MC t c) : MO t (header_escaped_value h c) := by
  mo_un header_escaped_value
  mo_tac

theorem mo_header_cr1 (hm : modeSt t .headerCr1 = true) (H : MC t c) : MO t (header_cr1 c) := by
  mo_un header_cr1
  mo_tac

theorem mo_header_lf1 (hm : modeSt t .headerLf1 = true) (H : MC t c) : MO t (header_lf1 c) := by
  mo_un header_lf1
  mo_tac

theorem mo_header_cr2 (hm : modeSt t .headerCr2 = true) (H : MC t c) : MO t (header_cr2 c) := by
  mo_un header_cr2
  mo_tac

theorem mo_header_lf2 (hm : modeSt t .headerLf2 = true) (H : MC t c) : MO t (header_lf2 c) := by
  mo_un header_lf2
  mo_tac

theorem mo_header_end (hm : modeSt t .headerEnd = true) (H : MC t c) : MO t (header_end h c) := by
  unfold header_end
  have hpt := H.pt
  cases t <;> simp only [hpt] <;> mo_tac
  cases hm

theorem mo_chunk_length1 (hm : modeSt t .chunkLength1 = true) (H : MC t c) : MO t (chunk_length1 h c) := by
  mo_un chunk_length1
  mo_tac

theorem mo_chunk_length2 (hm : modeSt t .chunkLength2 = true) (H : MC t c) : MO t (chunk_length2 c) := by
  mo_un chunk_length2
  mo_tac

theorem mo_chunk_length3 (hm : modeSt t .chunkLength3 = true) (H : MC t c) : MO t (chunk_length3 c) := by
  mo_un chunk_length3
  mo_tac

theorem mo_chunk_length4 (hm : modeSt t .chunkLength4 = true) (H : MC t c) : MO t (chunk_length4 c) := by
  mo_un chunk_length4
  mo_tac

theorem mo_chunk_length5 (hm : modeSt t .chunkLength5 = true) (H : MC t c) : MO t (chunk_length5 c) := by
  mo_un chunk_length5
  mo_tac

theorem mo_chunk_length6 (hm : modeSt t .chunkLength6 = true) (H : MC t c) : MO t (chunk_length6 c) := by
  mo_un chunk_length6
  mo_tac

theorem mo_chunk_length7 (hm : modeSt t .chunkLength7 = true) (H : MC t c) : MO t (chunk_length7 c) := by
  mo_un chunk_length7
  mo_tac

theorem mo_chunk_length8 (hm : modeSt t .chunkLength8 = true) (H : MC t c) : MO t (chunk_length8 c) := by
  mo_un chunk_length8
  mo_tac

theorem mo_chunk_length_cr (hm : modeSt t .chunkLengthCr = true) (H : MC t c) : MO t (chunk_length_cr h c) := by
  mo_un chunk_length_cr
  mo_tac

theorem mo_chunk_length_lf (hm : modeSt t .chunkLengthLf = true) (H : MC t c) : MO t (chunk_length_lf c) := by
  mo_un chunk_length_lf
  mo_tac

theorem mo_strip_chunk_extension_name (hm : modeSt t .stripChunkExtensionName = true) (H : MC t c) : MO t (strip_chunk_extension_name c) := by
  mo_un strip_chunk_extension_name
  mo_tac

theorem mo_lower_chunk_extension_name (hm : modeSt t .lowerChunkExtensionName = true) (H : MC t c) : MO t (lower_chunk_extension_name h c) := by
  mo_un lower_chunk_extension_name
  mo_tac

theorem mo_upper_chunk_extension_name (hm : modeSt t .upperChunkExtensionName = true) (H : MC t c) : MO t (upper_chunk_extension_name h c) := by
  mo_un upper_chunk_extension_name
  mo_tac

theorem mo_strip_chunk_extension_value (hm : modeSt t .stripChunkExtensionValue = true) (H : MC t c) : MO t (strip_chunk_extension_value c) := by
  mo_un strip_chunk_extension_value
  mo_tac

theorem mo_chunk_extension_value (hm : modeSt t .chunkExtensionValue = true) (H : MC t c) : MO t (chunk_extension_value h c) := by
  mo_un chunk_extension_value
  mo_tac

theorem mo_chunk_extension_quoted_value (hm : modeSt t .chunkExtensionQuotedValue = true) (H : MC t c) : MO t (chunk_extension_quoted_value h c) := by
  mo_un chunk_extension_quoted_value
  mo_tac

theorem mo_chunk_extension_escaped_value (hm : modeSt t .chunkExtensionEscapedValue = true) (H : MC t c) : MO t (chunk_extension_escaped_value h c) := by
  mo_un chunk_extension_escaped_value
  mo_tac

theorem mo_chunk_extension_finished (hm : modeSt t .chunkExtensionFinished = true) (H : MC t c) :
    MO t (chunk_extension_finished h c) := by
  unfold chunk_extension_finished
  refine mo_exitIfEos H (mo_next H fun c' H' => mo_data ?_ fun _ => mo_remark)
  split <;> refine H'.set ?_ <;> mo_tac

theorem mo_chunk_extensions_finished (hm : modeSt t .chunkExtensionsFinished = true) (H : MC t c) : MO t (chunk_extensions_finished h c) := by
  mo_un chunk_extensions_finished
  mo_tac

theorem mo_chunk_data (hm : modeSt t .chunkData = true) (H : MC t c) : MO t (chunk_data h c) := by
  mo_un chunk_data
  mo_tac

theorem mo_chunk_data_cr (hm : modeSt t .chunkDataCr = true) (H : MC t c) : MO t (chunk_data_cr c) := by
  mo_un chunk_data_cr
  mo_tac

theorem mo_chunk_data_lf (hm : modeSt t .chunkDataLf = true) (H : MC t c) : MO t (chunk_data_lf c) := by
  mo_un chunk_data_lf
  mo_tac

theorem mo_multipart_hyphen1 (hm : modeSt t .multipartHyphen1 = true) (H : MC t c) : MO t (multipart_hyphen1 h c) := by
  mo_un multipart_hyphen1
  mo_tac

theorem mo_multipart_hyphen2 (hm : modeSt t .multipartHyphen2 = true) (H : MC t c) : MO t (multipart_hyphen2 h c) := by
  mo_un multipart_hyphen2
  mo_tac

theorem mo_multipart_boundary (hm : modeSt t .multipartBoundary = true) (H : MC t c) : MO t (multipart_boundary h c) := by
  mo_un multipart_boundary
  mo_tac

theorem mo_multipart_boundary_cr (hm : modeSt t .multipartBoundaryCr = true) (H : MC t c) : MO t (multipart_boundary_cr h c) := by
  mo_un multipart_boundary_cr
  mo_tac

theorem mo_multipart_boundary_lf (hm : modeSt t .multipartBoundaryLf = true) (H : MC t c) : MO t (multipart_boundary_lf c) := by
  mo_un multipart_boundary_lf
  mo_tac

theorem mo_multipart_detect_data (hm : modeSt t .multipartDetectData = true) (H : MC t c) : MO t (multipart_detect_data h c) := by
  mo_un multipart_detect_data
  mo_tac

theorem mo_multipart_data_by_length (hm : modeSt t .multipartDataByLength = true) (H : MC t c) : MO t (multipart_data_by_length h c) := by
  mo_un multipart_data_by_length
  mo_tac

theorem mo_multipart_data_by_length_cr (hm : modeSt t .multipartDataByLengthCr = true) (H : MC t c) : MO t (multipart_data_by_length_cr c) := by
  mo_un multipart_data_by_length_cr
  mo_tac

theorem mo_multipart_data_by_length_lf (hm : modeSt t .multipartDataByLengthLf = true) (H : MC t c) : MO t (multipart_data_by_length_lf c) := by
  mo_un multipart_data_by_length_lf
  mo_tac

theorem mo_multipart_data_by_byte (hm : modeSt t .multipartDataByByte = true) (H : MC t c) : MO t (multipart_data_by_byte h c) := by
  mo_un multipart_data_by_byte
  mo_tac

theorem mo_multipart_data_by_byte_lf (hm : modeSt t .multipartDataByByteLf = true) (H : MC t c) : MO t (multipart_data_by_byte_lf h c) := by
  mo_un multipart_data_by_byte_lf
  mo_tac

theorem mo_multipart_end (hm : modeSt t .multipartEnd = true) (H : MC t c) : MO t (multipart_end c) := by
  mo_un multipart_end
  mo_tac

theorem mo_first_url_encoded_name (hm : modeSt t .firstUrlEncodedName = true) (H : MC t c) : MO t (first_url_encoded_name h c) := by
  mo_un first_url_encoded_name
  mo_tac

theorem mo_url_encoded_name (hm : modeSt t .urlEncodedName = true) (H : MC t c) : MO t (url_encoded_name h c) := by
  mo_un url_encoded_name
  mo_tac

theorem mo_url_encoded_name_hex1 (hm : modeSt t .urlEncodedNameHex1 = true) (H : MC t c) : MO t (url_encoded_name_hex1 c) := by
  mo_un url_encoded_name_hex1
  mo_tac

theorem mo_url_encoded_name_hex2 (hm : modeSt t .urlEncodedNameHex2 = true) (H : MC t c) : MO t (url_encoded_name_hex2 h c) := by
  mo_un url_encoded_name_hex2
  mo_tac

theorem mo_url_encoded_name_plus (hm : modeSt t .urlEncodedNamePlus = true) (H : MC t c) : MO t (url_encoded_name_plus h c) := by
  mo_un url_encoded_name_plus
  mo_tac

theorem mo_url_encoded_value (hm : modeSt t .urlEncodedValue = true) (H : MC t c) : MO t (url_encoded_value h c) := by
  mo_un url_encoded_value
  mo_tac

theorem mo_url_encoded_value_hex1 (hm : modeSt t .urlEncodedValueHex1 = true) (H : MC t c) : MO t (url_encoded_value_hex1 c) := by
  mo_un url_encoded_value_hex1
  mo_tac

theorem mo_url_encoded_value_hex2 (hm : modeSt t .urlEncodedValueHex2 = true) (H : MC t c) : MO t (url_encoded_value_hex2 h c) := by
  mo_un url_encoded_value_hex2
  mo_tac

theorem mo_url_encoded_value_plus (hm : modeSt t .urlEncodedValuePlus = true) (H : MC t c) : MO t (url_encoded_value_plus h c) := by
  mo_un url_encoded_value_plus
  mo_tac

theorem mo_body_finished (hm : modeSt t .bodyFinished = true) (H : MC t c) : MO t (body_finished h c) := by
  mo_un body_finished
  mo_tac

theorem mo_finished (hm : modeSt t .finished = true) (H : MC t c) : MO t (finished c) := by
  mo_un finished
  mo_tac

theorem mo_step (H : MC t c) : MO t (step h c) := by
  have hm := H.md
  unfold step
  cases hfn : c.p.fn <;> rw [hfn] at hm
  case dead => exact mo_dead hm H
  case stripDetect => exact mo_strip_detect hm H
  case detect1 => exact mo_detect1 hm H
  case detect2 => exact mo_detect2 hm H
  case detect3 => exact mo_detect3 hm H
  case detect4 => exact mo_detect4 hm H
  case detect5 => exact mo_detect5 hm H
  case requestMethod => exact mo_request_method hm H
  case requestUrl1 => exact mo_request_url1 hm H
  case requestUrl2 => exact mo_request_url2 hm H
  case requestHttp1 => exact mo_request_http1 hm H
  case requestHttp2 => exact mo_request_http2 hm H
  case requestHttp3 => exact mo_request_http3 hm H
  case requestHttp4 => exact mo_request_http4 hm H
  case requestHttp5 => exact mo_request_http5 hm H
  case requestVersionMajor1 => exact mo_request_version_major1 hm H
  case requestVersionMajor2 => exact mo_request_version_major2 hm H
  case requestVersionMajor3 => exact mo_request_version_major3 hm H
  case requestVersionPeriod => exact mo_request_version_period hm H
  case requestVersionMinor1 => exact mo_request_version_minor1 hm H
  case requestVersionMinor2 => exact mo_request_version_minor2 hm H
  case requestVersionMinor3 => exact mo_request_version_minor3 hm H
  case requestVersionCr => exact mo_request_version_cr hm H
  case responseVersionMajor1 => exact mo_response_version_major1 hm H
  case responseVersionMajor2 => exact mo_response_version_major2 hm H
  case responseVersionMajor3 => exact mo_response_version_major3 hm H
  case responseVersionPeriod => exact mo_response_version_period hm H
  case responseVersionMinor1 => exact mo_response_version_minor1 hm H
  case responseVersionMinor2 => exact mo_response_version_minor2 hm H
  case responseVersionMinor3 => exact mo_response_version_minor3 hm H
  case responseVersionSpace => exact mo_response_version_space hm H
  case responseStatusCode1 => exact mo_response_status_code1 hm H
  case responseStatusCode2 => exact mo_response_status_code2 hm H
  case responseStatusCode3 => exact mo_response_status_code3 hm H
  case responseStatusCodeSpace => exact mo_response_status_code_space hm H
  case responseStatus1 => exact mo_response_status1 hm H
  case responseStatus2 => exact mo_response_status2 hm H
  case initialEnd => exact mo_initial_end hm H
  case initialLf => exact mo_initial_lf hm H
  case checkHeaderName => exact mo_check_header_name hm H
  case firstHeaderName => exact mo_first_header_name hm H
  case upperHeaderName => exact mo_upper_header_name hm H
  case lowerHeaderName => exact mo_lower_header_name hm H
  case stripHeaderValue => exact mo_strip_header_value hm H
  case headerValue => exact mo_header_value hm H
  case headerQuotedValue => exact mo_header_quoted_value hm H
  case headerEscapedValue => exact mo_header_escaped_value hm H
  case headerCr1 => exact mo_header_cr1 hm H
  case headerLf1 => exact mo_header_lf1 hm H
  case headerCr2 => exact mo_header_cr2 hm H
  case headerLf2 => exact mo_header_lf2 hm H
  case headerEnd => exact mo_header_end hm H
  case chunkLength1 => exact mo_chunk_length1 hm H
  case chunkLength2 => exact mo_chunk_length2 hm H
  case chunkLength3 => exact mo_chunk_length3 hm H
  case chunkLength4 => exact mo_chunk_length4 hm H
  case chunkLength5 => exact mo_chunk_length5 hm H
  case chunkLength6 => exact mo_chunk_length6 hm H
  case chunkLength7 => exact mo_chunk_length7 hm H
  case chunkLength8 => exact mo_chunk_length8 hm H
  case chunkLengthCr => exact mo_chunk_length_cr hm H
  case chunkLengthLf => exact mo_chunk_length_lf hm H
  case stripChunkExtensionName => exact mo_strip_chunk_extension_name hm H
  case lowerChunkExtensionName => exact mo_lower_chunk_extension_name hm H
  case upperChunkExtensionName => exact mo_upper_chunk_extension_name hm H
  case stripChunkExtensionValue => exact mo_strip_chunk_extension_value hm H
  case chunkExtensionValue => exact mo_chunk_extension_value hm H
  case chunkExtensionQuotedValue => exact mo_chunk_extension_quoted_value hm H
  case chunkExtensionEscapedValue => exact mo_chunk_extension_escaped_value hm H
  case chunkExtensionFinished => exact mo_chunk_extension_finished hm H
  case chunkExtensionsFinished => exact mo_chunk_extensions_finished hm H
  case chunkData => exact mo_chunk_data hm H
  case chunkDataCr => exact mo_chunk_data_cr hm H
  case chunkDataLf => exact mo_chunk_data_lf hm H
  case multipartHyphen1 => exact mo_multipart_hyphen1 hm H
  case multipartHyphen2 => exact mo_multipart_hyphen2 hm H
  case multipartBoundary => exact mo_multipart_boundary hm H
  case multipartBoundaryCr => exact mo_multipart_boundary_cr hm H
  case multipartBoundaryLf => exact mo_multipart_boundary_lf hm H
  case multipartDetectData => exact mo_multipart_detect_data hm H
  case multipartDataByLength => exact mo_multipart_data_by_length hm H
  case multipartDataByLengthCr => exact mo_multipart_data_by_length_cr hm H
  case multipartDataByLengthLf => exact mo_multipart_data_by_length_lf hm H
  case multipartDataByByte => exact mo_multipart_data_by_byte hm H
  case multipartDataByByteLf => exact mo_multipart_data_by_byte_lf hm H
  case multipartEnd => exact mo_multipart_end hm H
  case firstUrlEncodedName => exact mo_first_url_encoded_name hm H
  case urlEncodedName => exact mo_url_encoded_name hm H
  case urlEncodedNameHex1 => exact mo_url_encoded_name_hex1 hm H
  case urlEncodedNameHex2 => exact mo_url_encoded_name_hex2 hm H
  case urlEncodedNamePlus => exact mo_url_encoded_name_plus hm H
  case urlEncodedValue => exact mo_url_encoded_value hm H
  case urlEncodedValueHex1 => exact mo_url_encoded_value_hex1 hm H
  case urlEncodedValueHex2 => exact mo_url_encoded_value_hex2 hm H
  case urlEncodedValuePlus => exact mo_url_encoded_value_plus hm H
  case bodyFinished => exact mo_body_finished hm H
  case finished => exact mo_finished hm H

end Verif.Http1
