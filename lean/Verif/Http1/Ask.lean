import Verif.Http1.Mode
import Verif.Http1.Lengths

/-!
# When the length of a part is asked (helper lemmas)
-/

set_option linter.unusedSimpArgs false
set_option linter.unusedVariables false

namespace Verif.Http1

variable {h : Handler} {c : Cfg}

/-- The state function that asks for the length is not due. -/
def AC (c : Cfg) : Prop := c.p.fn ≠ .multipartDetectData

/-- After a state function call it is not due. -/
def AO : Out → Prop
  | .cont c | .exit _ c => AC c
  | _ => True

theorem ao_ite {p : Prop} [Decidable p] {a b : Out} (h1 : AO a) (h2 : AO b) :
    AO (if p then a else b) := by split <;> assumption
theorem AC.ctx (H : AC c) (x : Ctx) : AC { c with ctx := x } := H
theorem AC.jump (H : AC c) (n : Nat) : AC (jump c n) := H
theorem AC.withP (H : AC c) {f : Parser → Parser}
    (hf : (f c.p).fn = c.p.fn) : AC (withP c f) := by
  show (f c.p).fn ≠ _; rw [hf]; exact H
theorem AC.set (H : AC c) {s f : St} (hf : f ≠ .multipartDetectData) : AC (setState c s f) := hf
theorem ao_err {e : PErr} : AO (.err e c) := trivial
theorem ao_panic : AO .panic := trivial
theorem ao_ub : AO .ub := trivial
theorem ao_exit {s : Success} (H : AC c) : AO (.exit s c) := H
theorem ao_exitEos (H : AC c) : AO (exitEos c) := H
theorem ao_exitIfEos {k : Out} (H : AC c) (hk : AO k) :
    AO (exitIfEos c k) := ao_ite (ao_exitEos H) hk
theorem ao_next {k : Cfg → Out} (H : AC c) (hk : ∀ c', AC c' → AO (k c')) :
    AO (next c k) := by
  unfold next; split
  · exact hk _ (H.ctx _)
  · trivial
theorem ao_replay {k : Cfg → Out} (H : AC c) (hk : ∀ c', AC c' → AO (k c')) :
    AO (replay c k) := ao_ite trivial (hk _ (H.ctx _))
theorem ao_remark (H : AC c) : AO (remark c) := H
theorem ao_transition (H : AC c) {s f : St} (hf : f ≠ .multipartDetectData) : AO (transition c s f) :=
  hf
theorem ao_transitionNR (H : AC c) {s f : St} (hf : f ≠ .multipartDetectData) :
    AO (transitionNoRemark c s f) := hf
theorem ao_data {e : Ev} {k : Cfg → Out} (H : AC c) (hk : ∀ c', AC c' → AO (k c')) :
    AO (callbackData h c e k) := by
  simp only [callbackData]
  split
  · exact hk _ H
  · exact H
theorem ao_slice {mk : Bytes → Ev} {k : Cfg → Out} (H : AC c)
    (hk : ∀ c', AC c' → AO (k c')) : AO (callbackSlice h c mk k) :=
  ao_ite trivial (ao_ite (ao_data H hk) (hk _ H))
theorem ao_eos {mk : Bytes → Ev} (H : AC c) :
    AO (callbackEos h c mk) := ao_slice H fun _ => ao_exitEos
theorem ao_ign {mk : Bytes → Ev} (H : AC c) {s f : St} (hf : f ≠ .multipartDetectData) :
    AO (callbackIgnoreTransition h c mk s f) :=
  ao_ite trivial (ao_ite (ao_data (H.set hf) fun _ => ao_remark) (ao_remark (H.set hf)))
theorem ao_td {e : Ev} (H : AC c) {s f : St} (hf : f ≠ .multipartDetectData) :
    AO (callbackTransitionData h c e s f) := ao_data (H.set hf) fun _ => ao_remark
theorem ao_ts {mk : Bytes → Ev} (H : AC c) {s f : St} (hf : f ≠ .multipartDetectData) :
    AO (callbackTransition h c mk s f) := ao_slice (H.set hf) fun _ => ao_remark
theorem ao_collecting {r : Ctx.Collect} {e k : Cfg → Out} (H : AC c)
    (he : ∀ c', AC c' → AO (e c')) (hk : ∀ c', AC c' → AO (k c')) :
    AO (collecting c r e k) := by
  cases r
  · exact he _ (H.ctx _)
  · exact hk _ (H.ctx _)
  · trivial
  · trivial

set_option hygiene false in
macro "ao_tac" : tactic => `(tactic|
  repeat' first
    | exact ao_err
    | exact ao_panic
    | exact ao_ub
    | decide
    | assumption
    | exact rfl
    | with_reducible apply ao_exitIfEos
    | (with_reducible refine ao_next ?_ (fun c' _ => ?_))
    | (with_reducible refine ao_replay ?_ (fun c' _ => ?_))
    | with_reducible apply ao_remark
    | with_reducible apply ao_transition
    | with_reducible apply ao_transitionNR
    | with_reducible apply ao_ign
    | with_reducible apply ao_td
    | with_reducible apply ao_ts
    | with_reducible apply ao_eos
    | with_reducible apply ao_exitEos
    | with_reducible apply ao_exit
    | (with_reducible refine ao_data ?_ (fun c' _ => ?_))
    | (with_reducible refine ao_collecting ?_ (fun c' _ => ?_) (fun c' _ => ?_))
    | with_reducible apply ao_ite
    | with_reducible apply AC.set
    | with_reducible apply AC.jump
    | with_reducible apply AC.withP
    | with_reducible apply AC.ctx
    | split)

macro "ao_un" f:ident : tactic => `(tactic|
  simp only [$f:ident, detect1Method, detectByte, expectVersion, versionMajor1, versionMajorN,
    versionMinor1, versionMinorN, versionEnd, expectCrlf, firstHeaderNameSlow, chunkLengthN,
    collectLength, expectBoundary, pushHex])

theorem ao_dead (H : AC c) : AO (dead c) := by
  ao_un dead
  ao_tac

theorem ao_strip_detect (H : AC c) : AO (strip_detect c) := by
  ao_un strip_detect
  ao_tac

theorem ao_detect1 (H : AC c) : AO (detect1 h c) := by
  ao_un detect1
  ao_tac

theorem ao_detect2 (H : AC c) : AO (detect2 c) := by
  ao_un detect2
  ao_tac

theorem ao_detect3 (H : AC c) : AO (detect3 c) := by
  ao_un detect3
  ao_tac

theorem ao_detect4 (H : AC c) : AO (detect4 c) := by
  ao_un detect4
  ao_tac

theorem ao_detect5 (H : AC c) : AO (detect5 c) := by
  ao_un detect5
  ao_tac

theorem ao_request_method (H : AC c) : AO (request_method h c) := by
  ao_un request_method
  ao_tac

theorem ao_request_url1 (H : AC c) : AO (request_url1 c) := by
  ao_un request_url1
  ao_tac

theorem ao_request_url2 (H : AC c) : AO (request_url2 h c) := by
  ao_un request_url2
  ao_tac

theorem ao_request_http1 (H : AC c) : AO (request_http1 h c) := by
  ao_un request_http1
  ao_tac

theorem ao_request_http2 (H : AC c) : AO (request_http2 c) := by
  ao_un request_http2
  ao_tac

theorem ao_request_http3 (H : AC c) : AO (request_http3 c) := by
  ao_un request_http3
  ao_tac

theorem ao_request_http4 (H : AC c) : AO (request_http4 c) := by
  ao_un request_http4
  ao_tac

theorem ao_request_http5 (H : AC c) : AO (request_http5 c) := by
  ao_un request_http5
  ao_tac

theorem ao_request_version_major1 (H : AC c) : AO (request_version_major1 c) := by
  ao_un request_version_major1
  ao_tac

theorem ao_request_version_major2 (H : AC c) : AO (request_version_major2 c) := by
  ao_un request_version_major2
  ao_tac

theorem ao_request_version_major3 (H : AC c) : AO (request_version_major3 c) := by
  ao_un request_version_major3
  ao_tac

theorem ao_request_version_period (H : AC c) : AO (request_version_period c) := by
  ao_un request_version_period
  ao_tac

theorem ao_request_version_minor1 (H : AC c) : AO (request_version_minor1 c) := by
  ao_un request_version_minor1
  ao_tac

theorem ao_request_version_minor2 (H : AC c) : AO (request_version_minor2 c) := by
  ao_un request_version_minor2
  ao_tac

theorem ao_request_version_minor3 (H : AC c) : AO (request_version_minor3 c) := by
  ao_un request_version_minor3
  ao_tac

theorem ao_request_version_cr (H : AC c) : AO (request_version_cr h c) := by
  ao_un request_version_cr
  ao_tac

theorem ao_response_version_major1 (H : AC c) : AO (response_version_major1 c) := by
  ao_un response_version_major1
  ao_tac

theorem ao_response_version_major2 (H : AC c) : AO (response_version_major2 c) := by
  ao_un response_version_major2
  ao_tac

theorem ao_response_version_major3 (H : AC c) : AO (response_version_major3 c) := by
  ao_un response_version_major3
  ao_tac

theorem ao_response_version_period (H : AC c) : AO (response_version_period c) := by
  ao_un response_version_period
  ao_tac

theorem ao_response_version_minor1 (H : AC c) : AO (response_version_minor1 c) := by
  ao_un response_version_minor1
  ao_tac

theorem ao_response_version_minor2 (H : AC c) : AO (response_version_minor2 c) := by
  ao_un response_version_minor2
  ao_tac

theorem ao_response_version_minor3 (H : AC c) : AO (response_version_minor3 c) := by
  ao_un response_version_minor3
  ao_tac

theorem ao_response_version_space (H : AC c) : AO (response_version_space h c) := by
  ao_un response_version_space
  ao_tac

theorem ao_response_status_code1 (H : AC c) : AO (response_status_code1 c) := by
  ao_un response_status_code1
  ao_tac

theorem ao_response_status_code2 (H : AC c) : AO (response_status_code2 c) := by
  ao_un response_status_code2
  ao_tac

theorem ao_response_status_code3 (H : AC c) : AO (response_status_code3 c) := by
  ao_un response_status_code3
  ao_tac

theorem ao_response_status_code_space (H : AC c) : AO (response_status_code_space h c) := by
  ao_un response_status_code_space
  ao_tac

theorem ao_response_status1 (H : AC c) : AO (response_status1 c) := by
  ao_un response_status1
  ao_tac

theorem ao_response_status2 (H : AC c) : AO (response_status2 h c) := by
  ao_un response_status2
  ao_tac

theorem ao_initial_end (H : AC c) : AO (initial_end h c) := by
  ao_un initial_end
  ao_tac

theorem ao_initial_lf (H : AC c) : AO (initial_lf c) := by
  ao_un initial_lf
  ao_tac

theorem ao_check_header_name (H : AC c) : AO (check_header_name c) := by
  ao_un check_header_name
  ao_tac

theorem ao_first_header_name (H : AC c) : AO (first_header_name h c) := by
  ao_un first_header_name
  ao_tac

theorem ao_upper_header_name (H : AC c) : AO (upper_header_name h c) := by
  ao_un upper_header_name
  ao_tac

theorem ao_lower_header_name (H : AC c) : AO (lower_header_name h c) := by
  ao_un lower_header_name
  ao_tac

theorem ao_strip_header_value (H : AC c) : AO (strip_header_value c) := by
  ao_un strip_header_value
  ao_tac

theorem ao_header_value (H : AC c) : AO (header_value h c) := by
  ao_un header_value
  ao_tac

theorem ao_header_quoted_value (H : AC c) : AO (header_quoted_value h c) := by
  ao_un header_quoted_value
  ao_tac

theorem ao_header_escaped_value (H : AC c) : AO (header_escaped_value h c) := by
  ao_un header_escaped_value
  ao_tac

theorem ao_header_cr1 (H : AC c) : AO (header_cr1 c) := by
  ao_un header_cr1
  ao_tac

theorem ao_header_lf1 (H : AC c) : AO (header_lf1 c) := by
  ao_un header_lf1
  ao_tac

theorem ao_header_cr2 (H : AC c) : AO (header_cr2 c) := by
  ao_un header_cr2
  ao_tac

theorem ao_header_lf2 (H : AC c) : AO (header_lf2 c) := by
  ao_un header_lf2
  ao_tac

theorem ao_chunk_length1 (H : AC c) : AO (chunk_length1 h c) := by
  ao_un chunk_length1
  ao_tac

theorem ao_chunk_length2 (H : AC c) : AO (chunk_length2 c) := by
  ao_un chunk_length2
  ao_tac

theorem ao_chunk_length3 (H : AC c) : AO (chunk_length3 c) := by
  ao_un chunk_length3
  ao_tac

theorem ao_chunk_length4 (H : AC c) : AO (chunk_length4 c) := by
  ao_un chunk_length4
  ao_tac

theorem ao_chunk_length5 (H : AC c) : AO (chunk_length5 c) := by
  ao_un chunk_length5
  ao_tac

theorem ao_chunk_length6 (H : AC c) : AO (chunk_length6 c) := by
  ao_un chunk_length6
  ao_tac

theorem ao_chunk_length7 (H : AC c) : AO (chunk_length7 c) := by
  ao_un chunk_length7
  ao_tac

theorem ao_chunk_length8 (H : AC c) : AO (chunk_length8 c) := by
  ao_un chunk_length8
  ao_tac

theorem ao_chunk_length_cr (H : AC c) : AO (chunk_length_cr h c) := by
  ao_un chunk_length_cr
  ao_tac

theorem ao_chunk_length_lf (H : AC c) : AO (chunk_length_lf c) := by
  ao_un chunk_length_lf
  ao_tac

theorem ao_strip_chunk_extension_name (H : AC c) : AO (strip_chunk_extension_name c) := by
  ao_un strip_chunk_extension_name
  ao_tac

theorem ao_lower_chunk_extension_name (H : AC c) : AO (lower_chunk_extension_name h c) := by
  ao_un lower_chunk_extension_name
  ao_tac

theorem ao_upper_chunk_extension_name (H : AC c) : AO (upper_chunk_extension_name h c) := by
  ao_un upper_chunk_extension_name
  ao_tac

theorem ao_strip_chunk_extension_value (H : AC c) : AO (strip_chunk_extension_value c) := by
  ao_un strip_chunk_extension_value
  ao_tac

theorem ao_chunk_extension_value (H : AC c) : AO (chunk_extension_value h c) := by
  ao_un chunk_extension_value
  ao_tac

theorem ao_chunk_extension_quoted_value (H : AC c) : AO (chunk_extension_quoted_value h c) := by
  ao_un chunk_extension_quoted_value
  ao_tac

theorem ao_chunk_extension_escaped_value (H : AC c) : AO (chunk_extension_escaped_value h c) := by
  ao_un chunk_extension_escaped_value
  ao_tac

theorem ao_chunk_extensions_finished (H : AC c) : AO (chunk_extensions_finished h c) := by
  ao_un chunk_extensions_finished
  ao_tac

theorem ao_chunk_data (H : AC c) : AO (chunk_data h c) := by
  ao_un chunk_data
  ao_tac

theorem ao_chunk_data_cr (H : AC c) : AO (chunk_data_cr c) := by
  ao_un chunk_data_cr
  ao_tac

theorem ao_chunk_data_lf (H : AC c) : AO (chunk_data_lf c) := by
  ao_un chunk_data_lf
  ao_tac

theorem ao_multipart_hyphen1 (H : AC c) : AO (multipart_hyphen1 h c) := by
  ao_un multipart_hyphen1
  ao_tac

theorem ao_multipart_hyphen2 (H : AC c) : AO (multipart_hyphen2 h c) := by
  ao_un multipart_hyphen2
  ao_tac

theorem ao_multipart_boundary (H : AC c) : AO (multipart_boundary h c) := by
  ao_un multipart_boundary
  ao_tac

theorem ao_multipart_boundary_cr (H : AC c) : AO (multipart_boundary_cr h c) := by
  ao_un multipart_boundary_cr
  ao_tac

theorem ao_multipart_boundary_lf (H : AC c) : AO (multipart_boundary_lf c) := by
  ao_un multipart_boundary_lf
  ao_tac

theorem ao_multipart_data_by_length (H : AC c) : AO (multipart_data_by_length h c) := by
  ao_un multipart_data_by_length
  ao_tac

theorem ao_multipart_data_by_length_cr (H : AC c) : AO (multipart_data_by_length_cr c) := by
  ao_un multipart_data_by_length_cr
  ao_tac

theorem ao_multipart_data_by_length_lf (H : AC c) : AO (multipart_data_by_length_lf c) := by
  ao_un multipart_data_by_length_lf
  ao_tac

theorem ao_multipart_data_by_byte (H : AC c) : AO (multipart_data_by_byte h c) := by
  ao_un multipart_data_by_byte
  ao_tac

theorem ao_multipart_data_by_byte_lf (H : AC c) : AO (multipart_data_by_byte_lf h c) := by
  ao_un multipart_data_by_byte_lf
  ao_tac

theorem ao_multipart_end (H : AC c) : AO (multipart_end c) := by
  ao_un multipart_end
  ao_tac

theorem ao_first_url_encoded_name (H : AC c) : AO (first_url_encoded_name h c) := by
  ao_un first_url_encoded_name
  ao_tac

theorem ao_url_encoded_name (H : AC c) : AO (url_encoded_name h c) := by
  ao_un url_encoded_name
  ao_tac

theorem ao_url_encoded_name_hex1 (H : AC c) : AO (url_encoded_name_hex1 c) := by
  ao_un url_encoded_name_hex1
  ao_tac

theorem ao_url_encoded_name_hex2 (H : AC c) : AO (url_encoded_name_hex2 h c) := by
  ao_un url_encoded_name_hex2
  ao_tac

theorem ao_url_encoded_name_plus (H : AC c) : AO (url_encoded_name_plus h c) := by
  ao_un url_encoded_name_plus
  ao_tac

theorem ao_url_encoded_value (H : AC c) : AO (url_encoded_value h c) := by
  ao_un url_encoded_value
  ao_tac

theorem ao_url_encoded_value_hex1 (H : AC c) : AO (url_encoded_value_hex1 c) := by
  ao_un url_encoded_value_hex1
  ao_tac

theorem ao_url_encoded_value_hex2 (H : AC c) : AO (url_encoded_value_hex2 h c) := by
  ao_un url_encoded_value_hex2
  ao_tac

theorem ao_url_encoded_value_plus (H : AC c) : AO (url_encoded_value_plus h c) := by
  ao_un url_encoded_value_plus
  ao_tac

theorem ao_body_finished (H : AC c) : AO (body_finished h c) := by
  ao_un body_finished
  ao_tac

theorem ao_finished (H : AC c) : AO (finished c) := by
  ao_un finished
  ao_tac

theorem ao_chunk_extension_finished (H : AC c) : AO (chunk_extension_finished h c) := by
  unfold chunk_extension_finished
  refine ao_exitIfEos H (ao_next H fun c' H' => ao_data ?_ fun _ => ao_remark)
  split <;> exact H'.set nofun

/-- When the length is due to be asked, `on_headers_finished` was the last callback. -/
def Due (c : Cfg) : Prop := c.p.fn = .multipartDetectData → ∃ l, c.log = l ++ [.headersFinished]

/-- `Due` for the result of a state function. -/
def DueO : Out → Prop
  | .cont c | .exit _ c => Due c
  | _ => True

theorem AO.due {o : Out} (h : AO o) : DueO o := by
  cases o <;> first | exact fun hd => absurd hd h | trivial

theorem due_step : DueO (step h c) := by
  unfold step
  by_cases hd : c.p.fn = .multipartDetectData
  · rw [hd]
    refine AO.due ?_
    show AO (multipart_detect_data h c)
    unfold multipart_detect_data
    split <;> exact nofun
  by_cases he : c.p.fn = .headerEnd
  · rw [he]
    show DueO (header_end h c)
    unfold header_end
    simp only [callbackData]
    split <;> split <;> exact fun _ => ⟨_, rfl⟩
  have H : AC c := hd
  cases hf : c.p.fn <;> dsimp only
  case headerEnd => exact absurd hf he
  case multipartDetectData => exact absurd hf hd
  case dead => exact (ao_dead H).due
  case stripDetect => exact (ao_strip_detect H).due
  case detect1 => exact (ao_detect1 H).due
  case detect2 => exact (ao_detect2 H).due
  case detect3 => exact (ao_detect3 H).due
  case detect4 => exact (ao_detect4 H).due
  case detect5 => exact (ao_detect5 H).due
  case requestMethod => exact (ao_request_method H).due
  case requestUrl1 => exact (ao_request_url1 H).due
  case requestUrl2 => exact (ao_request_url2 H).due
  case requestHttp1 => exact (ao_request_http1 H).due
  case requestHttp2 => exact (ao_request_http2 H).due
  case requestHttp3 => exact (ao_request_http3 H).due
  case requestHttp4 => exact (ao_request_http4 H).due
  case requestHttp5 => exact (ao_request_http5 H).due
  case requestVersionMajor1 => exact (ao_request_version_major1 H).due
  case requestVersionMajor2 => exact (ao_request_version_major2 H).due
  case requestVersionMajor3 => exact (ao_request_version_major3 H).due
  case requestVersionPeriod => exact (ao_request_version_period H).due
  case requestVersionMinor1 => exact (ao_request_version_minor1 H).due
  case requestVersionMinor2 => exact (ao_request_version_minor2 H).due
  case requestVersionMinor3 => exact (ao_request_version_minor3 H).due
  case requestVersionCr => exact (ao_request_version_cr H).due
  case responseVersionMajor1 => exact (ao_response_version_major1 H).due
  case responseVersionMajor2 => exact (ao_response_version_major2 H).due
  case responseVersionMajor3 => exact (ao_response_version_major3 H).due
  case responseVersionPeriod => exact (ao_response_version_period H).due
  case responseVersionMinor1 => exact (ao_response_version_minor1 H).due
  case responseVersionMinor2 => exact (ao_response_version_minor2 H).due
  case responseVersionMinor3 => exact (ao_response_version_minor3 H).due
  case responseVersionSpace => exact (ao_response_version_space H).due
  case responseStatusCode1 => exact (ao_response_status_code1 H).due
  case responseStatusCode2 => exact (ao_response_status_code2 H).due
  case responseStatusCode3 => exact (ao_response_status_code3 H).due
  case responseStatusCodeSpace => exact (ao_response_status_code_space H).due
  case responseStatus1 => exact (ao_response_status1 H).due
  case responseStatus2 => exact (ao_response_status2 H).due
  case initialEnd => exact (ao_initial_end H).due
  case initialLf => exact (ao_initial_lf H).due
  case checkHeaderName => exact (ao_check_header_name H).due
  case firstHeaderName => exact (ao_first_header_name H).due
  case upperHeaderName => exact (ao_upper_header_name H).due
  case lowerHeaderName => exact (ao_lower_header_name H).due
  case stripHeaderValue => exact (ao_strip_header_value H).due
  case headerValue => exact (ao_header_value H).due
  case headerQuotedValue => exact (ao_header_quoted_value H).due
  case headerEscapedValue => exact (ao_header_escaped_value H).due
  case headerCr1 => exact (ao_header_cr1 H).due
  case headerLf1 => exact (ao_header_lf1 H).due
  case headerCr2 => exact (ao_header_cr2 H).due
  case headerLf2 => exact (ao_header_lf2 H).due
  case chunkLength1 => exact (ao_chunk_length1 H).due
  case chunkLength2 => exact (ao_chunk_length2 H).due
  case chunkLength3 => exact (ao_chunk_length3 H).due
  case chunkLength4 => exact (ao_chunk_length4 H).due
  case chunkLength5 => exact (ao_chunk_length5 H).due
  case chunkLength6 => exact (ao_chunk_length6 H).due
  case chunkLength7 => exact (ao_chunk_length7 H).due
  case chunkLength8 => exact (ao_chunk_length8 H).due
  case chunkLengthCr => exact (ao_chunk_length_cr H).due
  case chunkLengthLf => exact (ao_chunk_length_lf H).due
  case stripChunkExtensionName => exact (ao_strip_chunk_extension_name H).due
  case lowerChunkExtensionName => exact (ao_lower_chunk_extension_name H).due
  case upperChunkExtensionName => exact (ao_upper_chunk_extension_name H).due
  case stripChunkExtensionValue => exact (ao_strip_chunk_extension_value H).due
  case chunkExtensionValue => exact (ao_chunk_extension_value H).due
  case chunkExtensionQuotedValue => exact (ao_chunk_extension_quoted_value H).due
  case chunkExtensionEscapedValue => exact (ao_chunk_extension_escaped_value H).due
  case chunkExtensionFinished => exact (ao_chunk_extension_finished H).due
  case chunkExtensionsFinished => exact (ao_chunk_extensions_finished H).due
  case chunkData => exact (ao_chunk_data H).due
  case chunkDataCr => exact (ao_chunk_data_cr H).due
  case chunkDataLf => exact (ao_chunk_data_lf H).due
  case multipartHyphen1 => exact (ao_multipart_hyphen1 H).due
  case multipartHyphen2 => exact (ao_multipart_hyphen2 H).due
  case multipartBoundary => exact (ao_multipart_boundary H).due
  case multipartBoundaryCr => exact (ao_multipart_boundary_cr H).due
  case multipartBoundaryLf => exact (ao_multipart_boundary_lf H).due
  case multipartDataByLength => exact (ao_multipart_data_by_length H).due
  case multipartDataByLengthCr => exact (ao_multipart_data_by_length_cr H).due
  case multipartDataByLengthLf => exact (ao_multipart_data_by_length_lf H).due
  case multipartDataByByte => exact (ao_multipart_data_by_byte H).due
  case multipartDataByByteLf => exact (ao_multipart_data_by_byte_lf H).due
  case multipartEnd => exact (ao_multipart_end H).due
  case firstUrlEncodedName => exact (ao_first_url_encoded_name H).due
  case urlEncodedName => exact (ao_url_encoded_name H).due
  case urlEncodedNameHex1 => exact (ao_url_encoded_name_hex1 H).due
  case urlEncodedNameHex2 => exact (ao_url_encoded_name_hex2 H).due
  case urlEncodedNamePlus => exact (ao_url_encoded_name_plus H).due
  case urlEncodedValue => exact (ao_url_encoded_value H).due
  case urlEncodedValueHex1 => exact (ao_url_encoded_value_hex1 H).due
  case urlEncodedValueHex2 => exact (ao_url_encoded_value_hex2 H).due
  case urlEncodedValuePlus => exact (ao_url_encoded_value_plus H).due
  case bodyFinished => exact (ao_body_finished H).due
  case finished => exact (ao_finished H).due

variable {cl : List Ev → Option Nat}

/-- The two handlers give the same answers directly after `on_headers_finished`. -/
def SameAfterHeaders (h : Handler) (cl : List Ev → Option Nat) : Prop :=
  ∀ l, cl (l ++ [.headersFinished]) = h.contentLength (l ++ [.headersFinished])

theorem step_due (hs : SameAfterHeaders h cl) (hc : Due c) : step (h.telling cl) c = step h c := by
  by_cases hd : c.p.fn = .multipartDetectData
  · obtain ⟨l, hl⟩ := hc hd
    exact step_telling (by rw [hl]; exact hs l)
  · unfold step
    split <;> first | rfl | (rename_i hf; exact absurd hf hd)

theorem parse_due (hs : SameAfterHeaders h cl) : ∀ (n : Nat) (c : Cfg), Due c →
    parse (h.telling cl) n c = parse h n c ∧ ∀ s, (parse h n c).1 = .ok s → Due (parse h n c).2
  | 0, _, _ => ⟨rfl, nofun⟩
  | n + 1, c, hc => by
    have hd := due_step (h := h) (c := c)
    simp only [parse]
    rw [step_due hs hc]
    cases hx : step h c with
    | cont c' => rw [hx] at hd; exact parse_due hs n c' hd
    | exit s c' => rw [hx] at hd; cases s <;> exact ⟨rfl, fun _ _ => hd⟩
    | err e c' => exact ⟨rfl, nofun⟩
    | panic => exact ⟨rfl, nofun⟩
    | ub => exact ⟨rfl, nofun⟩

/-- `Due` between two calls. -/
def DueW (w : World) : Prop := w.p.fn = .multipartDetectData → ∃ l, w.log = l ++ [.headersFinished]

theorem resume_due (hs : SameAfterHeaders h cl) {w : World} (s : Bytes) (hw : DueW w) :
    resume (h.telling cl) w s = resume h w s ∧ ∀ x, (resume h w s).1 = .ok x → DueW (resume h w s).2 := by
  by_cases hp : w.p.ptype = .urlEncoded
  · rw [resume_url hp rfl, resume_url hp rfl]
    generalize (if w.p.length < s.length then s.take w.p.length else s) = st
    have hfuel : 2 ≤ fuel st.length := by simp only [fuel]; omega
    obtain ⟨h1, h2⟩ := parse_due hs (fuel st.length) ⟨w.p, Ctx.new st, w.log⟩ hw
    rw [h1]
    revert h2
    generalize parse h (fuel st.length) ⟨w.p, Ctx.new st, w.log⟩ = rc
    obtain ⟨r, c'⟩ := rc
    intro h2
    cases r with
    | ok su =>
      have h3 := h2 su rfl
      cases su with
      | callback n => simp only [urlPost]; exact ⟨trivial, fun _ _ => by split <;> exact h3⟩
      | eos n =>
        simp only [urlPost]
        split
        · exact ⟨rfl, nofun⟩
        · split
          · rw [parse_bodyFinished hfuel rfl, parse_bodyFinished hfuel rfl]
            refine ⟨rfl, fun _ _ => ?_⟩
            split <;> exact nofun
          · exact ⟨rfl, fun _ _ => h3⟩
      | finished n => exact ⟨rfl, fun _ _ => h3⟩
    | _ => exact ⟨rfl, nofun⟩
  · rw [resume_plain hp, resume_plain hp]
    obtain ⟨h1, h2⟩ := parse_due hs (fuel s.length) ⟨w.p, Ctx.new s, w.log⟩ hw
    rw [h1]
    exact ⟨rfl, h2⟩

theorem drive_due (hs : SameAfterHeaders h cl) : ∀ (ks : List Nat) (last : End) (w : World) (msg : Bytes), DueW w →
    drive (h.telling cl) last ks w msg = drive h last ks w msg
  | [], _, _, _, _ => rfl
  | k :: ks, last, w, msg, hw => by
    obtain ⟨h1, h2⟩ := resume_due hs (msg.take k) hw
    simp only [drive]
    rw [h1]
    revert h2
    generalize resume h w (msg.take k) = r
    obtain ⟨r, w'⟩ := r
    intro h2
    cases r with
    | ok x =>
      have h3 := h2 x rfl
      cases x with
      | callback n => exact drive_due hs ks _ _ _ h3
      | eos n => exact drive_due hs ks _ _ _ h3
      | finished n => rfl
    | _ => rfl

/-! ## Other messages -/

variable {t : PType}

theorem parse_never (ht : t ≠ .multipart) : ∀ (n : Nat) (c : Cfg), MC t c →
    parse (h.telling cl) n c = parse h n c ∧ ∀ s, (parse h n c).1 = .ok s → MC t (parse h n c).2
  | 0, _, _ => ⟨rfl, nofun⟩
  | n + 1, c, hc => by
    have hd := mo_step (h := h) hc
    have hf : c.p.fn ≠ .multipartDetectData := by
      intro hf
      have := hc.md
      rw [hf] at this
      cases t <;> first | exact ht rfl | cases this
    have e : step (h.telling cl) c = step h c := by
      unfold step
      split <;> first | rfl | (rename_i hx; exact absurd hx hf)
    simp only [parse]
    rw [e]
    cases hx : step h c with
    | cont c' => rw [hx] at hd; exact parse_never ht n c' ⟨hd.1, hd.2⟩
    | exit s c' => rw [hx] at hd; cases s <;> exact ⟨rfl, fun _ _ => ⟨hd.1, hd.2⟩⟩
    | err e c' => exact ⟨rfl, nofun⟩
    | panic => exact ⟨rfl, nofun⟩
    | ub => exact ⟨rfl, nofun⟩

/-- `MC` between two calls. -/
def MW (t : PType) (w : World) : Prop := modeSt t w.p.fn = true ∧ w.p.ptype = t

theorem resume_never (ht : t ≠ .multipart) {w : World} (s : Bytes) (hw : MW t w) :
    resume (h.telling cl) w s = resume h w s ∧ ∀ x, (resume h w s).1 = .ok x → MW t (resume h w s).2 := by
  by_cases hp : w.p.ptype = .urlEncoded
  · rw [resume_url hp rfl, resume_url hp rfl]
    generalize (if w.p.length < s.length then s.take w.p.length else s) = st
    have hfuel : 2 ≤ fuel st.length := by simp only [fuel]; omega
    obtain ⟨h1, h2⟩ := parse_never (h := h) (cl := cl) ht (fuel st.length) ⟨w.p, Ctx.new st, w.log⟩ ⟨hw.1, hw.2⟩
    rw [h1]
    revert h2
    generalize parse h (fuel st.length) ⟨w.p, Ctx.new st, w.log⟩ = rc
    obtain ⟨r, c'⟩ := rc
    intro h2
    cases r with
    | ok su =>
      have h3 := h2 su rfl
      cases su with
      | callback n =>
        simp only [urlPost]
        refine ⟨trivial, fun _ _ => ?_⟩
        split <;> exact ⟨h3.md, h3.pt⟩
      | eos n =>
        simp only [urlPost]
        split
        · exact ⟨rfl, nofun⟩
        · split
          · rw [parse_bodyFinished hfuel rfl, parse_bodyFinished hfuel rfl]
            refine ⟨rfl, fun _ _ => ?_⟩
            split <;> exact ⟨by cases t <;> rfl, h3.pt⟩
          · exact ⟨rfl, fun _ _ => ⟨h3.md, h3.pt⟩⟩
      | finished n => exact ⟨rfl, fun _ _ => ⟨h3.md, h3.pt⟩⟩
    | _ => exact ⟨rfl, nofun⟩
  · rw [resume_plain hp, resume_plain hp]
    obtain ⟨h1, h2⟩ := parse_never (h := h) (cl := cl) ht (fuel s.length) ⟨w.p, Ctx.new s, w.log⟩ ⟨hw.1, hw.2⟩
    rw [h1]
    exact ⟨rfl, fun x hx => ⟨(h2 x hx).md, (h2 x hx).pt⟩⟩

theorem drive_never (ht : t ≠ .multipart) : ∀ (ks : List Nat) (last : End) (w : World) (msg : Bytes), MW t w →
    drive (h.telling cl) last ks w msg = drive h last ks w msg
  | [], _, _, _, _ => rfl
  | k :: ks, last, w, msg, hw => by
    obtain ⟨h1, h2⟩ := resume_never (h := h) (cl := cl) ht (msg.take k) hw
    simp only [drive]
    rw [h1]
    revert h2
    generalize resume h w (msg.take k) = r
    obtain ⟨r, w'⟩ := r
    intro h2
    cases r with
    | ok x =>
      have h3 := h2 x rfl
      cases x with
      | callback n => exact drive_never ht ks _ _ _ h3
      | eos n => exact drive_never ht ks _ _ _ h3
      | finished n => rfl
    | _ => rfl

end Verif.Http1
