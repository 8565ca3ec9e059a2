import Verif.Http1.FrameRun
import Verif.Http1.LooseSpec

/-!
# The byte that an error names (helper lemmas)

An error is reported for the byte that was read last.
-/

namespace Verif.Http1

/-- The byte of the context is the one that was read last. -/
def JustRead (x : Ctx) : Prop := 0 < x.idx ∧ x.stream[x.idx - 1]? = some x.byte

/-- What every state function guarantees: errors name the byte that was read last, and the parser does not become dead
without an error. -/
def Bl (c0 : Cfg) : Out → Prop
  | .cont c => c.p.fn ≠ .dead
  | .err e c => (e.byte = some c.ctx.byte ∧ JustRead c.ctx) ∨ (e = .dead ∧ c0.p.fn = .dead)
  | _ => True

variable {h : Handler} {c0 c : Cfg}

theorem bl_panic : Bl c0 .panic := trivial
theorem bl_ub : Bl c0 .ub := trivial
theorem bl_remark (hf : c.p.fn ≠ .dead) : Bl c0 (remark c) := hf
theorem bl_transition {s f : St} (hf : f ≠ .dead) : Bl c0 (transition c s f) := hf
theorem bl_transitionNoRemark {s f : St} (hf : f ≠ .dead) : Bl c0 (transitionNoRemark c s f) := hf
theorem bl_exitCallback : Bl c0 (exitCallback c) := trivial
theorem bl_exitEos : Bl c0 (exitEos c) := trivial

theorem bl_callbackData {e : Ev} {k : Cfg → Out} (hk : ∀ c' : Cfg, c'.p = c.p → c'.ctx = c.ctx → Bl c0 (k c')) :
    Bl c0 (callbackData h c e k) := by
  simp only [callbackData]
  split
  · exact hk _ rfl rfl
  · trivial

theorem bl_callbackSlice {mk : Bytes → Ev} {k : Cfg → Out}
    (hk : ∀ c' : Cfg, c'.p = c.p → c'.ctx = c.ctx → Bl c0 (k c')) : Bl c0 (callbackSlice h c mk k) := by
  simp only [callbackSlice]
  split
  · trivial
  · split
    · exact bl_callbackData hk
    · exact hk _ rfl rfl

theorem bl_callbackEos {mk : Bytes → Ev} : Bl c0 (callbackEos h c mk) := bl_callbackSlice fun _ _ _ => trivial

theorem bl_callbackRemark {e : Ev} (hf : c.p.fn ≠ .dead) : Bl c0 (callbackData h c e remark) :=
  bl_callbackData fun _ h1 _ => bl_remark (by rw [h1]; exact hf)

theorem bl_callbackTransitionData {e : Ev} {s f : St} (hf : f ≠ .dead) : Bl c0 (callbackTransitionData h c e s f) :=
  bl_callbackRemark hf

theorem bl_callbackTransition {mk : Bytes → Ev} {s f : St} (hf : f ≠ .dead) : Bl c0 (callbackTransition h c mk s f) :=
  bl_callbackSlice fun _ h1 _ => bl_remark (by rw [h1]; exact hf)

theorem bl_callbackIgnoreTransition {mk : Bytes → Ev} {s f : St} (hf : f ≠ .dead) :
    Bl c0 (callbackIgnoreTransition h c mk s f) := by
  simp only [callbackIgnoreTransition]
  split
  · trivial
  · split
    · exact bl_callbackRemark hf
    · exact hf

theorem bl_exitIfEos {k : Out} (hk : Bl c0 k) : Bl c0 (exitIfEos c k) := by
  unfold exitIfEos
  split
  · trivial
  · exact hk

theorem bl_next {k : Cfg → Out} (hk : ∀ c' : Cfg, c'.p = c.p → JustRead c'.ctx → Bl c0 (k c')) : Bl c0 (next c k) := by
  simp only [next, Ctx.next]
  cases hb : c.ctx.stream[c.ctx.idx]? with
  | none => trivial
  | some b => exact hk _ rfl ⟨Nat.succ_pos _, by simpa using hb⟩

theorem bl_replay {k : Cfg → Out} (hk : Bl c0 (k { c with ctx := c.ctx.replay })) : Bl c0 (replay c k) := by
  simp only [replay]; split
  · trivial
  · exact hk

theorem BrkOK.read {x y : Ctx} (hb : BrkOK x y) : JustRead y :=
  ⟨Nat.zero_lt_of_lt hb.lt, by rw [hb.stream]; exact hb.byte⟩

theorem bl_collecting {r : Ctx.Collect} {onEos k : Cfg → Out} (hr : CollectOK c.ctx r)
    (he : ∀ c' : Cfg, c'.p = c.p → Bl c0 (onEos c')) (hk : ∀ c' : Cfg, c'.p = c.p → JustRead c'.ctx → Bl c0 (k c')) :
    Bl c0 (collecting c r onEos k) := by
  cases r with
  | eos x => exact he _ rfl
  | brk x => exact hk _ rfl (BrkOK.read hr)
  | fail x => trivial
  | panic => trivial

theorem bl_err {e : PErr} (hr : JustRead c.ctx) (he : e.byte = some c.ctx.byte) : Bl c0 (.err e c) := .inl ⟨he, hr⟩

/-- One structural step. -/
macro "bl1" : tactic => `(tactic|
  first
  | (with_reducible exact bl_panic)
  | (with_reducible exact bl_ub)
  | (refine bl_exitIfEos ?_)
  | (refine bl_next (fun _ _ _ => ?_))
  | (refine bl_transition ?_; first | assumption | exact nofun)
  | (refine bl_transitionNoRemark ?_; first | assumption | exact nofun)
  | (refine bl_callbackTransitionData ?_; first | assumption | exact nofun)
  | (refine bl_callbackTransition ?_; first | assumption | exact nofun)
  | (refine bl_callbackIgnoreTransition ?_; first | assumption | exact nofun)
  | (refine bl_callbackRemark ?_; first | assumption | exact nofun)
  | (refine bl_err ?_ rfl; assumption)
  | (refine bl_replay ?_)
  | (refine bl_collecting ?_ (fun _ _ => ?_) (fun _ _ _ => ?_)
     · first
       | exact collect_ok _ _ (CtxOK.idx_le ‹_›)
       | exact consumeLinearSpace_ok _ (CtxOK.idx_le ‹_›))
  | (exact bl_exitEos)
  | (exact bl_callbackEos)
  | (dsimp only)
  | split)

macro "bl" : tactic => `(tactic| repeat' bl1)

theorem bl_detect1Method (_hok : CtxOK c.ctx) : Bl c (detect1Method h c) := by
  unfold detect1Method
  bl

theorem bl_detect1 (hok : CtxOK c.ctx) : Bl c (detect1 h c) := by
  unfold detect1
  bl <;> exact bl_detect1Method hok

theorem bl_firstHeaderNameSlow (_hok : CtxOK c.ctx) : Bl c (firstHeaderNameSlow c) := by
  unfold firstHeaderNameSlow
  bl

theorem bl_first_header_name (hok : CtxOK c.ctx) : Bl c (first_header_name h c) := by
  unfold first_header_name
  split
  · split
    · exact bl_callbackTransitionData nofun
    · exact bl_firstHeaderNameSlow hok
  · exact bl_firstHeaderNameSlow hok

theorem bl_response_status2 (hok : CtxOK c.ctx) : Bl c (response_status2 h c) := by
  unfold response_status2
  have hc := collect_ok (fun b => if isNonControl b then .cont else if b == c! '\r' then .brk
    else .fail) c.ctx hok.idx_le
  split <;> rename_i heq <;> rw [heq] at hc
  · exact bl_callbackEos
  · exact bl_callbackIgnoreTransition nofun
  · exact bl_err (BrkOK.read hc) rfl
  · exact bl_panic

theorem bl_strip_detect (_hok : CtxOK c.ctx) : Bl c (strip_detect c) := by
  unfold strip_detect
  bl

theorem bl_detect2 (_hok : CtxOK c.ctx) : Bl c (detect2 c) := by
  unfold detect2 detectByte
  bl

theorem bl_detect3 (_hok : CtxOK c.ctx) : Bl c (detect3 c) := by
  unfold detect3 detectByte
  bl

theorem bl_detect4 (_hok : CtxOK c.ctx) : Bl c (detect4 c) := by
  unfold detect4 detectByte
  bl

theorem bl_detect5 (_hok : CtxOK c.ctx) : Bl c (detect5 c) := by
  unfold detect5 detectByte
  bl

theorem bl_request_method (_hok : CtxOK c.ctx) : Bl c (request_method h c) := by
  unfold request_method
  bl

theorem bl_request_url1 (_hok : CtxOK c.ctx) : Bl c (request_url1 c) := by
  unfold request_url1
  bl

theorem bl_request_url2 (_hok : CtxOK c.ctx) : Bl c (request_url2 h c) := by
  unfold request_url2
  bl

theorem bl_request_http1 (_hok : CtxOK c.ctx) : Bl c (request_http1 h c) := by
  unfold request_http1 expectVersion
  bl

theorem bl_request_http2 (_hok : CtxOK c.ctx) : Bl c (request_http2 c) := by
  unfold request_http2 expectVersion
  bl

theorem bl_request_http3 (_hok : CtxOK c.ctx) : Bl c (request_http3 c) := by
  unfold request_http3 expectVersion
  bl

theorem bl_request_http4 (_hok : CtxOK c.ctx) : Bl c (request_http4 c) := by
  unfold request_http4 expectVersion
  bl

theorem bl_request_http5 (_hok : CtxOK c.ctx) : Bl c (request_http5 c) := by
  unfold request_http5 expectVersion
  bl

theorem bl_request_version_major1 (_hok : CtxOK c.ctx) : Bl c (request_version_major1 c) := by
  unfold request_version_major1 versionMajor1
  bl

theorem bl_request_version_major2 (_hok : CtxOK c.ctx) : Bl c (request_version_major2 c) := by
  unfold request_version_major2 versionMajorN
  bl

theorem bl_request_version_major3 (_hok : CtxOK c.ctx) : Bl c (request_version_major3 c) := by
  unfold request_version_major3 versionMajorN
  bl

theorem bl_request_version_period (_hok : CtxOK c.ctx) : Bl c (request_version_period c) := by
  unfold request_version_period expectVersion
  bl

theorem bl_request_version_minor1 (_hok : CtxOK c.ctx) : Bl c (request_version_minor1 c) := by
  unfold request_version_minor1 versionMinor1
  bl

theorem bl_request_version_minor2 (_hok : CtxOK c.ctx) : Bl c (request_version_minor2 c) := by
  unfold request_version_minor2
  bl

theorem bl_request_version_minor3 (_hok : CtxOK c.ctx) : Bl c (request_version_minor3 c) := by
  unfold request_version_minor3
  bl

theorem bl_request_version_cr (_hok : CtxOK c.ctx) : Bl c (request_version_cr h c) := by
  unfold request_version_cr versionEnd
  bl

theorem bl_response_version_major1 (_hok : CtxOK c.ctx) : Bl c (response_version_major1 c) := by
  unfold response_version_major1 versionMajor1
  bl

theorem bl_response_version_major2 (_hok : CtxOK c.ctx) : Bl c (response_version_major2 c) := by
  unfold response_version_major2 versionMajorN
  bl

theorem bl_response_version_major3 (_hok : CtxOK c.ctx) : Bl c (response_version_major3 c) := by
  unfold response_version_major3 versionMajorN
  bl

theorem bl_response_version_period (_hok : CtxOK c.ctx) : Bl c (response_version_period c) := by
  unfold response_version_period expectVersion
  bl

theorem bl_response_version_minor1 (_hok : CtxOK c.ctx) : Bl c (response_version_minor1 c) := by
  unfold response_version_minor1 versionMinor1
  bl

theorem bl_response_version_minor2 (_hok : CtxOK c.ctx) : Bl c (response_version_minor2 c) := by
  unfold response_version_minor2
  bl

theorem bl_response_version_minor3 (_hok : CtxOK c.ctx) : Bl c (response_version_minor3 c) := by
  unfold response_version_minor3
  bl

theorem bl_response_version_space (_hok : CtxOK c.ctx) : Bl c (response_version_space h c) := by
  unfold response_version_space versionEnd
  bl

theorem bl_response_status_code1 (_hok : CtxOK c.ctx) : Bl c (response_status_code1 c) := by
  unfold response_status_code1
  bl

theorem bl_response_status_code2 (_hok : CtxOK c.ctx) : Bl c (response_status_code2 c) := by
  unfold response_status_code2
  bl

theorem bl_response_status_code3 (_hok : CtxOK c.ctx) : Bl c (response_status_code3 c) := by
  unfold response_status_code3
  bl

theorem bl_response_status_code_space (_hok : CtxOK c.ctx) : Bl c (response_status_code_space h c) := by
  unfold response_status_code_space
  bl

theorem bl_response_status1 (_hok : CtxOK c.ctx) : Bl c (response_status1 c) := by
  unfold response_status1
  bl

theorem bl_initial_end (_hok : CtxOK c.ctx) : Bl c (initial_end h c) := by
  unfold initial_end
  bl

theorem bl_initial_lf (_hok : CtxOK c.ctx) : Bl c (initial_lf c) := by
  unfold initial_lf expectCrlf
  bl

theorem bl_check_header_name (_hok : CtxOK c.ctx) : Bl c (check_header_name c) := by
  unfold check_header_name
  bl

theorem bl_upper_header_name (_hok : CtxOK c.ctx) : Bl c (upper_header_name h c) := by
  unfold upper_header_name
  bl

theorem bl_lower_header_name (_hok : CtxOK c.ctx) : Bl c (lower_header_name h c) := by
  unfold lower_header_name
  bl

theorem bl_strip_header_value (_hok : CtxOK c.ctx) : Bl c (strip_header_value c) := by
  unfold strip_header_value
  bl

theorem bl_header_value (_hok : CtxOK c.ctx) : Bl c (header_value h c) := by
  unfold header_value
  bl

theorem bl_header_quoted_value (_hok : CtxOK c.ctx) : Bl c (header_quoted_value h c) := by
  unfold header_quoted_value
  bl

theorem bl_header_escaped_value (_hok : CtxOK c.ctx) : Bl c (header_escaped_value h c) := by
  unfold header_escaped_value
  bl

theorem bl_header_cr1 (_hok : CtxOK c.ctx) : Bl c (header_cr1 c) := by
  unfold header_cr1 expectCrlf
  bl

theorem bl_header_lf1 (_hok : CtxOK c.ctx) : Bl c (header_lf1 c) := by
  unfold header_lf1 expectCrlf
  bl

theorem bl_header_cr2 (_hok : CtxOK c.ctx) : Bl c (header_cr2 c) := by
  unfold header_cr2
  bl

theorem bl_header_lf2 (_hok : CtxOK c.ctx) : Bl c (header_lf2 c) := by
  unfold header_lf2 expectCrlf
  bl

theorem bl_header_end (_hok : CtxOK c.ctx) : Bl c (header_end h c) := by
  unfold header_end
  dsimp only
  refine bl_callbackRemark ?_
  cases c.p.ptype <;> exact nofun

theorem bl_chunk_length1 (_hok : CtxOK c.ctx) : Bl c (chunk_length1 h c) := by
  unfold chunk_length1
  bl

theorem bl_chunk_length2 (_hok : CtxOK c.ctx) : Bl c (chunk_length2 c) := by
  unfold chunk_length2
  bl

theorem bl_chunk_length3 (_hok : CtxOK c.ctx) : Bl c (chunk_length3 c) := by
  unfold chunk_length3
  bl

theorem bl_chunk_length4 (_hok : CtxOK c.ctx) : Bl c (chunk_length4 c) := by
  unfold chunk_length4
  bl

theorem bl_chunk_length5 (_hok : CtxOK c.ctx) : Bl c (chunk_length5 c) := by
  unfold chunk_length5
  bl

theorem bl_chunk_length6 (_hok : CtxOK c.ctx) : Bl c (chunk_length6 c) := by
  unfold chunk_length6
  bl

theorem bl_chunk_length7 (_hok : CtxOK c.ctx) : Bl c (chunk_length7 c) := by
  unfold chunk_length7
  bl

theorem bl_chunk_length8 (_hok : CtxOK c.ctx) : Bl c (chunk_length8 c) := by
  unfold chunk_length8
  bl

theorem bl_chunk_length_cr (_hok : CtxOK c.ctx) : Bl c (chunk_length_cr h c) := by
  unfold chunk_length_cr
  bl

theorem bl_chunk_length_lf (_hok : CtxOK c.ctx) : Bl c (chunk_length_lf c) := by
  unfold chunk_length_lf expectCrlf
  bl

theorem bl_strip_chunk_extension_name (_hok : CtxOK c.ctx) : Bl c (strip_chunk_extension_name c) := by
  unfold strip_chunk_extension_name
  bl

theorem bl_lower_chunk_extension_name (_hok : CtxOK c.ctx) : Bl c (lower_chunk_extension_name h c) := by
  unfold lower_chunk_extension_name
  bl

theorem bl_upper_chunk_extension_name (_hok : CtxOK c.ctx) : Bl c (upper_chunk_extension_name h c) := by
  unfold upper_chunk_extension_name
  bl

theorem bl_strip_chunk_extension_value (_hok : CtxOK c.ctx) : Bl c (strip_chunk_extension_value c) := by
  unfold strip_chunk_extension_value
  bl

theorem bl_chunk_extension_value (_hok : CtxOK c.ctx) : Bl c (chunk_extension_value h c) := by
  unfold chunk_extension_value
  bl

theorem bl_chunk_extension_quoted_value (_hok : CtxOK c.ctx) : Bl c (chunk_extension_quoted_value h c) := by
  unfold chunk_extension_quoted_value
  bl

theorem bl_chunk_extension_escaped_value (_hok : CtxOK c.ctx) : Bl c (chunk_extension_escaped_value h c) := by
  unfold chunk_extension_escaped_value
  bl

theorem bl_chunk_extension_finished (_hok : CtxOK c.ctx) : Bl c (chunk_extension_finished h c) := by
  unfold chunk_extension_finished
  refine bl_exitIfEos (bl_next fun c' _ _ => ?_)
  dsimp only
  refine bl_callbackRemark ?_
  split <;> exact nofun

theorem bl_chunk_extensions_finished (_hok : CtxOK c.ctx) : Bl c (chunk_extensions_finished h c) := by
  unfold chunk_extensions_finished
  bl

theorem bl_chunk_data (_hok : CtxOK c.ctx) : Bl c (chunk_data h c) := by
  unfold chunk_data collectLength
  bl

theorem bl_chunk_data_cr (_hok : CtxOK c.ctx) : Bl c (chunk_data_cr c) := by
  unfold chunk_data_cr expectCrlf
  bl

theorem bl_chunk_data_lf (_hok : CtxOK c.ctx) : Bl c (chunk_data_lf c) := by
  unfold chunk_data_lf expectCrlf
  bl

theorem bl_multipart_hyphen1 (_hok : CtxOK c.ctx) : Bl c (multipart_hyphen1 h c) := by
  unfold multipart_hyphen1
  bl

theorem bl_multipart_hyphen2 (_hok : CtxOK c.ctx) : Bl c (multipart_hyphen2 h c) := by
  unfold multipart_hyphen2
  bl

theorem bl_multipart_boundary (_hok : CtxOK c.ctx) : Bl c (multipart_boundary h c) := by
  unfold multipart_boundary
  bl

theorem bl_multipart_boundary_cr (_hok : CtxOK c.ctx) : Bl c (multipart_boundary_cr h c) := by
  unfold multipart_boundary_cr
  bl

theorem bl_multipart_boundary_lf (_hok : CtxOK c.ctx) : Bl c (multipart_boundary_lf c) := by
  unfold multipart_boundary_lf expectBoundary
  bl

theorem bl_multipart_detect_data (_hok : CtxOK c.ctx) : Bl c (multipart_detect_data h c) := by
  unfold multipart_detect_data
  bl

theorem bl_multipart_data_by_length (_hok : CtxOK c.ctx) : Bl c (multipart_data_by_length h c) := by
  unfold multipart_data_by_length collectLength
  bl

theorem bl_multipart_data_by_length_cr (_hok : CtxOK c.ctx) : Bl c (multipart_data_by_length_cr c) := by
  unfold multipart_data_by_length_cr expectBoundary
  bl

theorem bl_multipart_data_by_length_lf (_hok : CtxOK c.ctx) : Bl c (multipart_data_by_length_lf c) := by
  unfold multipart_data_by_length_lf expectBoundary
  bl

theorem bl_multipart_data_by_byte (_hok : CtxOK c.ctx) : Bl c (multipart_data_by_byte h c) := by
  unfold multipart_data_by_byte
  bl

theorem bl_multipart_data_by_byte_lf (_hok : CtxOK c.ctx) : Bl c (multipart_data_by_byte_lf h c) := by
  unfold multipart_data_by_byte_lf
  bl

theorem bl_multipart_end (_hok : CtxOK c.ctx) : Bl c (multipart_end c) := by
  unfold multipart_end expectBoundary
  bl

theorem bl_first_url_encoded_name (_hok : CtxOK c.ctx) : Bl c (first_url_encoded_name h c) := by
  unfold first_url_encoded_name
  bl

theorem bl_url_encoded_name (_hok : CtxOK c.ctx) : Bl c (url_encoded_name h c) := by
  unfold url_encoded_name
  bl

theorem bl_url_encoded_name_hex1 (_hok : CtxOK c.ctx) : Bl c (url_encoded_name_hex1 c) := by
  unfold url_encoded_name_hex1
  bl

theorem bl_url_encoded_name_hex2 (_hok : CtxOK c.ctx) : Bl c (url_encoded_name_hex2 h c) := by
  unfold url_encoded_name_hex2
  bl

theorem bl_url_encoded_name_plus (_hok : CtxOK c.ctx) : Bl c (url_encoded_name_plus h c) := by
  unfold url_encoded_name_plus
  bl

theorem bl_url_encoded_value (_hok : CtxOK c.ctx) : Bl c (url_encoded_value h c) := by
  unfold url_encoded_value
  bl

theorem bl_url_encoded_value_hex1 (_hok : CtxOK c.ctx) : Bl c (url_encoded_value_hex1 c) := by
  unfold url_encoded_value_hex1
  bl

theorem bl_url_encoded_value_hex2 (_hok : CtxOK c.ctx) : Bl c (url_encoded_value_hex2 h c) := by
  unfold url_encoded_value_hex2
  bl

theorem bl_url_encoded_value_plus (_hok : CtxOK c.ctx) : Bl c (url_encoded_value_plus h c) := by
  unfold url_encoded_value_plus
  bl

theorem bl_body_finished (_hok : CtxOK c.ctx) : Bl c (body_finished h c) := by
  unfold body_finished
  bl

theorem bl_finished (_hok : CtxOK c.ctx) : Bl c (finished c) := trivial

theorem bl_step (hok : CtxOK c.ctx) : Bl c (step h c) := by
  cases hfn : c.p.fn <;> simp only [step, hfn]
  case dead => exact .inr ⟨rfl, hfn⟩
  case stripDetect => exact bl_strip_detect hok
  case detect1 => exact bl_detect1 hok
  case detect2 => exact bl_detect2 hok
  case detect3 => exact bl_detect3 hok
  case detect4 => exact bl_detect4 hok
  case detect5 => exact bl_detect5 hok
  case requestMethod => exact bl_request_method hok
  case requestUrl1 => exact bl_request_url1 hok
  case requestUrl2 => exact bl_request_url2 hok
  case requestHttp1 => exact bl_request_http1 hok
  case requestHttp2 => exact bl_request_http2 hok
  case requestHttp3 => exact bl_request_http3 hok
  case requestHttp4 => exact bl_request_http4 hok
  case requestHttp5 => exact bl_request_http5 hok
  case requestVersionMajor1 => exact bl_request_version_major1 hok
  case requestVersionMajor2 => exact bl_request_version_major2 hok
  case requestVersionMajor3 => exact bl_request_version_major3 hok
  case requestVersionPeriod => exact bl_request_version_period hok
  case requestVersionMinor1 => exact bl_request_version_minor1 hok
  case requestVersionMinor2 => exact bl_request_version_minor2 hok
  case requestVersionMinor3 => exact bl_request_version_minor3 hok
  case requestVersionCr => exact bl_request_version_cr hok
  case responseVersionMajor1 => exact bl_response_version_major1 hok
  case responseVersionMajor2 => exact bl_response_version_major2 hok
  case responseVersionMajor3 => exact bl_response_version_major3 hok
  case responseVersionPeriod => exact bl_response_version_period hok
  case responseVersionMinor1 => exact bl_response_version_minor1 hok
  case responseVersionMinor2 => exact bl_response_version_minor2 hok
  case responseVersionMinor3 => exact bl_response_version_minor3 hok
  case responseVersionSpace => exact bl_response_version_space hok
  case responseStatusCode1 => exact bl_response_status_code1 hok
  case responseStatusCode2 => exact bl_response_status_code2 hok
  case responseStatusCode3 => exact bl_response_status_code3 hok
  case responseStatusCodeSpace => exact bl_response_status_code_space hok
  case responseStatus1 => exact bl_response_status1 hok
  case responseStatus2 => exact bl_response_status2 hok
  case initialEnd => exact bl_initial_end hok
  case initialLf => exact bl_initial_lf hok
  case checkHeaderName => exact bl_check_header_name hok
  case firstHeaderName => exact bl_first_header_name hok
  case upperHeaderName => exact bl_upper_header_name hok
  case lowerHeaderName => exact bl_lower_header_name hok
  case stripHeaderValue => exact bl_strip_header_value hok
  case headerValue => exact bl_header_value hok
  case headerQuotedValue => exact bl_header_quoted_value hok
  case headerEscapedValue => exact bl_header_escaped_value hok
  case headerCr1 => exact bl_header_cr1 hok
  case headerLf1 => exact bl_header_lf1 hok
  case headerCr2 => exact bl_header_cr2 hok
  case headerLf2 => exact bl_header_lf2 hok
  case headerEnd => exact bl_header_end hok
  case chunkLength1 => exact bl_chunk_length1 hok
  case chunkLength2 => exact bl_chunk_length2 hok
  case chunkLength3 => exact bl_chunk_length3 hok
  case chunkLength4 => exact bl_chunk_length4 hok
  case chunkLength5 => exact bl_chunk_length5 hok
  case chunkLength6 => exact bl_chunk_length6 hok
  case chunkLength7 => exact bl_chunk_length7 hok
  case chunkLength8 => exact bl_chunk_length8 hok
  case chunkLengthCr => exact bl_chunk_length_cr hok
  case chunkLengthLf => exact bl_chunk_length_lf hok
  case stripChunkExtensionName => exact bl_strip_chunk_extension_name hok
  case lowerChunkExtensionName => exact bl_lower_chunk_extension_name hok
  case upperChunkExtensionName => exact bl_upper_chunk_extension_name hok
  case stripChunkExtensionValue => exact bl_strip_chunk_extension_value hok
  case chunkExtensionValue => exact bl_chunk_extension_value hok
  case chunkExtensionQuotedValue => exact bl_chunk_extension_quoted_value hok
  case chunkExtensionEscapedValue => exact bl_chunk_extension_escaped_value hok
  case chunkExtensionFinished => exact bl_chunk_extension_finished hok
  case chunkExtensionsFinished => exact bl_chunk_extensions_finished hok
  case chunkData => exact bl_chunk_data hok
  case chunkDataCr => exact bl_chunk_data_cr hok
  case chunkDataLf => exact bl_chunk_data_lf hok
  case multipartHyphen1 => exact bl_multipart_hyphen1 hok
  case multipartHyphen2 => exact bl_multipart_hyphen2 hok
  case multipartBoundary => exact bl_multipart_boundary hok
  case multipartBoundaryCr => exact bl_multipart_boundary_cr hok
  case multipartBoundaryLf => exact bl_multipart_boundary_lf hok
  case multipartDetectData => exact bl_multipart_detect_data hok
  case multipartDataByLength => exact bl_multipart_data_by_length hok
  case multipartDataByLengthCr => exact bl_multipart_data_by_length_cr hok
  case multipartDataByLengthLf => exact bl_multipart_data_by_length_lf hok
  case multipartDataByByte => exact bl_multipart_data_by_byte hok
  case multipartDataByByteLf => exact bl_multipart_data_by_byte_lf hok
  case multipartEnd => exact bl_multipart_end hok
  case firstUrlEncodedName => exact bl_first_url_encoded_name hok
  case urlEncodedName => exact bl_url_encoded_name hok
  case urlEncodedNameHex1 => exact bl_url_encoded_name_hex1 hok
  case urlEncodedNameHex2 => exact bl_url_encoded_name_hex2 hok
  case urlEncodedNamePlus => exact bl_url_encoded_name_plus hok
  case urlEncodedValue => exact bl_url_encoded_value hok
  case urlEncodedValueHex1 => exact bl_url_encoded_value_hex1 hok
  case urlEncodedValueHex2 => exact bl_url_encoded_value_hex2 hok
  case urlEncodedValuePlus => exact bl_url_encoded_value_plus hok
  case bodyFinished => exact bl_body_finished hok
  case finished => exact bl_finished hok

/-- What the parser loop guarantees. -/
def RunBl (c : Cfg) : Res × Cfg → Prop
  | (.err e, c') => (e.byte = some c'.ctx.byte ∧ JustRead c'.ctx) ∨ (e = .dead ∧ c.p.fn = .dead)
  | _ => True

theorem parse_bl : ∀ (n : Nat) (c : Cfg), CtxOK c.ctx → RunBl c (parse h n c)
  | 0, _, _ => trivial
  | n + 1, c, hok => by
    have hs := bl_step (h := h) hok
    have hf := fr_step h c hok
    simp only [parse]
    cases heq : step h c with
    | cont c' =>
      rw [heq] at hs hf
      have ih := parse_bl n c' hf.1.ok
      dsimp only
      revert ih
      generalize parse h n c' = r
      obtain ⟨r, c''⟩ := r
      intro ih
      cases r with
      | err e => exact ih.imp_right fun ⟨_, h2⟩ => absurd h2 hs
      | ok _ => trivial
      | panic => trivial
      | ub => trivial
      | diverge => trivial
    | exit s c' => trivial
    | err e c' => rw [heq] at hs; exact hs
    | panic => trivial
    | ub => trivial

end Verif.Http1
