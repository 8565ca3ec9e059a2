import Verif.Http1.FrameStep

/-!
# The frame property of the parser loop and of `resume` (helper lemmas)
-/

namespace Verif.Http1

theorem fr_step (h : Handler) (c : Cfg) (hok : CtxOK c.ctx) : Fr c (step h c) := by
  cases hfn : c.p.fn <;> simp only [step, hfn]
  case dead => exact fr_dead hok hfn
  case stripDetect => exact fr_strip_detect hok hfn
  case detect1 => exact fr_detect1 hok hfn
  case detect2 => exact fr_detect2 hok hfn
  case detect3 => exact fr_detect3 hok hfn
  case detect4 => exact fr_detect4 hok hfn
  case detect5 => exact fr_detect5 hok hfn
  case requestMethod => exact fr_request_method hok hfn
  case requestUrl1 => exact fr_request_url1 hok hfn
  case requestUrl2 => exact fr_request_url2 hok hfn
  case requestHttp1 => exact fr_request_http1 hok hfn
  case requestHttp2 => exact fr_request_http2 hok hfn
  case requestHttp3 => exact fr_request_http3 hok hfn
  case requestHttp4 => exact fr_request_http4 hok hfn
  case requestHttp5 => exact fr_request_http5 hok hfn
  case requestVersionMajor1 => exact fr_request_version_major1 hok hfn
  case requestVersionMajor2 => exact fr_request_version_major2 hok hfn
  case requestVersionMajor3 => exact fr_request_version_major3 hok hfn
  case requestVersionPeriod => exact fr_request_version_period hok hfn
  case requestVersionMinor1 => exact fr_request_version_minor1 hok hfn
  case requestVersionMinor2 => exact fr_request_version_minor2 hok hfn
  case requestVersionMinor3 => exact fr_request_version_minor3 hok hfn
  case requestVersionCr => exact fr_request_version_cr hok hfn
  case responseVersionMajor1 => exact fr_response_version_major1 hok hfn
  case responseVersionMajor2 => exact fr_response_version_major2 hok hfn
  case responseVersionMajor3 => exact fr_response_version_major3 hok hfn
  case responseVersionPeriod => exact fr_response_version_period hok hfn
  case responseVersionMinor1 => exact fr_response_version_minor1 hok hfn
  case responseVersionMinor2 => exact fr_response_version_minor2 hok hfn
  case responseVersionMinor3 => exact fr_response_version_minor3 hok hfn
  case responseVersionSpace => exact fr_response_version_space hok hfn
  case responseStatusCode1 => exact fr_response_status_code1 hok hfn
  case responseStatusCode2 => exact fr_response_status_code2 hok hfn
  case responseStatusCode3 => exact fr_response_status_code3 hok hfn
  case responseStatusCodeSpace => exact fr_response_status_code_space hok hfn
  case responseStatus1 => exact fr_response_status1 hok hfn
  case responseStatus2 => exact fr_response_status2 hok hfn
  case initialEnd => exact fr_initial_end hok hfn
  case initialLf => exact fr_initial_lf hok hfn
  case checkHeaderName => exact fr_check_header_name hok hfn
  case firstHeaderName => exact fr_first_header_name hok hfn
  case upperHeaderName => exact fr_upper_header_name hok hfn
  case lowerHeaderName => exact fr_lower_header_name hok hfn
  case stripHeaderValue => exact fr_strip_header_value hok hfn
  case headerValue => exact fr_header_value hok hfn
  case headerQuotedValue => exact fr_header_quoted_value hok hfn
  case headerEscapedValue => exact fr_header_escaped_value hok hfn
  case headerCr1 => exact fr_header_cr1 hok hfn
  case headerLf1 => exact fr_header_lf1 hok hfn
  case headerCr2 => exact fr_header_cr2 hok hfn
  case headerLf2 => exact fr_header_lf2 hok hfn
  case headerEnd => exact fr_header_end hok hfn
  case chunkLength1 => exact fr_chunk_length1 hok hfn
  case chunkLength2 => exact fr_chunk_length2 hok hfn
  case chunkLength3 => exact fr_chunk_length3 hok hfn
  case chunkLength4 => exact fr_chunk_length4 hok hfn
  case chunkLength5 => exact fr_chunk_length5 hok hfn
  case chunkLength6 => exact fr_chunk_length6 hok hfn
  case chunkLength7 => exact fr_chunk_length7 hok hfn
  case chunkLength8 => exact fr_chunk_length8 hok hfn
  case chunkLengthCr => exact fr_chunk_length_cr hok hfn
  case chunkLengthLf => exact fr_chunk_length_lf hok hfn
  case stripChunkExtensionName => exact fr_strip_chunk_extension_name hok hfn
  case lowerChunkExtensionName => exact fr_lower_chunk_extension_name hok hfn
  case upperChunkExtensionName => exact fr_upper_chunk_extension_name hok hfn
  case stripChunkExtensionValue => exact fr_strip_chunk_extension_value hok hfn
  case chunkExtensionValue => exact fr_chunk_extension_value hok hfn
  case chunkExtensionQuotedValue => exact fr_chunk_extension_quoted_value hok hfn
  case chunkExtensionEscapedValue => exact fr_chunk_extension_escaped_value hok hfn
  case chunkExtensionFinished => exact fr_chunk_extension_finished hok hfn
  case chunkExtensionsFinished => exact fr_chunk_extensions_finished hok hfn
  case chunkData => exact fr_chunk_data hok hfn
  case chunkDataCr => exact fr_chunk_data_cr hok hfn
  case chunkDataLf => exact fr_chunk_data_lf hok hfn
  case multipartHyphen1 => exact fr_multipart_hyphen1 hok hfn
  case multipartHyphen2 => exact fr_multipart_hyphen2 hok hfn
  case multipartBoundary => exact fr_multipart_boundary hok hfn
  case multipartBoundaryCr => exact fr_multipart_boundary_cr hok hfn
  case multipartBoundaryLf => exact fr_multipart_boundary_lf hok hfn
  case multipartDetectData => exact fr_multipart_detect_data hok hfn
  case multipartDataByLength => exact fr_multipart_data_by_length hok hfn
  case multipartDataByLengthCr => exact fr_multipart_data_by_length_cr hok hfn
  case multipartDataByLengthLf => exact fr_multipart_data_by_length_lf hok hfn
  case multipartDataByByte => exact fr_multipart_data_by_byte hok hfn
  case multipartDataByByteLf => exact fr_multipart_data_by_byte_lf hok hfn
  case multipartEnd => exact fr_multipart_end hok hfn
  case firstUrlEncodedName => exact fr_first_url_encoded_name hok hfn
  case urlEncodedName => exact fr_url_encoded_name hok hfn
  case urlEncodedNameHex1 => exact fr_url_encoded_name_hex1 hok hfn
  case urlEncodedNameHex2 => exact fr_url_encoded_name_hex2 hok hfn
  case urlEncodedNamePlus => exact fr_url_encoded_name_plus hok hfn
  case urlEncodedValue => exact fr_url_encoded_value hok hfn
  case urlEncodedValueHex1 => exact fr_url_encoded_value_hex1 hok hfn
  case urlEncodedValueHex2 => exact fr_url_encoded_value_hex2 hok hfn
  case urlEncodedValuePlus => exact fr_url_encoded_value_plus hok hfn
  case bodyFinished => exact fr_body_finished hok hfn
  case finished => exact fr_finished hok hfn

theorem Ext.trans {a b c : Cfg} (h1 : Ext a b) (h2 : Ext b c) : Ext a c :=
  ⟨h2.ok, h2.stream.trans h1.stream, Nat.le_trans h1.idx h2.idx, h2.ptype.trans h1.ptype,
    h2.boundary.trans h1.boundary, h2.byteCount.trans h1.byteCount, h1.log.trans h2.log⟩

/-- What the parser loop guarantees: `c'` is the configuration after a run from `c`. -/
structure RunExt (c c' : Cfg) : Prop where
  ok : CtxOK c'.ctx
  stream : c'.ctx.stream = c.ctx.stream
  idx : c.ctx.idx ≤ c'.ctx.idx
  ptype : c'.p.ptype = c.p.ptype
  boundary : c'.p.boundary = c.p.boundary
  byteCount : c'.p.byteCount = c.p.byteCount + c'.ctx.idx
  log : Grew c.log c'.log

/-- What holds for every result of a run: the count returned is the position, and what was there before stays. -/
def RunOK (c : Cfg) : Res × Cfg → Prop
  | (.ok (.callback n), c') => RunExt c c' ∧ n = c'.ctx.idx
  | (.ok (.eos n), c') => RunExt c c' ∧ n = c'.ctx.idx ∧ c'.ctx.idx = c'.ctx.stream.length
  | (.ok (.finished n), c') => RunExt c c' ∧ n = c'.ctx.idx ∧ c'.p.fn = .finished ∧
      c'.p.state = .finished
  | (.err _, c') => RunExt c c' ∧ c'.p.fn = .dead ∧ c'.p.state = .dead
  | (.panic, _) => True
  | (.ub, _) => True
  | (.diverge, _) => False

theorem parse_ok (h : Handler) : ∀ (n : Nat) (c : Cfg), CtxOK c.ctx → meas c < n →
    RunOK c (parse h n c)
  | 0, _, _, hm => absurd hm (Nat.not_lt_zero _)
  | n + 1, c, hok, hm => by
    have hs := fr_step h c hok
    simp only [parse]
    cases heq : step h c with
    | cont c' =>
      rw [heq] at hs
      obtain ⟨he, hlt⟩ := hs
      have ih := parse_ok h n c' he.ok (by omega)
      simp only
      revert ih
      generalize parse h n c' = r
      have lift : ∀ c'', RunExt c' c'' → RunExt c c'' := fun c'' h2 =>
        ⟨h2.ok, h2.stream.trans he.stream, Nat.le_trans he.idx h2.idx, h2.ptype.trans he.ptype,
          h2.boundary.trans he.boundary, by rw [h2.byteCount, he.byteCount],
          he.log.trans h2.log⟩
      obtain ⟨r, c''⟩ := r
      intro ih
      cases r with
      | ok s => cases s <;> exact ⟨lift _ ih.1, ih.2⟩
      | err e => exact ⟨lift _ ih.1, ih.2⟩
      | panic => trivial
      | ub => trivial
      | diverge => exact ih
    | exit s c' =>
      rw [heq] at hs
      cases s with
      | callback n =>
        obtain ⟨he, hn⟩ := hs
        exact ⟨⟨he.ok, he.stream, he.idx, he.ptype, he.boundary, by rw [he.byteCount],
          he.log⟩, hn⟩
      | eos n =>
        obtain ⟨he, hn⟩ := hs
        exact ⟨⟨he.ok, he.stream, he.idx, he.ptype, he.boundary, by rw [he.byteCount],
          he.log⟩, hn⟩
      | finished n =>
        obtain ⟨he, hn, hf⟩ := hs
        exact ⟨⟨he.ok, he.stream, he.idx, he.ptype, he.boundary, by simp only [he.byteCount],
          he.log⟩, hn, hf, rfl⟩
    | err e c' =>
      rw [heq] at hs
      have he : Ext c c' := hs
      exact ⟨⟨he.ok, he.stream, he.idx, he.ptype, he.boundary, by simp only [he.byteCount],
          he.log⟩, rfl, rfl⟩
    | panic => trivial
    | ub => trivial

theorem ctxOK_new (s : Bytes) : CtxOK (Ctx.new s) := ⟨Nat.le_refl _, Nat.zero_le _⟩

theorem meas_new (p : Parser) (s : Bytes) (l : List Ev) :
    meas ⟨p, Ctx.new s, l⟩ < fuel s.length := by
  have := rank_le p.fn s[0]?
  simp only [meas, Ctx.new, fuel]
  omega

theorem parse_new_ok (h : Handler) (p : Parser) (s : Bytes) (l : List Ev) :
    RunOK ⟨p, Ctx.new s, l⟩ (parse h (fuel s.length) ⟨p, Ctx.new s, l⟩) :=
  parse_ok h _ _ (ctxOK_new s) (meas_new p s l)

end Verif.Http1
