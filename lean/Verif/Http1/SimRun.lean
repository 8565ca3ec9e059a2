import Verif.Http1.SimUrl
import Mathlib.Tactic.Linarith

/-!
# Simulation: all state functions, the parser loop, resume (helper lemmas)
-/

set_option linter.unusedSimpArgs false

namespace Verif.Http1

variable {env : Env} {fut : Bytes} {K : List Ev × Fin} {h : Handler} {c : Cfg}

theorem sim_step (hB : BdOK env) (hC : ClOK env h) (H : Pre env fut K c c.p.fn) :
    SimOK env fut K (flat c.log) (step h c) := by
  have hl := H.good.live
  cases hfn : c.p.fn <;> simp only [step, hfn] <;> rw [hfn] at H
  case dead => simp [Live, hfn] at hl
  case stripDetect => exact sim_strip_detect H
  case detect1 => exact sim_detect1 H
  case detect2 => exact sim_detect2 H
  case detect3 => exact sim_detect3 H
  case detect4 => exact sim_detect4 H
  case detect5 => exact sim_detect5 H
  case requestMethod => exact sim_request_method H
  case requestUrl1 => exact sim_request_url1 H
  case requestUrl2 => exact sim_request_url2 H
  case requestHttp1 => exact sim_request_http1 H
  case requestHttp2 => exact sim_request_http2 H
  case requestHttp3 => exact sim_request_http3 H
  case requestHttp4 => exact sim_request_http4 H
  case requestHttp5 => exact sim_request_http5 H
  case requestVersionMajor1 => exact sim_request_version_major1 H
  case requestVersionMajor2 => exact sim_request_version_major2 H
  case requestVersionMajor3 => exact sim_request_version_major3 H
  case requestVersionPeriod => exact sim_request_version_period H
  case requestVersionMinor1 => exact sim_request_version_minor1 H
  case requestVersionMinor2 => exact sim_request_version_minor2 H
  case requestVersionMinor3 => exact sim_request_version_minor3 H
  case requestVersionCr => exact sim_request_version_cr H
  case responseVersionMajor1 => exact sim_response_version_major1 H
  case responseVersionMajor2 => exact sim_response_version_major2 H
  case responseVersionMajor3 => exact sim_response_version_major3 H
  case responseVersionPeriod => exact sim_response_version_period H
  case responseVersionMinor1 => exact sim_response_version_minor1 H
  case responseVersionMinor2 => exact sim_response_version_minor2 H
  case responseVersionMinor3 => exact sim_response_version_minor3 H
  case responseVersionSpace => exact sim_response_version_space H
  case responseStatusCode1 => exact sim_response_status_code1 H
  case responseStatusCode2 => exact sim_response_status_code2 H
  case responseStatusCode3 => exact sim_response_status_code3 H
  case responseStatusCodeSpace => exact sim_response_status_code_space H
  case responseStatus1 => exact sim_response_status1 H
  case responseStatus2 => exact sim_response_status2 H
  case initialEnd => exact sim_initial_end H
  case initialLf => exact sim_initial_lf H
  case checkHeaderName => exact sim_check_header_name H
  case firstHeaderName => exact sim_first_header_name H
  case upperHeaderName => exact sim_upper_header_name H
  case lowerHeaderName => exact sim_lower_header_name H
  case stripHeaderValue => exact sim_strip_header_value H
  case headerValue => exact sim_header_value H
  case headerQuotedValue => exact sim_header_quoted_value H
  case headerEscapedValue => exact sim_header_escaped_value H
  case headerCr1 => exact sim_header_cr1 H
  case headerLf1 => exact sim_header_lf1 H
  case headerCr2 => exact sim_header_cr2 H
  case headerLf2 => exact sim_header_lf2 H
  case headerEnd => exact sim_header_end H
  case chunkLength1 => exact sim_chunk_length1 H
  case chunkLength2 => exact sim_chunk_length2 H
  case chunkLength3 => exact sim_chunk_length3 H
  case chunkLength4 => exact sim_chunk_length4 H
  case chunkLength5 => exact sim_chunk_length5 H
  case chunkLength6 => exact sim_chunk_length6 H
  case chunkLength7 => exact sim_chunk_length7 H
  case chunkLength8 => exact sim_chunk_length8 H
  case chunkLengthCr => exact sim_chunk_length_cr H
  case chunkLengthLf => exact sim_chunk_length_lf H
  case stripChunkExtensionName => exact sim_strip_chunk_extension_name H
  case lowerChunkExtensionName => exact sim_lower_chunk_extension_name H
  case upperChunkExtensionName => exact sim_upper_chunk_extension_name H
  case stripChunkExtensionValue => exact sim_strip_chunk_extension_value H
  case chunkExtensionValue => exact sim_chunk_extension_value H
  case chunkExtensionQuotedValue => exact sim_chunk_extension_quoted_value H
  case chunkExtensionEscapedValue => exact sim_chunk_extension_escaped_value H
  case chunkExtensionFinished => exact sim_chunk_extension_finished H
  case chunkExtensionsFinished => exact sim_chunk_extensions_finished H
  case chunkData => exact sim_chunk_data H
  case chunkDataCr => exact sim_chunk_data_cr H
  case chunkDataLf => exact sim_chunk_data_lf H
  case multipartHyphen1 => exact sim_multipart_hyphen1 H
  case multipartHyphen2 => exact sim_multipart_hyphen2 H
  case multipartBoundary => exact sim_multipart_boundary hB H
  case multipartBoundaryCr => exact sim_multipart_boundary_cr H
  case multipartBoundaryLf => exact sim_multipart_boundary_lf H
  case multipartDetectData => exact sim_multipart_detect_data hC H
  case multipartDataByLength => exact sim_multipart_data_by_length H
  case multipartDataByLengthCr => exact sim_multipart_data_by_length_cr H
  case multipartDataByLengthLf => exact sim_multipart_data_by_length_lf H
  case multipartDataByByte => exact sim_multipart_data_by_byte H
  case multipartDataByByteLf => exact sim_multipart_data_by_byte_lf H
  case multipartEnd => exact sim_multipart_end H
  case firstUrlEncodedName => exact sim_first_url_encoded_name H
  case urlEncodedName => exact sim_url_encoded_name H
  case urlEncodedNameHex1 => exact sim_url_encoded_name_hex1 H
  case urlEncodedNameHex2 => exact sim_url_encoded_name_hex2 H
  case urlEncodedNamePlus => exact sim_url_encoded_name_plus H
  case urlEncodedValue => exact sim_url_encoded_value H
  case urlEncodedValueHex1 => exact sim_url_encoded_value_hex1 H
  case urlEncodedValueHex2 => exact sim_url_encoded_value_hex2 H
  case urlEncodedValuePlus => exact sim_url_encoded_value_plus H
  case bodyFinished => exact sim_body_finished H
  case finished => exact sim_finished H

theorem pred_prefix : ∀ (bs : Bytes) (tr : List Ev) (s : AS), tr <+: (pred env tr s bs).1
  | [], tr, s => by simp only [pred]; exact List.prefix_append _ _
  | b :: r, tr, s => by
    simp only [pred]
    split
    · exact List.prefix_append _ _
    · split
      · rename_i es s' _
        refine List.IsPrefix.trans ?_ (pred_prefix r _ s')
        rw [List.append_assoc]
        exact List.prefix_append _ _
      · simp only [List.append_assoc]; exact List.prefix_append _ _
      · exact List.prefix_append _ _
      · exact List.prefix_append _ _

/-- What a run of the parser loop does to the prediction `K`. -/
def ParseSim (env : Env) (fut : Bytes) (K : List Ev × Fin) : Res × Cfg → Prop
  | (.ok (.finished _), c) => K = (flat c.log, .finished (c.ctx.rest ++ fut))
  | (.ok (.callback _), c) =>
    GoodX fut c ∧ pred env (flat c.log) (abs c.p) (c.ctx.rest ++ fut) = K
  | (.ok (.eos _), c) =>
    GoodX fut c ∧ pred env (flat c.log) (abs c.p) (c.ctx.rest ++ fut) = K ∧
      Quiet env (flat c.log) (abs c.p)
  | (.err e, c) =>
    (∃ d, isData d = true ∧ K = (flat c.log ++ flatEv d, .err e (c.ctx.rest ++ fut))) ∨
      ((∃ r, r <:+ c.ctx.rest ++ fut ∧ K = (flat c.log, .errB r)) ∧ ∃ b, e = .multipartBoundary b)
  | (.panic, c) => ∃ d, isData d = true ∧ K = (flat c.log ++ flatEv d, .panic)
  | (.ub, _) => False
  | (.diverge, _) => True

theorem sim_parse (hB : BdOK env) (hC : ClOK env h) : ∀ (n : Nat) (c : Cfg),
    CtxOK c.ctx → Good fut c → predOf env fut c = K → c.p.ptype = env.ptype →
    c.p.boundary = env.boundary → ParseSim env fut K (parse h n c)
  | 0, _, _, _, _, _, _ => trivial
  | n + 1, c, hok, hg, hK, hpt, hbd => by
    have hs := sim_step hB hC ⟨hok, rfl, hg, hK, hpt, hbd⟩
    have hf := fr_step h c hok
    simp only [parse]
    cases heq : step h c with
    | cont c' =>
      rw [heq] at hs hf
      exact sim_parse hB hC n c' hf.1.ok hs.1 hs.2 (hf.1.ptype.trans hpt) (hf.1.boundary.trans hbd)
    | exit s c' =>
      rw [heq] at hs
      cases s with
      | callback n => exact ⟨⟨hs.1.live, hs.1.hx, hs.1.nd⟩, hs.2⟩
      | eos n => exact ⟨⟨hs.1.live, hs.1.hx, hs.1.nd⟩, hs.2⟩
      | finished n => exact hs
    | err e c' => rw [heq] at hs; exact hs
    | panic =>
      rw [heq] at hs
      exact hs
    | ub => rw [heq] at hs; exact hs

/-- Invariant between two `resume` calls; `msg` is the part of the message not yet processed. -/
structure WOK (env : Env) (w : World) (msg : Bytes) (K : List Ev × Fin) : Prop where
  live : Live w.p
  hx : HX w.p.fn msg
  nd : w.p.fn ≠ .detect1
  K : pred env (flat w.log) (abs w.p) msg = K
  ptype : w.p.ptype = env.ptype
  boundary : w.p.boundary = env.boundary

/-- The same before the first call, when `s` is passed to it and `fut` comes later. -/
structure WStart (env : Env) (w : World) (s fut : Bytes) (K : List Ev × Fin) : Prop where
  live : Live w.p
  hok : HOK w.p.fn s fut
  K : pred env (flat w.log) (abs w.p) (s ++ fut) = K
  ptype : w.p.ptype = env.ptype
  boundary : w.p.boundary = env.boundary

theorem WOK.start {w : World} {s : Bytes} (H : WOK env w (s ++ fut) K) : WStart env w s fut K :=
  ⟨H.live, hok_of_hx H.hx H.nd, H.K, H.ptype, H.boundary⟩

theorem sim_parse_new (hB : BdOK env) (hC : ClOK env h) {w : World} {s : Bytes} (n : Nat)
    (H : WStart env w s fut K) : ParseSim env fut K (parse h n ⟨w.p, Ctx.new s, w.log⟩) := by
  refine sim_parse hB hC n _ (ctxOK_new s) ⟨fun _ => rfl, H.live, ?_⟩ ?_ H.ptype H.boundary
  · exact H.hok
  · have := H.K
    have hsl : (Ctx.new s).slice = [] := by simp [Ctx.slice, Ctx.new]
    simp only [predOf, pend, hsl]
    have hr : (Ctx.new s).rest = s := rfl
    cases pendEv w.p.fn <;> simpa [hr] using this

/-- What one `resume` call does to the prediction `K`; `used` counts the processed bytes. -/
def ResumeSim (env : Env) (w : World) (s fut : Bytes) (K : List Ev × Fin) : Res × World → Prop
  | (.ok (.finished n), w') => n ≤ s.length ∧ K = (flat w'.log, .finished ((s ++ fut).drop n))
  | (.ok (.callback n), w') => n ≤ s.length ∧ WOK env w' ((s ++ fut).drop n) K
  | (.ok (.eos n), w') => n = s.length ∧ WOK env w' fut K ∧ Quiet env (flat w'.log) (abs w'.p)
  | (.err e, w') =>
    (∃ d, isData d = true ∧ K = (flat w'.log ++ flatEv d,
      .err e ((s ++ fut).drop (w'.p.byteCount - w.p.byteCount)))) ∨
      ((∃ r, r <:+ (s ++ fut).drop (w'.p.byteCount - w.p.byteCount) ∧ K = (flat w'.log, .errB r)) ∧
        ∃ b, e = .multipartBoundary b)
  | (.panic, w') => ∃ d, isData d = true ∧ K = (flat w'.log ++ flatEv d, .panic)
  | (.ub, _) => False
  | (.diverge, _) => False

theorem rest_of_idx {x : Ctx} {s : Bytes} (h1 : x.stream = s) (h2 : x.idx ≤ s.length) :
    x.rest ++ fut = (s ++ fut).drop x.idx := by
  simp only [Ctx.rest, h1]
  rw [List.drop_append_of_le_length h2]

theorem resume_of_parse {w : World} {s : Bytes}
    (hu : w.p.ptype ≠ .urlEncoded) (hpt : w.p.ptype = env.ptype) (hbd : w.p.boundary = env.boundary)
    (h1 : ParseSim env fut K (parse h (fuel s.length) ⟨w.p, Ctx.new s, w.log⟩)) :
    ResumeSim env w s fut K (resume h w s) := by
  have h2 := parse_new_ok h w.p s w.log
  have e : resume h w s = ((parse h (fuel s.length) ⟨w.p, Ctx.new s, w.log⟩).1,
      ⟨(parse h (fuel s.length) ⟨w.p, Ctx.new s, w.log⟩).2.p,
       (parse h (fuel s.length) ⟨w.p, Ctx.new s, w.log⟩).2.log⟩) := by
    unfold resume
    split
    · rename_i h; exact absurd h hu
    · rfl
  rw [e]
  revert h1 h2
  generalize parse h (fuel s.length) ⟨w.p, Ctx.new s, w.log⟩ = rc
  obtain ⟨r, c'⟩ := rc
  intro h1 h2
  have wok : ∀ c' : Cfg, RunExt ⟨w.p, Ctx.new s, w.log⟩ c' → GoodX fut c' →
      pred env (flat c'.log) (abs c'.p) (c'.ctx.rest ++ fut) = K →
      WOK env ⟨c'.p, c'.log⟩ ((s ++ fut).drop c'.ctx.idx) K := by
    intro c' hr hg hk
    have hst : c'.ctx.stream = s := hr.stream
    have hi : c'.ctx.idx ≤ s.length := by rw [← hst]; exact hr.ok.idx_le
    have hre := rest_of_idx (fut := fut) hst hi
    rw [hre] at hk
    refine ⟨hg.live, ?_, hg.nd, hk, hr.ptype.trans hpt, hr.boundary.trans hbd⟩
    rw [← hre]; exact hg.hx
  cases r with
  | ok su =>
    cases su with
    | callback n =>
      obtain ⟨hr, rfl⟩ := h2
      have hst : c'.ctx.stream = s := hr.stream
      exact ⟨by rw [← hst]; exact hr.ok.idx_le, wok _ hr h1.1 h1.2⟩
    | eos n =>
      obtain ⟨hr, rfl, hn⟩ := h2
      have hst : c'.ctx.stream = s := hr.stream
      rw [hst] at hn
      refine ⟨hn, ?_, h1.2.2⟩
      have := wok _ hr h1.1 h1.2.1
      rw [hn, List.drop_left] at this
      exact this
    | finished n =>
      obtain ⟨hr, rfl, -⟩ := h2
      have hst : c'.ctx.stream = s := hr.stream
      have hi : c'.ctx.idx ≤ s.length := by rw [← hst]; exact hr.ok.idx_le
      refine ⟨hi, ?_⟩
      rw [← rest_of_idx hst hi]; exact h1
  | err er =>
    obtain ⟨hr, -⟩ := h2
    have hst : c'.ctx.stream = s := hr.stream
    have hi : c'.ctx.idx ≤ s.length := by rw [← hst]; exact hr.ok.idx_le
    have hbc : c'.p.byteCount - w.p.byteCount = c'.ctx.idx := by
      have := hr.byteCount
      simp only at this
      omega
    rcases h1 with ⟨d, hd, hk⟩ | hk
    · left
      refine ⟨d, hd, ?_⟩
      simp only [hbc]
      rw [← rest_of_idx hst hi]; exact hk
    · right
      simp only [hbc]
      rw [← rest_of_idx hst hi]; exact hk
  | panic => exact h1
  | ub => exact h1
  | diverge => exact h2

theorem sim_resume (hB : BdOK env) (hC : ClOK env h) {w : World} {s : Bytes}
    (hu : w.p.ptype ≠ .urlEncoded) (H : WStart env w s fut K) :
    ResumeSim env w s fut K (resume h w s) :=
  resume_of_parse hu H.ptype H.boundary (sim_parse_new hB hC (fuel s.length) H)

end Verif.Http1
