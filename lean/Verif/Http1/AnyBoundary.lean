import Verif.Http1.Lengths
import Verif.Http1.Emit
import Verif.Http1.Start

/-!
# Clean callbacks whatever the boundary is (helper lemmas)

The simulation needs a boundary without CR below 2^14 bytes in one state function only, and there only to predict what is
read. What the callbacks may contain does not depend on that: after each call of a state function the prediction can be made
anew.
-/

namespace Verif.Http1

variable {env : Env} {fut : Bytes} {K : List Ev × Fin} {h : Handler} {c : Cfg} {L : List Ev}

/-- `sim_step` without a condition on the boundary, for all states but one. -/
theorem sim_step_other (hB : c.p.fn ≠ .multipartBoundary) (hC : ClOK env h) (H : Pre env fut K c c.p.fn) :
    SimOK env fut K (flat c.log) (step h c) := by
  have hl := H.good.live
  cases hfn : c.p.fn <;> simp only [step, hfn] <;> rw [hfn] at H
  case dead => simp [Live, hfn] at hl
  case stripDetect => exact sim_strip_detect H
  case detect1 => exact sim_detect1 H
  case detect2 => exact sim_detect2 H
  case detect3 => exact sim_detect3 H
  case detect4 => exact sim_detect4 H
  case detect5 => exact sim_detect5 H
  case requestMethod => exact sim_request_method H
  case requestUrl1 => exact sim_request_url1 H
  case requestUrl2 => exact sim_request_url2 H
  case requestHttp1 => exact sim_request_http1 H
  case requestHttp2 => exact sim_request_http2 H
  case requestHttp3 => exact sim_request_http3 H
  case requestHttp4 => exact sim_request_http4 H
  case requestHttp5 => exact sim_request_http5 H
  case requestVersionMajor1 => exact sim_request_version_major1 H
  case requestVersionMajor2 => exact sim_request_version_major2 H
  case requestVersionMajor3 => exact sim_request_version_major3 H
  case requestVersionPeriod => exact sim_request_version_period H
  case requestVersionMinor1 => exact sim_request_version_minor1 H
  case requestVersionMinor2 => exact sim_request_version_minor2 H
  case requestVersionMinor3 => exact sim_request_version_minor3 H
  case requestVersionCr => exact sim_request_version_cr H
  case responseVersionMajor1 => exact sim_response_version_major1 H
  case responseVersionMajor2 => exact sim_response_version_major2 H
  case responseVersionMajor3 => exact sim_response_version_major3 H
  case responseVersionPeriod => exact sim_response_version_period H
  case responseVersionMinor1 => exact sim_response_version_minor1 H
  case responseVersionMinor2 => exact sim_response_version_minor2 H
  case responseVersionMinor3 => exact sim_response_version_minor3 H
  case responseVersionSpace => exact sim_response_version_space H
  case responseStatusCode1 => exact sim_response_status_code1 H
  case responseStatusCode2 => exact sim_response_status_code2 H
  case responseStatusCode3 => exact sim_response_status_code3 H
  case responseStatusCodeSpace => exact sim_response_status_code_space H
  case responseStatus1 => exact sim_response_status1 H
  case responseStatus2 => exact sim_response_status2 H
  case initialEnd => exact sim_initial_end H
  case initialLf => exact sim_initial_lf H
  case checkHeaderName => exact sim_check_header_name H
  case firstHeaderName => exact sim_first_header_name H
  case upperHeaderName => exact sim_upper_header_name H
  case lowerHeaderName => exact sim_lower_header_name H
  case stripHeaderValue => exact sim_strip_header_value H
  case headerValue => exact sim_header_value H
  case headerQuotedValue => exact sim_header_quoted_value H
  case headerEscapedValue => exact sim_header_escaped_value H
  case headerCr1 => exact sim_header_cr1 H
  case headerLf1 => exact sim_header_lf1 H
  case headerCr2 => exact sim_header_cr2 H
  case headerLf2 => exact sim_header_lf2 H
  case headerEnd => exact sim_header_end H
  case chunkLength1 => exact sim_chunk_length1 H
  case chunkLength2 => exact sim_chunk_length2 H
  case chunkLength3 => exact sim_chunk_length3 H
  case chunkLength4 => exact sim_chunk_length4 H
  case chunkLength5 => exact sim_chunk_length5 H
  case chunkLength6 => exact sim_chunk_length6 H
  case chunkLength7 => exact sim_chunk_length7 H
  case chunkLength8 => exact sim_chunk_length8 H
  case chunkLengthCr => exact sim_chunk_length_cr H
  case chunkLengthLf => exact sim_chunk_length_lf H
  case stripChunkExtensionName => exact sim_strip_chunk_extension_name H
  case lowerChunkExtensionName => exact sim_lower_chunk_extension_name H
  case upperChunkExtensionName => exact sim_upper_chunk_extension_name H
  case stripChunkExtensionValue => exact sim_strip_chunk_extension_value H
  case chunkExtensionValue => exact sim_chunk_extension_value H
  case chunkExtensionQuotedValue => exact sim_chunk_extension_quoted_value H
  case chunkExtensionEscapedValue => exact sim_chunk_extension_escaped_value H
  case chunkExtensionFinished => exact sim_chunk_extension_finished H
  case chunkExtensionsFinished => exact sim_chunk_extensions_finished H
  case chunkData => exact sim_chunk_data H
  case chunkDataCr => exact sim_chunk_data_cr H
  case chunkDataLf => exact sim_chunk_data_lf H
  case multipartHyphen1 => exact sim_multipart_hyphen1 H
  case multipartHyphen2 => exact sim_multipart_hyphen2 H
  case multipartBoundary => exact absurd hfn hB
  case multipartBoundaryCr => exact sim_multipart_boundary_cr H
  case multipartBoundaryLf => exact sim_multipart_boundary_lf H
  case multipartDetectData => exact sim_multipart_detect_data hC H
  case multipartDataByLength => exact sim_multipart_data_by_length H
  case multipartDataByLengthCr => exact sim_multipart_data_by_length_cr H
  case multipartDataByLengthLf => exact sim_multipart_data_by_length_lf H
  case multipartDataByByte => exact sim_multipart_data_by_byte H
  case multipartDataByByteLf => exact sim_multipart_data_by_byte_lf H
  case multipartEnd => exact sim_multipart_end H
  case firstUrlEncodedName => exact sim_first_url_encoded_name H
  case urlEncodedName => exact sim_url_encoded_name H
  case urlEncodedNameHex1 => exact sim_url_encoded_name_hex1 H
  case urlEncodedNameHex2 => exact sim_url_encoded_name_hex2 H
  case urlEncodedNamePlus => exact sim_url_encoded_name_plus H
  case urlEncodedValue => exact sim_url_encoded_value H
  case urlEncodedValueHex1 => exact sim_url_encoded_value_hex1 H
  case urlEncodedValueHex2 => exact sim_url_encoded_value_hex2 H
  case urlEncodedValuePlus => exact sim_url_encoded_value_plus H
  case bodyFinished => exact sim_body_finished H
  case finished => exact sim_finished H

/-- All callbacks are clean. -/
def AllClean (l : List Ev) : Prop := ∀ e ∈ l, Clean e

theorem AllClean.pre {a b : List Ev} (h : AllClean b) (hp : a <+: b) : AllClean a := fun e he => h e (hp.subset he)

/-- The state that compares the boundary, for every boundary. -/
theorem sim_boundary_any (hl : ∀ e ∈ flat c.log, Clean e) (H : Pre env fut K c .multipartBoundary) :
    ∃ K', AllClean K'.1 ∧ SimOK env fut K' (flat c.log) (multipart_boundary h c) := by
  have hL := H.good.live
  simp only [Live, H.fn] at hL
  have quiet : ∀ tr exp i, Quiet env tr (.bound exp i) := by
    intro tr exp i
    unfold Quiet norm
    cases env.boundary with
    | none => simp
    | some bd => by_cases hi : bd.length ≤ i <;> simp [hi]
  have pk : ∃ K' : List Ev × Fin, AllClean K'.1 ∧ SimOK env fut K' (flat c.log) .panic :=
    ⟨(flat c.log ++ flatEv (.method []), .panic), by simpa [flatEv, AllClean] using hl, .method [], rfl, rfl⟩
  unfold multipart_boundary exitIfEos
  split
  · refine ⟨_, pred_clean _ _ _ hl, sim_exitEos (H.goodX (fun _ => trivial) nofun) rfl ?_⟩
    simp only [abs, H.fn]
    exact quiet _ _ _
  cases hbd : c.p.boundary with
  | none => exact pk
  | some bd =>
    simp only
    split
    · exact pk
    rename_i hup
    have hsl : (getUpper14 c.p).toNat + (if bd.length - (getUpper14 c.p).toNat ≤ c.ctx.available
        then bd.drop (getUpper14 c.p).toNat
        else (bd.drop (getUpper14 c.p).toNat).take c.ctx.available).length ≤ bd.length := by
      split <;> simp only [List.length_take, List.length_drop] <;> omega
    revert hsl
    generalize (if bd.length - (getUpper14 c.p).toNat ≤ c.ctx.available
        then bd.drop (getUpper14 c.p).toNat
        else (bd.drop (getUpper14 c.p).toNat).take c.ctx.available) = sl
    intro hsl
    split
    · split
      · exact ⟨_, pred_clean _ _ _ hl,
          sim_transition ⟨getUpper14_setUpper14 c.p (by decide), trivial, nofun⟩ rfl⟩
      · rename_i hne
        have hfn : (incUpper14 c.p sl.length).fn = .multipartBoundary := H.fn
        refine ⟨_, pred_clean _ _ _ hl, sim_exitEos ⟨?_, ?_, ?_⟩ rfl ?_⟩
        · show Live (incUpper14 c.p sl.length)
          simp only [Live, hfn]
          intro bd2 hbd2
          have : some bd = some bd2 := hbd.symm.trans hbd2
          cases this
          by_cases hb : bd.length < 16384
          · have hu : getUpper14 (incUpper14 c.p sl.length) = _ :=
              getUpper14_setUpper14 c.p (v := UInt32.ofNat ((getUpper14 c.p).toNat + sl.length))
                (by rw [upper_toNat (by omega)]; omega)
            rw [hu, upper_toNat (by omega)]; exact hsl
          · have := getUpper14_lt (incUpper14 c.p sl.length)
            omega
        · show HX (incUpper14 c.p sl.length).fn _
          rw [hfn]; trivial
        · show (incUpper14 c.p sl.length).fn ≠ _
          rw [hfn]; nofun
        · show Quiet env _ (abs (incUpper14 c.p sl.length))
          simp only [abs, hfn]
          exact quiet _ _ _
    · split
      · rename_i hlo
        refine ⟨_, pred_clean _ _ _ ?_, sim_callbackTransitionData
          ⟨⟨getUpper14_setUpper14 c.p (by decide), ?_⟩, trivial, nofun⟩ rfl⟩
        · intro e he
          rcases List.mem_append.1 he with he | he
          · exact hl e he
          · simp only [flatEv, List.mem_map] at he
            obtain ⟨b, -, rfl⟩ := he
            exact ⟨trivial, trivial⟩
        · exact (getLower14_setUpper14 c.p 0).trans (beq_iff_eq.1 hlo)
      · unfold next
        split
        · exact ⟨(flat c.log ++ flatEv (.method []), _), by simpa [flatEv, AllClean] using hl, .inl ⟨.method [], rfl, rfl⟩⟩
        · exact pk

theorem step_any (hC : ClOK env h) (hl : AllClean (flat c.log ++ pend c)) (H : Pre env fut K c c.p.fn) :
    ∃ K', AllClean K'.1 ∧ SimOK env fut K' (flat c.log) (step h c) := by
  by_cases hB : c.p.fn = .multipartBoundary
  · have H' := H
    rw [hB] at H'
    have := sim_boundary_any (h := h) (fun e he => hl e (List.mem_append_left _ he)) H'
    simpa only [step, hB] using this
  · exact ⟨K, by rw [← H.K]; exact pred_clean _ _ _ hl, sim_step_other hB hC H⟩

/-- What holds after a run of the parser loop. -/
def CleanRun : Res × Cfg → Prop
  | (.ok (.finished _), c) => AllClean (flat c.log)
  | (.ok _, c) => Live c.p ∧ c.p.fn ≠ .detect1 ∧ AllClean (flat c.log)
  | (_, c) => AllClean (flat c.log)

theorem parse_any (hC : ClOK env h) : ∀ (n : Nat) (c : Cfg), CtxOK c.ctx → Good fut c →
    AllClean (flat c.log ++ pend c) → c.p.ptype = env.ptype → c.p.boundary = env.boundary → CleanRun (parse h n c)
  | 0, c, _, _, hl, _, _ => hl.pre (List.prefix_append _ _)
  | n + 1, c, hok, hg, hl, hpt, hbd => by
    obtain ⟨K, hK, hs⟩ := step_any hC hl ⟨hok, rfl, hg, rfl, hpt, hbd⟩
    have hf := fr_step h c hok
    simp only [parse]
    cases heq : step h c with
    | cont c' =>
      rw [heq] at hs hf
      refine parse_any hC n c' hf.1.ok hs.1 ?_ (hf.1.ptype.trans hpt) (hf.1.boundary.trans hbd)
      rw [← hs.2] at hK
      exact hK.pre (pred_prefix _ _ _)
    | exit s c' =>
      rw [heq] at hs
      cases s with
      | callback n => exact ⟨hs.1.live, hs.1.nd, AllClean.pre (b := K.1) hK (hs.2 ▸ pred_prefix _ _ _)⟩
      | eos n => exact ⟨hs.1.live, hs.1.nd, AllClean.pre (b := K.1) hK (hs.2.1 ▸ pred_prefix _ _ _)⟩
      | finished n =>
        have e : K = (flat c'.log, _) := hs
        rw [e] at hK; exact hK
    | err e c' =>
      rw [heq] at hs
      rcases hs with ⟨d, -, e⟩ | ⟨⟨r, -, e⟩, -⟩ <;> rw [e] at hK
      · exact hK.pre (List.prefix_append _ _)
      · exact hK
    | panic => exact hl.pre (List.prefix_append _ _)
    | ub => exact hl.pre (List.prefix_append _ _)

/-- Between two calls, for a parser of multipart bodies. -/
structure MpClean (env : Env) (w : World) : Prop where
  live : Live w.p
  nd : w.p.fn ≠ .detect1
  ptype : w.p.ptype = env.ptype
  boundary : w.p.boundary = env.boundary
  clean : AllClean (flat w.log)

theorem live_multipart {p : Parser} (hm : p.ptype = .multipart) (hl : Live p) (m : Bytes) : HX p.fn m := by
  unfold Live at hl
  cases hf : p.fn <;> simp [hf, hm] at hl <;> trivial

theorem drive_any_boundary (hm : env.ptype = .multipart) (hC : ClOK env h) : ∀ (ks : List Nat) (last : End) (w : World)
    (msg : Bytes), MpClean env w → AllClean (flat (drive h last ks w msg).world.log)
  | [], _, _, _, H => H.clean
  | k :: ks, last, w, msg, H => by
    have hp : w.p.ptype = .multipart := H.ptype.trans hm
    have hs : (Ctx.new (msg.take k)).slice = [] := by simp [Ctx.slice, Ctx.new]
    have hr := parse_any (fut := []) hC (fuel (msg.take k).length) ⟨w.p, Ctx.new (msg.take k), w.log⟩ (ctxOK_new _)
      ⟨fun _ => rfl, H.live, hok_of_hx (live_multipart hp H.live _) H.nd⟩
      (by simp only [pend, hs]; cases pendEv w.p.fn <;> simpa using H.clean) H.ptype H.boundary
    have h2 := parse_new_ok h w.p (msg.take k) w.log
    have e : resume h w (msg.take k) =
        ((parse h (fuel (msg.take k).length) ⟨w.p, Ctx.new (msg.take k), w.log⟩).1,
        ⟨(parse h (fuel (msg.take k).length) ⟨w.p, Ctx.new (msg.take k), w.log⟩).2.p,
         (parse h (fuel (msg.take k).length) ⟨w.p, Ctx.new (msg.take k), w.log⟩).2.log⟩) := by
      unfold resume
      rw [hp]
    unfold drive
    rw [e]
    revert hr h2
    generalize parse h (fuel (msg.take k).length) ⟨w.p, Ctx.new (msg.take k), w.log⟩ = rc
    obtain ⟨r, c'⟩ := rc
    intro hr h2
    cases r with
    | ok su =>
      cases su with
      | callback n =>
        obtain ⟨hx, -⟩ := h2
        exact drive_any_boundary hm hC ks _ _ _ ⟨hr.1, hr.2.1, hx.ptype.trans H.ptype, hx.boundary.trans H.boundary, hr.2.2⟩
      | eos n =>
        obtain ⟨hx, -⟩ := h2
        exact drive_any_boundary hm hC ks _ _ _ ⟨hr.1, hr.2.1, hx.ptype.trans H.ptype, hx.boundary.trans H.boundary, hr.2.2⟩
      | finished n => exact hr
    | _ => exact hr

/-- A parser at the start of a multipart body, with or without a call of `set_boundary`. -/
def MultipartStart (p : Parser) : Prop := ∃ q : Parser, p = q.init .multipart ∨ ∃ bd, p = (q.init .multipart).setBoundary bd

/-- Every callback of every run over a multipart body is clean, whatever the boundary is. -/
theorem multipart_any_clean (h : Handler) {p : Parser} (hp : MultipartStart p) (ks : List Nat) (msg : Bytes) :
    ∀ e ∈ (drive h .idle ks ⟨p, []⟩ msg).world.log, Clean e := by
  obtain ⟨q, hp⟩ := hp
  obtain ⟨cl, cl', -, -, -, e⟩ := exists_telling h ks ⟨p, []⟩ msg
  rw [← e]
  have H : ∀ bd, WStart _ _ _ _ _ := fun bd => start_multipart (q := q) (l := []) (bd := bd) (cl := cl') (s := []) (fut := [])
  refine clean_of_flat (drive_any_boundary (env := ⟨.multipart, p.boundary, cl'⟩) rfl (fun _ _ => rfl) ks .idle _ msg ?_)
  rcases hp with rfl | ⟨bd, rfl⟩
  · exact ⟨(H []).live, nofun, rfl, rfl, nofun⟩
  · exact ⟨(H bd).live, nofun, rfl, rfl, nofun⟩

end Verif.Http1
