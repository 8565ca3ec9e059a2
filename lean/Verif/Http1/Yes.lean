import Verif.Http1.Shift
import Mathlib.Tactic.Linarith

/-!
# Pausing and not pausing (helper lemmas)
-/

set_option linter.unusedSimpArgs false
set_option linter.unusedVariables false

namespace Verif.Http1

variable {env : Env} {fut : Bytes} {K : List Ev × Fin} {h : Handler} {c : Cfg}

/-- States in which the data collected so far is delivered at the end of the slice. -/
def eosSt : St → Bool
  | .requestMethod | .requestUrl2 | .responseStatus2 | .lowerHeaderName | .headerValue
  | .headerQuotedValue | .headerEscapedValue | .lowerChunkExtensionName | .chunkExtensionValue
  | .chunkExtensionQuotedValue | .multipartDataByByte | .urlEncodedName | .urlEncodedValue => true
  | _ => false

theorem eosSt_stale {f : St} (h : eosSt f = true) : ¬ Stale f := by
  rintro (rfl | rfl) <;> cases h

/-- A call with `h` and the same call with a handler that does not pause. -/
def Z (o o' : Out) : Prop :=
  o = o' ∨ ∃ c, o = exitCallback c ∧ ¬ Stale c.p.fn ∧ (o' = remark c ∨ (o' = exitEos c ∧ eosSt c.p.fn = true))

theorem z_refl (o : Out) : Z o o := .inl rfl

theorem z_ite {p : Prop} [Decidable p] {a a' d d' : Out} (h1 : p → Z a a') (h2 : ¬ p → Z d d') :
    Z (if p then a else d) (if p then a' else d') := by
  split
  · exact h1 ‹_›
  · exact h2 ‹_›
theorem z_ifEos {X Y : Out} (hk : Z X Y) : Z (exitIfEos c X) (exitIfEos c Y) :=
  z_ite (fun _ => z_refl _) fun _ => hk
theorem z_next {K K' : Cfg → Out} (hk : ∀ c', c'.p = c.p → Z (K c') (K' c')) :
    Z (next c K) (next c K') := by
  unfold next; cases c.ctx.next with
  | none => exact z_refl _
  | some x => exact hk _ rfl
theorem z_replay {K K' : Cfg → Out} (hk : ∀ c', c'.p = c.p → Z (K c') (K' c')) :
    Z (replay c K) (replay c K') := z_ite (fun _ => z_refl _) fun _ => hk _ rfl
theorem z_coll {r : Ctx.Collect} {E E' K K' : Cfg → Out} (he : ∀ c', c'.p = c.p → Z (E c') (E' c'))
    (hk : ∀ c', c'.p = c.p → Z (K c') (K' c')) : Z (collecting c r E K) (collecting c r E' K') := by
  unfold collecting
  cases r with
  | eos x => exact he _ rfl
  | brk x => exact hk _ rfl
  | fail x => exact z_refl _
  | panic => exact z_refl _
theorem z_data {e : Ev} (hN : ¬ Stale c.p.fn) :
    Z (callbackData h c e remark) (callbackData h.yes c e remark) := by
  unfold callbackData
  simp only [Handler.yes, if_true]
  split
  · exact z_refl _
  · exact .inr ⟨_, rfl, hN, .inl rfl⟩
theorem z_dataE {e : Ev} (hN : eosSt c.p.fn = true) :
    Z (callbackData h c e exitEos) (callbackData h.yes c e exitEos) := by
  unfold callbackData
  simp only [Handler.yes, if_true]
  split
  · exact z_refl _
  · exact .inr ⟨_, rfl, eosSt_stale hN, .inr ⟨rfl, hN⟩⟩
theorem z_eos {mk : Bytes → Ev} (hN : eosSt c.p.fn = true) :
    Z (callbackEos h c mk) (callbackEos h.yes c mk) :=
  z_ite (fun _ => z_refl _) fun _ => z_ite (fun _ => z_dataE hN) fun _ => z_refl _
theorem z_td {e : Ev} {s f : St} (hf : ¬ Stale f) :
    Z (callbackTransitionData h c e s f) (callbackTransitionData h.yes c e s f) := z_data hf
theorem z_ts {mk : Bytes → Ev} {s f : St} (hf : ¬ Stale f) :
    Z (callbackTransition h c mk s f) (callbackTransition h.yes c mk s f) :=
  z_ite (fun _ => z_refl _) fun _ => z_ite (fun _ => z_data hf) fun _ => z_refl _
theorem z_ign {mk : Bytes → Ev} {s f : St} (hf : ¬ Stale f) :
    Z (callbackIgnoreTransition h c mk s f) (callbackIgnoreTransition h.yes c mk s f) :=
  z_ite (fun _ => z_refl _) fun _ => z_ite (fun _ => z_data hf) fun _ => z_refl _

set_option hygiene false in
macro "zst" : tactic => `(tactic| first
  | assumption
  | decide
  | (dsimp only [setState]; decide)
  | (rename_i hE; rw [hE]; exact hN))

macro "ztac" : tactic => `(tactic|
  repeat' first
    | with_reducible exact z_refl _
    | (apply z_td; zst)
    | (apply z_ts; zst)
    | (apply z_ign; zst)
    | (apply z_eos; zst)
    | (apply z_data; zst)
    | with_reducible refine z_ifEos ?_
    | with_reducible refine z_next fun _ _ => ?_
    | with_reducible refine z_replay fun _ _ => ?_
    | with_reducible refine z_coll (fun _ _ => ?_) (fun _ _ => ?_)
    | with_reducible refine z_ite (fun _ => ?_) (fun _ => ?_))

theorem z_detect1 : Z (detect1 h c) (detect1 h.yes c) := by
  unfold detect1 detect1Method
  try dsimp only
  ztac

theorem z_request_method (hN : eosSt c.p.fn = true) : Z (request_method h c) (request_method h.yes c) := by
  unfold request_method
  try dsimp only
  ztac

theorem z_request_url2 (hN : eosSt c.p.fn = true) : Z (request_url2 h c) (request_url2 h.yes c) := by
  unfold request_url2
  try dsimp only
  ztac

theorem z_request_http1 (hN : ¬ Stale c.p.fn) : Z (request_http1 h c) (request_http1 h.yes c) := by
  unfold request_http1
  try dsimp only
  ztac

theorem z_request_version_cr (hN : ¬ Stale c.p.fn) : Z (request_version_cr h c) (request_version_cr h.yes c) := by
  unfold request_version_cr versionEnd
  try dsimp only
  ztac

theorem z_response_version_space (hN : ¬ Stale c.p.fn) : Z (response_version_space h c) (response_version_space h.yes c) := by
  unfold response_version_space versionEnd
  try dsimp only
  ztac

theorem z_response_status_code_space (hN : ¬ Stale c.p.fn) : Z (response_status_code_space h c) (response_status_code_space h.yes c) := by
  unfold response_status_code_space
  try dsimp only
  ztac

theorem z_response_status2 (hN : eosSt c.p.fn = true) : Z (response_status2 h c) (response_status2 h.yes c) := by
  unfold response_status2
  split
  · exact z_eos hN
  · exact z_ign (by decide)
  · exact z_refl _
  · exact z_refl _

theorem z_initial_end (hN : ¬ Stale c.p.fn) : Z (initial_end h c) (initial_end h.yes c) := by
  unfold initial_end
  try dsimp only
  ztac

theorem z_first_header_name : Z (first_header_name h c) (first_header_name h.yes c) := by
  unfold first_header_name
  refine z_ite (fun _ => ?_) fun _ => z_refl _
  cases firstHeaderFast c.ctx with
  | none => exact z_refl _
  | some x => exact z_td (by decide)

theorem z_upper_header_name (hN : ¬ Stale c.p.fn) : Z (upper_header_name h c) (upper_header_name h.yes c) := by
  unfold upper_header_name
  try dsimp only
  ztac

theorem z_lower_header_name (hN : eosSt c.p.fn = true) : Z (lower_header_name h c) (lower_header_name h.yes c) := by
  unfold lower_header_name
  try dsimp only
  ztac

theorem z_header_value (hN : eosSt c.p.fn = true) : Z (header_value h c) (header_value h.yes c) := by
  unfold header_value
  try dsimp only
  ztac

theorem z_header_quoted_value (hN : eosSt c.p.fn = true) : Z (header_quoted_value h c) (header_quoted_value h.yes c) := by
  unfold header_quoted_value
  try dsimp only
  ztac

theorem z_header_escaped_value (hN : eosSt c.p.fn = true) : Z (header_escaped_value h c) (header_escaped_value h.yes c) := by
  unfold header_escaped_value
  try dsimp only
  ztac

theorem z_header_end (hN : ¬ Stale c.p.fn) : Z (header_end h c) (header_end h.yes c) := by
  unfold header_end
  refine z_data ?_
  try dsimp only
  split <;> dsimp only [setState] <;> decide

theorem z_chunk_length1 (hN : ¬ Stale c.p.fn) : Z (chunk_length1 h c) (chunk_length1 h.yes c) := by
  unfold chunk_length1
  try dsimp only
  ztac

theorem z_chunk_length_cr (hN : ¬ Stale c.p.fn) : Z (chunk_length_cr h c) (chunk_length_cr h.yes c) := by
  unfold chunk_length_cr
  try dsimp only
  ztac

theorem z_lower_chunk_extension_name (hN : eosSt c.p.fn = true) : Z (lower_chunk_extension_name h c) (lower_chunk_extension_name h.yes c) := by
  unfold lower_chunk_extension_name
  try dsimp only
  ztac

theorem z_upper_chunk_extension_name (hN : ¬ Stale c.p.fn) : Z (upper_chunk_extension_name h c) (upper_chunk_extension_name h.yes c) := by
  unfold upper_chunk_extension_name
  try dsimp only
  ztac

theorem z_chunk_extension_value (hN : eosSt c.p.fn = true) : Z (chunk_extension_value h c) (chunk_extension_value h.yes c) := by
  unfold chunk_extension_value
  try dsimp only
  ztac

theorem z_chunk_extension_quoted_value (hN : eosSt c.p.fn = true) : Z (chunk_extension_quoted_value h c) (chunk_extension_quoted_value h.yes c) := by
  unfold chunk_extension_quoted_value
  try dsimp only
  ztac

theorem z_chunk_extension_escaped_value (hN : ¬ Stale c.p.fn) : Z (chunk_extension_escaped_value h c) (chunk_extension_escaped_value h.yes c) := by
  unfold chunk_extension_escaped_value
  try dsimp only
  ztac

theorem z_chunk_extension_finished (hN : ¬ Stale c.p.fn) : Z (chunk_extension_finished h c) (chunk_extension_finished h.yes c) := by
  unfold chunk_extension_finished
  refine z_ifEos (z_next fun c' _ => z_data ?_)
  split <;> dsimp only [setState] <;> decide

theorem z_chunk_extensions_finished (hN : ¬ Stale c.p.fn) : Z (chunk_extensions_finished h c) (chunk_extensions_finished h.yes c) := by
  unfold chunk_extensions_finished
  try dsimp only
  ztac

theorem z_chunk_data (hN : ¬ Stale c.p.fn) : Z (chunk_data h c) (chunk_data h.yes c) := by
  unfold chunk_data collectLength
  try dsimp only
  ztac

theorem z_multipart_hyphen1 (hN : ¬ Stale c.p.fn) : Z (multipart_hyphen1 h c) (multipart_hyphen1 h.yes c) := by
  unfold multipart_hyphen1
  try dsimp only
  ztac

theorem z_multipart_hyphen2 (hN : ¬ Stale c.p.fn) : Z (multipart_hyphen2 h c) (multipart_hyphen2 h.yes c) := by
  unfold multipart_hyphen2
  try dsimp only
  ztac

theorem z_multipart_boundary (hN : ¬ Stale c.p.fn) : Z (multipart_boundary h c) (multipart_boundary h.yes c) := by
  unfold multipart_boundary
  refine z_ifEos ?_
  cases c.p.boundary with
  | none => exact z_refl _
  | some bd => dsimp only; ztac

theorem z_multipart_boundary_cr (hN : ¬ Stale c.p.fn) : Z (multipart_boundary_cr h c) (multipart_boundary_cr h.yes c) := by
  unfold multipart_boundary_cr
  try dsimp only
  ztac

theorem z_multipart_detect_data (hN : ¬ Stale c.p.fn) : Z (multipart_detect_data h c) (multipart_detect_data h.yes c) := by
  exact z_refl _

theorem z_multipart_data_by_length (hN : ¬ Stale c.p.fn) : Z (multipart_data_by_length h c) (multipart_data_by_length h.yes c) := by
  unfold multipart_data_by_length collectLength
  try dsimp only
  ztac

theorem z_multipart_data_by_byte (hN : eosSt c.p.fn = true) : Z (multipart_data_by_byte h c) (multipart_data_by_byte h.yes c) := by
  unfold multipart_data_by_byte
  try dsimp only
  ztac

theorem z_multipart_data_by_byte_lf (hN : ¬ Stale c.p.fn) : Z (multipart_data_by_byte_lf h c) (multipart_data_by_byte_lf h.yes c) := by
  unfold multipart_data_by_byte_lf
  try dsimp only
  ztac

theorem z_first_url_encoded_name (hN : ¬ Stale c.p.fn) : Z (first_url_encoded_name h c) (first_url_encoded_name h.yes c) := by
  unfold first_url_encoded_name
  try dsimp only
  ztac

theorem z_url_encoded_name (hN : eosSt c.p.fn = true) : Z (url_encoded_name h c) (url_encoded_name h.yes c) := by
  unfold url_encoded_name
  try dsimp only
  ztac

theorem z_url_encoded_name_hex2 (hN : ¬ Stale c.p.fn) : Z (url_encoded_name_hex2 h c) (url_encoded_name_hex2 h.yes c) := by
  unfold url_encoded_name_hex2
  refine z_ifEos (z_next fun c' _ => ?_)
  cases hexDigit c'.ctx.byte with
  | none => exact z_refl _
  | some d => exact z_td (by decide)

theorem z_url_encoded_name_plus (hN : ¬ Stale c.p.fn) : Z (url_encoded_name_plus h c) (url_encoded_name_plus h.yes c) := by
  unfold url_encoded_name_plus
  try dsimp only
  ztac

theorem z_url_encoded_value (hN : eosSt c.p.fn = true) : Z (url_encoded_value h c) (url_encoded_value h.yes c) := by
  unfold url_encoded_value
  try dsimp only
  ztac

theorem z_url_encoded_value_hex2 (hN : ¬ Stale c.p.fn) : Z (url_encoded_value_hex2 h c) (url_encoded_value_hex2 h.yes c) := by
  unfold url_encoded_value_hex2
  refine z_ifEos (z_next fun c' _ => ?_)
  cases hexDigit c'.ctx.byte with
  | none => exact z_refl _
  | some d => exact z_td (by decide)

theorem z_url_encoded_value_plus (hN : ¬ Stale c.p.fn) : Z (url_encoded_value_plus h c) (url_encoded_value_plus h.yes c) := by
  unfold url_encoded_value_plus
  try dsimp only
  ztac

theorem z_body_finished (hN : ¬ Stale c.p.fn) : Z (body_finished h c) (body_finished h.yes c) := by
  unfold body_finished
  try dsimp only
  ztac

theorem z_step : Z (step h c) (step h.yes c) := by
  unfold step
  cases hf : c.p.fn <;> dsimp only
  case dead => exact z_refl _
  case stripDetect => exact z_refl _
  case detect1 => exact z_detect1
  case detect2 => exact z_refl _
  case detect3 => exact z_refl _
  case detect4 => exact z_refl _
  case detect5 => exact z_refl _
  case requestMethod => exact z_request_method (by rw [hf]; decide)
  case requestUrl1 => exact z_refl _
  case requestUrl2 => exact z_request_url2 (by rw [hf]; decide)
  case requestHttp1 => exact z_request_http1 (by rw [hf]; decide)
  case requestHttp2 => exact z_refl _
  case requestHttp3 => exact z_refl _
  case requestHttp4 => exact z_refl _
  case requestHttp5 => exact z_refl _
  case requestVersionMajor1 => exact z_refl _
  case requestVersionMajor2 => exact z_refl _
  case requestVersionMajor3 => exact z_refl _
  case requestVersionPeriod => exact z_refl _
  case requestVersionMinor1 => exact z_refl _
  case requestVersionMinor2 => exact z_refl _
  case requestVersionMinor3 => exact z_refl _
  case requestVersionCr => exact z_request_version_cr (by rw [hf]; decide)
  case responseVersionMajor1 => exact z_refl _
  case responseVersionMajor2 => exact z_refl _
  case responseVersionMajor3 => exact z_refl _
  case responseVersionPeriod => exact z_refl _
  case responseVersionMinor1 => exact z_refl _
  case responseVersionMinor2 => exact z_refl _
  case responseVersionMinor3 => exact z_refl _
  case responseVersionSpace => exact z_response_version_space (by rw [hf]; decide)
  case responseStatusCode1 => exact z_refl _
  case responseStatusCode2 => exact z_refl _
  case responseStatusCode3 => exact z_refl _
  case responseStatusCodeSpace => exact z_response_status_code_space (by rw [hf]; decide)
  case responseStatus1 => exact z_refl _
  case responseStatus2 => exact z_response_status2 (by rw [hf]; decide)
  case initialEnd => exact z_initial_end (by rw [hf]; decide)
  case initialLf => exact z_refl _
  case checkHeaderName => exact z_refl _
  case firstHeaderName => exact z_first_header_name
  case upperHeaderName => exact z_upper_header_name (by rw [hf]; decide)
  case lowerHeaderName => exact z_lower_header_name (by rw [hf]; decide)
  case stripHeaderValue => exact z_refl _
  case headerValue => exact z_header_value (by rw [hf]; decide)
  case headerQuotedValue => exact z_header_quoted_value (by rw [hf]; decide)
  case headerEscapedValue => exact z_header_escaped_value (by rw [hf]; decide)
  case headerCr1 => exact z_refl _
  case headerLf1 => exact z_refl _
  case headerCr2 => exact z_refl _
  case headerLf2 => exact z_refl _
  case headerEnd => exact z_header_end (by rw [hf]; decide)
  case chunkLength1 => exact z_chunk_length1 (by rw [hf]; decide)
  case chunkLength2 => exact z_refl _
  case chunkLength3 => exact z_refl _
  case chunkLength4 => exact z_refl _
  case chunkLength5 => exact z_refl _
  case chunkLength6 => exact z_refl _
  case chunkLength7 => exact z_refl _
  case chunkLength8 => exact z_refl _
  case chunkLengthCr => exact z_chunk_length_cr (by rw [hf]; decide)
  case chunkLengthLf => exact z_refl _
  case stripChunkExtensionName => exact z_refl _
  case lowerChunkExtensionName => exact z_lower_chunk_extension_name (by rw [hf]; decide)
  case upperChunkExtensionName => exact z_upper_chunk_extension_name (by rw [hf]; decide)
  case stripChunkExtensionValue => exact z_refl _
  case chunkExtensionValue => exact z_chunk_extension_value (by rw [hf]; decide)
  case chunkExtensionQuotedValue => exact z_chunk_extension_quoted_value (by rw [hf]; decide)
  case chunkExtensionEscapedValue => exact z_chunk_extension_escaped_value (by rw [hf]; decide)
  case chunkExtensionFinished => exact z_chunk_extension_finished (by rw [hf]; decide)
  case chunkExtensionsFinished => exact z_chunk_extensions_finished (by rw [hf]; decide)
  case chunkData => exact z_chunk_data (by rw [hf]; decide)
  case chunkDataCr => exact z_refl _
  case chunkDataLf => exact z_refl _
  case multipartHyphen1 => exact z_multipart_hyphen1 (by rw [hf]; decide)
  case multipartHyphen2 => exact z_multipart_hyphen2 (by rw [hf]; decide)
  case multipartBoundary => exact z_multipart_boundary (by rw [hf]; decide)
  case multipartBoundaryCr => exact z_multipart_boundary_cr (by rw [hf]; decide)
  case multipartBoundaryLf => exact z_refl _
  case multipartDetectData => exact z_multipart_detect_data (by rw [hf]; decide)
  case multipartDataByLength => exact z_multipart_data_by_length (by rw [hf]; decide)
  case multipartDataByLengthCr => exact z_refl _
  case multipartDataByLengthLf => exact z_refl _
  case multipartDataByByte => exact z_multipart_data_by_byte (by rw [hf]; decide)
  case multipartDataByByteLf => exact z_multipart_data_by_byte_lf (by rw [hf]; decide)
  case multipartEnd => exact z_refl _
  case firstUrlEncodedName => exact z_first_url_encoded_name (by rw [hf]; decide)
  case urlEncodedName => exact z_url_encoded_name (by rw [hf]; decide)
  case urlEncodedNameHex1 => exact z_refl _
  case urlEncodedNameHex2 => exact z_url_encoded_name_hex2 (by rw [hf]; decide)
  case urlEncodedNamePlus => exact z_url_encoded_name_plus (by rw [hf]; decide)
  case urlEncodedValue => exact z_url_encoded_value (by rw [hf]; decide)
  case urlEncodedValueHex1 => exact z_refl _
  case urlEncodedValueHex2 => exact z_url_encoded_value_hex2 (by rw [hf]; decide)
  case urlEncodedValuePlus => exact z_url_encoded_value_plus (by rw [hf]; decide)
  case bodyFinished => exact z_body_finished (by rw [hf]; decide)
  case finished => exact z_refl _

theorem eosSt_nil {p : Parser} {l : List Ev} (hs : eosSt p.fn = true) :
    step h ⟨p, Ctx.new [], l⟩ = exitEos ⟨p, Ctx.new [], l⟩ := by
  unfold step
  cases hf : p.fn <;> rw [hf] at hs <;> first | exact absurd hs (by decide) | rfl

/-! ## The parser loop with and without pauses -/

/-- What `parse` makes of the configuration when a state function exits. -/
def fin (c : Cfg) : Cfg := { c with p := { c.p with byteCount := c.p.byteCount + c.ctx.idx } }

theorem parse_fuel : ∀ (f g : Nat) (c : Cfg), (parse h f c).1 ≠ .diverge →
    parse h (f + g) c = parse h f c
  | 0, g, c, hd => absurd rfl hd
  | f + 1, g, c, hd => by
    rw [show f + 1 + g = f + g + 1 by omega]
    simp only [parse] at hd ⊢
    cases hs : step h c <;> rw [hs] at hd
    · exact parse_fuel f g _ hd


theorem parse_fuel' {f g : Nat} {c : Cfg} (h1 : (parse h f c).1 ≠ .diverge)
    (h2 : (parse h g c).1 ≠ .diverge) : parse h f c = parse h g c := by
  rcases Nat.le_total f g with hl | hl
  · obtain ⟨d, rfl⟩ := Nat.exists_eq_add_of_le hl
    exact (parse_fuel f d c h1).symm
  · obtain ⟨d, rfl⟩ := Nat.exists_eq_add_of_le hl
    exact parse_fuel g d c h2

/-- A run that is paused, and the run that is not. -/
theorem z_parse : ∀ (f : Nat) (c : Cfg),
    parse h f c = parse h.yes f c ∨
    ∃ c1, parse h f c = (.ok (.callback c1.ctx.idx), fin c1) ∧ ¬ Stale c1.p.fn ∧
      ((∃ f', f' < f ∧ parse h.yes f c = parse h.yes f' { c1 with ctx := c1.ctx.setMark }) ∨
       (parse h.yes f c = (.ok (.eos c1.ctx.idx), fin c1) ∧ eosSt c1.p.fn = true))
  | 0, c => .inl rfl
  | f + 1, c => by
    simp only [parse]
    rcases z_step (h := h) (c := c) with e | ⟨c1, e1, e2, e3⟩
    · rw [← e]
      cases hs : step h c with
      | cont c' =>
        rcases z_parse f c' with e | ⟨c1, e1, e2, e3⟩
        · exact .inl e
        · refine .inr ⟨c1, e1, e2, ?_⟩
          rcases e3 with ⟨f', hf, e3⟩ | e3
          · exact .inl ⟨f', Nat.lt_succ_of_lt hf, e3⟩
          · exact .inr e3
      | exit s c' => exact .inl rfl
      | err e c' => exact .inl rfl
      | panic => exact .inl rfl
      | ub => exact .inl rfl
    · refine .inr ⟨c1, by rw [e1]; rfl, e2, ?_⟩
      rcases e3 with e3 | ⟨e3, e4⟩
      · exact .inl ⟨f, Nat.lt_succ_self f, by rw [e3]; rfl⟩
      · exact .inr ⟨by rw [e3]; rfl, e4⟩

end Verif.Http1
