import Verif.Http1.Frame

/-!
# The frame property of every state function (helper lemmas)
-/

namespace Verif.Http1

theorem Ext.replayBrk {c : Cfg} {x : Ctx} (h : Ext c { c with ctx := x }) (hb : BrkOK c.ctx x)
    (hok : CtxOK c.ctx) : Ext c { c with ctx := x.replay } := by
  refine Ext.replay (c := { c with ctx := x }) h hb.lt ?_
  have := hb.mark
  have := hok.mark_le
  have := hb.lt
  simp only; omega

theorem prog_brk {c c' : Cfg} (s : St) (hb : BrkOK c.ctx c'.ctx) : Prog c c' s := .inl hb.lt

theorem prog_brkReplay {c c' : Cfg} {x : Ctx} (s : St) (hb : BrkOK c.ctx x)
    (hx : c'.ctx = x.replay)
    (hr : rank s (some x.byte) < rank c.p.fn (some x.byte)) : Prog c c' s := by
  have h1 := hb.lt
  have h2 := hb.byte
  simp only [Prog, hx, Ctx.replay]
  by_cases h : c.ctx.idx < x.idx - 1
  · exact .inl h
  · right
    have : x.idx - 1 = c.ctx.idx := by omega
    rw [this] at h2
    exact ⟨this, by rw [h2]; exact hr⟩

theorem fr_panic {c : Cfg} : Fr c .panic := trivial

/-- Prove an `Ext` side goal. -/
syntax "ext_tac" : tactic
/-- Prove a `Prog` side goal. -/
syntax "prog_tac" : tactic

macro_rules
  | `(tactic| ext_tac) => `(tactic|
    first
    | assumption
    | (apply Ext.refl; assumption)
    | (apply Ext.setState; ext_tac)
    | (apply Ext.adv ?_ (by assumption); ext_tac)
    | exact Ext.replayBrk (by assumption) (by assumption) (by assumption)
    | (refine Ext.jump ?_ ?_
       · ext_tac
       · simp only [Ctx.hasBytes, decide_eq_true_eq, Bool.and_eq_true] at *; omega)
    | (refine Ext.replay ?_ ?_ ?_ <;>
        first
        | ext_tac
        | (simp only [adv, Ctx.replay] at *; have := CtxOK.mark_le ‹_›; omega))
    | (refine Ext.withP ?_ ⟨rfl, rfl, rfl, rfl⟩; ext_tac))

macro_rules
  | `(tactic| prog_tac) => `(tactic|
    first
    | exact prog_brk _ (by assumption)
    | (refine prog_brkReplay _ (by assumption) rfl ?_
       simp_all [rank] <;> (repeat' split) <;> simp_all
       done)
    | (simp only [Prog, adv, setState, withP, jump, Ctx.replay, Ctx.jump, pushHex, Ctx.hasBytes,
         Ctx.available] at *
       simp_all [rank] <;> try omega))

/-- Prove a `Makes` side goal. -/
macro "makes" : tactic => `(tactic| first | assumption | (intro x hx; simpa [flatEv] using hx))

/-- One structural step of a frame proof. -/
macro "frame1" : tactic => `(tactic|
  first
  | (with_reducible exact fr_panic)
  | (refine fr_exitIfEos ?_ (fun _ => ?_); ext_tac)
  | (refine fr_next (fun _ _ => ?_))
  | (refine fr_transition ?_ ?_; ext_tac; prog_tac)
  | (refine fr_transitionNoRemark ?_ ?_; ext_tac; prog_tac)
  | (refine fr_callbackTransitionData _ ?_ (by simp [flatEv]) ?_; ext_tac; prog_tac)
  | (refine fr_callbackTransition _ ?_ (by makes) ?_; ext_tac; prog_tac)
  | (refine fr_callbackIgnoreTransition _ ?_ (by makes) ?_; ext_tac; prog_tac)
  | (refine fr_callbackRemark _ ?_ (by simp [flatEv]) ?_; ext_tac; prog_tac)
  | (refine fr_err ?_; ext_tac)
  | (refine fr_replay ?_)
  | (refine fr_collecting ?_ ?_ (fun _ _ _ => ?_) (fun _ _ _ => ?_)
     · ext_tac
     · first
       | exact collect_ok _ _ (CtxOK.idx_le ‹_›)
       | exact consumeLinearSpace_ok _ (CtxOK.idx_le ‹_›))
  | (refine fr_exitEos ?_ ?_; ext_tac; assumption)
  | (refine fr_callbackEos _ ?_ (by makes) ?_; ext_tac; assumption)
  | (dsimp only)
  | split)

macro "frame" : tactic => `(tactic| repeat' frame1)

variable {h : Handler} {c : Cfg}

theorem fr_detectByte (hok : CtxOK c.ctx) {e : UInt8} {s f : St} : Fr c (detectByte c e s f) := by
  unfold detectByte
  frame

theorem fr_expectVersion (hok : CtxOK c.ctx) {e : UInt8} {s f : St} : Fr c (expectVersion c e s f) := by
  unfold expectVersion
  frame

theorem fr_expectCrlf (hok : CtxOK c.ctx) {e : UInt8} {s f : St} : Fr c (expectCrlf c e s f) := by
  unfold expectCrlf
  frame

theorem fr_expectBoundary (hok : CtxOK c.ctx) {e : UInt8} {s f : St} : Fr c (expectBoundary c e s f) := by
  unfold expectBoundary
  frame

theorem fr_versionMajor1 (hok : CtxOK c.ctx) {s f : St} : Fr c (versionMajor1 c s f) := by
  unfold versionMajor1
  frame

theorem fr_versionMajorN (hok : CtxOK c.ctx) {a b s f : St} : Fr c (versionMajorN c a b s f) := by
  unfold versionMajorN
  frame

theorem fr_versionMinor1 (hok : CtxOK c.ctx) {s f : St} : Fr c (versionMinor1 c s f) := by
  unfold versionMinor1
  frame

theorem fr_versionEnd (hok : CtxOK c.ctx) {e : UInt8} {s f : St} : Fr c (versionEnd h c e s f) := by
  unfold versionEnd
  frame

theorem fr_collectLength (hok : CtxOK c.ctx) {mk : Bytes → Ev} {s f s' f' : St}
    (hm : Makes mk) (hr : ∀ o, rank f o < rank c.p.fn o) : Fr c (collectLength h c mk s f s' f') := by
  unfold collectLength
  refine fr_exitIfEos (Ext.refl hok) (fun hav => ?_)
  split
  · refine fr_callbackTransition h (((Ext.refl hok).jump ‹_›).withP ⟨rfl, rfl, rfl, rfl⟩) hm ?_
    by_cases hl : c.p.length = 0
    · exact .inr ⟨by simp [withP, jump, Ctx.jump, hl], hr _⟩
    · exact .inl (by simp only [withP, jump, Ctx.jump]; omega)
  · refine fr_callbackTransition h (((Ext.refl hok).withP ⟨rfl, rfl, rfl, rfl⟩).jump ?_) hm ?_
    · exact Nat.le_refl _
    · exact .inl (by simp only [withP, jump, Ctx.jump, Ctx.available]; omega)

theorem fr_dead (hok : CtxOK c.ctx) (hfn : c.p.fn = .dead) : Fr c (dead c) := by
  unfold dead
  frame

theorem fr_strip_detect (hok : CtxOK c.ctx) (hfn : c.p.fn = .stripDetect) : Fr c (strip_detect c) := by
  unfold strip_detect
  frame

theorem fr_detect1Method (hok : CtxOK c.ctx) (hfn : c.p.fn = .detect1) :
    Fr c (detect1Method h c) := by
  unfold detect1Method
  frame

theorem fr_detect1 (hok : CtxOK c.ctx) (hfn : c.p.fn = .detect1) : Fr c (detect1 h c) := by
  unfold detect1
  dsimp only
  split
  · exact ⟨hfn, by assumption⟩
  · split
    · split
      · split; frame1
        split; frame1
        split; frame1
        split; frame1
        exact fr_detect1Method hok hfn
      · frame
    · exact fr_detect1Method hok hfn

theorem fr_detect2 (hok : CtxOK c.ctx) (hfn : c.p.fn = .detect2) : Fr c (detect2 c) := by
  exact fr_detectByte hok

theorem fr_detect3 (hok : CtxOK c.ctx) (hfn : c.p.fn = .detect3) : Fr c (detect3 c) := by
  exact fr_detectByte hok

theorem fr_detect4 (hok : CtxOK c.ctx) (hfn : c.p.fn = .detect4) : Fr c (detect4 c) := by
  exact fr_detectByte hok

theorem fr_detect5 (hok : CtxOK c.ctx) (hfn : c.p.fn = .detect5) : Fr c (detect5 c) := by
  exact fr_detectByte hok

theorem fr_request_method (hok : CtxOK c.ctx) (hfn : c.p.fn = .requestMethod) : Fr c (request_method h c) := by
  unfold request_method
  frame

theorem fr_request_url1 (hok : CtxOK c.ctx) (hfn : c.p.fn = .requestUrl1) : Fr c (request_url1 c) := by
  unfold request_url1
  frame

theorem fr_request_url2 (hok : CtxOK c.ctx) (hfn : c.p.fn = .requestUrl2) : Fr c (request_url2 h c) := by
  unfold request_url2
  frame

theorem fr_request_http1 (hok : CtxOK c.ctx) (hfn : c.p.fn = .requestHttp1) : Fr c (request_http1 h c) := by
  unfold request_http1
  frame

theorem fr_request_http2 (hok : CtxOK c.ctx) (hfn : c.p.fn = .requestHttp2) : Fr c (request_http2 c) := by
  exact fr_expectVersion hok

theorem fr_request_http3 (hok : CtxOK c.ctx) (hfn : c.p.fn = .requestHttp3) : Fr c (request_http3 c) := by
  exact fr_expectVersion hok

theorem fr_request_http4 (hok : CtxOK c.ctx) (hfn : c.p.fn = .requestHttp4) : Fr c (request_http4 c) := by
  exact fr_expectVersion hok

theorem fr_request_http5 (hok : CtxOK c.ctx) (hfn : c.p.fn = .requestHttp5) : Fr c (request_http5 c) := by
  exact fr_expectVersion hok

theorem fr_request_version_major1 (hok : CtxOK c.ctx) (hfn : c.p.fn = .requestVersionMajor1) : Fr c (request_version_major1 c) := by
  exact fr_versionMajor1 hok

theorem fr_request_version_major2 (hok : CtxOK c.ctx) (hfn : c.p.fn = .requestVersionMajor2) : Fr c (request_version_major2 c) := by
  exact fr_versionMajorN hok

theorem fr_request_version_major3 (hok : CtxOK c.ctx) (hfn : c.p.fn = .requestVersionMajor3) : Fr c (request_version_major3 c) := by
  exact fr_versionMajorN hok

theorem fr_request_version_period (hok : CtxOK c.ctx) (hfn : c.p.fn = .requestVersionPeriod) : Fr c (request_version_period c) := by
  exact fr_expectVersion hok

theorem fr_request_version_minor1 (hok : CtxOK c.ctx) (hfn : c.p.fn = .requestVersionMinor1) : Fr c (request_version_minor1 c) := by
  exact fr_versionMinor1 hok

theorem fr_request_version_minor2 (hok : CtxOK c.ctx) (hfn : c.p.fn = .requestVersionMinor2) : Fr c (request_version_minor2 c) := by
  unfold request_version_minor2
  frame

theorem fr_request_version_minor3 (hok : CtxOK c.ctx) (hfn : c.p.fn = .requestVersionMinor3) : Fr c (request_version_minor3 c) := by
  unfold request_version_minor3
  frame

theorem fr_request_version_cr (hok : CtxOK c.ctx) (hfn : c.p.fn = .requestVersionCr) : Fr c (request_version_cr h c) := by
  exact fr_versionEnd hok

theorem fr_response_version_major1 (hok : CtxOK c.ctx) (hfn : c.p.fn = .responseVersionMajor1) : Fr c (response_version_major1 c) := by
  exact fr_versionMajor1 hok

theorem fr_response_version_major2 (hok : CtxOK c.ctx) (hfn : c.p.fn = .responseVersionMajor2) : Fr c (response_version_major2 c) := by
  exact fr_versionMajorN hok

theorem fr_response_version_major3 (hok : CtxOK c.ctx) (hfn : c.p.fn = .responseVersionMajor3) : Fr c (response_version_major3 c) := by
  exact fr_versionMajorN hok

theorem fr_response_version_period (hok : CtxOK c.ctx) (hfn : c.p.fn = .responseVersionPeriod) : Fr c (response_version_period c) := by
  exact fr_expectVersion hok

theorem fr_response_version_minor1 (hok : CtxOK c.ctx) (hfn : c.p.fn = .responseVersionMinor1) : Fr c (response_version_minor1 c) := by
  exact fr_versionMinor1 hok

theorem fr_response_version_minor2 (hok : CtxOK c.ctx) (hfn : c.p.fn = .responseVersionMinor2) : Fr c (response_version_minor2 c) := by
  unfold response_version_minor2
  frame

theorem fr_response_version_minor3 (hok : CtxOK c.ctx) (hfn : c.p.fn = .responseVersionMinor3) : Fr c (response_version_minor3 c) := by
  unfold response_version_minor3
  frame

theorem fr_response_version_space (hok : CtxOK c.ctx) (hfn : c.p.fn = .responseVersionSpace) : Fr c (response_version_space h c) := by
  exact fr_versionEnd hok

theorem fr_response_status_code1 (hok : CtxOK c.ctx) (hfn : c.p.fn = .responseStatusCode1) : Fr c (response_status_code1 c) := by
  unfold response_status_code1
  frame

theorem fr_response_status_code2 (hok : CtxOK c.ctx) (hfn : c.p.fn = .responseStatusCode2) : Fr c (response_status_code2 c) := by
  unfold response_status_code2
  frame

theorem fr_response_status_code3 (hok : CtxOK c.ctx) (hfn : c.p.fn = .responseStatusCode3) : Fr c (response_status_code3 c) := by
  unfold response_status_code3
  frame

theorem fr_response_status_code_space (hok : CtxOK c.ctx) (hfn : c.p.fn = .responseStatusCodeSpace) : Fr c (response_status_code_space h c) := by
  unfold response_status_code_space
  frame

theorem fr_response_status1 (hok : CtxOK c.ctx) (hfn : c.p.fn = .responseStatus1) : Fr c (response_status1 c) := by
  unfold response_status1
  frame

theorem fr_response_status2 (hok : CtxOK c.ctx) (hfn : c.p.fn = .responseStatus2) : Fr c (response_status2 h c) := by
  unfold response_status2
  have hc := collect_ok (fun b => if isNonControl b then .cont else if b == c! '\r' then .brk
    else .fail) c.ctx hok.idx_le
  have he := Ext.refl hok
  split <;> rename_i heq <;> rw [heq] at hc
  · obtain ⟨h1, h2, h3, h4⟩ := hc
    exact fr_callbackEos h (he.collected h1 h2 h3 (by omega)) (by makes) (by rw [h1]; exact h4)
  · exact fr_callbackIgnoreTransition h
      (he.collected hc.stream hc.mark (Nat.le_of_lt hc.lt) hc.le) (by makes) (.inl hc.lt)
  · exact he.collected hc.stream hc.mark (Nat.le_of_lt hc.lt) hc.le
  · exact fr_panic

theorem fr_initial_end (hok : CtxOK c.ctx) (hfn : c.p.fn = .initialEnd) : Fr c (initial_end h c) := by
  unfold initial_end
  frame

theorem fr_initial_lf (hok : CtxOK c.ctx) (hfn : c.p.fn = .initialLf) : Fr c (initial_lf c) := by
  exact fr_expectCrlf hok

theorem fr_check_header_name (hok : CtxOK c.ctx) (hfn : c.p.fn = .checkHeaderName) : Fr c (check_header_name c) := by
  unfold check_header_name
  frame

/-- Lower-case an ASCII letter. -/
def lowerByte (b : UInt8) : UInt8 := if isUpper b then b + 0x20 else b

/-- `raw` is a header name followed by a colon, `n` its lower-case form, `len` its length. -/
def fastCheck (raw n : Bytes) (len : Nat) : Bool :=
  raw.length == len && decide (len ≤ 24) && raw == raw.dropLast ++ [c! ':'] &&
    n == raw.dropLast.map lowerByte && !raw.dropLast.isEmpty &&
    raw.dropLast.all (fun b => isToken b == some true && isVisible7bit b)

/-- What a successful comparison of `first_header_name` means. -/
def FastOK (x : Ctx) : Option (Bytes × Nat) → Prop
  | none => True
  | some (n, len) => ∃ raw : Bytes, x.startsWith raw = true ∧ fastCheck raw n len = true

theorem fastOK_ite {x : Ctx} {p : Prop} [Decidable p] {a b : Option (Bytes × Nat)}
    (h1 : p → FastOK x a) (h2 : FastOK x b) : FastOK x (if p then a else b) := by
  split
  · exact h1 ‹_›
  · exact h2

theorem firstHeaderFast_ok (x : Ctx) : FastOK x (firstHeaderFast x) := by
  unfold firstHeaderFast
  repeat' first
    | exact True.intro
    | (refine fastOK_ite (fun h => ⟨_, h, ?_⟩) ?_; decide +kernel)
    | (refine fastOK_ite (fun _ => ?_) ?_)

theorem firstHeaderFast_len (x : Ctx) (n : Bytes) (len : Nat)
    (h : firstHeaderFast x = some (n, len)) : len ≤ 24 ∧ 0 < len := by
  have h' := firstHeaderFast_ok x
  rw [h] at h'
  obtain ⟨raw, -, hc⟩ := h'
  simp only [fastCheck, Bool.and_eq_true, beq_iff_eq, decide_eq_true_eq] at hc
  obtain ⟨⟨⟨⟨⟨h1, h2⟩, h3⟩, -⟩, -⟩, -⟩ := hc
  have := congrArg List.length h3
  simp only [List.length_append, List.length_singleton] at this
  omega

theorem firstHeaderFast_ne {x : Ctx} {n : Bytes} {k : Nat} (h : firstHeaderFast x = some (n, k)) :
    flatEv (.headerName n) ≠ [] := by
  have h' := firstHeaderFast_ok x
  rw [h] at h'
  obtain ⟨raw, -, hc⟩ := h'
  simp only [fastCheck, Bool.and_eq_true, beq_iff_eq, decide_eq_true_eq] at hc
  obtain ⟨⟨⟨⟨⟨h1, h2⟩, h3⟩, h4⟩, h5⟩, -⟩ := hc
  intro h0
  simp only [flatEv, List.map_eq_nil_iff] at h0
  rw [h0] at h4
  simp only [List.nil_eq, List.map_eq_nil_iff] at h4
  rw [h4] at h5
  simp at h5

theorem fr_first_header_name (hok : CtxOK c.ctx) (hfn : c.p.fn = .firstHeaderName) : Fr c (first_header_name h c) := by
  have slow : Fr c (firstHeaderNameSlow c) := by
    unfold firstHeaderNameSlow
    frame <;> omega
  have name : ∀ (n : Bytes) (len : Nat), flatEv (.headerName n) ≠ [] → len ≤ 24 → 0 < len → c.ctx.hasBytes 24 = true →
      Fr c (callbackTransitionData h (jump c len) (.headerName n)
        .stripHeaderValue .stripHeaderValue) := by
    intro n len hn h1 h2 h3
    simp only [Ctx.hasBytes, decide_eq_true_eq] at h3
    exact fr_callbackTransitionData h ((Ext.refl hok).jump (by omega)) hn
      (.inl (by simp only [jump, Ctx.jump]; omega))
  unfold first_header_name
  split
  · rename_i hb
    split
    · rename_i heq
      have := firstHeaderFast_len c.ctx _ _ heq
      exact name _ _ (firstHeaderFast_ne heq) this.1 this.2 hb
    · exact slow
  · exact slow

theorem fr_upper_header_name (hok : CtxOK c.ctx) (hfn : c.p.fn = .upperHeaderName) : Fr c (upper_header_name h c) := by
  unfold upper_header_name
  frame

theorem fr_lower_header_name (hok : CtxOK c.ctx) (hfn : c.p.fn = .lowerHeaderName) : Fr c (lower_header_name h c) := by
  unfold lower_header_name
  frame

theorem fr_strip_header_value (hok : CtxOK c.ctx) (hfn : c.p.fn = .stripHeaderValue) : Fr c (strip_header_value c) := by
  unfold strip_header_value
  frame

theorem fr_header_value (hok : CtxOK c.ctx) (hfn : c.p.fn = .headerValue) : Fr c (header_value h c) := by
  unfold header_value
  frame

theorem fr_header_quoted_value (hok : CtxOK c.ctx) (hfn : c.p.fn = .headerQuotedValue) : Fr c (header_quoted_value h c) := by
  unfold header_quoted_value
  frame

theorem fr_header_escaped_value (hok : CtxOK c.ctx) (hfn : c.p.fn = .headerEscapedValue) : Fr c (header_escaped_value h c) := by
  unfold header_escaped_value
  split
  · have := hok.idx_le
    exact fr_callbackEos h (Ext.refl hok) (by makes) (by simp only [Ctx.available] at *; omega)
  · frame

theorem fr_header_cr1 (hok : CtxOK c.ctx) (hfn : c.p.fn = .headerCr1) : Fr c (header_cr1 c) := by
  unfold header_cr1
  split
  · frame
  · exact fr_expectCrlf hok

theorem fr_header_lf1 (hok : CtxOK c.ctx) (hfn : c.p.fn = .headerLf1) : Fr c (header_lf1 c) := by
  exact fr_expectCrlf hok

theorem fr_header_cr2 (hok : CtxOK c.ctx) (hfn : c.p.fn = .headerCr2) : Fr c (header_cr2 c) := by
  unfold header_cr2
  frame

theorem fr_header_lf2 (hok : CtxOK c.ctx) (hfn : c.p.fn = .headerLf2) : Fr c (header_lf2 c) := by
  exact fr_expectCrlf hok

theorem fr_header_end (hok : CtxOK c.ctx) (hfn : c.p.fn = .headerEnd) : Fr c (header_end h c) := by
  unfold header_end
  dsimp only
  cases c.p.ptype <;> (dsimp only; frame)

theorem fr_chunk_length1 (hok : CtxOK c.ctx) (hfn : c.p.fn = .chunkLength1) : Fr c (chunk_length1 h c) := by
  unfold chunk_length1
  frame

theorem fr_chunk_length2 (hok : CtxOK c.ctx) (hfn : c.p.fn = .chunkLength2) : Fr c (chunk_length2 c) := by
  unfold chunk_length2
  frame

theorem fr_chunk_length3 (hok : CtxOK c.ctx) (hfn : c.p.fn = .chunkLength3) : Fr c (chunk_length3 c) := by
  unfold chunk_length3
  frame

theorem fr_chunk_length4 (hok : CtxOK c.ctx) (hfn : c.p.fn = .chunkLength4) : Fr c (chunk_length4 c) := by
  unfold chunk_length4
  frame

theorem fr_chunk_length5 (hok : CtxOK c.ctx) (hfn : c.p.fn = .chunkLength5) : Fr c (chunk_length5 c) := by
  unfold chunk_length5
  frame

theorem fr_chunk_length6 (hok : CtxOK c.ctx) (hfn : c.p.fn = .chunkLength6) : Fr c (chunk_length6 c) := by
  unfold chunk_length6
  frame

theorem fr_chunk_length7 (hok : CtxOK c.ctx) (hfn : c.p.fn = .chunkLength7) : Fr c (chunk_length7 c) := by
  unfold chunk_length7
  frame

theorem fr_chunk_length8 (hok : CtxOK c.ctx) (hfn : c.p.fn = .chunkLength8) : Fr c (chunk_length8 c) := by
  unfold chunk_length8
  frame

theorem fr_chunk_length_cr (hok : CtxOK c.ctx) (hfn : c.p.fn = .chunkLengthCr) : Fr c (chunk_length_cr h c) := by
  unfold chunk_length_cr
  frame

theorem fr_chunk_length_lf (hok : CtxOK c.ctx) (hfn : c.p.fn = .chunkLengthLf) : Fr c (chunk_length_lf c) := by
  exact fr_expectCrlf hok

theorem fr_strip_chunk_extension_name (hok : CtxOK c.ctx) (hfn : c.p.fn = .stripChunkExtensionName) : Fr c (strip_chunk_extension_name c) := by
  unfold strip_chunk_extension_name
  frame

theorem fr_lower_chunk_extension_name (hok : CtxOK c.ctx) (hfn : c.p.fn = .lowerChunkExtensionName) : Fr c (lower_chunk_extension_name h c) := by
  unfold lower_chunk_extension_name
  frame

theorem fr_upper_chunk_extension_name (hok : CtxOK c.ctx) (hfn : c.p.fn = .upperChunkExtensionName) : Fr c (upper_chunk_extension_name h c) := by
  unfold upper_chunk_extension_name
  frame

theorem fr_strip_chunk_extension_value (hok : CtxOK c.ctx) (hfn : c.p.fn = .stripChunkExtensionValue) : Fr c (strip_chunk_extension_value c) := by
  unfold strip_chunk_extension_value
  frame

theorem fr_chunk_extension_value (hok : CtxOK c.ctx) (hfn : c.p.fn = .chunkExtensionValue) : Fr c (chunk_extension_value h c) := by
  unfold chunk_extension_value
  frame

theorem fr_chunk_extension_quoted_value (hok : CtxOK c.ctx) (hfn : c.p.fn = .chunkExtensionQuotedValue) : Fr c (chunk_extension_quoted_value h c) := by
  unfold chunk_extension_quoted_value
  frame

theorem fr_chunk_extension_escaped_value (hok : CtxOK c.ctx) (hfn : c.p.fn = .chunkExtensionEscapedValue) : Fr c (chunk_extension_escaped_value h c) := by
  unfold chunk_extension_escaped_value
  frame

theorem fr_chunk_extension_finished (hok : CtxOK c.ctx) (hfn : c.p.fn = .chunkExtensionFinished) : Fr c (chunk_extension_finished h c) := by
  unfold chunk_extension_finished
  refine fr_exitIfEos (Ext.refl hok) (fun _ => fr_next (fun b hb => ?_))
  dsimp only
  split <;> frame

theorem fr_chunk_extensions_finished (hok : CtxOK c.ctx) (hfn : c.p.fn = .chunkExtensionsFinished) : Fr c (chunk_extensions_finished h c) := by
  unfold chunk_extensions_finished
  frame

theorem fr_chunk_data (hok : CtxOK c.ctx) (hfn : c.p.fn = .chunkData) : Fr c (chunk_data h c) := by
  exact fr_collectLength hok (by makes) (by simp [hfn, rank])

theorem fr_chunk_data_cr (hok : CtxOK c.ctx) (hfn : c.p.fn = .chunkDataCr) : Fr c (chunk_data_cr c) := by
  exact fr_expectCrlf hok

theorem fr_chunk_data_lf (hok : CtxOK c.ctx) (hfn : c.p.fn = .chunkDataLf) : Fr c (chunk_data_lf c) := by
  exact fr_expectCrlf hok

theorem fr_multipart_hyphen1 (hok : CtxOK c.ctx) (hfn : c.p.fn = .multipartHyphen1) : Fr c (multipart_hyphen1 h c) := by
  unfold multipart_hyphen1
  frame

theorem fr_multipart_hyphen2 (hok : CtxOK c.ctx) (hfn : c.p.fn = .multipartHyphen2) : Fr c (multipart_hyphen2 h c) := by
  unfold multipart_hyphen2
  frame

theorem fr_multipart_boundary (hok : CtxOK c.ctx) (hfn : c.p.fn = .multipartBoundary) : Fr c (multipart_boundary h c) := by
  unfold multipart_boundary
  refine fr_exitIfEos (Ext.refl hok) (fun hav => ?_)
  cases hb : c.p.boundary with
  | none => exact fr_panic
  | some bd =>
    dsimp only
    split
    · exact fr_panic
    · rename_i hup
      generalize hup' : (getUpper14 c.p).toNat = up at *
      have hlen : ∀ s, s = (if bd.length - up ≤ c.ctx.available then bd.drop up
          else (bd.drop up).take c.ctx.available) → s.length ≤ c.ctx.available ∧
          (up + s.length ≠ bd.length → s.length = c.ctx.available) := by
        intro s hs
        split at hs <;> subst hs <;> simp <;> omega
      have hh := hlen _ rfl
      revert hh
      generalize (if bd.length - up ≤ c.ctx.available then bd.drop up
          else (bd.drop up).take c.ctx.available) = sl
      intro hh
      split
      · split
        · refine fr_transition (((Ext.refl hok).jump hh.1).withP ⟨rfl, rfl, rfl, rfl⟩) ?_
          by_cases hl : sl.length = 0
          · exact .inr ⟨by simp [withP, jump, Ctx.jump, hl], by simp [hfn, rank]⟩
          · exact .inl (by simp only [withP, jump, Ctx.jump]; omega)
        · refine fr_exitEos (((Ext.refl hok).jump hh.1).withP ⟨rfl, rfl, rfl, rfl⟩) ?_
          have := hh.2 ‹_›
          simp only [withP, jump, Ctx.jump, this, Ctx.available]
          omega
      · split
        · exact fr_callbackTransitionData h ((Ext.refl hok).withP ⟨rfl, rfl, rfl, rfl⟩)
            (by simp [flatEv]) (.inr ⟨rfl, by simp [hfn, rank]⟩)
        · frame

theorem fr_multipart_boundary_cr (hok : CtxOK c.ctx) (hfn : c.p.fn = .multipartBoundaryCr) : Fr c (multipart_boundary_cr h c) := by
  unfold multipart_boundary_cr
  frame

theorem fr_multipart_boundary_lf (hok : CtxOK c.ctx) (hfn : c.p.fn = .multipartBoundaryLf) : Fr c (multipart_boundary_lf c) := by
  exact fr_expectBoundary hok

theorem fr_multipart_detect_data (hok : CtxOK c.ctx) (hfn : c.p.fn = .multipartDetectData) : Fr c (multipart_detect_data h c) := by
  unfold multipart_detect_data
  frame

theorem fr_multipart_data_by_length (hok : CtxOK c.ctx) (hfn : c.p.fn = .multipartDataByLength) : Fr c (multipart_data_by_length h c) := by
  exact fr_collectLength hok (by makes) (by simp [hfn, rank])

theorem fr_multipart_data_by_length_cr (hok : CtxOK c.ctx) (hfn : c.p.fn = .multipartDataByLengthCr) : Fr c (multipart_data_by_length_cr c) := by
  exact fr_expectBoundary hok

theorem fr_multipart_data_by_length_lf (hok : CtxOK c.ctx) (hfn : c.p.fn = .multipartDataByLengthLf) : Fr c (multipart_data_by_length_lf c) := by
  exact fr_expectBoundary hok

theorem fr_multipart_data_by_byte (hok : CtxOK c.ctx) (hfn : c.p.fn = .multipartDataByByte) : Fr c (multipart_data_by_byte h c) := by
  unfold multipart_data_by_byte
  frame

theorem fr_multipart_data_by_byte_lf (hok : CtxOK c.ctx) (hfn : c.p.fn = .multipartDataByByteLf) : Fr c (multipart_data_by_byte_lf h c) := by
  unfold multipart_data_by_byte_lf
  frame

theorem fr_multipart_end (hok : CtxOK c.ctx) (hfn : c.p.fn = .multipartEnd) : Fr c (multipart_end c) := by
  exact fr_expectBoundary hok

theorem fr_first_url_encoded_name (hok : CtxOK c.ctx) (hfn : c.p.fn = .firstUrlEncodedName) : Fr c (first_url_encoded_name h c) := by
  unfold first_url_encoded_name
  frame

theorem fr_url_encoded_name (hok : CtxOK c.ctx) (hfn : c.p.fn = .urlEncodedName) : Fr c (url_encoded_name h c) := by
  unfold url_encoded_name
  frame

theorem fr_url_encoded_name_hex1 (hok : CtxOK c.ctx) (hfn : c.p.fn = .urlEncodedNameHex1) : Fr c (url_encoded_name_hex1 c) := by
  unfold url_encoded_name_hex1
  frame

theorem fr_url_encoded_name_hex2 (hok : CtxOK c.ctx) (hfn : c.p.fn = .urlEncodedNameHex2) : Fr c (url_encoded_name_hex2 h c) := by
  unfold url_encoded_name_hex2
  frame

theorem fr_url_encoded_name_plus (hok : CtxOK c.ctx) (hfn : c.p.fn = .urlEncodedNamePlus) : Fr c (url_encoded_name_plus h c) := by
  unfold url_encoded_name_plus
  frame

theorem fr_url_encoded_value (hok : CtxOK c.ctx) (hfn : c.p.fn = .urlEncodedValue) : Fr c (url_encoded_value h c) := by
  unfold url_encoded_value
  frame

theorem fr_url_encoded_value_hex1 (hok : CtxOK c.ctx) (hfn : c.p.fn = .urlEncodedValueHex1) : Fr c (url_encoded_value_hex1 c) := by
  unfold url_encoded_value_hex1
  frame

theorem fr_url_encoded_value_hex2 (hok : CtxOK c.ctx) (hfn : c.p.fn = .urlEncodedValueHex2) : Fr c (url_encoded_value_hex2 h c) := by
  unfold url_encoded_value_hex2
  frame

theorem fr_url_encoded_value_plus (hok : CtxOK c.ctx) (hfn : c.p.fn = .urlEncodedValuePlus) : Fr c (url_encoded_value_plus h c) := by
  unfold url_encoded_value_plus
  frame

theorem fr_body_finished (hok : CtxOK c.ctx) (hfn : c.p.fn = .bodyFinished) : Fr c (body_finished h c) := by
  unfold body_finished
  frame

theorem fr_finished (hok : CtxOK c.ctx) (hfn : c.p.fn = .finished) : Fr c (finished c) := by
  exact ⟨Ext.refl hok, rfl, hfn⟩

end Verif.Http1
