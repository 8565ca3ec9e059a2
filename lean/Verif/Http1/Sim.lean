import Verif.Http1.Spec
import Verif.Http1.Bits
import Verif.Http1.FrameRun

/-!
# Simulation of the parser by the reference machine: definitions and combinators

Helper definitions and lemmas. The invariant: the result that the reference machine predicts for
the whole message is the same before and after every call of a state function.
-/

namespace Verif.Http1

/-- The state of the reference machine that corresponds to the parser's fields. -/
def abs (p : Parser) : AS :=
  match p.fn with
  | .dead => .dead
  | .stripDetect => .stripDetect
  | .detect1 => .detect1
  | .detect2 => .ldet2
  | .detect3 => .ldet3
  | .detect4 => .ldet4
  | .detect5 => .ldet5
  | .requestMethod => .method
  | .requestUrl1 => .url1
  | .requestUrl2 => .url2
  | .requestHttp1 => .http1
  | .requestHttp2 => .http2
  | .requestHttp3 => .http3
  | .requestHttp4 => .http4
  | .requestHttp5 => .http5
  | .requestVersionMajor1 => .maj1 false
  | .requestVersionMajor2 => .maj2 false (getLower14 p).toNat
  | .requestVersionMajor3 => .maj3 false (getLower14 p).toNat
  | .requestVersionPeriod => .period false (getLower14 p).toNat
  | .requestVersionMinor1 => .min1 false (getLower14 p).toNat
  | .requestVersionMinor2 => .min2 false (getLower14 p).toNat (getUpper14 p).toNat
  | .requestVersionMinor3 => .min3 false (getLower14 p).toNat (getUpper14 p).toNat
  | .requestVersionCr => .verEnd false (getLower14 p).toNat (getUpper14 p).toNat
  | .responseVersionMajor1 => .maj1 true
  | .responseVersionMajor2 => .maj2 true (getLower14 p).toNat
  | .responseVersionMajor3 => .maj3 true (getLower14 p).toNat
  | .responseVersionPeriod => .period true (getLower14 p).toNat
  | .responseVersionMinor1 => .min1 true (getLower14 p).toNat
  | .responseVersionMinor2 => .min2 true (getLower14 p).toNat (getUpper14 p).toNat
  | .responseVersionMinor3 => .min3 true (getLower14 p).toNat (getUpper14 p).toNat
  | .responseVersionSpace => .verEnd true (getLower14 p).toNat (getUpper14 p).toNat
  | .responseStatusCode1 => .code1
  | .responseStatusCode2 => .code2 (getLower14 p).toNat
  | .responseStatusCode3 => .code3 (getLower14 p).toNat
  | .responseStatusCodeSpace => .codeSp (getLower14 p).toNat
  | .responseStatus1 => .reason1
  | .responseStatus2 => .reason2
  | .initialEnd => .initialEnd
  | .initialLf => .initialLf
  | .checkHeaderName => .hdrCheck
  | .firstHeaderName => .hdrFirst
  | .upperHeaderName => .hdrName
  | .lowerHeaderName => .hdrName
  | .stripHeaderValue => .hdrStrip
  | .headerValue => .hdrVal
  | .headerQuotedValue => .hdrQuot
  | .headerEscapedValue => .hdrEsc
  | .headerCr1 => .hdrCr1
  | .headerLf1 => .hdrLf1
  | .headerCr2 => .hdrCr2
  | .headerLf2 => .hdrLf2
  | .headerEnd => .hdrEnd
  | .chunkLength1 => .size1
  | .chunkLength2 => .size 7 p.length
  | .chunkLength3 => .size 6 p.length
  | .chunkLength4 => .size 5 p.length
  | .chunkLength5 => .size 4 p.length
  | .chunkLength6 => .size 3 p.length
  | .chunkLength7 => .size 2 p.length
  | .chunkLength8 => .size 1 p.length
  | .chunkLengthCr => .sizeEnd p.length
  | .chunkLengthLf => .sizeLf p.length
  | .stripChunkExtensionName => .extStrip p.length
  | .lowerChunkExtensionName => .extName p.length
  | .upperChunkExtensionName => .extName p.length
  | .stripChunkExtensionValue => .extVStrip p.length
  | .chunkExtensionValue => .extVal p.length
  | .chunkExtensionQuotedValue => .extQuot p.length
  | .chunkExtensionEscapedValue => .extEsc p.length
  | .chunkExtensionFinished => .extFin p.length
  | .chunkExtensionsFinished => .extsFin p.length
  | .chunkData => .data p.length
  | .chunkDataCr => .dataCr
  | .chunkDataLf => .dataLf
  | .multipartHyphen1 => .hyphen1 (getLower14 p != 0)
  | .multipartHyphen2 => .hyphen2 (getLower14 p != 0)
  | .multipartBoundary => .bound (getLower14 p != 0) (getUpper14 p).toNat
  | .multipartBoundaryCr => .boundCr
  | .multipartBoundaryLf => .boundLf
  | .multipartDetectData => .mpDetect
  | .multipartDataByLength => .mpLen p.length
  | .multipartDataByLengthCr => .mpLenCr
  | .multipartDataByLengthLf => .mpLenLf
  | .multipartDataByByte => .mpByte
  | .multipartDataByByteLf => .mpByteLf
  | .multipartEnd => .mpEnd
  | .firstUrlEncodedName => .uFirst
  | .urlEncodedName => .uName
  | .urlEncodedNameHex1 => .uNameH1
  | .urlEncodedNameHex2 => .uNameH2 (getUpper14 p).toUInt8
  | .urlEncodedNamePlus => .uNamePlus
  | .urlEncodedValue => .uVal
  | .urlEncodedValueHex1 => .uValH1
  | .urlEncodedValueHex2 => .uValH2 (getUpper14 p).toUInt8
  | .urlEncodedValuePlus => .uValPlus
  | .bodyFinished => .bodyFin
  | .finished => .fin

/-- What the parser's fields satisfy, by state. -/
def Live (p : Parser) : Prop :=
  match p.fn with
  | .dead => False
  | .requestVersionMajor2 | .responseVersionMajor2 =>
    p.ptype ≠ .multipart ∧ (getLower14 p).toNat ≤ 9
  | .requestVersionMajor3 | .responseVersionMajor3 =>
    p.ptype ≠ .multipart ∧ (getLower14 p).toNat ≤ 99
  | .requestVersionMinor2 | .responseVersionMinor2 =>
    p.ptype ≠ .multipart ∧ (getUpper14 p).toNat ≤ 9
  | .requestVersionMinor3 | .responseVersionMinor3 =>
    p.ptype ≠ .multipart ∧ (getUpper14 p).toNat ≤ 99
  | .responseStatusCode2 => p.ptype ≠ .multipart ∧ (getLower14 p).toNat ≤ 900
  | .responseStatusCode3 => p.ptype ≠ .multipart ∧ (getLower14 p).toNat ≤ 990
  | .stripDetect | .detect1 | .detect2 | .detect3 | .detect4 | .detect5
  | .requestMethod | .requestUrl1 | .requestUrl2
  | .requestHttp1 | .requestHttp2 | .requestHttp3 | .requestHttp4 | .requestHttp5
  | .requestVersionMajor1 | .requestVersionPeriod | .requestVersionMinor1 | .requestVersionCr
  | .responseVersionMajor1 | .responseVersionPeriod | .responseVersionMinor1
  | .responseVersionSpace | .responseStatusCode1 | .responseStatusCodeSpace
  | .responseStatus1 | .responseStatus2 => p.ptype ≠ .multipart
  | .initialEnd | .initialLf
  | .checkHeaderName | .firstHeaderName | .upperHeaderName | .lowerHeaderName
  | .stripHeaderValue | .headerValue | .headerQuotedValue | .headerEscapedValue
  | .headerCr1 | .headerLf1 | .headerCr2 | .headerLf2 | .headerEnd =>
    p.ptype = .multipart → getUpper14 p = 0
  | .chunkLength1 | .chunkDataCr | .chunkDataLf => p.ptype ≠ .multipart ∧ p.length = 0
  | .chunkLength2 | .chunkLength3 | .chunkLength4 | .chunkLength5 | .chunkLength6 | .chunkLength7
  | .chunkLength8 | .chunkLengthCr | .chunkLengthLf
  | .stripChunkExtensionName | .lowerChunkExtensionName | .upperChunkExtensionName
  | .stripChunkExtensionValue | .chunkExtensionValue | .chunkExtensionQuotedValue
  | .chunkExtensionEscapedValue | .chunkExtensionFinished | .chunkExtensionsFinished
  | .chunkData => p.ptype ≠ .multipart
  | .multipartHyphen1 | .multipartHyphen2 | .multipartBoundaryCr | .multipartBoundaryLf
  | .multipartEnd => getUpper14 p = 0
  | .multipartDetectData => p.ptype = .multipart ∧ getUpper14 p = 0
  | .multipartBoundary => ∀ bd, p.boundary = some bd → (getUpper14 p).toNat ≤ bd.length
  | .multipartDataByLength | .multipartDataByLengthCr | .multipartDataByLengthLf =>
    getUpper14 p = 0 ∧ getLower14 p ≠ 0
  | .multipartDataByByte | .multipartDataByByteLf => getUpper14 p = 0 ∧ getLower14 p = 0
  | .firstUrlEncodedName | .urlEncodedName | .urlEncodedNameHex1 | .urlEncodedNamePlus
  | .urlEncodedValue | .urlEncodedValueHex1 | .urlEncodedValuePlus
  | .urlEncodedNameHex2 | .urlEncodedValueHex2
  | .bodyFinished | .finished => True

/-- `pat` and `m` do not contradict each other: one is a prefix of the other. -/
def Compat (pat m : Bytes) : Prop := pat <+: m ∨ m <+: pat

/-- The message does not start with `H`, or starts like `HTTP/`. -/
def HStart (m : Bytes) : Prop := m.head? ≠ some (c! 'H') ∨ Compat b!"HTTP/" m

/-- Detection is unproblematic for the rest `m` of the message, however it is cut. -/
def HX (fn : St) (m : Bytes) : Prop :=
  match fn with
  | .stripDetect => HStart (m.dropWhile isBlank)
  | .detect1 => HStart m
  | _ => True

/-- Detection is unproblematic when `rest` is available now and `fut` comes later. -/
structure HOK (fn : St) (rest fut : Bytes) : Prop where
  start : HX fn (rest ++ fut) ∨ (fn = .stripDetect ∧ 9 ≤ (rest.dropWhile isBlank).length) ∨
    (fn = .detect1 ∧ 9 ≤ rest.length)
  avail : fn = .detect1 → rest ≠ []

/-- The callback to which a state's marked bytes belong. -/
def pendEv : St → Option (UInt8 → Ev)
  | .requestMethod => some fun b => .method [b]
  | .requestUrl2 => some fun b => .url [b]
  | .headerValue | .headerQuotedValue | .headerEscapedValue => some fun b => .headerValue [b]
  | _ => none

/-- Data already read but not yet passed to the handler. -/
def pend (c : Cfg) : List Ev :=
  match pendEv c.p.fn with
  | some ev => c.ctx.slice.map ev
  | none => []

/-- What the byte-by-byte machine tells when it goes on from this configuration. -/
def predOf (env : Env) (fut : Bytes) (c : Cfg) : List Ev × Fin :=
  pred env (flat c.log ++ pend c) (abs c.p) (c.ctx.rest ++ fut)

/-- Invariant between two calls of state functions. -/
structure Good (fut : Bytes) (c : Cfg) : Prop where
  mark : pendEv c.p.fn = none → c.ctx.mark = c.ctx.idx
  live : Live c.p
  hok : HOK c.p.fn c.ctx.rest fut

/-- Invariant when `resume` returns. -/
structure GoodX (fut : Bytes) (c : Cfg) : Prop where
  live : Live c.p
  hx : HX c.p.fn (c.ctx.rest ++ fut)
  nd : c.p.fn ≠ .detect1

/-- The reference machine would wait in `s` for the next byte. -/
def Quiet (env : Env) (tr : List Ev) (s : AS) : Prop :=
  (norm env tr s).1 = [] ∧ (norm env tr s).2 ≠ .fin

/-- What a state function call does to the prediction `K`; `L` is what was reported before it. -/
def SimOK (env : Env) (fut : Bytes) (K : List Ev × Fin) (L : List Ev) : Out → Prop
  | .cont c => Good fut c ∧ predOf env fut c = K
  | .exit (.finished _) c => K = (flat c.log, .finished (c.ctx.rest ++ fut))
  | .exit (.callback _) c =>
    GoodX fut c ∧ pred env (flat c.log) (abs c.p) (c.ctx.rest ++ fut) = K
  | .exit (.eos _) c =>
    GoodX fut c ∧ pred env (flat c.log) (abs c.p) (c.ctx.rest ++ fut) = K ∧
      Quiet env (flat c.log) (abs c.p)
  | .err e c =>
    (∃ d, isData d = true ∧ K = (flat c.log ++ flatEv d, .err e (c.ctx.rest ++ fut))) ∨
      ((∃ r, r <:+ c.ctx.rest ++ fut ∧ K = (flat c.log, .errB r)) ∧ ∃ b, e = .multipartBoundary b)
  | .panic => ∃ d, isData d = true ∧ K = (L ++ flatEv d, .panic)
  | .ub => False

/-- The boundary can be handled: fewer than 2^14 bytes, no CR. -/
def BdOK (env : Env) : Prop :=
  ∀ bd, env.boundary = some bd → bd.length < 16384 ∧ c! '\r' ∉ bd

/-- `content_length` depends on the data only, not on how it was cut. -/
def ClOK (env : Env) (h : Handler) : Prop :=
  env.ptype = .multipart → ∀ l, h.contentLength l = env.cl (flat l)

theorem flat_append (l : List Ev) (e : Ev) : flat (l ++ [e]) = flat l ++ flatEv e := by
  simp [flat]

/-- `mk` makes a data callback. -/
def IsMk (mk : Bytes → Ev) : Prop :=
  ∀ d, isData (mk d) = true ∧ flatEv (mk d) = d.map fun b => mk [b]

theorem isMk_method : IsMk .method := fun _ => ⟨rfl, rfl⟩
theorem isMk_url : IsMk .url := fun _ => ⟨rfl, rfl⟩
theorem isMk_status : IsMk .status := fun _ => ⟨rfl, rfl⟩
theorem isMk_headerName : IsMk .headerName := fun _ => ⟨rfl, rfl⟩
theorem isMk_headerValue : IsMk .headerValue := fun _ => ⟨rfl, rfl⟩
theorem isMk_chunkData : IsMk .chunkData := fun _ => ⟨rfl, rfl⟩
theorem isMk_chunkExtensionName : IsMk .chunkExtensionName := fun _ => ⟨rfl, rfl⟩
theorem isMk_chunkExtensionValue : IsMk .chunkExtensionValue := fun _ => ⟨rfl, rfl⟩
theorem isMk_multipartData : IsMk .multipartData := fun _ => ⟨rfl, rfl⟩
theorem isMk_urlEncodedName : IsMk .urlEncodedName := fun _ => ⟨rfl, rfl⟩
theorem isMk_urlEncodedValue : IsMk .urlEncodedValue := fun _ => ⟨rfl, rfl⟩

variable {env : Env} {fut : Bytes} {K : List Ev × Fin} {L : List Ev} {h : Handler} {c : Cfg}

theorem hok_of_hx {fn : St} {m : Bytes} (h : HX fn (m ++ fut)) (hn : fn ≠ .detect1) :
    HOK fn m fut := ⟨.inl h, fun h' => absurd h' hn⟩

theorem slice_of_mark {x : Ctx} (h : x.mark = x.idx) : x.slice = [] := by
  simp [Ctx.slice, h]

/-! ## Combinators -/

theorem sim_remark (hg : GoodX fut c)
    (hK : pred env (flat c.log) (abs c.p) (c.ctx.rest ++ fut) = K) :
    SimOK env fut K L (remark c) := by
  refine ⟨⟨fun _ => rfl, hg.live, hok_of_hx hg.hx hg.nd⟩, ?_⟩
  simp only [predOf, pend]
  rw [slice_of_mark (by rfl)]
  have hK' : pred env (flat c.log) (abs c.p) (c.ctx.setMark.rest ++ fut) = K := hK
  cases pendEv c.p.fn <;> simpa using hK'

theorem sim_exitCallback (hg : GoodX fut c)
    (hK : pred env (flat c.log) (abs c.p) (c.ctx.rest ++ fut) = K) :
    SimOK env fut K L (exitCallback c) := ⟨hg, hK⟩

theorem sim_exitEos (hg : GoodX fut c)
    (hK : pred env (flat c.log) (abs c.p) (c.ctx.rest ++ fut) = K)
    (hq : Quiet env (flat c.log) (abs c.p)) :
    SimOK env fut K L (exitEos c) := ⟨hg, hK, hq⟩

theorem sim_callbackData {e : Ev} (hg : GoodX fut c)
    (hK : pred env (flat c.log ++ flatEv e) (abs c.p) (c.ctx.rest ++ fut) = K) :
    SimOK env fut K L (callbackData h c e remark) := by
  rw [← flat_append] at hK
  simp only [callbackData]
  split
  · exact sim_remark (c := { c with log := c.log ++ [e] }) ⟨hg.live, hg.hx, hg.nd⟩ hK
  · exact sim_exitCallback (c := { c with log := c.log ++ [e] }) ⟨hg.live, hg.hx, hg.nd⟩ hK

theorem slice_nil_of_length {x : Ctx} (h : ¬ x.sliceLength > 0) : x.slice = [] := by
  simp only [Ctx.sliceLength] at h
  have : x.idx - x.mark = 0 := by omega
  simp [Ctx.slice, this]

theorem sliceIgnore_nil_of_length {x : Ctx} (h : ¬ x.sliceLength > 1) : x.sliceIgnore = [] := by
  simp only [Ctx.sliceLength] at h
  have : x.idx - 1 - x.mark = 0 := by omega
  simp [Ctx.sliceIgnore, this]

theorem sim_callbackTransition {mk : Bytes → Ev} {s f : St} (hmk : IsMk mk) (hok : CtxOK c.ctx)
    (hg : GoodX fut (setState c s f))
    (hK : pred env (flat c.log ++ c.ctx.slice.map fun b => mk [b]) (abs (setState c s f).p)
      (c.ctx.rest ++ fut) = K) :
    SimOK env fut K L (callbackTransition h c mk s f) := by
  simp only [callbackTransition, callbackSlice]
  have := hok.mark_le
  rw [if_neg (by simp only [setState]; omega)]
  split
  · exact sim_callbackData hg (by rw [(hmk _).2]; exact hK)
  · rename_i hl
    have : c.ctx.slice = [] := slice_nil_of_length hl
    rw [this, List.map_nil, List.append_nil] at hK
    exact sim_remark hg hK

theorem sim_callbackIgnore {mk : Bytes → Ev} {s f : St} (hmk : IsMk mk) (hok : CtxOK c.ctx)
    (hg : GoodX fut (setState c s f))
    (hK : pred env (flat c.log ++ c.ctx.sliceIgnore.map fun b => mk [b]) (abs (setState c s f).p)
      (c.ctx.rest ++ fut) = K) :
    SimOK env fut K L (callbackIgnoreTransition h c mk s f) := by
  simp only [callbackIgnoreTransition]
  have := hok.mark_le
  rw [if_neg (by simp only [setState]; omega)]
  split
  · exact sim_callbackData hg (by rw [(hmk _).2]; exact hK)
  · rename_i hl
    have : c.ctx.sliceIgnore = [] := sliceIgnore_nil_of_length hl
    rw [this, List.map_nil, List.append_nil] at hK
    exact sim_remark hg hK

theorem sim_callbackEos {mk : Bytes → Ev} (hmk : IsMk mk) (hok : CtxOK c.ctx)
    (hg : GoodX fut c)
    (hK : pred env (flat c.log ++ c.ctx.slice.map fun b => mk [b]) (abs c.p)
      (c.ctx.rest ++ fut) = K)
    (hq : ∀ tr, Quiet env tr (abs c.p)) :
    SimOK env fut K L (callbackEos h c mk) := by
  simp only [callbackEos, callbackSlice]
  have := hok.mark_le
  rw [if_neg (by omega)]
  split
  · rw [← (hmk _).2, ← flat_append] at hK
    simp only [callbackData]
    split
    · exact ⟨⟨hg.live, hg.hx, hg.nd⟩, hK, hq _⟩
    · exact ⟨⟨hg.live, hg.hx, hg.nd⟩, hK⟩
  · rename_i hl
    rw [slice_nil_of_length hl] at hK
    exact ⟨hg, by simpa using hK, hq _⟩

theorem sim_err {e : PErr} (hK : K = (flat c.log, .err e (c.ctx.rest ++ fut))) :
    SimOK env fut K L (.err e c) := .inl ⟨.method [], rfl, by simpa [flatEv] using hK⟩

theorem sim_err_data {mk : Bytes → Ev} {e : PErr} {d : Bytes} (hmk : IsMk mk)
    (hK : K = (flat c.log ++ d.map fun b => mk [b], .err e (c.ctx.rest ++ fut))) :
    SimOK env fut K L (.err e c) := .inl ⟨mk d, (hmk d).1, by rw [(hmk d).2]; exact hK⟩

/-! ## Reading one byte -/

theorem rest_cons {x : Ctx} {b : UInt8} (hb : x.stream[x.idx]? = some b) :
    x.rest = b :: ({ x with byte := b, idx := x.idx + 1 } : Ctx).rest := by
  obtain ⟨h1, h2⟩ := List.getElem?_eq_some_iff.1 hb
  simp only [Ctx.rest]
  rw [← h2, ← List.drop_eq_getElem_cons h1]

theorem rest_nil {x : Ctx} (hx : x.available = 0) : x.rest = [] := by
  simp only [Ctx.available] at hx
  simp only [Ctx.rest, List.drop_eq_nil_iff]; omega

/-- One `exit_if_eos!` followed by `bs_next!`. -/
theorem sim_read {k : Cfg → Out} (hg : GoodX fut c)
    (hK : pred env (flat c.log) (abs c.p) (c.ctx.rest ++ fut) = K)
    (hq : Quiet env (flat c.log) (abs c.p))
    (hk : ∀ b, c.ctx.rest = b :: (adv c b).ctx.rest →
      (adv c b).ctx.replay.rest = b :: (adv c b).ctx.rest →
      pred env (flat c.log) (abs c.p) (b :: ((adv c b).ctx.rest ++ fut)) = K →
      SimOK env fut K L (k (adv c b))) :
    SimOK env fut K L (exitIfEos c (next c k)) := by
  unfold exitIfEos
  split
  · exact sim_exitEos hg hK hq
  · rename_i hav
    simp only [next, Ctx.next]
    cases hb : c.ctx.stream[c.ctx.idx]? with
    | none =>
      simp only [Ctx.available] at hav
      have := List.getElem?_eq_none_iff.1 hb
      omega
    | some b =>
      have hr := rest_cons hb
      refine hk b hr ?_ ?_
      · exact hr
      · rw [hr] at hK; exact hK

theorem pred_next {tr : List Ev} {s s1 s' : AS} {b : UInt8} {r : Bytes} {es0 es : List Ev}
    (hn : norm env tr s = (es0, s1)) (hf : s1 ≠ .fin) (hb : bstep env s1 b = .next es s') :
    pred env tr s (b :: r) = pred env (tr ++ es0 ++ es) s' r := by
  simp only [pred, hn, if_neg hf, hb]

theorem pred_err {tr : List Ev} {s s1 : AS} {b : UInt8} {r : Bytes} {es0 es : List Ev} {e : PErr}
    (hn : norm env tr s = (es0, s1)) (hf : s1 ≠ .fin) (hb : bstep env s1 b = .err es e) :
    pred env tr s (b :: r) = (tr ++ es0 ++ es, .err e r) := by
  simp only [pred, hn, if_neg hf, hb]

theorem pred_panic {tr : List Ev} {s s1 : AS} {b : UInt8} {r : Bytes} {es0 : List Ev}
    (hn : norm env tr s = (es0, s1)) (hf : s1 ≠ .fin) (hb : bstep env s1 b = .panic) :
    pred env tr s (b :: r) = (tr ++ es0, .panic) := by
  simp only [pred, hn, if_neg hf, hb]

theorem pred_errB {tr : List Ev} {s s1 : AS} {b : UInt8} {r : Bytes} {es0 : List Ev}
    (hn : norm env tr s = (es0, s1)) (hf : s1 ≠ .fin) (hb : bstep env s1 b = .errB) :
    pred env tr s (b :: r) = (tr ++ es0, .errB r) := by
  simp only [pred, hn, if_neg hf, hb]

/-- A state that reads the bytes `pre` one by one without being left. -/
theorem pred_loop {s : AS} {ev : UInt8 → List Ev} (hn : ∀ tr, norm env tr s = ([], s))
    (hf : s ≠ .fin) : ∀ (pre : Bytes) (tr : List Ev) (r : Bytes),
    (∀ b ∈ pre, bstep env s b = .next (ev b) s) →
    pred env tr s (pre ++ r) = pred env (tr ++ pre.flatMap ev) s r
  | [], tr, r, _ => by simp
  | b :: pre, tr, r, hp => by
    have h1 := hp b (by simp)
    rw [List.cons_append, pred_next (hn tr) hf h1]
    rw [pred_loop hn hf pre _ r fun b hb => hp b (by simp [hb])]
    simp

/-- An ε-move. -/
theorem pred_eps {tr : List Ev} {s s1 : AS} {es : List Ev} (hn : norm env tr s = (es, s1))
    (hn1 : norm env (tr ++ es) s1 = ([], s1)) (r : Bytes) :
    pred env tr s r = pred env (tr ++ es) s1 r := by
  cases r <;> simp [pred, hn, hn1]

/-! ## Collection loops -/

/-- The loop read `d` (with what was marked before) and then `b`; `post` is unread. -/
structure Brk (x : Ctx) (d : Bytes) (b : UInt8) (post : Bytes) : Prop where
  ok : CtxOK x
  okr : CtxOK x.replay
  byte : x.byte = b
  rest : x.rest = post
  restR : x.replay.rest = b :: post
  ign : x.sliceIgnore = d
  sliceR : x.replay.slice = d
  slice : x.slice = d ++ [b]
  idx : x.idx ≠ 0

theorem drop_append_len {α : Type} (l pre r : List α) (n : Nat) (h : l.drop n = pre ++ r) :
    l.drop (n + pre.length) = r := by
  rw [← List.drop_drop, h, List.drop_left]

theorem take_slice {α : Type} (l pre r : List α) (m n : Nat) (hmn : m ≤ n)
    (h : l.drop n = pre ++ r) :
    (l.drop m).take (n + pre.length - m) = (l.drop m).take (n - m) ++ pre := by
  have h1 : n + pre.length - m = (n - m) + pre.length := by omega
  rw [h1, List.take_add, List.drop_drop, show m + (n - m) = n by omega, h, List.take_left]

theorem brk_of {x : Ctx} {pre post : Bytes} {b : UInt8} (hok : CtxOK x)
    (h : x.rest = pre ++ b :: post) :
    Brk { x with idx := x.idx + pre.length + 1, byte := b } (x.slice ++ pre) b post := by
  have hl : x.stream.length - x.idx = pre.length + (post.length + 1) := by
    have := congrArg List.length h
    simpa [Ctx.rest] using this
  have h1 := hok.mark_le
  have h2 := hok.idx_le
  have h' : x.stream.drop x.idx = pre ++ b :: post := h
  have h'' : x.stream.drop x.idx = (pre ++ [b]) ++ post := by rw [h']; simp
  have e1 := take_slice _ _ _ x.mark x.idx h1 h'
  have e2 := take_slice _ _ _ x.mark x.idx h1 h''
  refine ⟨⟨?_, ?_⟩, ⟨?_, ?_⟩, rfl, ?_, ?_, ?_, ?_, ?_, ?_⟩
  · simp only; omega
  · simp only; omega
  · simp only [Ctx.replay]; omega
  · simp only [Ctx.replay]; omega
  · simp only [Ctx.rest]
    have := drop_append_len _ _ _ _ h''
    simpa [Nat.add_assoc] using this
  · simp only [Ctx.rest, Ctx.replay]
    exact drop_append_len _ _ _ _ h'
  · simp only [Ctx.sliceIgnore, Ctx.slice]
    exact e1
  · simp only [Ctx.slice, Ctx.replay]
    exact e1
  · simp only [Ctx.slice]
    rw [List.append_assoc, ← e2]
    simp [Nat.add_assoc]
  · simp only; omega

/-- A collection loop in a state `s` of the reference machine that emits every byte collected. -/
theorem sim_collect {act : UInt8 → Ctx.Act} {s : AS} {mk : Bytes → Ev} {k : Cfg → Out}
    (hok : CtxOK c.ctx) (hlive : Live c.p) (hnd : c.p.fn ≠ .detect1) (hs : abs c.p = s)
    (hn : ∀ tr, norm env tr s = ([], s)) (hf : s ≠ .fin) (hmk : IsMk mk)
    (hK : pred env (flat c.log ++ c.ctx.slice.map fun b => mk [b]) s (c.ctx.rest ++ fut) = K)
    (hx : ∀ m, HX c.p.fn m)
    (hloop : ∀ b, act b = .cont → bstep env s b = .next [mk [b]] s)
    (hpanic : ∀ b, act b = .panic → bstep env s b = .panic)
    (hfail : ∀ b, act b ≠ .fail)
    (hbrk : ∀ x d b post, Brk x d b post → act b = .brk →
      pred env (flat c.log ++ d.map fun b => mk [b]) s (b :: (post ++ fut)) = K →
      SimOK env fut K (flat c.log) (k { c with ctx := x })) :
    SimOK env fut K (flat c.log) (collecting c (c.ctx.collect act) (callbackEos h · mk) k) := by
  have hsp := collectGo_spec act c.ctx.rest c.ctx
  simp only [Ctx.collect]
  have hloop' : ∀ b, act b = .cont → bstep env s b = .next ((fun b => [mk [b]]) b) s := hloop
  cases heq : Ctx.collectGo act c.ctx.rest c.ctx with
  | eos x =>
    rw [heq] at hsp
    obtain ⟨h1, h2, h3, h4⟩ := hsp
    simp only [collecting]
    have hm := hok.mark_le
    have hi := hok.idx_le
    have hlen : c.ctx.rest.length = c.ctx.stream.length - c.ctx.idx := by simp [Ctx.rest]
    have hxrest : x.rest = [] := by
      simp only [Ctx.rest, List.drop_eq_nil_iff, h2, h4, List.length_drop]; omega
    have hxslice : x.slice = c.ctx.slice ++ c.ctx.rest := by
      simp only [Ctx.slice, h2, h3, h4]
      exact take_slice c.ctx.stream c.ctx.rest [] _ _ hm (by simp [Ctx.rest])
    refine sim_callbackEos (c := { c with ctx := x }) hmk ⟨by simp only; omega, ?_⟩
      ⟨hlive, hx _, hnd⟩ ?_ ?_
    · simp only [h2, h4, hlen]; omega
    · simp only [hxrest, hxslice]
      rw [pred_loop hn hf _ _ _ (fun b hb => hloop' b (h1 b hb))] at hK
      rw [hs, ← hK]
      simp [List.map_eq_flatMap]
    · intro tr
      simp only [hs]
      exact ⟨by rw [hn], by rw [hn]; exact hf⟩
  | brk x =>
    rw [heq] at hsp
    obtain ⟨pre, b, post, hr, h1, h2, rfl⟩ := hsp
    refine hbrk _ _ b post (brk_of hok hr) h2 ?_
    rw [hr, List.append_assoc, pred_loop hn hf _ _ _ (fun b hb => hloop' b (h1 b hb))] at hK
    rw [← hK]
    simp [List.map_eq_flatMap]
  | fail x =>
    rw [heq] at hsp
    obtain ⟨pre, b, post, hr, h1, h2, -⟩ := hsp
    exact absurd h2 (hfail b)
  | panic =>
    rw [heq] at hsp
    obtain ⟨pre, b, post, hr, h1, h2⟩ := hsp
    rw [hr, List.append_assoc, pred_loop hn hf _ _ _ (fun b hb => hloop' b (h1 b hb))] at hK
    refine ⟨mk (c.ctx.slice ++ pre), (hmk _).1, ?_⟩
    rw [← hK, List.cons_append, pred_panic (hn _) hf (hpanic b h2), (hmk _).2]
    simp [List.map_eq_flatMap]

theorem flatMap_nil' (l : Bytes) : l.flatMap (fun _ => ([] : List Ev)) = [] := by
  simp [List.flatMap_eq_nil_iff]

/-- A collection loop in a state `s` of the reference machine that skips every byte collected. -/
theorem sim_skip {act : UInt8 → Ctx.Act} {s : AS} {k : Cfg → Out}
    (hok : CtxOK c.ctx) (hlive : Live c.p) (hnd : c.p.fn ≠ .detect1) (hs : abs c.p = s)
    (hn : ∀ tr, norm env tr s = ([], s)) (hf : s ≠ .fin)
    (hK : pred env (flat c.log) s (c.ctx.rest ++ fut) = K)
    (hx : (∀ b ∈ c.ctx.rest, act b = .cont) → HX c.p.fn fut)
    (hloop : ∀ b, act b = .cont → bstep env s b = .next [] s)
    (hpanic : ∀ b, act b ≠ .panic)
    (hfail : ∀ b, act b ≠ .fail)
    (hbrk : ∀ x d b post pre, Brk x d b post → c.ctx.rest = pre ++ b :: post →
      (∀ b ∈ pre, act b = .cont) → act b = .brk →
      pred env (flat c.log) s (b :: (post ++ fut)) = K →
      SimOK env fut K L (k { c with ctx := x })) :
    SimOK env fut K L (collecting c (c.ctx.collect act) exitEos k) := by
  have hsp := collectGo_spec act c.ctx.rest c.ctx
  simp only [Ctx.collect]
  have hloop' : ∀ b, act b = .cont → bstep env s b = .next ((fun _ => []) b) s := hloop
  cases heq : Ctx.collectGo act c.ctx.rest c.ctx with
  | eos x =>
    rw [heq] at hsp
    obtain ⟨h1, h2, h3, h4⟩ := hsp
    simp only [collecting]
    have hlen : c.ctx.rest.length = c.ctx.stream.length - c.ctx.idx := by simp [Ctx.rest]
    have hxrest : x.rest = [] := by
      simp only [Ctx.rest, List.drop_eq_nil_iff, h2, h4, List.length_drop]; omega
    refine sim_exitEos (c := { c with ctx := x }) ⟨hlive, ?_, hnd⟩ ?_ ?_
    · simp only [hxrest, List.nil_append]; exact hx h1
    · simp only [hxrest]
      rw [pred_loop hn hf _ _ _ (fun b hb => hloop' b (h1 b hb))] at hK
      rw [hs, ← hK, flatMap_nil']
      simp
    · simp only [hs]
      exact ⟨by rw [hn], by rw [hn]; exact hf⟩
  | brk x =>
    rw [heq] at hsp
    obtain ⟨pre, b, post, hr, h1, h2, rfl⟩ := hsp
    refine hbrk _ _ b post pre (brk_of hok hr) hr h1 h2 ?_
    rw [hr, List.append_assoc, pred_loop hn hf _ _ _ (fun b hb => hloop' b (h1 b hb))] at hK
    rw [← hK, flatMap_nil']
    simp
  | fail x =>
    rw [heq] at hsp
    obtain ⟨pre, b, post, hr, h1, h2, -⟩ := hsp
    exact absurd h2 (hfail b)
  | panic =>
    rw [heq] at hsp
    obtain ⟨pre, b, post, hr, h1, h2⟩ := hsp
    exact absurd h2 (hpanic b)

/-- `consume_linear_space!` is one loop. -/
theorem consumeLinearSpace_eq {x : Ctx} :
    x.consumeLinearSpace = x.linearSpaceLoop := by
  unfold Ctx.consumeLinearSpace
  split
  · rename_i hav
    simp only [Ctx.linearSpaceLoop, Ctx.collect, rest_nil hav, Ctx.collectGo]
  · rename_i hav
    split
    · rfl
    · rename_i hs
      cases hb : x.stream[x.idx]? with
      | none =>
        simp only [Ctx.available] at hav
        have := List.getElem?_eq_none_iff.1 hb
        omega
      | some b =>
        have hr := rest_cons hb
        simp only [Ctx.next, hb, Ctx.linearSpaceLoop, Ctx.collect]
        rw [hr]
        simp only [Ctx.startsWith, hr, List.isPrefixOf, Bool.and_true, Bool.or_eq_true,
          beq_iff_eq, not_or] at hs
        have h1 : ¬ (b == c! ' ' || b == c! '\t') = true := by
          simp only [Bool.or_eq_true, beq_iff_eq, not_or]
          exact ⟨fun h => hs.1 h.symm, fun h => hs.2 h.symm⟩
        simp only [Ctx.collectGo, h1]
        rfl

end Verif.Http1
