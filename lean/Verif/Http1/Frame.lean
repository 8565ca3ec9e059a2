import Verif.Http1.Events

/-!
# Facts about every state function, in every parser state

Helper lemmas: no state function moves the index outside the slice, every call that continues
decreases a potential, and only the documented fields change.
-/

namespace Verif.Http1

/-- Rank of a state function among those that may continue without reading a byte. -/
def rank : St → Option UInt8 → Nat
  | .headerCr2, _ => 5
  | .checkHeaderName, _ => 4
  | .firstHeaderName, _ => 3
  | .upperHeaderName, o => if (o.map isUpper).getD false then 1 else 2
  | .lowerHeaderName, o => if (o.map isUpper).getD false then 2 else 1
  | .stripDetect, _ => 1
  | .initialEnd, _ => 1
  | .headerEnd, _ => 3
  | .multipartDetectData, _ => 2
  | .multipartDataByLength, _ => 1
  | .bodyFinished, _ => 1
  | .requestVersionMinor2, _ => 1
  | .requestVersionMinor3, _ => 1
  | .responseVersionMinor2, _ => 1
  | .responseVersionMinor3, _ => 1
  | .chunkLength2, _ => 1
  | .chunkLength3, _ => 1
  | .chunkLength4, _ => 1
  | .chunkLength5, _ => 1
  | .chunkLength6, _ => 1
  | .chunkLength7, _ => 1
  | .chunkLength8, _ => 1
  | .responseStatus1, _ => 1
  | .stripHeaderValue, _ => 1
  | .stripChunkExtensionName, _ => 3
  | .upperChunkExtensionName, o => if (o.map isUpper).getD false then 1 else 2
  | .lowerChunkExtensionName, o => if (o.map isUpper).getD false then 2 else 1
  | .stripChunkExtensionValue, _ => 2
  | .chunkExtensionValue, _ => 1
  | .chunkExtensionsFinished, _ => 1
  | .chunkData, _ => 1
  | .multipartBoundary, _ => 1
  | .firstUrlEncodedName, _ => 1
  | .urlEncodedNamePlus, _ => 1
  | .urlEncodedValuePlus, _ => 1
  | _, _ => 0

theorem rank_le (s : St) (o : Option UInt8) : rank s o ≤ 5 := by
  cases s <;> simp [rank] <;> split <;> simp

/-- The potential that decreases with every call that continues. -/
def meas (c : Cfg) : Nat :=
  8 * (c.ctx.stream.length - c.ctx.idx) + rank c.p.fn (c.ctx.stream[c.ctx.idx]?)

/-- Index and mark are inside the slice. -/
structure CtxOK (x : Ctx) : Prop where
  mark_le : x.mark ≤ x.idx
  idx_le : x.idx ≤ x.stream.length

/-- The history has grown from `l0` to `l` by callbacks that are not empty data. -/
def Grew (l0 l : List Ev) : Prop := ∃ t, l = l0 ++ t ∧ ∀ e ∈ t, flatEv e ≠ []

theorem Grew.refl {l : List Ev} : Grew l l := ⟨[], by simp, by simp⟩
theorem Grew.trans {a b c : List Ev} (h1 : Grew a b) (h2 : Grew b c) : Grew a c := by
  obtain ⟨t, rfl, ht⟩ := h1
  obtain ⟨u, rfl, hu⟩ := h2
  refine ⟨t ++ u, by rw [List.append_assoc], fun e he => ?_⟩
  rcases List.mem_append.1 he with he | he
  · exact ht e he
  · exact hu e he
theorem Grew.snoc {a b : List Ev} {e : Ev} (h : Grew a b) (he : flatEv e ≠ []) : Grew a (b ++ [e]) :=
  h.trans ⟨[e], rfl, by simpa using he⟩
theorem Grew.prefix {a b : List Ev} (h : Grew a b) : a <+: b := by
  obtain ⟨t, rfl, -⟩ := h; exact List.prefix_append _ _

/-- `c` may arise from `c0` inside one call of a state function. -/
structure Ext (c0 c : Cfg) : Prop where
  ok : CtxOK c.ctx
  stream : c.ctx.stream = c0.ctx.stream
  idx : c0.ctx.idx ≤ c.ctx.idx
  ptype : c.p.ptype = c0.p.ptype
  boundary : c.p.boundary = c0.p.boundary
  byteCount : c.p.byteCount = c0.p.byteCount
  log : Grew c0.log c.log

/-- What every state function guarantees. -/
def Fr (c0 : Cfg) : Out → Prop
  | .cont c => Ext c0 c ∧ meas c < meas c0
  | .exit (.callback n) c => Ext c0 c ∧ n = c.ctx.idx
  | .exit (.eos n) c => Ext c0 c ∧ n = c.ctx.idx ∧ c.ctx.idx = c.ctx.stream.length
  | .exit (.finished n) c => Ext c0 c ∧ n = c.ctx.idx ∧ c.p.fn = .finished
  | .err _ c => Ext c0 c
  | .panic => True
  | .ub => c0.p.fn = .detect1 ∧ c0.ctx.available = 0

/-- Either a byte has been consumed, or the rank goes down. -/
def Prog (c0 c : Cfg) (s : St) : Prop :=
  c0.ctx.idx < c.ctx.idx ∨
    (c.ctx.idx = c0.ctx.idx ∧
      rank s (c0.ctx.stream[c0.ctx.idx]?) < rank c0.p.fn (c0.ctx.stream[c0.ctx.idx]?))

theorem Ext.refl {c : Cfg} (h : CtxOK c.ctx) : Ext c c :=
  ⟨h, rfl, Nat.le_refl _, rfl, rfl, rfl, .refl⟩

theorem Ext.setState {c0 c : Cfg} (h : Ext c0 c) (s f : St) : Ext c0 (setState c s f) :=
  ⟨h.ok, h.stream, h.idx, h.ptype, h.boundary, h.byteCount, h.log⟩

theorem Ext.remark {c0 c : Cfg} (h : Ext c0 c) : Ext c0 { c with ctx := c.ctx.setMark } :=
  ⟨⟨Nat.le_refl _, h.ok.idx_le⟩, h.stream, h.idx, h.ptype, h.boundary, h.byteCount, h.log⟩

theorem Ext.fire {c0 c : Cfg} (h : Ext c0 c) {e : Ev} (he : flatEv e ≠ []) :
    Ext c0 { c with log := c.log ++ [e] } :=
  ⟨h.ok, h.stream, h.idx, h.ptype, h.boundary, h.byteCount, h.log.snoc he⟩

/-- Events made from data are empty only for empty data. -/
def Makes (mk : Bytes → Ev) : Prop := ∀ x, x ≠ [] → flatEv (mk x) ≠ []

theorem Ext.jump {c0 c : Cfg} (h : Ext c0 c) {n : Nat} (hn : n ≤ c.ctx.available) :
    Ext c0 (jump c n) :=
  ⟨⟨Nat.le_trans h.ok.mark_le (Nat.le_add_right _ _), by
      have := h.ok.idx_le
      simp only [Ctx.available] at hn
      simp only [Http1.jump, Ctx.jump]; omega⟩,
    h.stream, Nat.le_trans h.idx (Nat.le_add_right _ _), h.ptype, h.boundary, h.byteCount, h.log⟩

/-- `f` changes neither type, boundary nor byte count. -/
structure Keeps (p q : Parser) : Prop where
  ptype : q.ptype = p.ptype
  boundary : q.boundary = p.boundary
  byteCount : q.byteCount = p.byteCount
  fn : q.fn = p.fn

theorem Ext.withP {c0 c : Cfg} (h : Ext c0 c) {f : Parser → Parser} (hf : Keeps c.p (f c.p)) :
    Ext c0 (withP c f) :=
  ⟨h.ok, h.stream, h.idx, hf.ptype.trans h.ptype, hf.boundary.trans h.boundary,
    hf.byteCount.trans h.byteCount, h.log⟩

theorem fr_remark {c0 c : Cfg} (h : Ext c0 c) (hp : Prog c0 c c.p.fn) : Fr c0 (remark c) := by
  refine ⟨h.remark, ?_⟩
  have h2 := h.stream
  have h1 := h2 ▸ h.ok.idx_le
  simp only [meas, Ctx.setMark, h2]
  rcases hp with hp | ⟨hp, hr⟩
  · have := rank_le c.p.fn (c0.ctx.stream[c.ctx.idx]?)
    omega
  · rw [hp]; omega

theorem fr_transition {c0 c : Cfg} (h : Ext c0 c) {s f : St} (hp : Prog c0 c f) :
    Fr c0 (transition c s f) := fr_remark (h.setState s f) hp

theorem fr_transitionNoRemark {c0 c : Cfg} (h : Ext c0 c) {s f : St} (hp : Prog c0 c f) :
    Fr c0 (transitionNoRemark c s f) :=
  ⟨h.setState s f, (fr_remark (h.setState s f) hp).2⟩

theorem fr_exitCallback {c0 c : Cfg} (h : Ext c0 c) : Fr c0 (exitCallback c) := ⟨h, rfl⟩

theorem fr_exitEos {c0 c : Cfg} (h : Ext c0 c) (he : c.ctx.idx = c.ctx.stream.length) :
    Fr c0 (exitEos c) := ⟨h, rfl, he⟩

theorem fr_callbackData {c0 c : Cfg} (hd : Handler) {e : Ev} {k : Cfg → Out} (h : Ext c0 c)
    (he : flatEv e ≠ []) (hk : ∀ c' : Cfg, Ext c0 c' → c'.p = c.p → c'.ctx = c.ctx → Fr c0 (k c')) :
    Fr c0 (callbackData hd c e k) := by
  simp only [callbackData]
  split
  · exact hk _ (h.fire he) rfl rfl
  · exact fr_exitCallback (h.fire he)

theorem fr_callbackSlice {c0 c : Cfg} (hd : Handler) {mk : Bytes → Ev} {k : Cfg → Out}
    (h : Ext c0 c) (hm : Makes mk)
    (hk : ∀ c' : Cfg, Ext c0 c' → c'.p = c.p → c'.ctx = c.ctx → Fr c0 (k c')) :
    Fr c0 (callbackSlice hd c mk k) := by
  simp only [callbackSlice]
  split
  · trivial
  · split
    · rename_i hl
      refine fr_callbackData hd h (hm _ fun h0 => ?_) hk
      have := congrArg List.length h0
      have := h.ok.idx_le
      simp only [Ctx.sliceLength] at hl
      simp [Ctx.slice] at *
      omega
    · exact hk _ h rfl rfl

theorem fr_callbackEos {c0 c : Cfg} (hd : Handler) {mk : Bytes → Ev} (h : Ext c0 c)
    (hm : Makes mk) (he : c.ctx.idx = c.ctx.stream.length) : Fr c0 (callbackEos hd c mk) :=
  fr_callbackSlice hd h hm fun _ h' _ hx => fr_exitEos h' (by rw [hx]; exact he)

theorem fr_remark' {c0 c c' : Cfg} {f : St} (hf : c.p.fn = f) (hp : Prog c0 c f)
    (h' : Ext c0 c') (h1 : c'.p = c.p) (h2 : c'.ctx = c.ctx) : Fr c0 (remark c') :=
  fr_remark h' (by simp only [Prog, h1, h2, hf] at *; exact hp)

theorem fr_callbackRemark {c0 c : Cfg} (hd : Handler) {e : Ev} (h : Ext c0 c)
    (he : flatEv e ≠ []) (hp : Prog c0 c c.p.fn) : Fr c0 (callbackData hd c e remark) :=
  fr_callbackData hd h he fun _ h' h1 h2 => fr_remark' rfl hp h' h1 h2

theorem fr_callbackTransitionData {c0 c : Cfg} (hd : Handler) {e : Ev} (h : Ext c0 c) {s f : St}
    (he : flatEv e ≠ []) (hp : Prog c0 c f) : Fr c0 (callbackTransitionData hd c e s f) :=
  fr_callbackRemark hd (h.setState s f) he hp

theorem fr_callbackTransition {c0 c : Cfg} (hd : Handler) {mk : Bytes → Ev} (h : Ext c0 c)
    {s f : St} (hm : Makes mk) (hp : Prog c0 c f) : Fr c0 (callbackTransition hd c mk s f) :=
  fr_callbackSlice hd (h.setState s f) hm fun _ h' h1 h2 =>
    fr_remark' (c := setState c s f) rfl hp h' h1 h2

theorem fr_callbackIgnoreTransition {c0 c : Cfg} (hd : Handler) {mk : Bytes → Ev} (h : Ext c0 c)
    {s f : St} (hm : Makes mk) (hp : Prog c0 c f) : Fr c0 (callbackIgnoreTransition hd c mk s f) := by
  simp only [callbackIgnoreTransition]
  split
  · trivial
  · split
    · rename_i hl
      refine fr_callbackRemark hd (h.setState s f) (hm _ fun h0 => ?_) hp
      have := congrArg List.length h0
      have := h.ok.idx_le
      simp only [Ctx.sliceLength] at hl
      simp [Ctx.sliceIgnore, Http1.setState] at *
      omega
    · exact fr_remark (h.setState s f) hp

theorem fr_exitIfEos {c0 c : Cfg} {k : Out} (h : Ext c0 c)
    (hk : c.ctx.idx < c.ctx.stream.length → Fr c0 k) : Fr c0 (exitIfEos c k) := by
  have := h.ok.idx_le
  unfold exitIfEos
  split <;> rename_i hav <;> simp only [Ctx.available] at hav
  · exact fr_exitEos h (by omega)
  · exact hk (by omega)

/-- The configuration after reading byte `b`. -/
def adv (c : Cfg) (b : UInt8) : Cfg :=
  { c with ctx := { c.ctx with byte := b, idx := c.ctx.idx + 1 } }

theorem Ext.adv {c0 c : Cfg} {b : UInt8} (h : Ext c0 c) (hb : c.ctx.stream[c.ctx.idx]? = some b) :
    Ext c0 (adv c b) := by
  have h1 := h.ok.mark_le
  have h2 := h.idx
  have h3 : c.ctx.idx < c.ctx.stream.length := by
    rw [List.getElem?_eq_some_iff] at hb; exact hb.1
  exact ⟨⟨by simp only [Http1.adv]; omega, h3⟩, h.stream, by simp only [Http1.adv]; omega,
    h.ptype, h.boundary, h.byteCount, h.log⟩

theorem fr_next {c0 c : Cfg} {k : Cfg → Out}
    (hk : ∀ b, c.ctx.stream[c.ctx.idx]? = some b → Fr c0 (k (adv c b))) : Fr c0 (next c k) := by
  simp only [next, Ctx.next]
  cases hb : c.ctx.stream[c.ctx.idx]? with
  | none => trivial
  | some b => exact hk b hb

theorem Ext.replay {c0 c : Cfg} (h : Ext c0 c) (h1 : c0.ctx.idx < c.ctx.idx)
    (h2 : c.ctx.mark < c.ctx.idx) : Ext c0 { c with ctx := c.ctx.replay } := by
  have := h.ok.idx_le
  exact ⟨⟨by simp only [Ctx.replay]; omega, by simp only [Ctx.replay]; omega⟩, h.stream,
    by simp only [Ctx.replay]; omega, h.ptype, h.boundary, h.byteCount, h.log⟩

theorem fr_replay {c0 c : Cfg} {k : Cfg → Out} (hk : Fr c0 (k { c with ctx := c.ctx.replay })) :
    Fr c0 (replay c k) := by
  simp only [replay]; split
  · trivial
  · exact hk

/-- What a collection loop does to the context: `pre` was collected, then (unless the stream
ended) one more byte was read. -/
theorem collectGo_spec (act : UInt8 → Ctx.Act) : ∀ (r : Bytes) (c : Ctx),
    match Ctx.collectGo act r c with
    | .eos c' => (∀ b ∈ r, act b = .cont) ∧ c'.stream = c.stream ∧ c'.mark = c.mark ∧
        c'.idx = c.idx + r.length
    | .brk c' => ∃ pre b post, r = pre ++ b :: post ∧ (∀ b ∈ pre, act b = .cont) ∧ act b = .brk ∧
        c' = { c with idx := c.idx + pre.length + 1, byte := b }
    | .fail c' => ∃ pre b post, r = pre ++ b :: post ∧ (∀ b ∈ pre, act b = .cont) ∧
        act b = .fail ∧ c' = { c with idx := c.idx + pre.length + 1, byte := b }
    | .panic => ∃ pre b post, r = pre ++ b :: post ∧ (∀ b ∈ pre, act b = .cont) ∧ act b = .panic
  | [], c => by simp [Ctx.collectGo]
  | b :: r, c => by
    have ih := collectGo_spec act r { c with byte := b, idx := c.idx + 1 }
    simp only [Ctx.collectGo]
    cases hb : act b with
    | cont =>
      simp only
      split <;> rename_i c' heq <;> rw [heq] at ih
      · obtain ⟨h1, h2, h3, h4⟩ := ih
        refine ⟨by simpa [hb] using h1, h2, h3, ?_⟩
        simp only [List.length_cons] at *; omega
      · obtain ⟨pre, b', post, rfl, h1, h2, rfl⟩ := ih
        refine ⟨b :: pre, b', post, rfl, by simpa [hb] using h1, h2, ?_⟩
        simp only [List.length_cons, Ctx.mk.injEq, true_and, and_true]; omega
      · obtain ⟨pre, b', post, rfl, h1, h2, rfl⟩ := ih
        refine ⟨b :: pre, b', post, rfl, by simpa [hb] using h1, h2, ?_⟩
        simp only [List.length_cons, Ctx.mk.injEq, true_and, and_true]; omega
      · obtain ⟨pre, b', post, rfl, h1, h2⟩ := ih
        exact ⟨b :: pre, b', post, rfl, by simpa [hb] using h1, h2⟩
    | brk => exact ⟨[], b, r, rfl, by simp, hb, rfl⟩
    | fail => exact ⟨[], b, r, rfl, by simp, hb, rfl⟩
    | panic => exact ⟨[], b, r, rfl, by simp, hb⟩

/-- A loop result that is consistent with reading bytes one after the other. -/
structure BrkOK (c c' : Ctx) : Prop where
  stream : c'.stream = c.stream
  mark : c'.mark = c.mark
  lt : c.idx < c'.idx
  le : c'.idx ≤ c.stream.length
  byte : c.stream[c'.idx - 1]? = some c'.byte

/-- `CollectOK`: the result of a collection loop started in `c`. -/
def CollectOK (c : Ctx) : Ctx.Collect → Prop
  | .eos c' => c'.stream = c.stream ∧ c'.mark = c.mark ∧ c.idx ≤ c'.idx ∧
      c'.idx = c.stream.length
  | .brk c' => BrkOK c c'
  | .fail c' => BrkOK c c'
  | .panic => True

theorem brkOK_of {c : Ctx} {pre post : Bytes} {b : UInt8} (h : c.rest = pre ++ b :: post) :
    BrkOK c { c with idx := c.idx + pre.length + 1, byte := b } := by
  have hl : c.stream.length - c.idx = pre.length + (post.length + 1) := by
    have := congrArg List.length h
    simpa [Ctx.rest] using this
  refine ⟨rfl, rfl, by simp only; omega, by simp only; omega, ?_⟩
  have : (c.stream.drop c.idx)[pre.length]? = some b := by
    have h' : c.stream.drop c.idx = pre ++ b :: post := h
    rw [h']; simp
  rw [List.getElem?_drop] at this
  simpa using this

theorem collect_ok (act : UInt8 → Ctx.Act) (c : Ctx) (hc : c.idx ≤ c.stream.length) :
    CollectOK c (c.collect act) := by
  have h := collectGo_spec act c.rest c
  simp only [Ctx.collect]
  cases heq : Ctx.collectGo act c.rest c with
  | eos c' =>
    rw [heq] at h
    obtain ⟨-, h2, h3, h4⟩ := h
    refine ⟨h2, h3, by omega, ?_⟩
    rw [h4]; simp only [Ctx.rest, List.length_drop]; omega
  | brk c' =>
    rw [heq] at h; obtain ⟨pre, b, post, hr, -, -, rfl⟩ := h; exact brkOK_of hr
  | fail c' =>
    rw [heq] at h; obtain ⟨pre, b, post, hr, -, -, rfl⟩ := h; exact brkOK_of hr
  | panic => trivial

theorem consumeLinearSpace_ok (c : Ctx) (hc : c.idx ≤ c.stream.length) :
    CollectOK c c.consumeLinearSpace := by
  unfold Ctx.consumeLinearSpace
  split <;> rename_i hav <;> simp only [Ctx.available] at hav
  · exact ⟨rfl, rfl, Nat.le_refl _, by omega⟩
  · split
    · exact collect_ok _ c hc
    · cases hb : c.stream[c.idx]? with
      | none => simp [Ctx.next, hb, CollectOK]
      | some b =>
        simp only [Ctx.next, hb, CollectOK]
        exact ⟨rfl, rfl, by simp only; omega, by simp only; omega, by simpa using hb⟩

theorem Ext.collected {c0 c : Cfg} {x : Ctx} (h : Ext c0 c) (h1 : x.stream = c.ctx.stream)
    (h2 : x.mark = c.ctx.mark) (h3 : c.ctx.idx ≤ x.idx) (h4 : x.idx ≤ c.ctx.stream.length) :
    Ext c0 { c with ctx := x } := by
  have := h.ok.mark_le
  have := h.idx
  exact ⟨⟨by simp only [h2]; omega, by simp only [h1]; exact h4⟩, h1.trans h.stream,
    by simp only; omega, h.ptype, h.boundary, h.byteCount, h.log⟩

theorem fr_collecting {c0 c : Cfg} {r : Ctx.Collect} {onEos k : Cfg → Out} (h : Ext c0 c)
    (hr : CollectOK c.ctx r)
    (he : ∀ x : Ctx, Ext c0 { c with ctx := x } → x.idx = x.stream.length →
      Fr c0 (onEos { c with ctx := x }))
    (hk : ∀ x : Ctx, Ext c0 { c with ctx := x } → BrkOK c.ctx x → Fr c0 (k { c with ctx := x })) :
    Fr c0 (collecting c r onEos k) := by
  cases r with
  | eos x =>
    obtain ⟨h1, h2, h3, h4⟩ := hr
    exact he x (h.collected h1 h2 h3 (by omega)) (by rw [h1]; exact h4)
  | brk x => exact hk x (h.collected hr.stream hr.mark (Nat.le_of_lt hr.lt) hr.le) hr
  | fail x => trivial
  | panic => trivial

theorem fr_err {c0 c : Cfg} {e : PErr} (h : Ext c0 c) : Fr c0 (.err e c) := h

end Verif.Http1
