import Verif.Http2.ReleaseSpec
import Verif.Http2.ReleaseSwallow
import Verif.Http2.RunsAny

/-!
# Runs of the parser without overflow checks over any bytes (helper lemmas)
-/

set_option linter.unusedSimpArgs false
set_option linter.unusedVariables false

namespace Verif.Http2.Release

variable {h : Handler} {c : Cfg} {L : List Ev}

/-- The next call, with the bytes that were not processed. -/
def again (c : Cfg) : Cfg := ⟨c.p, Ctx.new c.ctx.rest, c.log⟩

/-- A client that goes on from here gets these callbacks in all. -/
inductive Ends (h : Handler) : Cfg → List Ev → Prop
  | eos {c c' : Cfg} {n : Nat} (hs : stepFn h c = .exit (.eos n) c') : Ends h c (flat c'.log)
  | step {c c' : Cfg} {L : List Ev} (hs : stepFn h c = .cont c') (he : Ends h c' L) : Ends h c L
  | pause {c c' : Cfg} {L : List Ev} {n : Nat} (hs : stepFn h c = .exit (.callback n) c') (hm : mu (again c') < mu c)
      (he : Ends h (again c') L) : Ends h c L

/-- The same for what a state function returns, if it was called with measure `u`. -/
def EndsO (h : Handler) (u : Nat) (L : List Ev) : Out → Prop
  | .cont c' => Ends h c' L
  | .exit (.eos _) c' => L = flat c'.log
  | .exit (.callback _) c' => mu (again c') < u ∧ Ends h (again c') L
  | _ => False

theorem EndsO.ends (ho : EndsO h (mu c) L (stepFn h c)) : Ends h c L := by
  generalize hs : stepFn h c = o at ho
  cases o with
  | cont c' => exact .step hs ho
  | exit s c' =>
    cases s with
    | eos n => cases ho; exact .eos hs
    | callback n => exact .pause hs ho.1 ho.2
    | finished n => exact ho.elim
  | err c' => exact ho.elim
  | panic l => exact ho.elim

/-! ## The client -/

theorem again_mu (c : Cfg) : mu (again c) = mu c := by
  unfold mu again
  simp only [Ctx.available, Ctx.new, Ctx.rest, List.length_drop]
  omega

theorem again_ok (c : Cfg) : Ok (again c) := ⟨rfl, Nat.zero_le _⟩

/-- One call. -/
def CallEnds (h : Handler) (L : List Ev) (u : Nat) (s : Bytes) : Res × Cfg → Prop
  | (.ok (.eos n), c) => n = s.length ∧ flat c.log = L
  | (.ok (.callback n), c) => c.ctx.stream = s ∧ n = c.ctx.idx ∧ c.p.st ≠ .dead ∧ c.p.st ≠ .finished ∧
      mu (again c) < u ∧ Ends h (again c) L
  | _ => False

theorem parse_ends {L : List Ev} {c : Cfg} (he : Ends h c L) : ∀ (n u : Nat), mu c < n → mu c ≤ u → Ok c → c.p.st ≠ .dead →
    c.p.st ≠ .finished → CallEnds h L u c.ctx.stream (parse h n c) := by
  induction he with
  | @eos c c' k hs =>
    intro n u hm hu hok hd hf
    obtain ⟨n, rfl⟩ : ∃ k, n = k + 1 := ⟨n - 1, by omega⟩
    have := step_T (h := h) hok hd hf
    rw [hs] at this
    rw [parse, hs]
    exact ⟨this.2.2.1, rfl⟩
  | @step c c' L hs he ih =>
    intro n u hm hu hok hd hf
    obtain ⟨n, rfl⟩ : ∃ k, n = k + 1 := ⟨n - 1, by omega⟩
    have := step_T (h := h) hok hd hf
    rw [hs] at this
    rw [parse, hs]
    simp only
    rw [← this.2.1]
    exact ih n u (by have := this.2.2.1; omega) (by have := this.2.2.1; omega) this.1 this.2.2.2.1 this.2.2.2.2
  | @pause c c' L k hs hm' he ih =>
    intro n u hm hu hok hd hf
    obtain ⟨n, rfl⟩ : ∃ k, n = k + 1 := ⟨n - 1, by omega⟩
    have := step_T (h := h) hok hd hf
    rw [hs] at this
    rw [parse, hs]
    exact ⟨this.1, this.2.1, this.2.2.2.1, this.2.2.2.2, by omega, he⟩

theorem start_ends {p : Parser} {s : Bytes} {log : List Ev} :
    again ⟨p.toCore, Ctx.new s, log⟩ = ⟨p.toCore, Ctx.new s, log⟩ := rfl

theorem feed_ends {L : List Ev} : ∀ (n : Nat) (w : World) (s : Bytes), Ends h ⟨w.p.toCore, Ctx.new s, w.log⟩ L →
    mu ⟨w.p.toCore, Ctx.new s, w.log⟩ < n → w.p.st ≠ .dead → w.p.st ≠ .finished →
    (feed h n w s).1 = .eos ∧ (feed h n w s).2.2 = [] ∧ flat (feed h n w s).2.1.log = L
  | 0, w, s, he, hn, hd, hf => absurd hn (by omega)
  | n + 1, w, s, he, hn, hd, hf => by
    have hmu : mu ⟨w.p.toCore, Ctx.new s, w.log⟩ < fuel s.length := by
      have := rank_le w.p.st
      simp only [mu, fuel, Ctx.available, Ctx.new, Nat.sub_zero]
      omega
    have := parse_ends he (fuel s.length) _ hmu (Nat.le_refl _) ⟨rfl, Nat.zero_le _⟩ hd hf
    rw [feed]
    unfold resume
    simp only at this
    generalize parse h (fuel s.length) ⟨w.p.toCore, Ctx.new s, w.log⟩ = o at this
    obtain ⟨r, c⟩ := o
    cases r with
    | ok su =>
      cases su with
      | eos k =>
        obtain ⟨h1, h2⟩ := this
        refine ⟨rfl, ?_, h2⟩
        show s.drop k = []
        rw [h1]; exact List.drop_length
      | callback k =>
        obtain ⟨h1, h2, h3, h4, h5, h6⟩ := this
        have hag : again c = ⟨c.p, Ctx.new (s.drop k), c.log⟩ := by
          unfold again Ctx.rest
          rw [h1]; simp only [h2]; rfl
        rw [hag] at h5 h6
        exact feed_ends n ⟨⟨c.p, w.p.byteCount + c.ctx.idx⟩, c.log⟩ (s.drop k) h6 (by simp only; omega) h3 h4
      | finished k => exact this.elim
    | err => exact this.elim
    | panic => exact this.elim
    | diverge => exact this.elim

/-! ## What a state function does -/

theorem eo_eos {u : Nat} {k : Out} (h0 : c.ctx.rest = [] → L = flat c.log)
    (h1 : c.ctx.rest ≠ [] → EndsO h u L k) : EndsO h u L (exitIfEos c k) := by
  unfold exitIfEos
  split
  · rename_i h; exact h0 (rest_nil h)
  · rename_i h
    refine h1 fun h2 => h ?_
    have := rest_length c.ctx
    rw [h2] at this
    exact this.symm

theorem eo_u8 {u : Nat} {k : UInt8 → Cfg → Out} {b : UInt8} {r : Bytes} (hr : c.ctx.rest = b :: r)
    (hk : (jump c 1).ctx.rest = r → EndsO h u L (k b (jump c 1))) : EndsO h u L (getU8 c k) := by
  have ha : c.ctx.available ≠ 0 := by rw [← rest_length, hr]; simp
  obtain ⟨b', g1, g2, -⟩ := rest_cons ha
  rw [hr] at g2
  cases g2
  simp only [getU8, g1]
  exact hk rfl

theorem eo_u32 {u : Nat} {k : UInt32 → Cfg → Out} {b1 b2 b3 b4 : UInt8} {i : UInt32} {r : Bytes}
    (hr : c.ctx.rest = b1 :: b2 :: b3 :: b4 :: r)
    (hk : (jump c 4).ctx.rest = r → EndsO h u L (k ((((i ||| (b1.toUInt32 <<< 24)) ||| (b2.toUInt32 <<< 16)) |||
      (b3.toUInt32 <<< 8)) ||| b4.toUInt32) (jump c 4))) : EndsO h u L (readU32 c i k) := by
  have ha : 4 ≤ c.ctx.available := by rw [← rest_length, hr]; simp
  obtain ⟨a1, a2, a3, a4, g1, g2, g3, g4, hx, -⟩ := rest_four ha
  rw [hr] at hx
  cases hx
  simp only [readU32, g1, g2, g3, g4]
  exact hk rfl

theorem eo_u16 {u : Nat} {k : UInt16 → Cfg → Out} {b1 b2 : UInt8} {i : UInt16} {r : Bytes}
    (hr : c.ctx.rest = b1 :: b2 :: r)
    (hk : (jump c 2).ctx.rest = r → EndsO h u L (k ((i ||| (b1.toUInt16 <<< 8)) ||| b2.toUInt16) (jump c 2))) :
    EndsO h u L (readU16 c i k) := by
  have ha : c.ctx.available ≠ 0 := by rw [← rest_length, hr]; simp
  obtain ⟨a1, g1, r1, e1⟩ := rest_cons ha
  have ha : (c.ctx.jump 1).available ≠ 0 := by
    have := rest_length c.ctx
    rw [hr] at this
    simp only [List.length_cons] at this
    omega
  obtain ⟨a2, g2, r2, e2⟩ := rest_cons ha
  have g2 : c.ctx.stream[c.ctx.idx + 1]? = some a2 := g2
  have r2 : (c.ctx.jump 1).rest = a2 :: (c.ctx.jump 2).rest := r2
  rw [hr, r2] at r1
  cases r1
  simp only [readU16, g1, g2]
  exact hk rfl

theorem eo_transition {u : Nat} {s : St} (hk : Ends h ⟨{ c.p with st := s }, c.ctx.setMark, c.log⟩ L) :
    EndsO h u L (transition c s) := hk

theorem eo_callback {u : Nat} {e : Ev} (hm : mu c < u)
    (hk : ∀ ctx : Ctx, ctx.mark = ctx.idx → ctx.idx ≤ ctx.stream.length → ctx.rest = c.ctx.rest →
      Ends h ⟨c.p, ctx, c.log ++ [e]⟩ L) (hi : c.ctx.idx ≤ c.ctx.stream.length) :
    EndsO h u L (callback h c e) := by
  unfold callback
  simp only
  split
  · exact hk c.ctx.setMark rfl hi rfl
  · refine ⟨?_, hk (Ctx.new c.ctx.rest) rfl (Nat.zero_le _) rfl⟩
    rw [again_mu]
    exact hm

/-! ## Too few bytes for a callback -/

/-- With fewer bytes there is no callback. -/
def need : St → Nat
  | .frameLength1 => 9
  | .frameLength2 => 8
  | .frameLength3 => 7
  | .frameType => 6
  | .frameFlags => 5
  | .frameStreamId1 => 4
  | .frameStreamId2 => 3
  | .frameStreamId3 => 2
  | .frameStreamId4 => 1
  | .dataPadLength => 1
  | .goAwayStreamId1 => 8
  | .goAwayStreamId2 => 7
  | .goAwayStreamId3 => 6
  | .goAwayStreamId4 => 5
  | .goAwayErrorCode1 => 4
  | .goAwayErrorCode2 => 3
  | .goAwayErrorCode3 => 2
  | .goAwayErrorCode4 => 1
  | .headersPadLengthWithPriority => 6
  | .headersPadLengthWithoutPriority => 1
  | .headersStreamId1 => 5
  | .headersStreamId2 => 4
  | .headersStreamId3 => 3
  | .headersStreamId4 => 2
  | .headersWeight => 1
  | .priorityStreamId1 => 5
  | .priorityStreamId2 => 4
  | .priorityStreamId3 => 3
  | .priorityStreamId4 => 2
  | .priorityWeight => 1
  | .pushPromisePadLength => 6
  | .pushPromiseStreamId1 => 5
  | .pushPromiseStreamId2 => 4
  | .pushPromiseStreamId3 => 3
  | .pushPromiseStreamId4 => 2
  | .pushPromiseCallback => 1
  | .rstStreamErrorCode1 => 4
  | .rstStreamErrorCode2 => 3
  | .rstStreamErrorCode3 => 2
  | .rstStreamErrorCode4 => 1
  | .settingsId1 => 6
  | .settingsId2 => 5
  | .settingsValue1 => 4
  | .settingsValue2 => 3
  | .settingsValue3 => 2
  | .settingsValue4 => 1
  | .windowUpdateIncrement1 => 4
  | .windowUpdateIncrement2 => 3
  | .windowUpdateIncrement3 => 2
  | .windowUpdateIncrement4 => 1
  | .unsupportedPadLength => 1
  | _ => 0

theorem len_rest {x : Ctx} {k : Nat} : (x.jump k).setMark.rest.length = x.rest.length - k := by
  simp only [Ctx.rest, Ctx.jump, Ctx.setMark, List.length_drop]
  omega

theorem eo_q8 {u : Nat} {f : UInt8 → Cfg → Cfg} {s : St} {k : Nat} (hf : ∀ b c, (f b c).ctx = c.ctx ∧ (f b c).log = c.log)
    (hl : c.ctx.rest.length < k + 1)
    (ih : ∀ c' : Cfg, c'.p.st = s → c'.ctx.rest.length < k → c'.ctx.rest.length < c.ctx.rest.length → c'.log = c.log →
      Ends h c' L) (h0 : L = flat c.log) :
    EndsO h u L (exitIfEos c <| getU8 c fun b c => transition (f b c) s) := by
  refine eo_eos (fun _ => h0) fun hne => ?_
  obtain ⟨b, r, hr⟩ := List.exists_cons_of_ne_nil hne
  refine eo_u8 hr fun _ => eo_transition (ih _ rfl ?_ ?_ ?_)
  · show (f b (jump c 1)).ctx.setMark.rest.length < k
    rw [(hf _ _).1]
    show (c.ctx.jump 1).setMark.rest.length < k
    rw [len_rest]
    rw [hr] at hl ⊢
    simp only [List.length_cons] at hl ⊢
    omega
  · show (f b (jump c 1)).ctx.setMark.rest.length < _
    rw [(hf _ _).1]
    show (c.ctx.jump 1).setMark.rest.length < _
    rw [len_rest, hr]
    simp
  · exact (hf _ _).2

theorem eo_q4 {u : Nat} {f : UInt8 → Cfg → Cfg} {g : UInt32 → Cfg → Cfg} {i : UInt32} {s s' : St} {k : Nat} {d : Cfg}
    (hd : d.ctx = c.ctx) (hdl : d.log = c.log)
    (hf : ∀ b c, (f b c).ctx = c.ctx ∧ (f b c).log = c.log) (hg : ∀ b c, (g b c).ctx = c.ctx ∧ (g b c).log = c.log)
    (hl : c.ctx.rest.length < k + 4)
    (ih : ∀ c' : Cfg, c'.p.st = s → c'.ctx.rest.length < k + 3 → c'.ctx.rest.length < c.ctx.rest.length → c'.log = c.log →
      Ends h c' L)
    (ih' : ∀ c' : Cfg, c'.p.st = s' → c'.ctx.rest.length < k → c'.ctx.rest.length < c.ctx.rest.length → c'.log = c.log →
      Ends h c' L) (h0 : L = flat c.log) :
    EndsO h u L (exitIfEos c <| if d.ctx.available ≥ 4 then readU32 d i fun x c => transition (g x c) s'
      else getU8 d fun b c => transition (f b c) s) := by
  refine eo_eos (fun _ => h0) fun hne => ?_
  split
  · rename_i ha
    obtain ⟨b1, b2, b3, b4, -, -, -, -, hr, -⟩ := rest_four ha
    refine eo_u32 hr fun _ => eo_transition (ih' _ rfl ?_ ?_ ?_)
    · show (g _ (jump d 4)).ctx.setMark.rest.length < k
      rw [(hg _ _).1]
      show (d.ctx.jump 4).setMark.rest.length < k
      rw [len_rest, hd]
      rw [← rest_length, hd] at ha
      omega
    · show (g _ (jump d 4)).ctx.setMark.rest.length < _
      rw [(hg _ _).1]
      show (d.ctx.jump 4).setMark.rest.length < _
      rw [len_rest, hd]
      rw [← rest_length, hd] at ha
      omega
    · exact (hg _ _).2.trans hdl
  · rw [← hd] at hne
    obtain ⟨b, r, hr⟩ := List.exists_cons_of_ne_nil hne
    have hlen := congrArg List.length hr
    rw [hd] at hlen
    simp only [List.length_cons] at hlen
    refine eo_u8 hr fun _ => eo_transition (ih _ rfl ?_ ?_ ?_)
    · show (f b (jump d 1)).ctx.setMark.rest.length < _
      rw [(hf _ _).1]
      show (d.ctx.jump 1).setMark.rest.length < _
      rw [len_rest, hd]
      omega
    · show (f b (jump d 1)).ctx.setMark.rest.length < _
      rw [(hf _ _).1]
      show (d.ctx.jump 1).setMark.rest.length < _
      rw [len_rest, hd]
      omega
    · exact (hf _ _).2.trans hdl

theorem eo_q2 {u : Nat} {f : UInt8 → Cfg → Cfg} {g : UInt16 → Cfg → Cfg} {i : UInt16} {s s' : St} {k : Nat}
    (hf : ∀ b c, (f b c).ctx = c.ctx ∧ (f b c).log = c.log) (hg : ∀ b c, (g b c).ctx = c.ctx ∧ (g b c).log = c.log)
    (hl : c.ctx.rest.length < k + 2)
    (ih : ∀ c' : Cfg, c'.p.st = s → c'.ctx.rest.length < k + 1 → c'.ctx.rest.length < c.ctx.rest.length → c'.log = c.log →
      Ends h c' L)
    (ih' : ∀ c' : Cfg, c'.p.st = s' → c'.ctx.rest.length < k → c'.ctx.rest.length < c.ctx.rest.length → c'.log = c.log →
      Ends h c' L) (h0 : L = flat c.log) :
    EndsO h u L (exitIfEos c <| if c.ctx.available ≥ 2 then readU16 c i fun x c => transition (g x c) s'
      else getU8 c fun b c => transition (f b c) s) := by
  refine eo_eos (fun _ => h0) fun hne => ?_
  obtain ⟨b, r, hr⟩ := List.exists_cons_of_ne_nil hne
  have hlen := congrArg List.length hr
  simp only [List.length_cons] at hlen
  split
  · rename_i ha
    rw [← rest_length] at ha
    have hne' : r ≠ [] := by rintro rfl; simp only [List.length_nil] at hlen; omega
    obtain ⟨b', r, rfl⟩ := List.exists_cons_of_ne_nil hne'
    refine eo_u16 hr fun _ => eo_transition (ih' _ rfl ?_ ?_ ?_)
    · show (g _ (jump c 2)).ctx.setMark.rest.length < k
      rw [(hg _ _).1]
      show (c.ctx.jump 2).setMark.rest.length < k
      rw [len_rest]
      omega
    · show (g _ (jump c 2)).ctx.setMark.rest.length < _
      rw [(hg _ _).1]
      show (c.ctx.jump 2).setMark.rest.length < _
      rw [len_rest]
      omega
    · exact (hg _ _).2
  · refine eo_u8 hr fun _ => eo_transition (ih _ rfl ?_ ?_ ?_)
    · show (f b (jump c 1)).ctx.setMark.rest.length < _
      rw [(hf _ _).1]
      show (c.ctx.jump 1).setMark.rest.length < _
      rw [len_rest]
      omega
    · show (f b (jump c 1)).ctx.setMark.rest.length < _
      rw [(hf _ _).1]
      show (c.ctx.jump 1).setMark.rest.length < _
      rw [len_rest]
      omega
    · exact (hf _ _).2

theorem eo_q22 {u : Nat} {f : UInt8 → Cfg → Cfg} {k : Out} {s : St}
    (hf : ∀ b c, (f b c).ctx = c.ctx ∧ (f b c).log = c.log) (hl : c.ctx.rest.length < 4)
    (ih : ∀ c' : Cfg, c'.p.st = s → c'.ctx.rest.length < 3 → c'.ctx.rest.length < c.ctx.rest.length → c'.log = c.log →
      Ends h c' L) (h0 : L = flat c.log) :
    EndsO h u L (exitIfEos c <| if c.ctx.available ≥ 4 then k else getU8 c fun b c => transition (f b c) s) := by
  rw [if_neg (by rw [← rest_length]; omega)]
  exact eo_q8 hf hl ih h0

theorem eo_none {u : Nat} {k : Out} (hl : c.ctx.rest.length < 1) (h0 : L = flat c.log) : EndsO h u L (exitIfEos c k) :=
  eo_eos (fun _ => h0) fun hne => absurd (List.length_pos_iff.mpr hne) (by omega)

macro "keeps" : tactic =>
  `(tactic| (intro _ _; constructor <;> dsimp only [set32a, set32b, set16a, set16b, decPayload]))

theorem quiet_step {l : List Ev} (hl : c.ctx.rest.length < need c.p.st) (hlog : c.log = l)
    (ih' : ∀ c' : Cfg, c'.ctx.rest.length < need c'.p.st → c'.ctx.rest.length < c.ctx.rest.length → c'.log = l →
      Ends h c' (flat l)) : EndsO h (mu c) (flat l) (stepFn h c) := by
  subst hlog
  have ih : ∀ {s : St} {k : Nat}, k ≤ need s → ∀ c' : Cfg, c'.p.st = s → c'.ctx.rest.length < k →
      c'.ctx.rest.length < c.ctx.rest.length → c'.log = c.log → Ends h c' (flat c.log) :=
    fun hk c' h1 h2 h3 h4 => ih' c' (by rw [h1]; omega) h3 h4
  clear ih'
  cases hs : c.p.st <;> rw [hs] at hl <;> simp only [need] at hl <;> try exact absurd hl (by omega)
  all_goals unfold stepFn; rw [hs]; simp only; try (unfold Http2.stepFn; rw [hs]; simp only)
  · unfold frame_length1; exact eo_q4 (k := 5) rfl rfl (by keeps) (by keeps) hl (ih (by decide)) (ih (by decide)) rfl
  · unfold frame_length2; exact eo_q8 (k := 7) (by keeps) hl (ih (by decide)) rfl
  · unfold frame_length3; exact eo_q8 (k := 6) (by keeps) hl (ih (by decide)) rfl
  · unfold frame_type; exact eo_q8 (k := 5) (by keeps) hl (ih (by decide)) rfl
  · unfold frame_flags; exact eo_q8 (k := 4) (by keeps) hl (ih (by decide)) rfl
  · unfold frame_stream_id1; exact eo_q4 (d := c) (k := 0) rfl rfl (by keeps) (by keeps) hl (ih (by decide)) (ih (by decide)) rfl
  · unfold frame_stream_id2; exact eo_q8 (k := 2) (by keeps) hl (ih (by decide)) rfl
  · unfold frame_stream_id3; exact eo_q8 (k := 1) (by keeps) hl (ih (by decide)) rfl
  · unfold frame_stream_id4; exact eo_none hl rfl
  · unfold data_pad_length; exact eo_none hl rfl
  · unfold go_away_stream_id1; exact eo_q4 (d := c) (k := 4) rfl rfl (by keeps) (by keeps) hl (ih (by decide)) (ih (by decide)) rfl
  · unfold go_away_stream_id2; exact eo_q8 (k := 6) (by keeps) hl (ih (by decide)) rfl
  · unfold go_away_stream_id3; exact eo_q8 (k := 5) (by keeps) hl (ih (by decide)) rfl
  · unfold go_away_stream_id4; exact eo_q8 (k := 4) (by keeps) hl (ih (by decide)) rfl
  · unfold go_away_error_code1; exact eo_q22 (by keeps) hl (ih (by decide)) rfl
  · unfold go_away_error_code2; exact eo_q8 (k := 2) (by keeps) hl (ih (by decide)) rfl
  · unfold go_away_error_code3; exact eo_q8 (k := 1) (by keeps) hl (ih (by decide)) rfl
  · unfold go_away_error_code4; exact eo_none hl rfl
  · unfold headers_pad_length_with_priority; exact eo_q8 (k := 5) (by keeps) hl (ih (by decide)) rfl
  · unfold headers_pad_length_without_priority; exact eo_none hl rfl
  · unfold headers_stream_id1; exact eo_q4 (d := c) (k := 1) rfl rfl (by keeps) (by keeps) hl (ih (by decide)) (ih (by decide)) rfl
  · unfold headers_stream_id2; exact eo_q8 (k := 3) (by keeps) hl (ih (by decide)) rfl
  · unfold headers_stream_id3; exact eo_q8 (k := 2) (by keeps) hl (ih (by decide)) rfl
  · unfold headers_stream_id4; exact eo_q8 (k := 1) (by keeps) hl (ih (by decide)) rfl
  · unfold headers_weight; exact eo_none hl rfl
  · unfold priority_stream_id1; exact eo_q4 (d := c) (k := 1) rfl rfl (by keeps) (by keeps) hl (ih (by decide)) (ih (by decide)) rfl
  · unfold priority_stream_id2; exact eo_q8 (k := 3) (by keeps) hl (ih (by decide)) rfl
  · unfold priority_stream_id3; exact eo_q8 (k := 2) (by keeps) hl (ih (by decide)) rfl
  · unfold priority_stream_id4; exact eo_q8 (k := 1) (by keeps) hl (ih (by decide)) rfl
  · unfold priority_weight; exact eo_none hl rfl
  · unfold push_promise_pad_length; exact eo_q8 (k := 5) (by keeps) hl (ih (by decide)) rfl
  · unfold push_promise_stream_id1; exact eo_q4 (d := c) (k := 1) rfl rfl (by keeps) (by keeps) hl (ih (by decide)) (ih (by decide)) rfl
  · unfold push_promise_stream_id2; exact eo_q8 (k := 3) (by keeps) hl (ih (by decide)) rfl
  · unfold push_promise_stream_id3; exact eo_q8 (k := 2) (by keeps) hl (ih (by decide)) rfl
  · unfold push_promise_stream_id4; exact eo_q8 (k := 1) (by keeps) hl (ih (by decide)) rfl
  · unfold push_promise_callback; exact eo_none hl rfl
  · unfold rst_stream_error_code1; exact eo_q4 (d := c) (k := 0) rfl rfl (by keeps) (by keeps) hl (ih (by decide)) (ih (by decide)) rfl
  · unfold rst_stream_error_code2; exact eo_q8 (k := 2) (by keeps) hl (ih (by decide)) rfl
  · unfold rst_stream_error_code3; exact eo_q8 (k := 1) (by keeps) hl (ih (by decide)) rfl
  · unfold rst_stream_error_code4; exact eo_none hl rfl
  · unfold settings_id1; exact eo_q2 (k := 4) (by keeps) (by keeps) hl (ih (by decide)) (ih (by decide)) rfl
  · unfold settings_id2; exact eo_q8 (k := 4) (by keeps) hl (ih (by decide)) rfl
  · unfold settings_value1; exact eo_q4 (d := c) (k := 0) rfl rfl (by keeps) (by keeps) hl (ih (by decide)) (ih (by decide)) rfl
  · unfold settings_value2; exact eo_q8 (k := 2) (by keeps) hl (ih (by decide)) rfl
  · unfold settings_value3; exact eo_q8 (k := 1) (by keeps) hl (ih (by decide)) rfl
  · unfold settings_value4; exact eo_none hl rfl
  · unfold unsupported_pad_length; exact eo_none hl rfl
  · unfold window_update_increment1; exact eo_q4 (d := c) (k := 0) rfl rfl (by keeps) (by keeps) hl (ih (by decide)) (ih (by decide)) rfl
  · unfold window_update_increment2; exact eo_q8 (k := 2) (by keeps) hl (ih (by decide)) rfl
  · unfold window_update_increment3; exact eo_q8 (k := 1) (by keeps) hl (ih (by decide)) rfl
  · unfold window_update_increment4; exact eo_none hl rfl

theorem quiet : ∀ (n : Nat) (c : Cfg), c.ctx.rest.length < n → c.ctx.rest.length < need c.p.st → Ends h c (flat c.log)
  | 0, c, hn, hl => absurd hn (by omega)
  | n + 1, c, hn, hl => by
    refine EndsO.ends (quiet_step hl rfl fun c' h1 h2 h3 => ?_)
    rw [← h3]
    exact quiet n c' (by omega) h1

end Verif.Http2.Release
