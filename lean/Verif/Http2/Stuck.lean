import Verif.Http2.Cuts

/-!
# Silence and progress of the HTTP/2 parser (helper lemmas)
-/

namespace Verif.Http2

variable {h : Handler} {S : Bool} {m : Bytes}

/-! ## The reference machine goes on -/

/-- Some continuation causes a further event, or a panic. -/
def Grows (s : Core) : Prop :=
  ∀ tr, ∃ y, y ≠ [] ∧ ((pred tr s y).2 = .panic ∨ tr.length < (pred tr s y).1.length)

/-- One byte does, or leads to a state where it holds. -/
def Grows1 (s : Core) : Prop :=
  match norm s with
  | .panic _ => True
  | .next es s' =>
    match bstep s' 0 with
    | .panic _ => True
    | .next es' s2 => es ++ es' ≠ [] ∨ Grows s2

theorem grows {s : Core} (hs : Grows1 s) : Grows s := by
  intro tr
  unfold Grows1 at hs
  split at hs
  · rename_i es hn
    exact ⟨[0], by simp, .inl (by rw [pred, hn])⟩
  · rename_i es s' hn
    split at hs
    · rename_i es' hb
      exact ⟨[0], by simp, .inl (by rw [pred, hn]; simp only [hb])⟩
    · rename_i es' s2 hb
      have key : ∀ y, pred tr s (0 :: y) = pred (tr ++ es ++ es') s2 y := by
        intro y; rw [pred, hn]; simp only [hb]
      rcases hs with hs | hs
      · refine ⟨[0], by simp, .inr ?_⟩
        rw [key]
        have h1 := (pred_prefix [] (tr ++ es ++ es') s2).length_le
        have h2 : 0 < (es ++ es').length := List.length_pos_iff.mpr hs
        simp only [List.length_append] at h1 h2
        omega
      · obtain ⟨y, -, hy⟩ := hs (tr ++ es ++ es')
        refine ⟨0 :: y, by simp, ?_⟩
        rw [key]
        refine hy.imp_right fun hy => ?_
        simp only [List.length_append] at hy
        omega

theorem grows_format {a b : UInt32} {x y : UInt16} : Grows ⟨a, b, x, y, .frameFormatEnd⟩ := by
  refine grows ?_
  unfold Grows1
  simp only [norm]
  split <;> simp

theorem grows_id4 {a b : UInt32} {x y : UInt16} : Grows ⟨a, b, x, y, .frameStreamId4⟩ := grows (.inr grows_format)
theorem grows_id3 {a b : UInt32} {x y : UInt16} : Grows ⟨a, b, x, y, .frameStreamId3⟩ := grows (.inr grows_id4)
theorem grows_id2 {a b : UInt32} {x y : UInt16} : Grows ⟨a, b, x, y, .frameStreamId2⟩ := grows (.inr grows_id3)
theorem grows_id1 {a b : UInt32} {x y : UInt16} : Grows ⟨a, b, x, y, .frameStreamId1⟩ := grows (.inr grows_id2)
theorem grows_flags {a b : UInt32} {x y : UInt16} : Grows ⟨a, b, x, y, .frameFlags⟩ := grows (.inr grows_id1)
theorem grows_type {a b : UInt32} {x y : UInt16} : Grows ⟨a, b, x, y, .frameType⟩ := grows (.inr grows_flags)
theorem grows_len3 {a b : UInt32} {x y : UInt16} : Grows ⟨a, b, x, y, .frameLength3⟩ := grows (.inr grows_type)
theorem grows_len2 {a b : UInt32} {x y : UInt16} : Grows ⟨a, b, x, y, .frameLength2⟩ := grows (.inr grows_len3)
theorem grows_len1 {a b : UInt32} {x y : UInt16} : Grows ⟨a, b, x, y, .frameLength1⟩ := grows (.inr grows_len2)

theorem grows_padding : ∀ (n : Nat) (s : Core), s.st = .framePadding → s.hi ≤ n → Grows s := by
  intro n
  induction n with
  | zero =>
    intro s hs hn
    refine grows ?_
    have : s.payloadLength = 0 := by
      apply UInt32.toNat_inj.mp
      rw [payload_toNat]
      exact Nat.le_zero.mp hn
    unfold Grows1
    simp only [norm_of_imm (s := s) (by rw [hs]; rfl), bstep, hs, bPadding, this, if_true]
    exact .inr grows_len2
  | succ n ih =>
    intro s hs hn
    refine grows ?_
    unfold Grows1
    simp only [norm_of_imm (s := s) (by rw [hs]; rfl), bstep, hs, bPadding]
    split
    · trivial
    · rename_i es' s2 hb
      split at hb
      · cases hb; exact .inr grows_len2
      · split at hb
        · cases hb; exact .inr grows_len1
        · rw [dec_eq] at hb
          split at hb
          · cases hb
          · rename_i q hq
            split at hq
            · cases hq
            · cases hq; cases hb
              refine .inr (ih _ (by rw [dec_st]; exact hs) ?_)
              rw [dec_hi]
              have : (1 : UInt32).toNat = 1 := rfl
              omega

/-- There is an event, or a panic. -/
def Loud : BRes → Prop
  | .panic _ => True
  | .next es _ => es ≠ []

theorem loud_pre (e : Ev) (x : BRes) : Loud (x.pre [e]) := by cases x <;> simp [BRes.pre, Loud]

theorem loud_payload (k : Kind) (s : Core) (b : UInt8) : Loud (bPayload k s b) := by
  unfold bPayload
  split
  · trivial
  · split
    · exact loud_pre _ _
    · split
      · trivial
      · split <;> simp [Loud]

theorem grows_loud {s : Core} (hn : norm s = .next [] s) (hb : Loud (bstep s 0)) : Grows s := by
  refine grows ?_
  unfold Grows1
  rw [hn]
  simp only [List.nil_append]
  unfold Loud at hb
  split at hb
  · trivial
  · exact .inl hb

theorem grows_pad {s : Core} {st : St} (hn : norm s = .next [] s) (hb : bstep s 0 = bPad s 0 st)
    (hg : ∀ q : Core, q.st = st → Grows q) : Grows s := by
  refine grows ?_
  unfold Grows1
  rw [hn]
  simp only [hb]
  unfold bPad
  split
  · trivial
  · rename_i es' s2 hb
    split at hb
    · cases hb
    · cases hb
      exact .inr (hg _ rfl)

theorem grows_go {a b : UInt32} {x y : UInt16} : Grows ⟨a, b, x, y, .goAwayCallback⟩ := by
  refine grows ?_
  unfold Grows1
  simp only [norm]
  split
  · trivial
  · rename_i es s' hn
    split at hn
    · cases hn
    · cases hn
      split <;> simp

theorem grows_window {a b : UInt32} {x y : UInt16} : Grows ⟨a, b, x, y, .windowUpdateCallback⟩ := grows (.inl (by simp))
theorem grows_settings {a b : UInt32} {x y : UInt16} : Grows ⟨a, b, x, y, .settingsCallback⟩ := grows (.inl (by simp))
theorem grows_rst {a b : UInt32} {x y : UInt16} : Grows ⟨a, b, x, y, .rstStreamCallback⟩ := grows (.inl (by simp))

theorem grows_headers {a b : UInt32} {x y : UInt16} : Grows ⟨a, b, x, y, .headersCallback⟩ := by
  refine grows ?_
  unfold Grows1
  simp only [norm]
  split <;> simp

theorem grows_all (s : Core) : Grows s := by
  have pay : ∀ {k : Kind} {s : Core}, PaySt s.st k → bstep s 0 = bPayload k s 0 → Grows s :=
    fun hs hb => grows_loud hs.norm (by rw [hb]; exact loud_payload _ _ _)
  have gData : ∀ q : Core, q.st = .dataData → Grows q := fun q hq =>
    pay (k := .data) (by rw [hq]; rfl) (by unfold bstep; rw [hq])
  have gUn : ∀ q : Core, q.st = .unsupportedData → Grows q := fun q hq =>
    pay (k := .unsupported) (by rw [hq]; rfl) (by unfold bstep; rw [hq])
  have gHead : ∀ q : Core, q.st = .headersCallback → Grows q := fun ⟨a, b, x, y, st⟩ hq => by
    subst hq; exact grows_headers
  have gw : ∀ {a b : UInt32} {x y : UInt16}, Grows ⟨a, b, x, y, .headersWeight⟩ := by
    intro a b x y
    refine grows ?_
    unfold Grows1
    simp only [norm, bstep]
    split
    · trivial
    · rename_i es' s2 hb
      split at hb
      · cases hb
      · cases hb
        exact .inr (gHead _ rfl)
  have gh4 : ∀ {a b : UInt32} {x y : UInt16}, Grows ⟨a, b, x, y, .headersStreamId4⟩ := grows (.inr gw)
  have gh3 : ∀ {a b : UInt32} {x y : UInt16}, Grows ⟨a, b, x, y, .headersStreamId3⟩ := grows (.inr gh4)
  have gh2 : ∀ {a b : UInt32} {x y : UInt16}, Grows ⟨a, b, x, y, .headersStreamId2⟩ := grows (.inr gh3)
  have gh1 : ∀ {a b : UInt32} {x y : UInt16}, Grows ⟨a, b, x, y, .headersStreamId1⟩ := grows (.inr gh2)
  have gp5 : ∀ {a b : UInt32} {x y : UInt16}, Grows ⟨a, b, x, y, .pushPromiseCallback⟩ := by
    intro a b x y
    refine grows_loud rfl ?_
    simp only [bstep]
    split
    · trivial
    · exact loud_pre _ _
  have gp4 : ∀ {a b : UInt32} {x y : UInt16}, Grows ⟨a, b, x, y, .pushPromiseStreamId4⟩ := grows (.inr gp5)
  have gp3 : ∀ {a b : UInt32} {x y : UInt16}, Grows ⟨a, b, x, y, .pushPromiseStreamId3⟩ := grows (.inr gp4)
  have gp2 : ∀ {a b : UInt32} {x y : UInt16}, Grows ⟨a, b, x, y, .pushPromiseStreamId2⟩ := grows (.inr gp3)
  have gp1 : ∀ {a b : UInt32} {x y : UInt16}, Grows ⟨a, b, x, y, .pushPromiseStreamId1⟩ := grows (.inr gp2)
  have gr4 : ∀ {a b : UInt32} {x y : UInt16}, Grows ⟨a, b, x, y, .rstStreamErrorCode4⟩ := grows (.inr grows_rst)
  have gr3 : ∀ {a b : UInt32} {x y : UInt16}, Grows ⟨a, b, x, y, .rstStreamErrorCode3⟩ := grows (.inr gr4)
  have gr2 : ∀ {a b : UInt32} {x y : UInt16}, Grows ⟨a, b, x, y, .rstStreamErrorCode2⟩ := grows (.inr gr3)
  have gs4 : ∀ {a b : UInt32} {x y : UInt16}, Grows ⟨a, b, x, y, .settingsValue4⟩ := grows (.inr grows_settings)
  have gs3 : ∀ {a b : UInt32} {x y : UInt16}, Grows ⟨a, b, x, y, .settingsValue3⟩ := grows (.inr gs4)
  have gs2 : ∀ {a b : UInt32} {x y : UInt16}, Grows ⟨a, b, x, y, .settingsValue2⟩ := grows (.inr gs3)
  have gs1 : ∀ {a b : UInt32} {x y : UInt16}, Grows ⟨a, b, x, y, .settingsValue1⟩ := grows (.inr gs2)
  have gi2 : ∀ {a b : UInt32} {x y : UInt16}, Grows ⟨a, b, x, y, .settingsId2⟩ := grows (.inr gs1)
  have gu4 : ∀ {a b : UInt32} {x y : UInt16}, Grows ⟨a, b, x, y, .windowUpdateIncrement4⟩ := grows (.inr grows_window)
  have gu3 : ∀ {a b : UInt32} {x y : UInt16}, Grows ⟨a, b, x, y, .windowUpdateIncrement3⟩ := grows (.inr gu4)
  have gu2 : ∀ {a b : UInt32} {x y : UInt16}, Grows ⟨a, b, x, y, .windowUpdateIncrement2⟩ := grows (.inr gu3)
  have gq5 : ∀ {a b : UInt32} {x y : UInt16}, Grows ⟨a, b, x, y, .priorityWeight⟩ := grows (.inl (by simp))
  have gq4 : ∀ {a b : UInt32} {x y : UInt16}, Grows ⟨a, b, x, y, .priorityStreamId4⟩ := grows (.inr gq5)
  have gq3 : ∀ {a b : UInt32} {x y : UInt16}, Grows ⟨a, b, x, y, .priorityStreamId3⟩ := grows (.inr gq4)
  have gq2 : ∀ {a b : UInt32} {x y : UInt16}, Grows ⟨a, b, x, y, .priorityStreamId2⟩ := grows (.inr gq3)
  have ge4 : ∀ {a b : UInt32} {x y : UInt16}, Grows ⟨a, b, x, y, .goAwayErrorCode4⟩ := grows (.inr grows_go)
  have ge3 : ∀ {a b : UInt32} {x y : UInt16}, Grows ⟨a, b, x, y, .goAwayErrorCode3⟩ := grows (.inr ge4)
  have ge2 : ∀ {a b : UInt32} {x y : UInt16}, Grows ⟨a, b, x, y, .goAwayErrorCode2⟩ := grows (.inr ge3)
  have ge1 : ∀ {a b : UInt32} {x y : UInt16}, Grows ⟨a, b, x, y, .goAwayErrorCode1⟩ := grows (.inr ge2)
  have gg4 : ∀ {a b : UInt32} {x y : UInt16}, Grows ⟨a, b, x, y, .goAwayStreamId4⟩ := grows (.inr ge1)
  have gg3 : ∀ {a b : UInt32} {x y : UInt16}, Grows ⟨a, b, x, y, .goAwayStreamId3⟩ := grows (.inr gg4)
  have gg2 : ∀ {a b : UInt32} {x y : UInt16}, Grows ⟨a, b, x, y, .goAwayStreamId2⟩ := grows (.inr gg3)
  obtain ⟨a, b, x, y, st⟩ := s
  cases st
  case framePadding => exact grows_padding _ _ rfl (Nat.le_refl _)
  case dataPadLength => exact grows_pad rfl rfl gData
  case unsupportedPadLength => exact grows_pad rfl rfl gUn
  case headersPadLengthWithPriority => exact grows_pad rfl rfl fun ⟨a, b, x, y, st⟩ hq => by subst hq; exact gh1
  case headersPadLengthWithoutPriority => exact grows_pad rfl rfl gHead
  case pushPromisePadLength => exact grows_pad rfl rfl fun ⟨a, b, x, y, st⟩ hq => by subst hq; exact gp1
  case dataData => exact gData _ rfl
  case unsupportedData => exact gUn _ rfl
  case goAwayDebugData => exact pay (k := .goAwayDebugData) rfl rfl
  case headersFragment => exact pay (k := .headersFragment) rfl rfl
  case pingData => exact pay (k := .ping) rfl rfl
  case settingsId1 => exact grows (.inr gi2)
  case windowUpdateIncrement1 => exact grows (.inr gu2)
  case priorityStreamId1 => exact grows (.inr gq2)
  case rstStreamErrorCode1 => exact grows (.inr gr2)
  case goAwayStreamId1 => exact grows (.inr gg2)
  all_goals first
    | exact grows_format | exact grows_id4 | exact grows_id3 | exact grows_id2 | exact grows_id1 | exact grows_flags
    | exact grows_type | exact grows_len3 | exact grows_len2 | exact grows_len1 | exact grows_go | exact grows_window
    | exact grows_settings | exact grows_rst | exact grows_headers | exact gw | exact gh4 | exact gh3 | exact gh2 | exact gh1
    | exact gp5 | exact gp4 | exact gp3 | exact gp2 | exact gp1 | exact gr4 | exact gr3 | exact gr2 | exact gs4 | exact gs3
    | exact gs2 | exact gs1 | exact gi2 | exact gu4 | exact gu3 | exact gu2 | exact gq5 | exact gq4 | exact gq3 | exact gq2
    | exact ge4 | exact ge3 | exact ge2 | exact ge1 | exact gg4 | exact gg3 | exact gg2 | exact grows trivial

/-! ## Runs that end -/

/-- A stop within a long field, and what it means. -/
theorem long_stop {ks : List Nat} (hw : ∃ st ∈ (run h ks m).stops, inLongField st.state = true) :
    ∃ st ∈ (run h ks m).stops, inLongField st.state = true ∧ Mid true (flat (run h ks m).world.log) (st.done m) ∧
      (run h ks m).last ≠ .panic ∧ Stuck (run h ks m).world.p.st = true := by
  obtain ⟨st, h1, h2⟩ := hw
  rcases run_w (S := true) (h := h) (m := m) ks with ⟨-, h3⟩ | ⟨st, h3, h4, l, h5, h6, h7⟩
  · rw [h3 st h1] at h2; cases h2
  · have hl : inLongField st.state = true := by simpa [Cut] using h4
    obtain ⟨rfl, h8, h9⟩ := h7 hl
    exact ⟨st, h3, hl, h6, h8, h9⟩

/-- A run in which a call stopped within a long field, or none did. -/
theorem run_cases (ks : List Nat) : (∃ st ∈ (run h ks m).stops, inLongField st.state = true) ∨ Whole (run h ks m).stops := by
  rcases Classical.em (∃ st ∈ (run h ks m).stops, inLongField st.state = true) with hw | hw
  · exact .inl hw
  · exact .inr fun st hs => by
      cases hl : inLongField st.state with
      | false => rfl
      | true => exact absurd ⟨st, hs, hl⟩ hw

theorem not_broke_whole {o : Outcome} (hw : Whole o.stops) : ¬ Broke true m o := by
  rintro ⟨st, h1, h2, -⟩
  simp [Cut, hw st h1] at h2

/-! ## Frames before a cut -/

theorem longAt_split : ∀ {fs : List Frame} {a : Nat}, a ∈ longAt fs → ∃ fs1 g fs2 k, fs = fs1 ++ g :: fs2 ∧
    k ∈ g.body.longAt ∧ a = (fs1.flatMap Frame.write).length + k
  | f :: fs, a, h => by
    rw [longAt] at h
    rcases List.mem_append.mp h with h | h
    · exact ⟨[], f, fs, a, rfl, h, by simp⟩
    · obtain ⟨b, h1, rfl⟩ := List.mem_map.mp h
      obtain ⟨fs1, g, fs2, k, rfl, h2, rfl⟩ := longAt_split h1
      exact ⟨f :: fs1, g, fs2, k, rfl, h2, by simp; omega⟩

theorem quiet_goAway {a : UInt32} {tr : List Ev} : ∀ {u : Bytes}, u.length ≤ 3 →
    pred tr ⟨a, 0, 0, 0, .goAwayStreamId1⟩ u = (tr, .eos)
  | [], _ => by simp [pred, norm]
  | [_], _ => by simp [pred, norm, bstep, or32b, or16a]
  | [_, _], _ => by simp [pred, norm, bstep, or32b, or16a]
  | [_, _, _], _ => by simp [pred, norm, bstep, or32b, or16a]
  | _ :: _ :: _ :: _ :: _, h => absurd h (by simp)

theorem quiet_settings {a : UInt32} {tr : List Ev} : ∀ {u : Bytes}, u.length ≤ 5 →
    pred tr ⟨a, 0, 0, 0, .settingsId1⟩ u = (tr, .eos)
  | [], _ => by simp [pred, norm]
  | [_], _ => by simp [pred, norm, bstep, or32b, or16a]
  | [_, _], _ => by simp [pred, norm, bstep, or32b, or16a]
  | [_, _, _], _ => by simp [pred, norm, bstep, or32b, or16a]
  | [_, _, _, _], _ => by simp [pred, norm, bstep, or32b, or16a]
  | [_, _, _, _, _], _ => by simp [pred, norm, bstep, or32b, or16a]
  | _ :: _ :: _ :: _ :: _ :: _ :: _, h => absurd h (by simp)

theorem pred_in_long {g : Frame} (hg : g.OK) {k q : Nat} (hk : k ∈ g.body.longAt) (h1 : k < q) (h2 : q < k + 4)
    {tr : List Ev} {s : Core} (hs : s.st = .frameLength1) : pred tr s (g.write.take q) = (tr ++ [g.format], .eos) := by
  have hq : 9 ≤ q := by
    unfold Body.longAt at hk
    split at hk <;> simp at hk <;> omega
  obtain ⟨q, rfl⟩ : ∃ r, q = 9 + r := ⟨q - 9, by omega⟩
  rw [header_take hg hs]
  obtain ⟨fl, r, id, b⟩ := g
  unfold Body.longAt at hk
  cases b <;> simp at hk
  · subst hk
    exact quiet_settings (by rw [List.length_take]; omega)
  · subst hk
    exact quiet_goAway (by rw [List.length_take]; omega)

theorem pred_before : ∀ {fs : List Frame}, (∀ f ∈ fs, f.OK) → ∀ {tr : List Ev} {s : Core}, s.st = .frameLength1 →
    ∀ {r : Bytes}, r ≠ [] → ∃ s', s'.st = .frameLength1 ∧
      pred tr s (fs.flatMap Frame.write ++ r) = pred (tr ++ fs.flatMap Frame.events) s' r
  | [], _, tr, s, hs, r, _ => ⟨s, hs, by simp⟩
  | f :: fs, hf, tr, s, hs, r, hr => by
    obtain ⟨s', h1, h2⟩ := pred_before (fs := fs) (fun g hg => hf g (List.mem_cons_of_mem _ hg)) (tr := tr ++ f.events)
      (s := s0) rfl hr
    refine ⟨s', h1, ?_⟩
    rw [List.flatMap_cons, List.flatMap_cons, List.append_assoc,
      (pred_frame (hf f (by simp)) s hs tr _).1 (.inl (by simp [hr])), h2, List.append_assoc]

theorem delivered_before : ∀ {fs : List Frame} {l R : List Ev}, GoodLog l → flat l = fs.flatMap Frame.events ++ R →
    ∃ ls l', l = ls.flatten ++ l' ∧ List.Forall₂ Frame.Delivered fs ls ∧ flat l' = R ∧ GoodLog l'
  | [], l, R, hl, h => ⟨[], l, rfl, .nil, h, hl⟩
  | f :: fs, l, R, hl, h => by
    rw [List.flatMap_cons, List.append_assoc] at h
    obtain ⟨a, l', rfl, h1, h2, h3⟩ := delivered_one hl h
    obtain ⟨ls, l'', rfl, h4, h5, h6⟩ := delivered_before h3 h2
    exact ⟨a :: ls, l'', by simp, .cons h1 h4, h5, h6⟩

end Verif.Http2
