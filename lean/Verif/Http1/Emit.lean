import Verif.Http1.AnyHead
import Verif.Http1.HeadSpec
import Verif.Util.ByteLemmas

/-!
# What the reference machine emits (helper lemmas)
-/

set_option linter.unusedSimpArgs false
set_option linter.unusedVariables false

namespace Verif.Http1

variable {env : Env} {fut : Bytes} {K : List Ev × Fin} {h : Handler} {c : Cfg}

/-- `J x tr s` is kept by the machine `env`: `x` are the bytes read, `tr` the events, `s` the state. -/
structure KeepsJ (env : Env) (J : Bytes → List Ev → AS → Prop) : Prop where
  norm : ∀ x tr s, J x tr s → J x (tr ++ (norm env tr s).1) (norm env tr s).2
  step : ∀ x tr s b es s', Http1.norm env tr s = ([], s) → J x tr s → bstep env s b = .next es s' →
    J (x ++ [b]) (tr ++ es) s'

/-- The machine waits for a byte. -/
def Stop (env : Env) (tr : List Ev) (s : AS) : Prop := s ≠ .fin ∧ norm env tr s = ([], s)

/-- The end of a run of the machine that keeps `J`. -/
def RunEnd (env : Env) (J : Bytes → List Ev → AS → Prop) (x m : Bytes) (K : List Ev × Fin) : Prop :=
  match K.2 with
  | .eos => ∃ s, Stop env K.1 s ∧ J (x ++ m) K.1 s
  | .finished r => ∃ y, m = y ++ r ∧ J (x ++ y) K.1 .fin
  | .err e r => ∃ y b tr es s, m = y ++ b :: r ∧ K.1 = tr ++ es ∧ J (x ++ y) tr s ∧ Stop env tr s ∧
      bstep env s b = .err es e
  | .errB r => ∃ y b s, m = y ++ b :: r ∧ J (x ++ y) K.1 s ∧ Stop env K.1 s
  | .panic => ∃ y b r s, m = y ++ b :: r ∧ J (x ++ y) K.1 s ∧ Stop env K.1 s ∧ bstep env s b = .panic

theorem norm_idem (env : Env) (tr : List Ev) (s : AS) :
    norm env (tr ++ (norm env tr s).1) (norm env tr s).2 = ([], (norm env tr s).2) := by
  have hl : ∀ tr n, norm env tr (mpLen' n) = ([], mpLen' n) := by
    intro tr n
    by_cases h : n = 0 <;> simp [mpLen', h, norm]
  have hd : ∀ tr cl, norm env tr (mpData cl) = ([], mpData cl) := by
    intro tr cl
    cases cl with
    | none => rfl
    | some n => exact hl tr n
  cases s
  case hdrEnd =>
    have e : ∀ t, env.ptype = t → norm env tr .hdrEnd = (match t with
        | .chunked => ([.headersFinished, .bodyFinished], .fin)
        | .multipart => ([.headersFinished], mpData (env.cl (tr ++ [.headersFinished])))
        | _ => ([.headersFinished], .fin)) := by
      rintro t rfl; rfl
    cases hp : env.ptype <;> rw [e _ hp] <;> first | rfl | exact hd _ _
  case data v => by_cases h : v = 0 <;> simp [norm, h]
  case bound e i =>
    cases hb : env.boundary with
    | none => simp [norm, hb]
    | some bd => by_cases h : bd.length ≤ i <;> simp [norm, hb, h]
  case mpDetect => exact hd _ _
  case mpLen n => exact hl _ _
  all_goals rfl

theorem pred_run {J : Bytes → List Ev → AS → Prop} (H : KeepsJ env J) : ∀ (m x : Bytes) (tr : List Ev) (s : AS),
    J x tr s → RunEnd env J x m (pred env tr s m)
  | [], x, tr, s, hj => by
    have := H.norm _ _ _ hj
    simp only [pred, RunEnd]
    by_cases hf : (norm env tr s).2 = .fin
    · rw [if_pos hf]
      rw [hf] at this
      exact ⟨[], rfl, by simpa using this⟩
    · rw [if_neg hf]
      exact ⟨_, ⟨hf, norm_idem env tr s⟩, by simpa using this⟩
  | b :: r, x, tr, s, hj => by
    have hn := H.norm _ _ _ hj
    simp only [pred]
    by_cases hf : (norm env tr s).2 = .fin
    · rw [if_pos hf]
      rw [hf] at hn
      exact ⟨[], rfl, by simpa using hn⟩
    · rw [if_neg hf]
      cases hs : bstep env (norm env tr s).2 b with
      | next es s' =>
        have := pred_run H r (x ++ [b]) _ _ (H.step _ _ _ _ _ _ (norm_idem env tr s) hn hs)
        revert this
        dsimp only
        generalize pred env (tr ++ (norm env tr s).1 ++ es) s' r = K
        obtain ⟨l, f⟩ := K
        cases f <;> simp only [RunEnd]
        · rintro ⟨s, h1, h2⟩; exact ⟨s, h1, by simpa using h2⟩
        · rintro ⟨y, rfl, h2⟩; exact ⟨b :: y, by simp, by simpa using h2⟩
        · rintro ⟨y, b', tr, es, s, rfl, h1, h2, h3⟩
          exact ⟨b :: y, b', tr, es, s, by simp, h1, by simpa using h2, h3⟩
        · rintro ⟨y, r', s, rfl, h1, h2⟩
          exact ⟨b :: y, r', s, by simp, by simpa using h1, h2⟩
        · rintro ⟨y, b', r', s, rfl, h1, h2⟩
          exact ⟨b :: y, b', r', s, by simp, by simpa using h1, h2⟩
      | err es e =>
        exact ⟨[], b, _, es, _, rfl, rfl, by simpa using hn, ⟨hf, norm_idem env tr s⟩, hs⟩
      | errB => exact ⟨[], b, _, rfl, by simpa using hn, ⟨hf, norm_idem env tr s⟩⟩
      | panic => exact ⟨[], b, r, _, rfl, by simpa using hn, ⟨hf, norm_idem env tr s⟩, hs⟩

/-! ## Classes of events -/

theorem pred_all {P : Ev → Prop} (h1 : ∀ tr s, ∀ e ∈ (norm env tr s).1, P e)
    (h2 : ∀ s b es s', bstep env s b = .next es s' → ∀ e ∈ es, P e)
    (h3 : ∀ s b es e', bstep env s b = .err es e' → ∀ e ∈ es, P e)
    (tr : List Ev) (s : AS) (m : Bytes) (ht : ∀ e ∈ tr, P e) : ∀ e ∈ (pred env tr s m).1, P e := by
  have hk : KeepsJ env (fun _ tr _ => ∀ e ∈ tr, P e) := by
    refine ⟨fun x tr s ht e he => ?_, fun x tr s b es s' _ ht hs e he => ?_⟩ <;>
      rcases List.mem_append.1 he with h | h
    · exact ht e h
    · exact h1 _ _ e h
    · exact ht e h
    · exact h2 _ _ _ _ hs e h
  have := pred_run hk m [] tr s ht
  revert this
  generalize pred env tr s m = K
  obtain ⟨l, f⟩ := K
  cases f <;> simp only [RunEnd]
  · rintro ⟨_, _, h⟩; exact h
  · rintro ⟨_, _, h⟩; exact h
  · rintro ⟨y, b, tr, es, s, _, rfl, h, _, h'⟩ e he
    rcases List.mem_append.1 he with hx | hx
    · exact h e hx
    · exact h3 _ _ _ _ h' e hx
  · rintro ⟨_, _, _, _, h, _⟩; exact h
  · rintro ⟨_, _, _, _, _, h, _⟩; exact h

/-! ## The bytes of names, values and start lines -/

/-- All events of a result satisfy `P`. -/
def BRes.All (P : Ev → Prop) : BRes → Prop
  | .next es _ => ∀ e ∈ es, P e
  | .err es _ => ∀ e ∈ es, P e
  | .errB => True
  | .panic => True

theorem BRes.All.pre {P : Ev → Prop} {r : BRes} {es : List Ev} (h : r.All P) (he : ∀ e ∈ es, P e) :
    (r.pre es).All P := by
  cases r <;> simp only [BRes.pre, BRes.All] at h ⊢
  · intro e hx; rcases List.mem_append.1 hx with h' | h'
    · exact he e h'
    · exact h e h'
  · intro e hx; rcases List.mem_append.1 hx with h' | h'
    · exact he e h'
    · exact h e h'

theorem token_spec {b : UInt8} (h : isToken b = some true) : TokenByte b := by
  have key : ∀ b : UInt8, isToken b = some true → TokenByte b := by
    apply Util.forall_u8
    decide +kernel
  exact key b h

theorem upper_spec {b : UInt8} (h : isUpper b = true) :
    UpperByte b ∧ TokenByte (b + 0x20) ∧ ¬ UpperByte (b + 0x20) := by
  have key : ∀ b : UInt8, isUpper b = true → UpperByte b ∧ TokenByte (b + 0x20) ∧ ¬ UpperByte (b + 0x20) := by
    apply Util.forall_u8
    decide +kernel
  exact key b h

theorem not_upper_spec {b : UInt8} (h : ¬ isUpper b = true) : ¬ UpperByte b := by
  have key : ∀ b : UInt8, ¬ isUpper b = true → ¬ UpperByte b := by
    apply Util.forall_u8
    decide +kernel
  exact key b h

theorem visible_spec {b : UInt8} (h : isVisible7bit b = true) : VisibleByte b := by
  have key : ∀ b : UInt8, isVisible7bit b = true → VisibleByte b := by
    apply Util.forall_u8
    decide +kernel
  exact key b h

theorem nonControl_spec {b : UInt8} (h : isNonControl b = true) : NonControlByte b := by
  have key : ∀ b : UInt8, isNonControl b = true → NonControlByte b := by
    apply Util.forall_u8
    decide +kernel
  exact key b h

theorem field_spec {b : UInt8} (h : isHeaderField b = some true) : NonControlByte b ∨ b = 9 := by
  have key : ∀ b : UInt8, isHeaderField b = some true → NonControlByte b ∨ b = 9 := by
    apply Util.forall_u8
    decide +kernel
  exact key b h

theorem quoted_spec {b : UInt8} (h : isQuotedHeaderField b = some true) : NonControlByte b ∨ b = 9 := by
  have key : ∀ b : UInt8, isQuotedHeaderField b = some true → NonControlByte b ∨ b = 9 := by
    apply Util.forall_u8
    decide +kernel
  exact key b h

theorem escapable_spec {b : UInt8} (h : isEscapable b = true) : NonControlByte b ∨ b = 9 := by
  have key : ∀ b : UInt8, isEscapable b = true → NonControlByte b ∨ b = 9 := by
    apply Util.forall_u8
    decide +kernel
  exact key b h

/-- The two requirements on single callbacks. -/
def Clean (e : Ev) : Prop := LowerName e ∧ CleanData e

theorem all_method (b : UInt8) : (bMethod b).All Clean := by
  unfold bMethod
  split
  · rename_i h; simp [BRes.All, Clean, LowerName, CleanData, (upper_spec h).1]
  · split <;> simp [BRes.All]

theorem all_detect1 (b : UInt8) : (bDetect1 b).All Clean := by
  unfold bDetect1
  split
  · simp [BRes.All]
  · split
    · rename_i h; simp [BRes.All, Clean, LowerName, CleanData, (upper_spec h).1]
    · simp [BRes.All]

theorem all_ldet (x : UInt8) (s : AS) (b : UInt8) : (bLDet x s b).All Clean := by
  unfold bLDet
  split
  · simp [BRes.All]
  · split
    · rename_i h; simp [BRes.All, Clean, LowerName, CleanData, (upper_spec h).1]
    · simp [BRes.All]

theorem all_det (buf : Bytes) (x : UInt8) (s : AS) (b : UInt8) (hb : ∀ b ∈ buf, UpperByte b) :
    (bDet buf x s b).All Clean := by
  unfold bDet
  split
  · simp [BRes.All]
  · refine (all_method b).pre ?_
    intro e he
    simp only [flatEv, List.mem_map] at he
    obtain ⟨y, hy, rfl⟩ := he
    simp [Clean, LowerName, CleanData, hb y hy]

theorem all_expect {P : Ev → Prop} (x : UInt8) (s : AS) (f : UInt8 → PErr) (b : UInt8) : (bExpect x s f b).All P := by
  unfold bExpect; split <;> simp [BRes.All]

theorem all_verEnd (r : Bool) (v w : Nat) (b : UInt8) : (bVerEnd r v w b).All Clean := by
  unfold bVerEnd; split <;> simp [BRes.All, Clean, LowerName, CleanData]

theorem all_hdrName (b : UInt8) : (bHdrName b).All Clean := by
  unfold bHdrName
  split
  · trivial
  · rename_i t ht
    split
    · rename_i h; simp [BRes.All, Clean, LowerName, CleanData, (upper_spec h)]
    · rename_i hu
      split
      · rename_i h
        subst h
        simp [BRes.All, Clean, LowerName, CleanData, token_spec ht, not_upper_spec hu]
      · split <;> simp [BRes.All]

theorem all_hdrFirst (b : UInt8) : (bHdrFirst b).All Clean := by
  unfold bHdrFirst; split
  · exact all_hdrName b
  · simp [BRes.All]

theorem all_hdrCheck (b : UInt8) : (bHdrCheck b).All Clean := by
  unfold bHdrCheck; split
  · simp [BRes.All]
  · exact all_hdrFirst b

theorem all_hdrVal (b : UInt8) : (bHdrVal b).All Clean := by
  unfold bHdrVal
  split
  · trivial
  · rename_i t ht
    split
    · rename_i h; subst h; simp [BRes.All, Clean, LowerName, CleanData, (field_spec ht)]
    · split
      · simp [BRes.All]
      · split
        · rename_i h; simp at h; subst h
          simp [BRes.All, Clean, LowerName, CleanData]; decide
        · simp [BRes.All]

theorem all_hdrQuot (b : UInt8) : (bHdrQuot b).All Clean := by
  unfold bHdrQuot
  split
  · trivial
  · rename_i t ht
    split
    · rename_i h; subst h; simp [BRes.All, Clean, LowerName, CleanData, (quoted_spec ht)]
    · split
      · rename_i h; simp at h; subst h
        simp [BRes.All, Clean, LowerName, CleanData]; decide
      · split
        · rename_i h; simp at h; subst h
          simp [BRes.All, Clean, LowerName, CleanData]; decide
        · simp [BRes.All]

theorem all_sizeEnd (v : Nat) (b : UInt8) : (bSizeEnd v b).All Clean := by
  unfold bSizeEnd
  split
  · simp [BRes.All, Clean, LowerName, CleanData]
  · split <;> simp [BRes.All, Clean, LowerName, CleanData]

theorem all_extName (v : Nat) (b : UInt8) : (bExtName v b).All Clean := by
  unfold bExtName
  split
  · trivial
  · rename_i t ht
    split
    · rename_i h; simp [BRes.All, Clean, LowerName, CleanData, (upper_spec h)]
    · rename_i hu
      split
      · rename_i h
        subst h
        simp [BRes.All, Clean, LowerName, CleanData, token_spec ht, not_upper_spec hu]
      · repeat' split
        all_goals simp [BRes.All, Clean, LowerName, CleanData]

theorem all_extVal (v : Nat) (b : UInt8) : (bExtVal v b).All Clean := by
  unfold bExtVal
  repeat' split
  all_goals simp [BRes.All, Clean, LowerName, CleanData]

theorem all_extQuot (v : Nat) (b : UInt8) : (bExtQuot v b).All Clean := by
  unfold bExtQuot
  repeat' split
  all_goals simp [BRes.All, Clean, LowerName, CleanData]

theorem all_mpByte (b : UInt8) : (bMpByte b).All Clean := by
  unfold bMpByte
  repeat' split
  all_goals simp [BRes.All, Clean, LowerName, CleanData]

theorem all_uName (b : UInt8) : (bUName b).All Clean := by
  unfold bUName
  repeat' split
  all_goals simp [BRes.All, Clean, LowerName, CleanData]

theorem all_uVal (b : UInt8) : (bUVal b).All Clean := by
  unfold bUVal
  repeat' split
  all_goals simp [BRes.All, Clean, LowerName, CleanData]

theorem all_strip {P : Ev → Prop} (s : AS) (f : UInt8 → BRes) (g : UInt8 → PErr) (b : UInt8) (hf : (f b).All P) :
    (bStrip s f g b).All P := by
  unfold bStrip
  repeat' split
  · simp [BRes.All]
  · exact hf
  · simp [BRes.All]

theorem all_mpData (d : Bytes) : ∀ e ∈ flatEv (.multipartData d), Clean e := by
  intro e he
  simp only [flatEv, List.mem_map] at he
  obtain ⟨y, hy, rfl⟩ := he
  simp [Clean, LowerName, CleanData]

theorem bstep_clean (s : AS) (b : UInt8) : (bstep env s b).All Clean := by
  cases s <;> simp only [bstep]
  case det2 => exact all_det _ _ _ _ (by decide)
  case det3 => exact all_det _ _ _ _ (by decide)
  case det4 => exact all_det _ _ _ _ (by decide)
  case det5 => exact all_det _ _ _ _ (by decide)
  case uFirst => exact (all_uName b).pre (by simp [Clean, LowerName, CleanData])
  case min2 r v w => split; · simp [BRes.All]
                     exact all_verEnd _ _ _ _
  case min3 r v w => split; · simp [BRes.All]
                     exact all_verEnd _ _ _ _
  case hdrCr2 => split; · simp [BRes.All]
                 exact all_hdrCheck b
  case hdrStrip => exact all_strip _ _ _ _ (all_hdrVal b)
  case extStrip => exact all_strip _ _ _ _ (all_extName _ b)
  case extVStrip => exact all_strip _ _ _ _ (all_extVal _ b)
  case stripDetect => split; · simp [BRes.All]
                      exact all_detect1 b
  case hyphen1 => repeat' split
                  · simp [BRes.All]
                  · simp [BRes.All]
                  · exact all_mpData _
  case hyphen2 => repeat' split
                  · simp [BRes.All]
                  · simp [BRes.All]
                  · exact all_mpData _
  case bound exp i =>
    repeat' split
    · trivial
    · simp [BRes.All]
    · trivial
    · exact (all_mpByte b).pre (all_mpData _)
  case mpByteLf => split; · simp [BRes.All]
                   exact all_mpData _
  case size k v => split; · simp [BRes.All]
                   exact all_sizeEnd _ b
  case url1 => split
               · rename_i h; simp [BRes.All, Clean, LowerName, CleanData, (visible_spec h)]
               · simp [BRes.All]
  case url2 => split
               · rename_i h; simp [BRes.All, Clean, LowerName, CleanData, (visible_spec h)]
               · split <;> simp [BRes.All]
  case reason1 => split
                  · rename_i h; simp [BRes.All, Clean, LowerName, CleanData, (nonControl_spec h)]
                  · simp [BRes.All]
  case reason2 => split
                  · rename_i h; simp [BRes.All, Clean, LowerName, CleanData, (nonControl_spec h)]
                  · split <;> simp [BRes.All]
  case hdrEsc => split
                 · rename_i h; simp [BRes.All, Clean, LowerName, CleanData, (escapable_spec h)]
                 · simp [BRes.All]
  all_goals first
    | exact all_method b | exact all_detect1 b | exact all_ldet _ _ _ | exact all_expect _ _ _ _
    | exact all_verEnd _ _ _ _ | exact all_hdrName b | exact all_hdrFirst b | exact all_hdrCheck b
    | exact all_hdrVal b | exact all_hdrQuot b | exact all_sizeEnd _ b | exact all_extName _ b
    | exact all_extVal _ b | exact all_extQuot _ b | exact all_mpByte b | exact all_uName b | exact all_uVal b
    | (simp [BRes.All, Clean, LowerName, CleanData]; done)
    | (repeat' split) <;> (simp [BRes.All, Clean, LowerName, CleanData]; done)

theorem norm_clean (tr : List Ev) (s : AS) : ∀ e ∈ (norm env tr s).1, Clean e := by
  cases s <;> simp only [norm]
  all_goals first
    | (simp [Clean, LowerName, CleanData]; done)
    | (repeat' split) <;> (simp [Clean, LowerName, CleanData]; done)

theorem pred_clean (tr : List Ev) (s : AS) (m : Bytes) (ht : ∀ e ∈ tr, Clean e) :
    ∀ e ∈ (pred env tr s m).1, Clean e := by
  refine pred_all norm_clean (fun s b es s' h => ?_) (fun s b es e' h => ?_) tr s m ht
  · have := bstep_clean (env := env) s b; rw [h] at this; exact this
  · have := bstep_clean (env := env) s b; rw [h] at this; exact this

/-- Single bytes of a history that are clean come from clean callbacks. -/
theorem clean_of_flat {l : List Ev} (h : ∀ e ∈ flat l, Clean e) : ∀ e ∈ l, Clean e := by
  intro e he
  have h1 : ∀ x ∈ flatEv e, Clean x := fun x hx => h x (List.mem_flatMap.2 ⟨e, he, hx⟩)
  cases e <;> simp only [flatEv, List.mem_map, forall_exists_index, and_imp, forall_apply_eq_imp_iff₂] at h1 <;>
    simp [Clean, LowerName, CleanData] at h1 ⊢ <;> trivial

end Verif.Http1
