import Verif.Http1.OrderSpec
import Verif.Http1.Emit
import Mathlib.Tactic.FinCases

/-!
# The order of the callbacks of bodies (helper lemmas)
-/

set_option linter.unusedSimpArgs false
set_option linter.unusedVariables false

namespace Verif.Http1

variable {env : Env}

/-! ## Automata -/

section
variable {P : Type} [DecidableEq P] (next : P → Ev → Option P) (fits : AS → List P) (p0 : P)

/-- The order is kept, and the state fits the phase. -/
def Fits (tr : List Ev) (s : AS) : Prop := ∃ p, tr.foldlM next p0 = some p ∧ p ∈ fits s

/-- Events that are in order in state `s` and lead to state `s'`. -/
def Leads (s : AS) (es : List Ev) (s' : AS) : Prop := ∀ p ∈ fits s, ∃ p', es.foldlM next p = some p' ∧ p' ∈ fits s'

/-- Events that are in order in state `s`, before an error. -/
def Quits (fin : P) (s : AS) (es : List Ev) : Prop := ∀ p ∈ fits s, ∃ p', es.foldlM next p = some p' ∧ p' ≠ fin

variable {next fits p0}

theorem Fits.leads {tr es : List Ev} {s s' : AS} (h : Fits next fits p0 tr s) (hl : Leads next fits s es s') :
    Fits next fits p0 (tr ++ es) s' := by
  obtain ⟨p, h1, h2⟩ := h
  obtain ⟨p', h3, h4⟩ := hl p h2
  exact ⟨p', by rw [List.foldlM_append, h1]; exact h3, h4⟩

theorem fold_prefix {l l' : List Ev} {p : P} (fin : P) (hd : ∀ e, next fin e = none) (h : l'.foldlM next p0 = some p)
    (hl : l <+: l') : ∃ p', l.foldlM next p0 = some p' ∧ (p' = fin → l = l') := by
  obtain ⟨t, rfl⟩ := hl
  rw [List.foldlM_append] at h
  cases hx : l.foldlM next p0 with
  | none => rw [hx] at h; cases h
  | some p' =>
    refine ⟨p', rfl, ?_⟩
    rintro rfl
    rw [hx] at h
    cases t with
    | nil => simp
    | cons e t =>
      exfalso
      simp only [Option.bind_eq_bind, Option.bind_some, List.foldlM_cons] at h
      rw [hd] at h
      cases h

/-- A whole run of the machine. -/
theorem fits_run (fin : P) (hn : ∀ tr s, Fits next fits p0 tr s → Fits next fits p0 (tr ++ (norm env tr s).1) (norm env tr s).2)
    (hs : ∀ s b es s', bstep env s b = .next es s' → Leads next fits s es s')
    (he : ∀ s b es e, s ≠ .fin → bstep env s b = .err es e → Quits next fits fin s es)
    (hf : ∀ s p, p ∈ fits s → (p = fin ↔ s = .fin))
    {s : AS} (h0 : p0 ∈ fits s) (m : Bytes) :
    ∃ p, (pred env [] s m).1.foldlM next p0 = some p ∧ (∀ r, (pred env [] s m).2 = .finished r → p = fin) ∧
      ((∀ r, (pred env [] s m).2 ≠ .finished r) → p ≠ fin) := by
  have H : KeepsJ env fun _ tr s => Fits next fits p0 tr s :=
    ⟨fun _ tr s h => hn tr s h, fun _ tr s b es s' h1 h h2 => h.leads (hs s b es s' h2)⟩
  have := pred_run H m [] [] s ⟨p0, rfl, h0⟩
  revert this
  generalize pred env [] s m = K
  obtain ⟨l, f⟩ := K
  cases f <;> simp only [RunEnd]
  · rintro ⟨s, h1, p, h2, h3⟩; exact ⟨p, h2, nofun, fun _ h => h1.1 ((hf _ _ h3).mp h)⟩
  · rintro ⟨y, _, p, h2, h3⟩; exact ⟨p, h2, fun _ _ => (hf _ _ h3).mpr rfl, fun h => absurd rfl (h _)⟩
  · rintro ⟨y, b, tr, es, s, _, rfl, ⟨p, h2, h3⟩, h4, h5⟩
    obtain ⟨p', h6, h7⟩ := he _ _ _ _ h4.1 h5 p h3
    exact ⟨p', by rw [List.foldlM_append, h2]; exact h6, nofun, fun _ => h7⟩
  · rintro ⟨_, _, s, _, ⟨p, h2, h3⟩, h4⟩; exact ⟨p, h2, nofun, fun _ h => h4.1 ((hf _ _ h3).mp h)⟩
  · rintro ⟨_, _, _, s, _, ⟨p, h2, h3⟩, h4, _⟩; exact ⟨p, h2, nofun, fun _ h => h4.1 ((hf _ _ h3).mp h)⟩

end

/-- Try all phases. -/
macro "phases" f:ident : tactic => `(tactic| (intro p hp; fin_cases hp <;> exact ⟨_, rfl, by simp [$f:ident]⟩))

/-! ## Chunked bodies -/

/-- The phases in which a state of a chunked body can be. -/
def chunkFits : AS → List ChunkPhase
  | .size1 => [.chunk, .data]
  | .size _ _ | .sizeEnd _ => [.begun]
  | .extStrip _ => [.last, .sized, .extEnd]
  | .extName _ => [.last, .sized, .extEnd, .extName]
  | .extVStrip _ => [.last, .sized, .extEnd, .extName]
  | .extVal _ | .extQuot _ | .extEsc _ => [.last, .sized, .extEnd, .extName, .extValue]
  | .extsFin _ => [.sized, .extEnd]
  | .sizeLf _ | .data _ | .dataCr | .dataLf => [.data]
  | .hdrCheck | .hdrFirst | .hdrCr1 | .hdrLf1 | .hdrCr2 | .hdrLf2 | .hdrEnd | .hdrVal => [.last, .value]
  | .hdrName => [.name]
  | .hdrStrip => [.last, .value, .name]
  | .hdrQuot | .hdrEsc => [.value]
  | .fin => [.done]
  | _ => []

theorem order_chunk_sizeEnd {v : Nat} {b : UInt8} {es : List Ev} {s' : AS} (hs : bSizeEnd v b = .next es s') :
    Leads ChunkPhase.next chunkFits (.sizeEnd v) es s' := by
  unfold bSizeEnd at hs
  intro p hp
  rw [show p = .begun from List.mem_singleton.mp hp]
  by_cases hv : v = 0
  · subst hv
    split at hs
    · cases hs; exact ⟨_, rfl, by simp [chunkFits]⟩
    · split at hs <;> cases hs
      exact ⟨_, rfl, by simp [chunkFits]⟩
  · have hl : [Ev.chunkLength v].foldlM ChunkPhase.next .begun = some .sized := by
      simp [ChunkPhase.next, hv]
    split at hs
    · cases hs; exact ⟨_, hl, by simp [chunkFits]⟩
    · split at hs <;> cases hs
      exact ⟨_, hl, by simp [chunkFits]⟩

theorem not_cr_visible {b : UInt8} (h : isVisible7bit b = true) (hb : (b == 13) = true) : False := by
  rw [beq_iff_eq] at hb; subst hb; exact absurd h (by decide)

theorem order_chunk_step (s : AS) (b : UInt8) (es : List Ev) (s' : AS) (hs : bstep env s b = .next es s') :
    Leads ChunkPhase.next chunkFits s es s' := by
  cases s <;> simp only [bstep, bHdrCheck, bHdrFirst, bHdrName, bHdrVal, bHdrQuot, bStrip, bExpect, bExtName, bExtVal,
    bExtQuot] at hs
  case sizeEnd => exact order_chunk_sizeEnd hs
  case size k v =>
    split at hs
    · cases hs
      unfold sizeNext
      split <;> phases chunkFits
    · exact order_chunk_sizeEnd hs
  case hdrStrip =>
    repeat' split at hs
    all_goals cases hs
    all_goals first
      | exact (not_cr_visible (by assumption) (by assumption)).elim
      | phases chunkFits
  all_goals try (intro p hp; cases hp; done)
  all_goals (repeat' split at hs)
  all_goals cases hs
  all_goals phases chunkFits

theorem order_chunk_norm (hu : env.ptype = .chunked) (tr : List Ev) (s : AS) (h : Fits ChunkPhase.next chunkFits .chunk tr s) :
    Fits ChunkPhase.next chunkFits .chunk (tr ++ (norm env tr s).1) (norm env tr s).2 := by
  refine h.leads ?_
  cases s <;> simp only [norm, hu]
  all_goals try (intro p hp; cases hp; done)
  case data v => by_cases hv : v = 0 <;> simp only [hv, if_true, if_false] <;> phases chunkFits
  all_goals phases chunkFits

theorem order_chunk_err (s : AS) (b : UInt8) (es : List Ev) (e : PErr) (hf : s ≠ .fin) (hs : bstep env s b = .err es e) :
    Quits ChunkPhase.next chunkFits .done s es := by
  cases s <;> simp only [bstep, bHdrCheck, bHdrFirst, bHdrName, bHdrVal, bHdrQuot, bStrip, bExpect, bExtName, bExtVal,
    bExtQuot, bSizeEnd] at hs
  all_goals try (intro p hp; cases hp; done)
  all_goals (repeat' split at hs)
  all_goals cases hs
  all_goals (intro p hp; fin_cases hp <;> exact ⟨_, rfl, nofun⟩)

theorem order_chunk_fin (s : AS) (p : ChunkPhase) (hp : p ∈ chunkFits s) : p = .done ↔ s = .fin := by
  cases s <;> simp [chunkFits] at hp ⊢ <;> aesop

/-! ## Multipart bodies -/

/-- The phases in which a state of a multipart body can be. -/
def partFits : AS → List PartPhase
  | .hyphen1 e | .hyphen2 e | .bound e _ => if e then [.start, .data] else [.data]
  | .boundCr | .mpEnd | .bodyFin => [.start, .data]
  | .initialLf => [.part]
  | .hdrCheck | .hdrFirst | .hdrCr1 | .hdrLf1 | .hdrCr2 | .hdrLf2 | .hdrEnd | .hdrVal | .boundLf => [.part, .value]
  | .hdrName => [.name]
  | .hdrStrip => [.part, .value, .name]
  | .hdrQuot | .hdrEsc => [.value]
  | .mpDetect | .mpLen _ | .mpLenCr | .mpLenLf | .mpByte | .mpByteLf => [.data]
  | .fin => [.done]
  | _ => []

theorem order_part_data : ∀ d : Bytes, (d.map fun b => Ev.multipartData [b]).foldlM PartPhase.next .data = some .data
  | [] => rfl
  | b :: d => order_part_data d

theorem order_part_step (s : AS) (b : UInt8) (es : List Ev) (s' : AS) (hs : bstep env s b = .next es s') :
    Leads PartPhase.next partFits s es s' := by
  cases s <;> simp only [bstep, bHdrCheck, bHdrFirst, bHdrName, bHdrVal, bHdrQuot, bStrip, bExpect, bMpByte] at hs
  case hdrStrip =>
    repeat' split at hs
    all_goals cases hs
    all_goals first
      | exact (not_cr_visible (by assumption) (by assumption)).elim
      | phases partFits
  case bound exp i =>
    split at hs
    · cases hs
    · split at hs
      · cases hs; cases exp <;> phases partFits
      · cases exp
        · have : es = flatEv (.multipartData (b!"\r\n--" ++ List.take i ‹Bytes›)) ++
              (if b == c! '\r' then [] else [.multipartData [b]]) ∧ partFits s' = [.data] := by
            simp only [Bool.false_eq_true, if_false] at hs
            split at hs <;> simp only [BRes.pre, BRes.next.injEq] at hs <;> obtain ⟨rfl, rfl⟩ := hs
            · simp [*]; rfl
            · simp [*]; rfl
          obtain ⟨rfl, h2⟩ := this
          intro p hp
          rw [show p = .data from List.mem_singleton.mp hp]
          refine ⟨.data, ?_, by rw [h2]; simp⟩
          rw [List.foldlM_append]
          simp only [flatEv]
          rw [order_part_data]
          split <;> rfl
        · cases hs
  case hyphen1 exp =>
    split at hs
    · cases hs; cases exp <;> phases partFits
    · cases exp
      · cases hs; phases partFits
      · cases hs
  case hyphen2 exp =>
    split at hs
    · cases hs; cases exp <;> phases partFits
    · cases exp
      · cases hs; phases partFits
      · cases hs
  all_goals try (intro p hp; cases hp; done)
  all_goals (repeat' split at hs)
  all_goals cases hs
  all_goals phases partFits

theorem order_part_mpData (cl : Option Nat) : partFits (mpData cl) = [.data] := by
  unfold mpData mpLen'
  split
  · split <;> rfl
  · rfl

theorem order_part_norm (hu : env.ptype = .multipart) (tr : List Ev) (s : AS) (h : Fits PartPhase.next partFits .start tr s) :
    Fits PartPhase.next partFits .start (tr ++ (norm env tr s).1) (norm env tr s).2 := by
  refine h.leads ?_
  cases s <;> simp only [norm, hu]
  all_goals try (intro p hp; cases hp; done)
  case hdrEnd => intro p hp; rw [order_part_mpData]; fin_cases hp <;> exact ⟨_, rfl, by simp⟩
  case mpDetect => intro p hp; rw [order_part_mpData]; fin_cases hp <;> exact ⟨_, rfl, by simp⟩
  case mpLen n => intro p hp; rw [show mpLen' n = mpData (some n) from rfl, order_part_mpData]; fin_cases hp <;> exact ⟨_, rfl, by simp⟩
  case bound exp i =>
    cases exp <;> split
    · split <;> phases partFits
    · phases partFits
    · split <;> phases partFits
    · phases partFits
  case hyphen1 exp => cases exp <;> phases partFits
  case hyphen2 exp => cases exp <;> phases partFits
  all_goals phases partFits

theorem order_part_err (s : AS) (b : UInt8) (es : List Ev) (e : PErr) (hf : s ≠ .fin) (hs : bstep env s b = .err es e) :
    Quits PartPhase.next partFits .done s es := by
  cases s <;> simp only [bstep, bHdrCheck, bHdrFirst, bHdrName, bHdrVal, bHdrQuot, bStrip, bExpect, bMpByte] at hs
  all_goals try (intro p hp; cases hp; done)
  case bound exp i =>
    repeat' split at hs
    all_goals cases hs
  case hyphen1 exp => cases exp <;> (repeat' split at hs) <;> cases hs <;> (intro p hp; fin_cases hp <;> exact ⟨_, rfl, nofun⟩)
  case hyphen2 exp => cases exp <;> (repeat' split at hs) <;> cases hs <;> (intro p hp; fin_cases hp <;> exact ⟨_, rfl, nofun⟩)
  all_goals (repeat' split at hs)
  all_goals cases hs
  all_goals (intro p hp; fin_cases hp <;> exact ⟨_, rfl, nofun⟩)

theorem order_part_fin (s : AS) (p : PartPhase) (hp : p ∈ partFits s) : p = .done ↔ s = .fin := by
  cases s <;> simp [partFits] at hp ⊢
  case hyphen1 e => cases e <;> aesop
  case hyphen2 e => cases e <;> aesop
  case bound e _ => cases e <;> aesop
  all_goals aesop

/-! ## URL-encoded bodies -/

/-- The phases in which a state of a URL-encoded body can be. -/
def formFits : AS → List FormPhase
  | .uFirst => [.start, .begun, .name, .value]
  | .uName | .uNameH1 | .uNameH2 _ | .uNamePlus => [.begun, .name]
  | .uVal | .uValH1 | .uValH2 _ | .uValPlus => [.begun, .name, .value]
  | .fin => [.done]
  | _ => []

theorem order_form_step (s : AS) (b : UInt8) (es : List Ev) (s' : AS) (hs : bstep env s b = .next es s') :
    Leads FormPhase.next formFits s es s' := by
  cases s <;> simp only [bstep, bUName, bUVal] at hs
  all_goals try (intro p hp; cases hp; done)
  case uFirst =>
    repeat' split at hs
    all_goals simp only [BRes.pre] at hs
    all_goals cases hs
    all_goals phases formFits
  all_goals (repeat' split at hs)
  all_goals cases hs
  all_goals phases formFits

theorem order_form_norm (tr : List Ev) (s : AS) (h : Fits FormPhase.next formFits .start tr s) :
    Fits FormPhase.next formFits .start (tr ++ (norm env tr s).1) (norm env tr s).2 := by
  refine h.leads ?_
  cases s <;> simp only [norm]
  all_goals try (intro p hp; cases hp; done)
  all_goals phases formFits

theorem order_form_err (s : AS) (b : UInt8) (es : List Ev) (e : PErr) (hf : s ≠ .fin) (hs : bstep env s b = .err es e) :
    Quits FormPhase.next formFits .done s es := by
  cases s <;> simp only [bstep, bUName, bUVal] at hs
  all_goals try (intro p hp; cases hp; done)
  case uFirst =>
    repeat' split at hs
    all_goals simp only [BRes.pre] at hs
    all_goals cases hs
    all_goals (intro p hp; fin_cases hp <;> exact ⟨_, rfl, nofun⟩)
  all_goals (repeat' split at hs)
  all_goals cases hs
  all_goals (intro p hp; fin_cases hp <;> exact ⟨_, rfl, nofun⟩)

theorem order_form_fin (s : AS) (p : FormPhase) (hp : p ∈ formFits s) : p = .done ↔ s = .fin := by
  cases s <;> simp [formFits] at hp ⊢ <;> aesop

end Verif.Http1
