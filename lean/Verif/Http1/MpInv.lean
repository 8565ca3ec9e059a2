import Verif.Http1.RunsMp
import Verif.Http1.ChunkInv

/-!
# The data of multipart bodies is conserved (helper lemmas)
-/

set_option linter.unusedSimpArgs false
set_option linter.unusedVariables false

namespace Verif.Http1

variable {env : Env} {fut : Bytes} {K : List Ev × Fin} {h : Handler} {c : Cfg}
variable {cl : List Ev → Option Nat} {bd : Bytes}

/-- In a part: data `d` was emitted, `t` is pending. -/
def InPart (cl : List Ev → Option Nat) (bd : Bytes) (d t : Bytes) (P : Option Nat → Prop) (x : Bytes) (es : List Ev) : Prop :=
  ∃ y l hx he, Upto cl bd y l ∧ PartHead hx ∧ (∀ e ∈ he, HeaderEv e) ∧
    P (cl (l ++ .multipartBegin :: he ++ [.headersFinished])) ∧ x = y ++ hx ++ d ++ t ∧
    es = l ++ .multipartBegin :: he ++ [.headersFinished] ++ md d

/-- In the head of a part, after `hx`. -/
def InHead (cl : List Ev → Option Nat) (bd : Bytes) (hx : Bytes) (x : Bytes) (es : List Ev) : Prop :=
  ∃ y l he, Upto cl bd y l ∧ (∀ e ∈ he, HeaderEv e) ∧ x = y ++ hx ∧ es = l ++ .multipartBegin :: he

/-- A boundary is expected; `t` of it was read. -/
def Pend (cl : List Ev → Option Nat) (bd : Bytes) (exp : Bool) (t : Bytes) (x : Bytes) (es : List Ev) : Prop :=
  (exp = true ∧ x = t ∧ es = []) ∨
    ∃ d, InPart cl bd d (b!"\r\n" ++ t) (fun o => o = if exp then some d.length else none) x es

/-- In a header field: not at the beginning of a line. -/
def InLine (cl : List Ev → Option Nat) (bd : Bytes) (x : Bytes) (es : List Ev) : Prop :=
  ∃ hx b, InHead cl bd (hx ++ [b]) x es ∧ b ≠ c! '\n' ∧ b!"\r\n" <+: hx ++ [b] ∧ ¬ b!"\r\n\r\n" <:+: hx ++ [b]

/-- What was read and reported of a multipart body, state by state. -/
def MpJ (cl : List Ev → Option Nat) (bd : Bytes) (x : Bytes) (es : List Ev) : AS → Prop
  | .hyphen1 e => Pend cl bd e [] x es
  | .hyphen2 e => Pend cl bd e b!"-" x es
  | .bound e i => i ≤ bd.length ∧ Pend cl bd e (b!"--" ++ bd.take i) x es
  | .boundCr => Upto cl bd x es
  | .mpEnd => ∃ y, Upto cl bd y es ∧ x = y ++ b!"-"
  | .bodyFin => ∃ y, Upto cl bd y es ∧ x = y ++ b!"--"
  | .fin => ∃ y l, Upto cl bd y l ∧ x = y ++ b!"--" ∧ es = l ++ [.bodyFinished]
  | .initialLf => InHead cl bd b!"\r" x es
  | .hdrCr2 => ∃ hx, InHead cl bd hx x es ∧ b!"\r\n" <+: hx ∧ b!"\r\n" <:+ hx ∧ ¬ b!"\r\n\r\n" <:+: hx
  | .hdrLf2 => ∃ hx, InHead cl bd (hx ++ b!"\r") x es ∧ b!"\r\n" <+: hx ∧ b!"\r\n" <:+ hx ∧ ¬ b!"\r\n\r\n" <:+: hx ++ b!"\r"
  | .hdrEnd => ∃ hx, InHead cl bd hx x es ∧ PartHead hx
  | .hdrName | .hdrStrip | .hdrVal | .hdrQuot | .hdrEsc => InLine cl bd x es
  | .hdrLf1 => ∃ hx b, InHead cl bd (hx ++ [b] ++ b!"\r") x es ∧ b ≠ c! '\n' ∧ b!"\r\n" <+: hx ++ [b] ∧ ¬ b!"\r\n\r\n" <:+: hx ++ [b] ++ b!"\r"
  | .mpByte => ∃ d, InPart cl bd d [] (· = none) x es
  | .mpByteLf => ∃ d, InPart cl bd d b!"\r" (· = none) x es
  | .mpLen n => ∃ d, InPart cl bd d [] (· = some (d.length + n)) x es
  | .mpLenCr => ∃ d, InPart cl bd d [] (· = some d.length) x es
  | .mpLenLf => ∃ d, InPart cl bd d b!"\r" (· = some d.length) x es
  | _ => False

/-! ## Lists -/

/-- The last byte of a list that ends an infix of more than one byte. -/
theorem infix_snoc {p x : Bytes} {a b : UInt8} (h : p ++ [a] <:+: x ++ [b]) : p ++ [a] <:+: x ∨ (a = b ∧ p <:+ x) := by
  obtain ⟨s, t, h⟩ := h
  rcases List.eq_nil_or_concat t with rfl | ⟨t, c, rfl⟩
  · rw [List.append_nil, ← List.append_assoc] at h
    have := List.append_inj' h rfl
    simp at this
    exact .inr ⟨this.2, s, this.1⟩
  · rw [List.concat_eq_append, ← List.append_assoc] at h
    exact .inl ⟨s, t, (List.append_inj' h rfl).1⟩

theorem noEnd_snoc {x : Bytes} {b : UInt8} (h : ¬ b!"\r\n\r\n" <:+: x) (hb : b ≠ c! '\n') : ¬ b!"\r\n\r\n" <:+: x ++ [b] := by
  intro h1
  rcases infix_snoc (p := b!"\r\n\r") h1 with h1 | h1
  · exact h h1
  · exact hb h1.1.symm

theorem noEnd_lf {x : Bytes} (h : ¬ b!"\r\n\r\n" <:+: x) (hb : ¬ b!"\r\n\r" <:+ x) : ¬ b!"\r\n\r\n" <:+: x ++ b!"\n" := by
  intro h1
  rcases infix_snoc (p := b!"\r\n\r") h1 with h1 | h1
  · exact h h1
  · exact hb h1.2

/-! ## Steps -/

theorem InHead.snoc {hx x : Bytes} {es fs : List Ev} (h : InHead cl bd hx x es) (b : UInt8) (hf : ∀ e ∈ fs, HeaderEv e) :
    InHead cl bd (hx ++ [b]) (x ++ [b]) (es ++ fs) := by
  obtain ⟨y, l, he, h1, h2, rfl, rfl⟩ := h
  refine ⟨y, l, he ++ fs, h1, ?_, by simp, by simp⟩
  intro e hm
  rcases List.mem_append.1 hm with hm | hm
  · exact h2 e hm
  · exact hf e hm

theorem InLine.snoc {x : Bytes} {es fs : List Ev} (h : InLine cl bd x es) {b : UInt8} (hb : b ≠ c! '\n')
    (hf : ∀ e ∈ fs, HeaderEv e) : InLine cl bd (x ++ [b]) (es ++ fs) := by
  obtain ⟨hx, a, h1, h2, h3, h4⟩ := h
  exact ⟨hx ++ [a], b, h1.snoc b hf, hb, h3.trans (List.prefix_append _ _), noEnd_snoc h4 hb⟩

theorem InLine.cr {x : Bytes} {es : List Ev} (h : InLine cl bd x es) :
    MpJ cl bd (x ++ b!"\r") (es ++ []) .hdrLf1 := by
  obtain ⟨hx, a, h1, h2, h3, h4⟩ := h
  exact ⟨hx, a, h1.snoc _ (by simp), h2, h3, noEnd_snoc h4 (by decide)⟩

theorem hdr_byte {b : UInt8} : bHdrName (c! '\n') = .err [] (.headerName 10) ∧ bHdrVal (c! '\n') = .err [] (.headerValue 10) ∧
    bHdrQuot (c! '\n') = .err [] (.headerValue 10) := by decide

theorem line_of {x : Bytes} {es es' : List Ev} {s' : AS} {b : UInt8} (h : InLine cl bd (x ++ [b]) (es ++ es'))
    (hs : s' = .hdrName ∨ s' = .hdrStrip ∨ s' = .hdrVal ∨ s' = .hdrQuot ∨ s' = .hdrEsc) : MpJ cl bd (x ++ [b]) (es ++ es') s' := by
  rcases hs with rfl | rfl | rfl | rfl | rfl <;> exact h

theorem hdrVal_cr {b : UInt8} {es : List Ev} (h : bHdrVal b = .next es .hdrLf1) : b = c! '\r' := by
  unfold bHdrVal at h
  split at h
  · cases h
  · split at h
    · cases h
    · split at h
      · rename_i h1; simpa using h1
      · split at h <;> cases h

theorem val_step {x : Bytes} {es es' : List Ev} {s' : AS} {b : UInt8} (h : InLine cl bd x es)
    (hs : bHdrVal b = .next es' s') : MpJ cl bd (x ++ [b]) (es ++ es') s' := by
  have hb : b ≠ c! '\n' := by rintro rfl; exact absurd (hdr_byte (b := 0).2.1 ▸ hs) nofun
  rcases hdrVal_res hs with ⟨d, rfl, hs'⟩ | ⟨rfl, rfl⟩
  · exact line_of (h.snoc hb (by simp [HeaderEv])) (by tauto)
  · obtain rfl := hdrVal_cr hs
    exact h.cr

theorem Pend.snoc {e : Bool} {t x : Bytes} {es : List Ev} (h : Pend cl bd e t x es) (b : UInt8) :
    Pend cl bd e (t ++ [b]) (x ++ [b]) (es ++ []) := by
  rcases h with ⟨h1, rfl, rfl⟩ | ⟨d, y, l, hx, he, h1, h2, h3, h4, rfl, rfl⟩
  · exact .inl ⟨h1, rfl, rfl⟩
  · exact .inr ⟨d, y, l, hx, he, h1, h2, h3, h4, by simp, by simp⟩

/-- What is pending turns out to be data. -/
theorem InPart.flush {d t x : Bytes} {es : List Ev} (h : InPart cl bd d t (· = none) x es) (b : UInt8) :
    InPart cl bd (d ++ t ++ [b]) [] (· = none) (x ++ [b]) (es ++ md (t ++ [b])) := by
  obtain ⟨y, l, hx, he, h1, h2, h3, h4, rfl, rfl⟩ := h
  exact ⟨y, l, hx, he, h1, h2, h3, h4, by simp, by simp [md_append]⟩

/-- What is pending turns out to be data, except for the last byte. -/
theorem InPart.flush' {d t x : Bytes} {es : List Ev} (h : InPart cl bd d t (· = none) x es) (b : UInt8) :
    InPart cl bd (d ++ t) [b] (· = none) (x ++ [b]) (es ++ md t) := by
  obtain ⟨y, l, hx, he, h1, h2, h3, h4, rfl, rfl⟩ := h
  exact ⟨y, l, hx, he, h1, h2, h3, h4, by simp, by simp [md_append]⟩

theorem InPart.snoc {d t x : Bytes} {es : List Ev} {P : Option Nat → Prop} (h : InPart cl bd d t P x es) (b : UInt8) :
    InPart cl bd d (t ++ [b]) P (x ++ [b]) (es ++ []) := by
  obtain ⟨y, l, hx, he, h1, h2, h3, h4, rfl, rfl⟩ := h
  exact ⟨y, l, hx, he, h1, h2, h3, h4, by simp, by simp⟩

theorem Pend.part {t x : Bytes} {es : List Ev} (h : Pend cl bd false t x es) :
    ∃ d, InPart cl bd d (b!"\r\n" ++ t) (· = none) x es := by
  rcases h with ⟨h, _⟩ | ⟨d, h⟩
  · cases h
  · exact ⟨d, h⟩

/-- The boundary is complete. -/
theorem Pend.upto {e : Bool} {x : Bytes} {es : List Ev} (h : Pend cl bd e (b!"--" ++ bd) x es) : Upto cl bd x es := by
  rcases h with ⟨-, rfl, rfl⟩ | ⟨d, y, l, hx, he, h1, h2, h3, h4, rfl, rfl⟩
  · exact .first
  · have := Upto.part (d := d) h1 h2 h3 (by intro n hn; rw [hn] at h4; cases e <;> simp at h4; exact h4.symm)
    simpa [delimiter, md] using this

theorem check_step {x : Bytes} {es es' : List Ev} {s' : AS} {b : UInt8} {hx : Bytes} (h : InHead cl bd hx x es)
    (h1 : b!"\r\n" <+: hx) (h2 : ¬ b!"\r\n\r\n" <:+: hx)
    (hs : bHdrCheck b = .next es' s') : MpJ cl bd (x ++ [b]) (es ++ es') s' := by
  have hb : b ≠ c! '\n' := by
    rintro rfl
    have : bHdrCheck (c! '\n') = .err [] (.headerName 10) := by decide
    rw [this] at hs; cases hs
  have key : (∀ e ∈ es', HeaderEv e) → InLine cl bd (x ++ [b]) (es ++ es') := fun he =>
    ⟨hx, b, h.snoc b he, hb, h1.trans (List.prefix_append _ _), noEnd_snoc h2 hb⟩
  rcases hdrCheck_res hs with ⟨d, rfl, rfl⟩ | ⟨rfl, rfl | rfl⟩ <;> exact key (by simp [HeaderEv])

theorem mp_step (hb : env.boundary = some bd) {x : Bytes} {tr es es' : List Ev} {s s' : AS} {b : UInt8} (hn : norm env tr s = ([], s))
    (h : MpJ cl bd x es s) (hs : bstep env s b = .next es' s') : MpJ cl bd (x ++ [b]) (es ++ es') s' := by
  cases s <;> simp only [MpJ] at h <;> simp only [bstep] at hs
  case initialLf =>
    obtain ⟨rfl, rfl, rfl⟩ := expect_res hs
    exact ⟨_, h.snoc _ (by simp), List.prefix_rfl, List.suffix_rfl, by decide⟩
  case hdrName =>
    have hb : b ≠ c! '\n' := by rintro rfl; exact absurd (hdr_byte (b := 0).1 ▸ hs) nofun
    rcases hdrName_res hs with ⟨d, rfl, rfl⟩ | ⟨rfl, rfl⟩ <;> exact h.snoc hb (by simp [HeaderEv])
  case hdrStrip =>
    rcases strip_res hs with ⟨rfl, rfl⟩ | hs1
    · have hb : b ≠ c! '\n' := by
        rintro rfl
        have : bStrip .hdrStrip bHdrVal .headerValue (c! '\n') = .err [] (.headerValue 10) := by decide
        rw [this] at hs; cases hs
      exact h.snoc hb (by simp)
    · exact val_step h hs1
  case hdrVal => exact val_step h hs
  case hdrQuot =>
    have hb : b ≠ c! '\n' := by rintro rfl; exact absurd (hdr_byte (b := 0).2.2 ▸ hs) nofun
    obtain ⟨d, rfl, hs'⟩ := hdrQuot_res hs
    exact line_of (h.snoc hb (by simp [HeaderEv])) (by tauto)
  case hdrEsc =>
    split at hs <;> cases hs
    rename_i h1
    have hb : b ≠ c! '\n' := by rintro rfl; exact absurd h1 (by decide)
    exact h.snoc hb (by simp [HeaderEv])
  case hdrLf1 =>
    obtain ⟨rfl, rfl, rfl⟩ := expect_res hs
    obtain ⟨hx, a, h1, h2, h3, h4⟩ := h
    refine ⟨_, h1.snoc _ (by simp), ?_, ⟨hx ++ [a], by simp⟩, ?_⟩
    · exact h3.trans ⟨b!"\r\n", by simp⟩
    · refine noEnd_lf h4 ?_
      rintro ⟨t, ht⟩
      rw [show t ++ b!"\r\n\r" = t ++ b!"\r" ++ b!"\n" ++ b!"\r" by simp] at ht
      have := (List.append_inj' (List.append_inj' ht rfl).1 rfl).2
      simp at this
      exact h2 this.symm
  case hdrCr2 =>
    obtain ⟨hx, h1, h2, h3, h4⟩ := h
    split at hs
    · rename_i hb; simp at hb; subst hb; cases hs
      exact ⟨hx, h1.snoc _ (by simp), h2, h3, noEnd_snoc h4 (by decide)⟩
    · exact check_step h1 h2 h4 hs
  case hdrLf2 =>
    obtain ⟨rfl, rfl, rfl⟩ := expect_res hs
    obtain ⟨hx, h1, h2, ⟨t, rfl⟩, h4⟩ := h
    refine ⟨_, h1.snoc _ (by simp), _, rfl, ⟨t, by simp⟩, ?_, h4⟩
    exact h2.trans ⟨b!"\r\n", by simp⟩
  case hyphen1 e =>
    split at hs
    · rename_i hb; simp at hb; subst hb; cases hs
      exact h.snoc _
    · split at hs <;> cases hs
      rename_i he
      simp at he; subst he
      obtain ⟨d, h⟩ := h.part
      exact ⟨_, h.flush b⟩
  case hyphen2 e =>
    split at hs
    · rename_i hb; simp at hb; subst hb; cases hs
      exact ⟨Nat.zero_le _, h.snoc _⟩
    · split at hs <;> cases hs
      rename_i he
      simp at he; subst he
      obtain ⟨d, h⟩ := h.part
      exact ⟨_, h.flush b⟩
  case bound e i =>
    rw [hb] at hs
    simp only at hs
    obtain ⟨hi, h⟩ := h
    split at hs
    · rename_i hc
      cases hs
      have hi : i < bd.length := by
        rcases Nat.lt_or_ge i bd.length with h1 | h1
        · exact h1
        · rw [List.getElem?_eq_none h1] at hc; cases hc
      refine ⟨hi, ?_⟩
      rw [take_snoc hc, ← List.append_assoc]
      exact h.snoc _
    · split at hs
      · cases hs
      · rename_i he
        simp at he; subst he
        obtain ⟨d, h⟩ := h.part
        unfold bMpByte at hs
        split at hs
        · rename_i hb; simp at hb; subst hb
          simp only [BRes.pre, BRes.next.injEq] at hs
          obtain ⟨rfl, rfl⟩ := hs
          have h1 := h.flush' (c! '\r')
          rw [← List.append_nil (md _)] at h1
          exact ⟨_, h1⟩
        · simp only [BRes.pre, BRes.next.injEq] at hs
          obtain ⟨rfl, rfl⟩ := hs
          have h1 := h.flush b
          rw [md_append] at h1
          exact ⟨_, h1⟩
  case boundCr =>
    split at hs
    · rename_i hb; simp at hb; subst hb; cases hs
      exact ⟨_, _, [], h, by simp, rfl, rfl⟩
    · split at hs <;> cases hs
      rename_i hb; simp at hb; subst hb
      exact ⟨x, by simpa using h, rfl⟩
  case mpLen n =>
    cases hs
    have hn' : n ≠ 0 := by rintro rfl; simp [norm, mpLen'] at hn
    obtain ⟨d, y, l, hx, he, h1, h2, h3, h4, rfl, rfl⟩ := h
    refine ⟨d ++ [b], y, l, hx, he, h1, h2, h3, ?_, by simp, by simp [md, flatEv]⟩
    simp only [List.length_append, List.length_singleton] at h4 ⊢
    rw [h4]
    congr 1
    omega
  case mpLenCr =>
    obtain ⟨rfl, rfl, rfl⟩ := expect_res hs
    obtain ⟨d, h⟩ := h
    exact ⟨d, h.snoc _⟩
  case mpLenLf =>
    obtain ⟨rfl, rfl, rfl⟩ := expect_res hs
    obtain ⟨d, h⟩ := h
    exact .inr ⟨d, h.snoc _⟩
  case mpByte =>
    obtain ⟨d, h⟩ := h
    unfold bMpByte at hs
    split at hs
    · rename_i hb; simp at hb; subst hb; cases hs
      exact ⟨d, h.snoc _⟩
    · cases hs
      exact ⟨_, h.flush b⟩
  case mpByteLf =>
    obtain ⟨d, h⟩ := h
    split at hs
    · rename_i hb; simp at hb; subst hb; cases hs
      exact .inr ⟨d, h.snoc _⟩
    · cases hs
      exact ⟨_, h.flush b⟩
  case mpEnd =>
    obtain ⟨rfl, rfl, rfl⟩ := expect_res hs
    obtain ⟨y, h, rfl⟩ := h
    exact ⟨y, by simpa using h, by simp⟩
  all_goals cases hs

/-- The invariant, after the callbacks `tr0`. -/
def MpT (env : Env) (bd : Bytes) (tr0 : List Ev) (x : Bytes) (tr : List Ev) (s : AS) : Prop :=
  ∃ es, tr = tr0 ++ es ∧ MpJ (fun fs => env.cl (tr0 ++ fs)) bd x es s

theorem mp_norm (hb : env.boundary = some bd) (hp : env.ptype = .multipart) {tr0 : List Ev} {x : Bytes} {tr : List Ev} {s : AS}
    (h : MpT env bd tr0 x tr s) : MpT env bd tr0 x (tr ++ (norm env tr s).1) (norm env tr s).2 := by
  obtain ⟨es, rfl, h⟩ := h
  cases s <;> simp only [MpJ] at h <;> (try exact ⟨es, by simp [norm], h⟩)
  case hdrEnd =>
    obtain ⟨hx, ⟨y, l, he, h1, h2, rfl, rfl⟩, h3⟩ := h
    simp only [norm, hp]
    refine ⟨l ++ .multipartBegin :: he ++ [.headersFinished], by simp, ?_⟩
    rw [show tr0 ++ (l ++ .multipartBegin :: he) ++ [.headersFinished] =
      tr0 ++ (l ++ .multipartBegin :: he ++ [.headersFinished]) by simp]
    have key : ∀ o, env.cl (tr0 ++ (l ++ .multipartBegin :: he ++ [.headersFinished])) = o →
        MpJ (fun fs => env.cl (tr0 ++ fs)) bd (y ++ hx) (l ++ .multipartBegin :: he ++ [.headersFinished]) (mpData o) := by
      intro o ho
      cases o with
      | none => exact ⟨[], y, l, hx, he, h1, h3, h2, ho, by simp, by simp [md, flatEv]⟩
      | some n =>
        by_cases h0 : n = 0
        · subst h0
          exact ⟨[], y, l, hx, he, h1, h3, h2, ho, by simp, by simp [md, flatEv]⟩
        · simp only [mpData, mpLen', if_neg h0]
          exact ⟨[], y, l, hx, he, h1, h3, h2, by simpa using ho, by simp, by simp [md, flatEv]⟩
    exact key _ rfl
  case bound e i =>
    simp only [norm, hb]
    refine ⟨es, by simp, ?_⟩
    obtain ⟨h1, h2⟩ := h
    split
    · rename_i h3
      rw [List.take_of_length_le h3] at h2
      exact h2.upto
    · exact ⟨h1, h2⟩
  case mpLen n =>
    refine ⟨es, by simp [norm], ?_⟩
    by_cases h0 : n = 0
    · subst h0; exact h
    · simp only [norm, mpLen', if_neg h0]; exact h
  case bodyFin =>
    obtain ⟨y, h, rfl⟩ := h
    exact ⟨es ++ [.bodyFinished], by simp [norm], y, es, h, rfl, rfl⟩

theorem keeps_mp (hb : env.boundary = some bd) (hp : env.ptype = .multipart) (tr0 : List Ev) :
    KeepsJ env (MpT env bd tr0) := by
  refine ⟨fun _ _ _ h => mp_norm hb hp h, ?_⟩
  rintro x tr s b es' s' hn ⟨es, rfl, h⟩ hs
  exact ⟨es ++ es', by simp, mp_step hb hn h hs⟩

/-! ## The specification -/

theorem InPart.conserved {d t x : Bytes} {es : List Ev} {P : Option Nat → Prop} (h : InPart cl bd d t P x es)
    (ht : t <+: delimiter bd) (hP : ∀ n, P (some n) → d.length ≤ n ∧ (t ≠ [] → d.length = n)) : Conserved cl bd x es := by
  obtain ⟨y, l, hx, he, h1, h2, h3, h4, rfl, rfl⟩ := h
  exact .data h1 h2 h3 (fun n hn => hP n (hn ▸ h4)) ht

theorem Pend.conserved {e : Bool} {t x : Bytes} {es : List Ev} (h : Pend cl bd e t x es) (ht : t <+: b!"--" ++ bd) :
    Conserved cl bd x es := by
  rcases h with ⟨-, rfl, rfl⟩ | ⟨d, h⟩
  · exact .start ht
  · refine h.conserved ?_ ?_
    · obtain ⟨r, hr⟩ := ht
      exact ⟨r, by simp [delimiter, ← hr]⟩
    · intro n hn
      cases e <;> simp at hn
      exact ⟨Nat.le_of_eq hn.symm, fun _ => hn.symm⟩

theorem InHead.conserved {hx x : Bytes} {es : List Ev} (h : InHead cl bd hx x es) (h1 : b!"\r" <+: hx)
    (h2 : ¬ b!"\r\n\r\n" <:+: hx) : Conserved cl bd x es := by
  obtain ⟨y, l, he, h3, h4, rfl, rfl⟩ := h
  exact .head h3 h1 h2 h4

theorem prefix_cr {hx : Bytes} (h : b!"\r\n" <+: hx) : b!"\r" <+: hx := List.IsPrefix.trans ⟨b!"\n", rfl⟩ h

theorem MpJ.conserved {x : Bytes} {es : List Ev} {s : AS} (h : MpJ cl bd x es s) (hn : s ≠ .hdrEnd) (hn' : s ≠ .bodyFin) :
    Conserved cl bd x es := by
  cases s <;> simp only [MpJ] at h <;> (try exact absurd rfl hn) <;> (try exact absurd rfl hn')
  case initialLf => exact h.conserved List.prefix_rfl (by decide)
  case hdrName | hdrStrip | hdrVal | hdrQuot | hdrEsc =>
    obtain ⟨hx, b, h1, h2, h3, h4⟩ := h
    exact h1.conserved (prefix_cr h3) h4
  case hdrLf1 =>
    obtain ⟨hx, b, h1, h2, h3, h4⟩ := h
    exact h1.conserved (prefix_cr (h3.trans (List.prefix_append _ _))) h4
  case hdrCr2 =>
    obtain ⟨hx, h1, h2, h3, h4⟩ := h
    exact h1.conserved (prefix_cr h2) h4
  case hdrLf2 =>
    obtain ⟨hx, h1, h2, h3, h4⟩ := h
    exact h1.conserved (prefix_cr (h2.trans (List.prefix_append _ _))) h4
  case hyphen1 e => exact h.conserved List.nil_prefix
  case hyphen2 e => exact h.conserved ⟨b!"-" ++ bd, rfl⟩
  case bound e i => exact h.2.conserved ⟨bd.drop i, by simp⟩
  case boundCr =>
    have := Conserved.boundary (t := []) h List.nil_prefix
    simpa using this
  case mpLen n => obtain ⟨d, h⟩ := h; exact h.conserved List.nil_prefix (by intro m hm; simp at hm; subst hm; simp)
  case mpLenCr => obtain ⟨d, h⟩ := h; exact h.conserved List.nil_prefix (by intro m hm; simp at hm; subst hm; simp)
  case mpLenLf => obtain ⟨d, h⟩ := h; exact h.conserved ⟨b!"\n--" ++ bd, rfl⟩ (by intro m hm; simp at hm; subst hm; simp)
  case mpByte => obtain ⟨d, h⟩ := h; exact h.conserved List.nil_prefix (by intro m hm; simp at hm)
  case mpByteLf => obtain ⟨d, h⟩ := h; exact h.conserved ⟨b!"\n--" ++ bd, rfl⟩ (by intro m hm; simp at hm)
  case mpEnd => obtain ⟨y, h, rfl⟩ := h; exact .boundary h List.prefix_rfl
  case fin => obtain ⟨y, l, h, rfl, rfl⟩ := h; exact .done h

theorem Stop.conserved {tr0 tr : List Ev} {x : Bytes} {s : AS} (hp : env.ptype = .multipart) (h : MpT env bd tr0 x tr s)
    (hs : Stop env tr s) : ∃ es, tr = tr0 ++ es ∧ Conserved (fun fs => env.cl (tr0 ++ fs)) bd x es := by
  obtain ⟨es, h1, h2⟩ := h
  refine ⟨es, h1, h2.conserved ?_ ?_⟩
  · rintro rfl
    have := congrArg Prod.fst hs.2
    simp [norm, hp] at this
  · rintro rfl
    have := congrArg Prod.fst hs.2
    simp [norm] at this

theorem mp_err {tr0 tr es : List Ev} {s : AS} {b : UInt8} {e : PErr} {x : Bytes} (h : MpT env bd tr0 x tr s)
    (hs : bstep env s b = .err es e) : es = [] := by
  obtain ⟨es, -, h⟩ := h
  cases s <;> simp only [MpJ] at h <;>
    simp only [bstep, bHdrCheck, bHdrFirst, bHdrName, bStrip, bHdrVal, bHdrQuot, bExpect, bMpByte] at hs <;>
    (repeat' split at hs) <;> cases hs <;> rfl

theorem mpT_start {tr0 : List Ev} : MpT env bd tr0 [] tr0 (.hyphen1 true) :=
  ⟨[], by simp, .inl ⟨rfl, rfl, rfl⟩⟩

/-- The whole run. -/
theorem mp_run (hb : env.boundary = some bd) (hp : env.ptype = .multipart) (tr0 : List Ev) (m : Bytes) :
    let K := pred env tr0 (.hyphen1 true) m
    let C := Conserved (fun fs => env.cl (tr0 ++ fs)) bd
    ∃ x es, K.1 = tr0 ++ es ∧ C x es ∧
      match K.2 with
      | .eos => x = m
      | .finished r => m = x ++ r ∧ ∃ es', es = es' ++ [.bodyFinished]
      | .err _ r => ∃ b, m = x ++ b :: r
      | .errB r => ∃ b, m = x ++ b :: r
      | .panic => x <+: m := by
  intro K C
  have H := pred_run (keeps_mp hb hp tr0) m [] tr0 (.hyphen1 true) mpT_start
  revert H
  show RunEnd env (MpT env bd tr0) [] m K → _
  generalize K = K
  obtain ⟨tr, f⟩ := K
  cases f <;> simp only [RunEnd]
  · rintro ⟨s, h1, h⟩
    obtain ⟨es, h2, h3⟩ := h1.conserved hp h
    exact ⟨_, es, h2, h3, rfl⟩
  · rintro ⟨y, rfl, es, h2, h3⟩
    refine ⟨_, es, h2, h3.conserved nofun nofun, rfl, ?_⟩
    obtain ⟨z, l, -, -, h4⟩ := h3
    exact ⟨l, h4⟩
  · rintro ⟨y, b, tr', es', s, rfl, rfl, h, h1, hs⟩
    obtain rfl := mp_err h hs
    obtain ⟨es, h2, h3⟩ := h1.conserved hp h
    exact ⟨_, es, by simpa using h2, h3, b, rfl⟩
  · rintro ⟨y, b, s, rfl, h, h1⟩
    obtain ⟨es, h2, h3⟩ := h1.conserved hp h
    exact ⟨_, es, h2, h3, b, rfl⟩
  · rintro ⟨y, b, r, s, rfl, h, h1, -⟩
    obtain ⟨es, h2, h3⟩ := h1.conserved hp h
    exact ⟨_, es, h2, h3, List.prefix_append _ _⟩

end Verif.Http1
