import Verif.Http1.HeadOrder

/-!
# The numbers of a head (helper lemmas)
-/

set_option linter.unusedSimpArgs false
set_option linter.unusedVariables false

namespace Verif.Http1

variable {env : Env} {fut : Bytes} {K : List Ev × Fin} {h : Handler} {c : Cfg}

/-- Blanks and line ends. -/
def Blanks (x : Bytes) : Prop := ∀ b ∈ x, b ∈ b!" \t\r\n"
/-- Blanks and a method. -/
def Method (x : Bytes) : Prop := ∃ bl m, Blanks bl ∧ (∀ b ∈ m, UpperByte b) ∧ x = bl ++ m
/-- Blanks, a method, and a URL. -/
def Url (x : Bytes) : Prop := ∃ y u, Method y ∧ (∀ b ∈ u, VisibleByte b) ∧ x = y ++ b!" " ++ u
/-- What stands before a version number (`r`: in a response). -/
def NumPre (r : Bool) (x : Bytes) : Prop := if r then ResponseStart x else RequestStart x

/-- ... and `k` digits of the major version `v`. -/
def Maj (r : Bool) (v k : Nat) (x : Bytes) : Prop :=
  ∃ p d, NumPre r p ∧ Digits d v ∧ d.length = k ∧ x = p ++ d
/-- ... and the dot. -/
def Dot (r : Bool) (v : Nat) (x : Bytes) : Prop := ∃ p d, NumPre r p ∧ Digits d v ∧ x = p ++ d ++ b!"."
/-- ... and `k` digits of the minor version `w`. -/
def Min (r : Bool) (v w k : Nat) (x : Bytes) : Prop :=
  ∃ p d, Dot r v p ∧ Digits d w ∧ d.length = k ∧ x = p ++ d
/-- The version of a response and the space after it. -/
def Ver (x : Bytes) : Prop := ∃ p a b k, Min true a b k p ∧ x = p ++ b!" "

/-- What the bytes read look like in a state. -/
def Local : AS → Bytes → Prop
  | .stripDetect, x | .detect1, x => Blanks x
  | .det2, x | .ldet2, x => ∃ bl, Blanks bl ∧ x = bl ++ b!"H"
  | .det3, x | .ldet3, x => ∃ bl, Blanks bl ∧ x = bl ++ b!"HT"
  | .det4, x | .ldet4, x => ∃ bl, Blanks bl ∧ x = bl ++ b!"HTT"
  | .det5, x | .ldet5, x => ∃ bl, Blanks bl ∧ x = bl ++ b!"HTTP"
  | .method, x => Method x
  | .url1, x => ∃ y, Method y ∧ x = y ++ b!" "
  | .url2, x => Url x
  | .http1, x => ∃ y, Url y ∧ x = y ++ b!" "
  | .http2, x => ∃ y, Url y ∧ x = y ++ b!" H"
  | .http3, x => ∃ y, Url y ∧ x = y ++ b!" HT"
  | .http4, x => ∃ y, Url y ∧ x = y ++ b!" HTT"
  | .http5, x => ∃ y, Url y ∧ x = y ++ b!" HTTP"
  | .maj1 r, x => NumPre r x
  | .maj2 r v, x => Maj r v 1 x
  | .maj3 r v, x => Maj r v 2 x
  | .period r v, x => Maj r v 3 x
  | .min1 r v, x => Dot r v x
  | .min2 r v w, x => Min r v w 1 x
  | .min3 r v w, x => Min r v w 2 x
  | .verEnd r v w, x => Min r v w 3 x
  | .code1, x => Ver x
  | .code2 v, x => ∃ y n, Ver y ∧ (∃ a, x = y ++ [a] ∧ isDigit a = true ∧ v = dec a * 100) ∧ n = 1
  | .code3 v, x => ∃ y a b, Ver y ∧ x = y ++ [a, b] ∧ isDigit a = true ∧ isDigit b = true ∧
      v = dec a * 100 + dec b * 10
  | .codeSp v, x => ∃ y d, Ver y ∧ x = y ++ d ∧ Digits d v ∧ d.length = 3
  | _, _ => True

/-- The numbers in the events are those of the bytes read. -/
structure NumOK (x : Bytes) (tr : List Ev) (s : AS) : Prop where
  ver : ∀ a b, .version a b ∈ tr → VersionIn x a b
  code : ∀ v, .statusCode v ∈ tr → StatusIn x v
  loc : Local s x

theorem VersionIn.mono {x : Bytes} {a b : Nat} (h : VersionIn x a b) (y : Bytes) : VersionIn (x ++ y) a b := by
  obtain ⟨p, da, db, post, h1, h2, h3⟩ := h
  refine ⟨p, da, db, post ++ y, h1, h2, ?_⟩
  rcases h3 with ⟨h, rfl⟩ | ⟨h, rfl⟩
  · exact .inl ⟨h, by simp⟩
  · exact .inr ⟨h, by simp⟩

theorem StatusIn.mono {x : Bytes} {v : Nat} (h : StatusIn x v) (y : Bytes) : StatusIn (x ++ y) v := by
  obtain ⟨p, da, db, ds, post, a, b, h1, h2, h3, h4, h5, rfl⟩ := h
  exact ⟨p, da, db, ds, post ++ y, a, b, h1, h2, h3, h4, h5, by simp⟩

/-- The callback tells a number. -/
def isNum : Ev → Bool
  | .version _ _ | .statusCode _ => true
  | _ => false

theorem NumOK.go {x : Bytes} {tr es : List Ev} {s s' : AS} {b : UInt8} (h : NumOK x tr s)
    (he : ∀ e ∈ es, isNum e = false) (hl : Local s' (x ++ [b])) : NumOK (x ++ [b]) (tr ++ es) s' := by
  refine ⟨fun a b' hm => ?_, fun v hm => ?_, hl⟩
  · rcases List.mem_append.1 hm with hm | hm
    · exact (h.ver _ _ hm).mono _
    · exact absurd (he _ hm) (by simp [isNum])
  · rcases List.mem_append.1 hm with hm | hm
    · exact (h.code _ hm).mono _
    · exact absurd (he _ hm) (by simp [isNum])

theorem blank_spec {b : UInt8} (h : isBlank b = true) : b ∈ b!" \t\r\n" := by
  have key : ∀ b : UInt8, isBlank b = true → b ∈ b!" \t\r\n" := by
    apply Util.forall_u8
    decide +kernel
  exact key b h

theorem digit_spec {b : UInt8} (h : isDigit b = true) : c! '0' ≤ b ∧ b ≤ c! '9' := by
  have key : ∀ b : UInt8, isDigit b = true → c! '0' ≤ b ∧ b ≤ c! '9' := by
    apply Util.forall_u8
    decide +kernel
  exact key b h

theorem Blanks.snoc {x : Bytes} {b : UInt8} (h : Blanks x) (hb : b ∈ b!" \t\r\n") : Blanks (x ++ [b]) := by
  intro y hy
  rcases List.mem_append.1 hy with hy | hy
  · exact h y hy
  · simp at hy; rw [hy]; exact hb

theorem Method.snoc {x : Bytes} {b : UInt8} (h : Method x) (hb : UpperByte b) : Method (x ++ [b]) := by
  obtain ⟨bl, m, h1, h2, rfl⟩ := h
  refine ⟨bl, m ++ [b], h1, ?_, by simp⟩
  intro y hy
  rcases List.mem_append.1 hy with hy | hy
  · exact h2 y hy
  · simp at hy; rw [hy]; exact hb

theorem Url.snoc {x : Bytes} {b : UInt8} (h : Url x) (hb : VisibleByte b) : Url (x ++ [b]) := by
  obtain ⟨bl, m, h1, h2, rfl⟩ := h
  refine ⟨bl, m ++ [b], h1, ?_, by simp⟩
  intro y hy
  rcases List.mem_append.1 hy with hy | hy
  · exact h2 y hy
  · simp at hy; rw [hy]; exact hb

theorem Digits.one {b : UInt8} (hb : isDigit b = true) : Digits [b] (dec b) := by
  refine ⟨by simp, by simp, ?_, by simp [decVal, dec]⟩
  simpa using digit_spec hb

theorem Digits.snoc {d : Bytes} {v : Nat} {b : UInt8} (h : Digits d v) (hl : d.length ≤ 2) (hb : isDigit b = true) :
    Digits (d ++ [b]) (v * 10 + dec b) := by
  obtain ⟨h1, h2, h3, rfl⟩ := h
  refine ⟨by simp, by simp; omega, ?_, by simp [decVal, dec]⟩
  intro y hy
  rcases List.mem_append.1 hy with hy | hy
  · exact h3 y hy
  · simp at hy; rw [hy]; exact digit_spec hb

theorem num_method {x : Bytes} {tr es : List Ev} {s s' : AS} {b : UInt8} (h : NumOK x tr s) (hm : Method x)
    (hs : bMethod b = .next es s') : NumOK (x ++ [b]) (tr ++ es) s' := by
  unfold bMethod at hs
  split at hs
  · rename_i hu
    cases hs; exact h.go (by simp [isNum]) (hm.snoc (upper_spec hu).1)
  · split at hs <;> cases hs
    rename_i hb
    exact h.go (by simp) ⟨x, hm, by simpa using hb⟩

theorem num_det {x : Bytes} {tr es : List Ev} {s s1 s' : AS} {b y : UInt8} {buf : Bytes} (h : NumOK x tr s)
    (hs : bDet buf y s1 b = .next es s')
    (hx : ∃ bl, Blanks bl ∧ x = bl ++ buf) (hb : ∀ b ∈ buf, UpperByte b)
    (hl : ∀ bl, Blanks bl → Local s1 (bl ++ buf ++ [y])) :
    NumOK (x ++ [b]) (tr ++ es) s' := by
  obtain ⟨bl, h1, rfl⟩ := hx
  unfold bDet at hs
  split at hs
  · rename_i hy
    simp at hy; subst hy
    cases hs; exact h.go (by simp) (hl bl h1)
  · cases hm : bMethod b with
    | next es1 s2 =>
      rw [hm] at hs
      simp only [BRes.pre, BRes.next.injEq] at hs
      obtain ⟨rfl, rfl⟩ := hs
      have h2 := num_method h ⟨bl, buf, h1, hb, rfl⟩ hm
      have h3 : ∀ e ∈ flatEv (.method buf) ++ es1, isNum e = false := by
        intro e he
        rcases List.mem_append.1 he with he | he
        · simp only [flatEv, List.mem_map] at he
          obtain ⟨y, _, rfl⟩ := he
          rfl
        · unfold bMethod at hm
          split at hm
          · cases hm; simp at he; rw [he]; rfl
          · split at hm <;> cases hm; simp at he
      exact h.go h3 h2.loc
    | err es e => rw [hm] at hs; cases hs
    | errB => rw [hm] at hs; cases hs
    | panic => rw [hm] at hs; cases hs

theorem num_ldet {x : Bytes} {tr es : List Ev} {s s1 s' : AS} {b y : UInt8} {buf : Bytes} (h : NumOK x tr s)
    (hs : bLDet y s1 b = .next es s')
    (hx : ∃ bl, Blanks bl ∧ x = bl ++ buf) (hb : ∀ b ∈ buf, UpperByte b)
    (hl : ∀ bl, Blanks bl → Local s1 (bl ++ buf ++ [y])) :
    NumOK (x ++ [b]) (tr ++ es) s' := by
  obtain ⟨bl, h1, rfl⟩ := hx
  unfold bLDet at hs
  split at hs
  · rename_i hy
    simp at hy; subst hy
    cases hs; exact h.go (by simp) (hl bl h1)
  · split at hs <;> cases hs
    rename_i hu
    exact h.go (by simp [isNum]) (Method.snoc ⟨bl, buf, h1, hb, rfl⟩ (upper_spec hu).1)

theorem num_detect1 {x : Bytes} {tr es : List Ev} {s s' : AS} {b : UInt8} (h : NumOK x tr s)
    (hx : Blanks x) (hs : bDetect1 b = .next es s') : NumOK (x ++ [b]) (tr ++ es) s' := by
  unfold bDetect1 at hs
  split at hs
  · rename_i hb
    cases hs; exact h.go (by simp) ⟨x, hx, by simpa using hb⟩
  · split at hs <;> cases hs
    rename_i hu
    exact h.go (by simp [isNum]) (Method.snoc ⟨x, [], hx, by simp, by simp⟩ (upper_spec hu).1)

theorem num_expect {x : Bytes} {tr es : List Ev} {s s1 s' : AS} {b y : UInt8} {f : UInt8 → PErr} (h : NumOK x tr s)
    (hs : bExpect y s1 f b = .next es s') (hl : Local s1 (x ++ [y])) : NumOK (x ++ [b]) (tr ++ es) s' := by
  unfold bExpect at hs
  split at hs <;> cases hs
  rename_i hb
  simp at hb; subst hb
  exact h.go (by simp) hl

theorem num_verEnd {x : Bytes} {tr es : List Ev} {s s' : AS} {b : UInt8} {r : Bool} {v w k : Nat} (h : NumOK x tr s)
    (hm : Min r v w k x) (hs : bVerEnd r v w b = .next es s') : NumOK (x ++ [b]) (tr ++ es) s' := by
  unfold bVerEnd at hs
  split at hs <;> cases hs
  rename_i hb
  simp at hb; subst hb
  have hm' := hm
  obtain ⟨_, db, ⟨p, da, hp, hd, rfl⟩, hd', hk, rfl⟩ := hm
  have hv : VersionIn (p ++ da ++ b!"." ++ db ++ [stopByte r]) v w := by
    refine ⟨p, da, db, [], hd, hd', ?_⟩
    cases r
    · exact .inl ⟨hp, by simp [stopByte]⟩
    · exact .inr ⟨hp, by simp [stopByte]⟩
  refine ⟨fun a b' hm => ?_, fun v hm => ?_, ?_⟩
  · rcases List.mem_append.1 hm with hm | hm
    · exact (h.ver _ _ hm).mono _
    · simp at hm; obtain ⟨rfl, rfl⟩ := hm; exact hv
  · rcases List.mem_append.1 hm with hm | hm
    · exact (h.code _ hm).mono _
    · simp at hm
  · cases r
    · trivial
    · exact ⟨_, v, w, k, hm', by simp [stopByte]⟩

/-- States in which nothing is said about the bytes read and no numbers are emitted. -/
def AS.late : AS → Bool
  | .reason1 | .reason2 | .initialEnd | .initialLf | .hdrCheck | .hdrFirst | .hdrName | .hdrStrip | .hdrVal
  | .hdrQuot | .hdrEsc | .hdrCr1 | .hdrLf1 | .hdrCr2 | .hdrLf2 | .hdrEnd | .fin => true
  | _ => false

theorem late_step {s : AS} {b : UInt8} {es : List Ev} {s' : AS} (h : s.late = true)
    (hs : bstep env s b = .next es s') : s'.late = true ∧ ∀ e ∈ es, isNum e = false := by
  cases s <;> simp only [AS.late, reduceCtorEq] at h
  all_goals simp only [bstep, bExpect, bHdrName, bHdrFirst, bHdrCheck, bHdrVal,
      bHdrQuot, bStrip, reduceCtorEq] at hs
  all_goals (repeat' split at hs)
  all_goals cases hs
  all_goals simp [AS.late, isNum]

theorem late_local {s : AS} (h : s.late = true) (x : Bytes) : Local s x := by
  cases s <;> first | trivial | cases h

theorem num_step {x : Bytes} {tr es : List Ev} {s s' : AS} {b : UInt8} (ho : InOrder tr s) (h : NumOK x tr s)
    (hs : bstep env s b = .next es s') : NumOK (x ++ [b]) (tr ++ es) s' := by
  obtain ⟨p, -, hq⟩ := ho
  by_cases hlate : s.late = true
  · obtain ⟨h1, h2⟩ := late_step hlate hs
    exact h.go h2 (late_local h1 _)
  have hL := h.loc
  cases s <;> simp only [AS.ph] at hq <;> (try exact absurd rfl hlate) <;> simp only [bstep] at hs <;>
    simp only [Local] at hL
  case stripDetect =>
    split at hs
    · rename_i hb; cases hs; exact h.go (by simp) (hL.snoc (blank_spec hb))
    · exact num_detect1 h hL hs
  case detect1 => exact num_detect1 h hL hs
  case det2 => exact num_det h hs hL (by decide) (fun bl hb => ⟨bl, hb, by simp⟩)
  case det3 => exact num_det h hs hL (by decide) (fun bl hb => ⟨bl, hb, by simp⟩)
  case det4 => exact num_det h hs hL (by decide) (fun bl hb => ⟨bl, hb, by simp⟩)
  case det5 => exact num_det h hs hL (by decide) (fun bl hb => ⟨bl, hb, by simp⟩)
  case ldet2 => exact num_ldet h hs hL (by decide) (fun bl hb => ⟨bl, hb, by simp⟩)
  case ldet3 => exact num_ldet h hs hL (by decide) (fun bl hb => ⟨bl, hb, by simp⟩)
  case ldet4 => exact num_ldet h hs hL (by decide) (fun bl hb => ⟨bl, hb, by simp⟩)
  case ldet5 => exact num_ldet h hs hL (by decide) (fun bl hb => ⟨bl, hb, by simp⟩)
  case method => exact num_method h hL hs
  case url1 =>
    split at hs <;> cases hs
    rename_i hv
    obtain ⟨y, hy, rfl⟩ := hL
    exact h.go (by simp [isNum]) ⟨y, [b], hy, by simpa using visible_spec hv, by simp⟩
  case url2 =>
    split at hs
    · rename_i hv
      cases hs
      exact h.go (by simp [isNum]) (hL.snoc (visible_spec hv))
    · split at hs <;> cases hs
      rename_i hb
      exact h.go (by simp) ⟨_, hL, by simpa using hb⟩
  case http1 => obtain ⟨y, hy, rfl⟩ := hL; exact num_expect h hs ⟨y, hy, by simp⟩
  case http2 => obtain ⟨y, hy, rfl⟩ := hL; exact num_expect h hs ⟨y, hy, by simp⟩
  case http3 => obtain ⟨y, hy, rfl⟩ := hL; exact num_expect h hs ⟨y, hy, by simp⟩
  case http4 => obtain ⟨y, hy, rfl⟩ := hL; exact num_expect h hs ⟨y, hy, by simp⟩
  case http5 =>
    obtain ⟨y, ⟨_, u, ⟨bl, m, h1, h2, rfl⟩, h3, rfl⟩, rfl⟩ := hL
    exact num_expect h hs ⟨bl, m, u, h1, h2, h3, by simp⟩
  case maj1 r =>
    split at hs <;> cases hs
    rename_i hd
    exact h.go (by simp) ⟨x, [b], hL, .one hd, rfl, rfl⟩
  case maj2 r v =>
    obtain ⟨p, d, h1, h2, h3, rfl⟩ := hL
    split at hs
    · rename_i hb; simp at hb; subst hb
      cases hs; exact h.go (by simp) ⟨p, d, h1, h2, rfl⟩
    · split at hs <;> cases hs
      rename_i hd
      exact h.go (by simp) ⟨p, d ++ [b], h1, h2.snoc (by omega) hd, by simp [h3], by simp⟩
  case maj3 r v =>
    obtain ⟨p, d, h1, h2, h3, rfl⟩ := hL
    split at hs
    · rename_i hb; simp at hb; subst hb
      cases hs; exact h.go (by simp) ⟨p, d, h1, h2, rfl⟩
    · split at hs <;> cases hs
      rename_i hd
      exact h.go (by simp) ⟨p, d ++ [b], h1, h2.snoc (by omega) hd, by simp [h3], by simp⟩
  case period r v =>
    obtain ⟨p, d, h1, h2, h3, rfl⟩ := hL
    exact num_expect h hs ⟨p, d, h1, h2, rfl⟩
  case min1 r v =>
    split at hs <;> cases hs
    rename_i hd
    exact h.go (by simp) ⟨x, [b], hL, .one hd, rfl, rfl⟩
  case min2 r v w =>
    split at hs
    · obtain ⟨p, d, h1, h2, h3, rfl⟩ := hL
      rename_i hd; cases hs
      exact h.go (by simp) ⟨p, d ++ [b], h1, h2.snoc (by omega) hd, by simp [h3], by simp⟩
    · exact num_verEnd h hL hs
  case min3 r v w =>
    split at hs
    · obtain ⟨p, d, h1, h2, h3, rfl⟩ := hL
      rename_i hd; cases hs
      exact h.go (by simp) ⟨p, d ++ [b], h1, h2.snoc (by omega) hd, by simp [h3], by simp⟩
    · exact num_verEnd h hL hs
  case verEnd r v w => exact num_verEnd h hL hs
  case code1 =>
    split at hs <;> cases hs
    rename_i hd
    exact h.go (by simp) ⟨x, 1, hL, ⟨b, rfl, hd, rfl⟩, rfl⟩
  case code2 v =>
    split at hs <;> cases hs
    rename_i hd
    obtain ⟨y, _, h1, ⟨a, rfl, ha, rfl⟩, -⟩ := hL
    exact h.go (by simp) ⟨y, a, b, h1, by simp, ha, hd, rfl⟩
  case code3 v =>
    split at hs <;> cases hs
    rename_i hd
    obtain ⟨y, a, a', h1, rfl, ha, ha', rfl⟩ := hL
    refine h.go (by simp) ⟨y, [a, a', b], h1, by simp, ?_, rfl⟩
    have := ((Digits.one ha).snoc (by simp) ha').snoc (by simp) hd
    have e : (dec a * 10 + dec a') * 10 + dec b = dec a * 100 + dec a' * 10 + dec b := by omega
    rw [e] at this
    exact this
  case codeSp v =>
    split at hs <;> cases hs
    rename_i hb; simp at hb; subst hb
    obtain ⟨_, d, ⟨_, a, b, k, ⟨_, db, ⟨p, da, hp, hd, rfl⟩, hd', hk, rfl⟩, rfl⟩, rfl, hd1, hd2⟩ := hL
    refine ⟨fun a b' hm => ?_, fun v' hm => ?_, trivial⟩
    · rcases List.mem_append.1 hm with hm | hm
      · exact (h.ver _ _ hm).mono _
      · simp at hm
    · rcases List.mem_append.1 hm with hm | hm
      · exact (h.code _ hm).mono _
      · simp at hm; subst hm
        exact ⟨p, da, db, d, [], a, b, hp, hd, hd', hd1, hd2, by simp⟩

theorem num_norm (hu : env.ptype = .head) {x : Bytes} {tr : List Ev} {s : AS} (h : NumOK x tr s) (ho : InOrder tr s) :
    NumOK x (tr ++ (norm env tr s).1) (norm env tr s).2 := by
  have hg : ∀ {es s'}, (∀ e ∈ es, isNum e = false) → Local s' x → NumOK x (tr ++ es) s' := by
    intro es s' he hl
    refine ⟨fun a b' hm => ?_, fun v hm => ?_, hl⟩
    · rcases List.mem_append.1 hm with hm | hm
      · exact h.ver _ _ hm
      · exact absurd (he _ hm) (by simp [isNum])
    · rcases List.mem_append.1 hm with hm | hm
      · exact h.code _ hm
      · exact absurd (he _ hm) (by simp [isNum])
  obtain ⟨p, -, hq⟩ := ho
  have hL := h.loc
  cases s <;> simp only [AS.ph] at hq <;> simp only [norm, hu]
  case initialEnd => exact hg (by simp [isNum]) trivial
  case hdrEnd => exact hg (by simp [isNum]) trivial
  all_goals first | exact hg (by simp) hL | exact hq.elim

theorem err_method {s : AS} {b : UInt8} {es : List Ev} {e : PErr} (hs : bstep env s b = .err es e) :
    ∀ e ∈ es, isNum e = false := by
  have hm : ∀ {b es e}, bMethod b = .err es e → es = [] := by
    intro b es e h
    unfold bMethod at h
    split at h
    · cases h
    · split at h <;> cases h; rfl
  have hd : ∀ {b y : UInt8} {s1 : AS} {buf : Bytes} {es e}, bDet buf y s1 b = .err es e →
      ∀ e ∈ es, isNum e = false := by
    intro b y s1 buf es e hs
    unfold bDet at hs
    split at hs
    · cases hs
    · cases hm' : bMethod b with
      | err es1 e1 =>
        have := hm hm'
        subst this
        rw [hm'] at hs
        simp only [BRes.pre, BRes.err.injEq] at hs
        obtain ⟨rfl, rfl⟩ := hs
        intro e he
        simp only [flatEv, List.mem_map, List.append_nil] at he
        obtain ⟨y, _, rfl⟩ := he
        rfl
      | next es s => rw [hm'] at hs; cases hs
      | errB => rw [hm'] at hs; cases hs
      | panic => rw [hm'] at hs; cases hs
  cases s <;> simp only [bstep] at hs
  case det2 => exact hd hs
  case det3 => exact hd hs
  case det4 => exact hd hs
  case det5 => exact hd hs
  all_goals try simp only [bMethod, bDetect1, bLDet, bExpect, bVerEnd, bHdrName, bHdrFirst, bHdrCheck, bHdrVal,
      bHdrQuot, bStrip, bSizeEnd, bExtName, bExtVal, bExtQuot, bMpByte, bUName, bUVal, BRes.pre] at hs
  all_goals (repeat' split at hs)
  all_goals first | cases hs | skip
  all_goals first | (simp; done) | skip
  all_goals first
    | (rename_i h; exfalso; split at h <;> cases h; done)
    | (rename_i h; (repeat' split at h) <;> cases h; simp [isNum]; done)
    | (simp_all [isNum]; done)

theorem keeps_num (hu : env.ptype = .head) : KeepsJ env fun x tr s => InOrder tr s ∧ NumOK x tr s :=
  ⟨fun _ tr s h => ⟨inOrder_norm hu tr s h.1, num_norm hu h.2 h.1⟩,
   fun _ tr s b es s' _ h hs => ⟨inOrder_step tr s b es s' h.1 hs, num_step h.1 h.2 hs⟩⟩

end Verif.Http1
