import Verif.Http1.Emit
import Verif.Http1.MessageSpec

/-!
# Runs of the reference machine over well-formed messages (helper lemmas)
-/

set_option linter.unusedSimpArgs false
set_option linter.unusedVariables false

namespace Verif.Http1

variable {env : Env} {fut : Bytes} {K : List Ev × Fin} {h : Handler} {c : Cfg}

/-- From `s`, reading `x` emits `es` and leads to `s'`. -/
def Runs (env : Env) (s : AS) (x : Bytes) (es : List Ev) (s' : AS) : Prop :=
  ∀ tr r, pred env tr s (x ++ r) = pred env (tr ++ es) s' r

theorem Runs.refl (s : AS) : Runs env s [] [] s := fun tr r => by simp

theorem Runs.trans {s s1 s2 : AS} {x y : Bytes} {es fs : List Ev} (h1 : Runs env s x es s1)
    (h2 : Runs env s1 y fs s2) : Runs env s (x ++ y) (es ++ fs) s2 := fun tr r => by
  rw [List.append_assoc, h1, h2, List.append_assoc]

/-- One byte, with a state that has no silent moves. -/
theorem Runs.byte {s s' : AS} {b : UInt8} {es : List Ev} (hn : ∀ tr, norm env tr s = ([], s)) (hf : s ≠ .fin)
    (hb : bstep env s b = .next es s') : Runs env s [b] es s' := fun tr r => by
  have := pred_next (r := r) (hn tr) hf hb
  simpa using this

/-- One byte after silent moves. -/
theorem Runs.byteN {s s1 s' : AS} {b : UInt8} {es0 es : List Ev} (hn : ∀ tr, norm env tr s = (es0, s1)) (hf : s1 ≠ .fin)
    (hb : bstep env s1 b = .next es s') : Runs env s [b] (es0 ++ es) s' := fun tr r => by
  have := pred_next (r := r) (hn tr) hf hb
  simpa using this

theorem Runs.cons {s s1 s2 : AS} {b : UInt8} {y : Bytes} {es fs : List Ev} (h1 : Runs env s [b] es s1)
    (h2 : Runs env s1 y fs s2) : Runs env s (b :: y) (es ++ fs) s2 := h1.trans h2

/-- Bytes that stay in the state. -/
theorem Runs.loop {s : AS} {ev : UInt8 → List Ev} (hn : ∀ tr, norm env tr s = ([], s)) (hf : s ≠ .fin)
    {x : Bytes} (hp : ∀ b ∈ x, bstep env s b = .next (ev b) s) : Runs env s x (x.flatMap ev) s :=
  fun tr r => pred_loop hn hf x tr r hp

theorem Runs.eq {s s' : AS} {x y : Bytes} {es fs : List Ev} (h : Runs env s x es s') (hx : x = y) (he : es = fs) :
    Runs env s y fs s' := by subst hx he; exact h

/-- The end of a message. -/
theorem Runs.finish {s s' : AS} {x : Bytes} {es es' : List Ev} (h1 : Runs env s x es s')
    (hn : ∀ tr, norm env tr s' = (es', .fin)) (tr : List Ev) (r : Bytes) :
    pred env tr s (x ++ r) = (tr ++ es ++ es', .finished r) := by
  rw [h1]
  cases r with
  | nil => simp [pred, hn]
  | cons b r => simp [pred, hn]

/-! ## Byte classes the other way round -/

theorem token_of {b : UInt8} (h : TokenByte b) : isToken b = some true ∧ isVisible7bit b = true ∧ b ≠ c! '\r' ∧
    b ≠ c! ' ' ∧ b ≠ c! '\t' := by
  have key : ∀ b : UInt8, TokenByte b → isToken b = some true ∧ isVisible7bit b = true ∧ b ≠ c! '\r' ∧
    b ≠ c! ' ' ∧ b ≠ c! '\t' := by
    apply Util.forall_u8
    decide +kernel
  exact key b h

theorem upper_of {b : UInt8} (h : UpperByte b) : isUpper b = true := by
  have key : ∀ b : UInt8, UpperByte b → isUpper b = true := by
    apply Util.forall_u8
    decide +kernel
  exact key b h

theorem visible_of {b : UInt8} (h : VisibleByte b) : isVisible7bit b = true ∧ b ≠ c! ' ' ∧ b ≠ c! '\t' ∧ b ≠ c! '\r' := by
  have key : ∀ b : UInt8, VisibleByte b → isVisible7bit b = true ∧ b ≠ c! ' ' ∧ b ≠ c! '\t' ∧ b ≠ c! '\r' := by
    apply Util.forall_u8
    decide +kernel
  exact key b h

theorem nonControl_of {b : UInt8} (h : NonControlByte b) : isNonControl b = true := by
  have key : ∀ b : UInt8, NonControlByte b → isNonControl b = true := by
    apply Util.forall_u8
    decide +kernel
  exact key b h

theorem digit_of {b : UInt8} (h : c! '0' ≤ b ∧ b ≤ c! '9') : isDigit b = true ∧ b ≠ c! '.' := by
  have key : ∀ b : UInt8, c! '0' ≤ b ∧ b ≤ c! '9' → isDigit b = true ∧ b ≠ c! '.' := by
    apply Util.forall_u8
    decide +kernel
  exact key b h

theorem field_of {b : UInt8} (h : FieldByte b) (hb : b ≠ 255) : isHeaderField b = some true := by
  have key : ∀ b : UInt8, FieldByte b → b ≠ 255 → isHeaderField b = some true := by
    apply Util.forall_u8
    decide +kernel
  exact key b h hb

theorem quoted_of {b : UInt8} (h : QuotedByte b) (hb : b ≠ 255) : isQuotedHeaderField b = some true := by
  have key : ∀ b : UInt8, QuotedByte b → b ≠ 255 → isQuotedHeaderField b = some true := by
    apply Util.forall_u8
    decide +kernel
  exact key b h hb

theorem escapable_of {b : UInt8} (h : 0x20 ≤ b) (hb : b ≤ 0x7A) : isEscapable b = true := by
  have key : ∀ b : UInt8, 0x20 ≤ b → b ≤ 0x7A → isEscapable b = true := by
    apply Util.forall_u8
    decide +kernel
  exact key b h hb

/-! ## Header fields -/

/-- A header value, reported byte by byte. -/
def hv (v : Bytes) : List Ev := v.map fun b => .headerValue [b]

theorem runs_quoted {q : Bytes} (h : QuotedText q) : Runs env .hdrQuot q (hv q) .hdrQuot := by
  induction h with
  | nil => exact .refl _
  | byte h1 h2 _ ih =>
    refine Runs.eq (Runs.cons (Runs.byte (s' := .hdrQuot) (es := hv [_]) (fun _ => rfl) nofun ?_) ih) rfl rfl
    simp [bstep, hv, bHdrQuot, quoted_of h1 h2]
  | esc h1 h2 _ ih =>
    refine Runs.eq (Runs.cons (Runs.byte (s' := .hdrEsc) (b := c! '\\') (fun _ => rfl) nofun (es := hv b!"\\") (by rfl))
      (Runs.cons (Runs.byte (s' := .hdrQuot) (es := hv [_]) (fun _ => rfl) nofun ?_) ih)) rfl rfl
    simp [bstep, hv, escapable_of h1 h2]

theorem runs_field {v : Bytes} (h : FieldText v) : Runs env .hdrVal v (hv v) .hdrVal := by
  induction h with
  | nil => exact .refl _
  | byte h1 h2 _ ih =>
    refine Runs.eq (Runs.cons (Runs.byte (s' := .hdrVal) (es := hv [_]) (fun _ => rfl) nofun ?_) ih) rfl rfl
    simp [bstep, hv, bHdrVal, field_of h1 h2]
  | quoted h1 _ ih =>
    refine Runs.eq (Runs.cons (Runs.byte (s' := .hdrQuot) (b := c! '"') (fun _ => rfl) nofun (es := hv b!"\"") (by rfl))
      ((runs_quoted h1).trans (Runs.cons (Runs.byte (s' := .hdrVal) (b := c! '"') (fun _ => rfl) nofun (es := hv b!"\"")
        (by rfl)) ih))) (by simp) (by simp [hv])

/-- The value after the blanks. -/
theorem runs_value {v : Bytes} (h : FieldText v) (hf : ∃ b w, v = b :: w ∧ VisibleByte b) :
    Runs env .hdrStrip v (hv v) .hdrVal := by
  obtain ⟨b, w, rfl, hb⟩ := hf
  intro tr r
  rw [← runs_field h]
  obtain ⟨h1, h2, h3, h4⟩ := visible_of hb
  simp [pred, norm, bstep, bStrip, h1, h2, h3]

theorem runs_crlf : Runs env .hdrVal b!"\r\n" [] .hdrCr2 :=
  Runs.eq (Runs.cons (Runs.byte (s' := .hdrLf1) (es := []) (fun _ => rfl) nofun (by rfl))
    (Runs.byte (s' := .hdrCr2) (es := []) (fun _ => rfl) nofun (by rfl))) rfl rfl

theorem runs_folds : ∀ fs : List (UInt8 × Bytes), (∀ f ∈ fs, Blank f.1 ∧ FieldText f.2) →
    Runs env .hdrCr2 (fs.flatMap fun f => f.1 :: f.2 ++ b!"\r\n") (hv (fs.flatMap Prod.snd)) .hdrCr2
  | [], _ => .refl _
  | (b, v) :: fs, h => by
    have ⟨h1, h2⟩ := h (b, v) (by simp)
    have h3 : Runs env .hdrCr2 [b] [] .hdrVal := by
      refine Runs.byte (fun _ => rfl) nofun ?_
      rcases h1 with h1 | h1 <;> simp only at h1 <;> subst h1 <;> rfl
    refine Runs.eq ((Runs.cons h3 ((runs_field h2).trans runs_crlf)).trans
      (runs_folds fs fun f hf => h f (by simp [hf]))) (by simp) (by simp [hv])

theorem lowerByte_spec {b : UInt8} (h : TokenByte b) :
    bHdrName b = .next [.headerName [if UpperByte b then b + 32 else b]] .hdrName := by
  have h1 := (token_of h).1
  unfold bHdrName
  rw [h1]
  by_cases hu : UpperByte b
  · simp [upper_of hu, hu]
  · have : isUpper b = false := by
      cases hx : isUpper b
      · rfl
      · exact absurd (upper_spec hx).1 hu
    simp [this, hu]

theorem runs_name {n : Bytes} (h : n ≠ [] ∧ ∀ b ∈ n, TokenByte b) {s : AS}
    (hs : s = .hdrCr2 ∨ s = .hdrCheck ∨ s = .hdrFirst) :
    Runs env s n ((Verif.lower n).map fun b => .headerName [b]) .hdrName := by
  obtain ⟨hn, ht⟩ := h
  have h1 : Runs env .hdrName n (n.flatMap fun b => [.headerName [if UpperByte b then b + 32 else b]]) .hdrName :=
    Runs.loop (s := .hdrName) (ev := fun b => [.headerName [if UpperByte b then b + 32 else b]]) (fun _ => rfl) nofun
      fun b hb => lowerByte_spec (ht b hb)
  have h2 : (n.flatMap fun b => [Ev.headerName [if UpperByte b then b + 32 else b]]) =
      (Verif.lower n).map fun b => .headerName [b] := by
    rw [Verif.lower, List.map_map, List.map_eq_flatMap]; rfl
  rw [h2] at h1
  intro tr r
  rw [← h1]
  obtain ⟨b, n', rfl⟩ := List.exists_cons_of_ne_nil hn
  obtain ⟨-, h3, h4, h5, h6⟩ := token_of (ht b (by simp))
  rcases hs with rfl | rfl | rfl <;>
    simp [pred, norm, bstep, bHdrCheck, bHdrFirst, h3, h4, h5, h6]

theorem runs_header {x : Header} (h : x.OK) {s : AS} (hs : s = .hdrCr2 ∨ s = .hdrCheck ∨ s = .hdrFirst) :
    Runs env s x.write (flat x.events) .hdrCr2 := by
  have h1 := runs_name (env := env) h.name hs
  have h2 : Runs env .hdrName b!":" [] .hdrStrip := Runs.byte (fun _ => rfl) nofun (by rfl)
  have h3 : Runs env .hdrStrip x.blanks (x.blanks.flatMap fun _ => []) .hdrStrip := by
    refine Runs.loop (s := .hdrStrip) (ev := fun _ => []) (fun _ => rfl) nofun fun b hb => ?_
    rcases h.blanks b hb with hb | hb <;> subst hb <;> rfl
  refine Runs.eq (((((h1.trans h2).trans h3).trans (runs_value h.value h.first)).trans runs_crlf).trans
    (runs_folds x.folds h.folds)) ?_ ?_
  · simp [Header.write]
  · simp [Header.events, flat, flatEv, hv]

theorem runs_headers : ∀ l : List Header, (∀ x ∈ l, x.OK) →
    Runs env .hdrCr2 (l.flatMap Header.write) (flat (l.flatMap Header.events)) .hdrCr2
  | [], _ => .refl _
  | x :: l, h => by
    refine Runs.eq ((runs_header (h x (by simp)) (.inl rfl)).trans (runs_headers l fun y hy => h y (by simp [hy])))
      (by simp) (by simp [flat])

/-- Header fields and the empty line. -/
theorem runs_block (l : List Header) (h : ∀ x ∈ l, x.OK) :
    Runs env .hdrCr2 (l.flatMap Header.write ++ b!"\r\n") (flat (l.flatMap Header.events)) .hdrEnd := by
  refine Runs.eq ((runs_headers l h).trans (Runs.cons
    (Runs.byte (s' := .hdrLf2) (b := c! '\r') (es := []) (fun _ => rfl) nofun (by rfl))
    (Runs.byte (s' := .hdrEnd) (b := c! '\n') (es := []) (fun _ => rfl) nofun (by rfl)))) rfl (by simp)

/-! ## Numbers and start lines -/

theorem runs_digit {s s' : AS} {b : UInt8} (hn : ∀ tr, norm env tr s = ([], s)) (hf : s ≠ .fin)
    (hb : bstep env s b = .next [] s') : Runs env s [b] [] s' := Runs.byte hn hf hb

/-- The three shapes of a number. -/
theorem Digits.cases {d : Bytes} {n : Nat} (h : Digits d n) :
    (∃ a, d = [a] ∧ isDigit a = true ∧ n = dec a) ∨
    (∃ a b, d = [a, b] ∧ isDigit a = true ∧ isDigit b = true ∧ n = dec a * 10 + dec b) ∨
    (∃ a b c, d = [a, b, c] ∧ isDigit a = true ∧ isDigit b = true ∧ isDigit c = true ∧
      n = (dec a * 10 + dec b) * 10 + dec c) := by
  obtain ⟨h1, h2, h3, rfl⟩ := h
  match d, h1, h2, h3 with
  | [a], _, _, h3 => exact .inl ⟨a, rfl, (digit_of (h3 a (by simp))).1, by simp [decVal, dec]⟩
  | [a, b], _, _, h3 =>
    exact .inr (.inl ⟨a, b, rfl, (digit_of (h3 a (by simp))).1, (digit_of (h3 b (by simp))).1, by simp [decVal, dec]⟩)
  | [a, b, c], _, _, h3 =>
    exact .inr (.inr ⟨a, b, c, rfl, (digit_of (h3 a (by simp))).1, (digit_of (h3 b (by simp))).1,
      (digit_of (h3 c (by simp))).1, by simp [decVal, dec]⟩)

theorem digit_ne_dot {b : UInt8} (h : isDigit b = true) : b ≠ c! '.' ∧ b ≠ c! '\r' ∧ b ≠ c! ' ' := by
  have key : ∀ b : UInt8, isDigit b = true → b ≠ c! '.' ∧ b ≠ c! '\r' ∧ b ≠ c! ' ' := by
    apply Util.forall_u8
    decide +kernel
  exact key b h

theorem runs_major {d : Bytes} {n : Nat} (h : Digits d n) (r : Bool) :
    Runs env (.maj1 r) (d ++ b!".") [] (.min1 r n) := by
  intro tr x
  rcases h.cases with ⟨a, rfl, ha, rfl⟩ | ⟨a, b, rfl, ha, hb, rfl⟩ | ⟨a, b, c, rfl, ha, hb, hc, rfl⟩
  · simp [pred, norm, bstep, ha]
  · simp [pred, norm, bstep, ha, hb, digit_ne_dot hb]
  · simp [pred, norm, bstep, bExpect, ha, hb, hc, digit_ne_dot hb, digit_ne_dot hc]

theorem stop_not_digit (r : Bool) : isDigit (stopByte r) = false := by cases r <;> rfl

theorem runs_minor {d : Bytes} {n v : Nat} (h : Digits d n) (r : Bool) :
    Runs env (.min1 r v) (d ++ [stopByte r]) [.version v n] (if r then .code1 else .initialEnd) := by
  intro tr x
  have hs := stop_not_digit r
  rcases h.cases with ⟨a, rfl, ha, rfl⟩ | ⟨a, b, rfl, ha, hb, rfl⟩ | ⟨a, b, c, rfl, ha, hb, hc, rfl⟩
  · simp [pred, norm, bstep, bVerEnd, ha, hs]
  · simp [pred, norm, bstep, bVerEnd, ha, hb, hs]
  · simp [pred, norm, bstep, bVerEnd, ha, hb, hc, hs]

theorem runs_version {d d' : Bytes} {n n' : Nat} (h : Digits d n) (h' : Digits d' n') (r : Bool) :
    Runs env (.maj1 r) (d ++ b!"." ++ d' ++ [stopByte r]) [.version n n'] (if r then .code1 else .initialEnd) :=
  Runs.eq ((runs_major h r).trans (runs_minor h' r)) (by simp) rfl

theorem runs_initial : Runs env .initialEnd b!"\n" [.initialFinished] .hdrCr2 :=
  Runs.eq (Runs.byteN (es := []) (s1 := .initialLf) (fun _ => rfl) nofun (by rfl)) rfl rfl

theorem runs_code {d : Bytes} {n : Nat} (h : Digits d n) (hl : d.length = 3) :
    Runs env .code1 (d ++ b!" ") [.statusCode n] .reason1 := by
  intro tr x
  rcases h.cases with ⟨a, rfl, ha, rfl⟩ | ⟨a, b, rfl, ha, hb, rfl⟩ | ⟨a, b, c, rfl, ha, hb, hc, rfl⟩
  · simp at hl
  · simp at hl
  · have e : dec a * 100 + dec b * 10 + dec c = (dec a * 10 + dec b) * 10 + dec c := by omega
    simp [pred, norm, bstep, ha, hb, hc, e]

theorem runs_reason {d : Bytes} (h : d ≠ [] ∧ ∀ b ∈ d, NonControlByte b) :
    Runs env .reason1 (d ++ b!"\r") (d.map fun b => .status [b]) .initialEnd := by
  obtain ⟨hn, hd⟩ := h
  obtain ⟨b, d, rfl⟩ := List.exists_cons_of_ne_nil hn
  have h1 : Runs env .reason1 [b] [.status [b]] .reason2 :=
    Runs.byte (fun _ => rfl) nofun (by simp [bstep, nonControl_of (hd b (by simp))])
  have h2 : Runs env .reason2 d (d.flatMap fun b => [.status [b]]) .reason2 :=
    Runs.loop (s := .reason2) (ev := fun b => [.status [b]]) (fun _ => rfl) nofun fun x hx => by
      simp [bstep, nonControl_of (hd x (by simp [hx]))]
  have h3 : Runs env .reason2 b!"\r" [] .initialEnd := Runs.byte (fun _ => rfl) nofun (by rfl)
  exact Runs.eq (Runs.cons h1 (h2.trans h3)) (by simp) (by simp [List.map_eq_flatMap])

theorem runs_url {d : Bytes} (h : d ≠ [] ∧ ∀ b ∈ d, VisibleByte b) :
    Runs env .url1 (d ++ b!" HTTP/") (d.map fun b => .url [b]) (.maj1 false) := by
  obtain ⟨hn, hd⟩ := h
  obtain ⟨b, d, rfl⟩ := List.exists_cons_of_ne_nil hn
  have h1 : Runs env .url1 [b] [.url [b]] .url2 :=
    Runs.byte (fun _ => rfl) nofun (by simp [bstep, visible_of (hd b (by simp))])
  have h2 : Runs env .url2 d (d.flatMap fun b => [.url [b]]) .url2 :=
    Runs.loop (s := .url2) (ev := fun b => [.url [b]]) (fun _ => rfl) nofun fun x hx => by
      simp [bstep, visible_of (hd x (by simp [hx]))]
  have h3 : Runs env .url2 b!" HTTP/" [] (.maj1 false) := by
    intro tr r
    simp [pred, norm, bstep, bExpect, isVisible7bit]
  exact Runs.eq (Runs.cons h1 (h2.trans h3)) (by simp) (by simp [List.map_eq_flatMap])

theorem runs_request_tail {x : Request} (h : x.OK) :
    Runs env .url1 (x.url ++ b!" HTTP/" ++ x.major ++ b!"." ++ x.minor ++ b!"\r\n" ++
      x.headers.flatMap Header.write ++ b!"\r\n")
      (flat ([.url x.url, .version (decVal x.major) (decVal x.minor), .initialFinished] ++
        x.headers.flatMap Header.events)) .hdrEnd := by
  obtain ⟨n, h1⟩ := h.major
  obtain ⟨m, h2⟩ := h.minor
  have e1 : decVal x.major = n := h1.2.2.2
  have e2 : decVal x.minor = m := h2.2.2.2
  refine Runs.eq ((((runs_url h.url).trans (runs_version h1 h2 false)).trans runs_initial).trans
    (runs_block x.headers h.headers)) ?_ ?_
  · simp [stopByte]
  · simp [flat, flatEv, e1, e2]

theorem runs_response {x : Response} (h : x.OK) :
    Runs env (.maj1 true) (x.major ++ b!"." ++ x.minor ++ b!" " ++ x.code ++ b!" " ++ x.reason ++ b!"\r\n" ++
      x.headers.flatMap Header.write ++ b!"\r\n")
      (flat ([.version (decVal x.major) (decVal x.minor), .statusCode (decVal x.code), .status x.reason,
        .initialFinished] ++ x.headers.flatMap Header.events)) .hdrEnd := by
  obtain ⟨n, h1⟩ := h.major
  obtain ⟨m, h2⟩ := h.minor
  obtain ⟨hl, k, h3⟩ := h.code
  have e1 : decVal x.major = n := h1.2.2.2
  have e2 : decVal x.minor = m := h2.2.2.2
  have e3 : decVal x.code = k := h3.2.2.2
  refine Runs.eq (((((runs_version h1 h2 true).trans (runs_code h3 hl)).trans (runs_reason h.reason)).trans
    runs_initial).trans (runs_block x.headers h.headers)) ?_ ?_
  · simp [stopByte]
  · simp [flat, flatEv, e1, e2, e3]

/-! ## Client runs over a finished message -/

theorem complete_fin {I : World → Bytes → Prop} {o : Outcome} {tr : List Ev} {r : Bytes}
    (H : DriveSim I K o) (hc : o.complete) (hK : K = (tr, .finished r)) :
    o.last = .finished ∧ flat o.world.log = tr ∧ o.rest = r := by
  obtain ⟨la, wo, re⟩ := o
  subst hK
  cases la <;> simp only [Outcome.complete] at hc <;> simp only [DriveSim] at H
  · have := H.2 hc; simp at this
  · simp only [Prod.mk.injEq, Fin.finished.injEq] at H; exact ⟨rfl, H.1.symm, H.2.symm⟩
  · rcases H with ⟨d, _, H⟩ | ⟨H, _⟩ <;> simp at H
  · simp at H

end Verif.Http1
