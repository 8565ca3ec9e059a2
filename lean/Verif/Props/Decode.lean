import Verif.Util.DecodeLemmas

/-!
# C01-C04: `util::decode`
-/

namespace Verif.Util

/-- C01: `decode(x)` returns `Ok(s)` exactly when `x` is a URL encoding of `s`. -/
theorem C01_decode (x s : Bytes) : decode x = .ok s ↔ Decodes x s := by
  rw [decode_eq]
  constructor
  · intro h
    rcases dec_split _ x le_rfl with ⟨s', h'⟩ | ⟨p, r, s', e, h1, h2, h3⟩
    · have := decodes_dec h' [] []
      rw [List.append_nil] at this
      rw [this] at h
      simp [dec] at h
      exact h ▸ h'
    · rw [h1, decodes_dec h2, offends_dec h3] at h; cases h
  · intro h
    have := decodes_dec h [] []
    rw [List.append_nil] at this
    rw [this]; simp [dec]

/-- A concrete case of C01: both directions are about something. -/
example : decode b!"a+b%2Fc%2b" = .ok b!"a b/c+" ∧ Decodes b!"+%2F" b!" /" ∧
    decode b!"a b" = .err (.byte (c! ' ')) :=
  ⟨by decide +kernel,
    .plus (.escape (m := 2) (n := 15) (by decide) (by decide) .nil), by decide +kernel⟩

/-- C02: whatever way an encoder writes each byte, decoding gives the bytes back. -/
theorem C02_round_trip (l : List (UInt8 × Way)) (h : ∀ p ∈ l, p.2.allowed p.1) :
    decode (encode l) = .ok (l.map Prod.fst) := by
  rw [C01_decode]
  induction l with
  | nil => exact .nil
  | cons p l ih =>
    obtain ⟨b, w⟩ := p
    have ih := ih fun q hq => h q (by simp [hq])
    have hb := h (b, w) (by simp)
    cases w with
    | literal => exact .literal hb ih
    | plus =>
      have hb : b = c! ' ' := hb
      subst hb; exact .plus ih
    | escape u v =>
      have key : ∀ (n : Fin 16) (u : Bool), HexDigit (digit u n) n := by decide
      have h1 := key ⟨b.toNat / 16, by have := b.toNat_lt; omega⟩ u
      have h2 := key ⟨b.toNat % 16, by omega⟩ v
      have := Decodes.escape h1 h2 ih
      simp only [Nat.div_add_mod, UInt8.ofNat_toNat] at this
      exact this

/-- A concrete case of C02: `"a %"` written `%61+%25`. -/
example : decode (encode [(c! 'a', .escape true true), (c! ' ', .plus), (c! '%', .escape false true)]) =
    .ok b!"a %" :=
  C02_round_trip _ (by decide +kernel)

example : encode [(c! 'a', .escape true true), (c! ' ', .plus), (c! '%', .escape false true)] =
    b!"%61+%25" := by decide

/-- C03: `decode` fails with error `e` exactly when the input is a decodable prefix followed by
bytes that offend at once, and `e` is the error of that offence. -/
theorem C03_error (x : Bytes) (e : DecodeError) :
    decode x = .err e ↔ ∃ p r s, x = p ++ r ∧ Decodes p s ∧ Offends r e := by
  rw [decode_eq]
  constructor
  · intro h
    rcases dec_split _ x le_rfl with ⟨s', h'⟩ | ⟨p, r, s', e', h1, h2, h3⟩
    · have := decodes_dec h' [] []
      rw [List.append_nil] at this
      rw [this] at h
      simp [dec] at h
    · have h' := h
      rw [h1, decodes_dec h2, offends_dec h3] at h'
      cases h'
      exact ⟨p, r, s', h1, h2, h3⟩
  · rintro ⟨p, r, s, h1, h2, h3⟩
    rw [h1, decodes_dec h2, offends_dec h3]

/-- Concrete cases of C03. -/
example : decode b!"ab%2G" = .err (.hexSequence (c! 'G')) ∧
    decode b!"ab%2" = .err (.hexSequence (c! '2')) ∧
    decode b!"ab%" = .err (.hexSequence (c! '%')) ∧ decode b!"a\n%" = .err (.byte 10) ∧
    Offends b!"%2G" (.hexSequence (c! 'G')) :=
  ⟨by decide +kernel, by decide +kernel, by decide +kernel, by decide +kernel,
    .low (m := 2) (by decide) (fun n h => by
      have := hexDigit_lt h
      have key : ∀ n : Fin 16, ¬ HexDigit (c! 'G') n := by decide
      exact key ⟨n, this⟩ h)⟩

theorem decodes_length {x s : Bytes} (h : Decodes x s) : s.length ≤ x.length := by
  induction h with
  | nil => simp
  | literal _ _ ih => simpa using ih
  | plus _ ih => simpa using ih
  | escape _ _ _ ih => simp; omega

/-- C04, first part: `decode` always returns, never panics, and the string is no longer than the
input. -/
theorem C04_total (x : Bytes) :
    (∃ s, decode x = .ok s ∧ s.length ≤ x.length) ∨ ∃ e, decode x = .err e := by
  rcases dec_split _ x le_rfl with ⟨s, h⟩ | ⟨p, r, s, e, h1, h2, h3⟩
  · exact .inl ⟨s, (C01_decode x s).2 h, decodes_length h⟩
  · exact .inr ⟨e, (C03_error x e).2 ⟨p, r, s, h1, h2, h3⟩⟩

/-- A concrete case of C04 with a strictly shorter string. -/
example : decode b!"%41%42" = .ok b!"AB" := by decide +kernel

/-- C04, second part, is false: `%FF` decodes to a `String` that is not UTF-8. -/
theorem C04_fails : ∃ x s, decode x = .ok s ∧ ¬ UTF8 s := by
  refine ⟨b!"%FF", [0xFF], by decide +kernel, ?_⟩
  rintro ⟨m, h⟩
  have : ByteArray.IsValidUTF8 (ByteArray.mk #[0xFF]) := ⟨m, by
    rw [List.utf8Encode, ← h]; decide⟩
  exact absurd this (by decide)

theorem utf8_ascii {s : Bytes} (h : ∀ b ∈ s, b < 0x80) : UTF8 s := by
  induction s with
  | nil => exact ⟨[], rfl⟩
  | cons b s ih =>
    obtain ⟨m, hm⟩ := ih fun x hx => h x (by simp [hx])
    refine ⟨Char.ofNat b.toNat :: m, ?_⟩
    have key : ∀ b : UInt8, b < 0x80 → String.utf8EncodeChar (Char.ofNat b.toNat) = [b] := by
      apply forall_u8
      decide +kernel
    rw [List.flatMap_cons, key b (h b (by simp)), hm]
    rfl

/-- C04, second part, as far as it is true: when every escape in the input writes a byte below 0x80
(its first digit is below 8), the returned string is well-formed. Missing: the code does not check
that escaped bytes from 0x80 on form UTF-8 sequences, see `C04_fails`. -/
theorem C04_utf8_partial (x s : Bytes) (h : decode x = .ok s)
    (h7 : ∀ p d r m, x = p ++ c! '%' :: d :: r → HexDigit d m → m < 8) : UTF8 s := by
  rw [C01_decode] at h
  apply utf8_ascii
  induction h with
  | nil => simp
  | @literal b x s hb _ ih =>
    intro a ha
    rcases List.mem_cons.1 ha with rfl | ha
    · have := hb.2.1
      revert this
      have key : ∀ b : UInt8, b ≤ 0x7E → b < 0x80 := by apply forall_u8; decide +kernel
      exact key a
    · exact ih (fun p d r m e hd => h7 (b :: p) d r m (by rw [e]; rfl) hd) a ha
  | @plus x s _ ih =>
    intro a ha
    rcases List.mem_cons.1 ha with rfl | ha
    · decide
    · exact ih (fun p d r m e hd => h7 (c! '+' :: p) d r m (by rw [e]; rfl) hd) a ha
  | @escape h l m n x s h1 h2 _ ih =>
    intro a ha
    rcases List.mem_cons.1 ha with rfl | ha
    · have a := h7 [] h (l :: x) m rfl h1
      have b := hexDigit_lt h2
      have key : ∀ (m : Fin 8) (n : Fin 16), UInt8.ofNat (16 * m + n) < 0x80 := by decide
      exact key ⟨m, a⟩ ⟨n, b⟩
    · exact ih (fun p d r m e hd => h7 (c! '%' :: h :: l :: p) d r m (by rw [e]; rfl) hd) a ha

/-- The same for encoded text: if what was encoded is UTF-8, `decode` returns it and the string is
well-formed, whatever the way of writing it. -/
theorem C04_text_partial (l : List (UInt8 × Way)) (h : ∀ p ∈ l, p.2.allowed p.1)
    (hu : UTF8 (l.map Prod.fst)) : ∃ s, decode (encode l) = .ok s ∧ UTF8 s :=
  ⟨_, C02_round_trip l h, hu⟩

/-- A concrete case: the two bytes of `é`. -/
example : UTF8 ([(0xC3, Way.escape true true), (0xA9, Way.escape true true)].map Prod.fst) :=
  ⟨['é'], by decide⟩

/-- A concrete case of `C04_utf8_partial`. -/
example : UTF8 b!"a/" :=
  C04_utf8_partial b!"a%2f" b!"a/" (by decide +kernel) (by
    intro p d r m e hd
    match p, e with
    | [], e => simp at e
    | [a], e =>
      simp at e
      obtain ⟨_, rfl, _⟩ := e
      have := hexDigit_lt hd
      have key : ∀ n : Fin 16, HexDigit (c! '2') n → n < (8 : Nat) := by decide
      exact key ⟨m, this⟩ hd
    | [a, b], e => simp at e
    | [a, b, c], e => simp at e
    | a :: b :: c :: d' :: p, e =>
      have := congrArg List.length e
      simp at this)

end Verif.Util
