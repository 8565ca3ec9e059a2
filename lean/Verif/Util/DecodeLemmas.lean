import Verif.Util.Collect
import Verif.Util.DecodeSpec
import Verif.Util.ByteLemmas

/-!
# URL decoding (helper lemmas)
-/

namespace Verif.Util

open Ctx

theorem nibble_some : ∀ b v : UInt8, hexNibble b = some v → HexDigit b v.toNat := by
  intro b
  have h : ∀ b : UInt8, ((hexNibble b).all fun v => decide (HexDigit b v.toNat)) = true := by
    apply forall_u8
    decide +kernel
  intro v hv
  have := h b
  rw [hv] at this
  simpa using this

theorem nibble_digit : ∀ (b : UInt8) (n : Nat), HexDigit b n → hexNibble b = some (UInt8.ofNat n) := by
  intro b n h
  have h16 := hexDigit_lt h
  have : ∀ b : UInt8, ∀ n : Fin 16, HexDigit b n → hexNibble b = some (UInt8.ofNat n) := by
    apply forall_u8
    decide +kernel
  exact this b ⟨n, h16⟩ h

theorem nibble_none {b : UInt8} : hexNibble b = none ↔ ∀ n, ¬ HexDigit b n := by
  constructor
  · intro h n hn
    rw [nibble_digit b n hn] at h; cases h
  · intro h
    cases hb : hexNibble b with
    | none => rfl
    | some v => exact absurd (nibble_some b v hb) (h _)

theorem nibble_sum {h l v w : UInt8} (hv : hexNibble h = some v) (hw : hexNibble l = some w) :
    (v <<< 4) + w = UInt8.ofNat (16 * v.toNat + w.toNat) := by
  have a := hexDigit_lt (nibble_some _ _ hv)
  have b := hexDigit_lt (nibble_some _ _ hw)
  have key : ∀ m n : Fin 16, (UInt8.ofNat m <<< 4) + UInt8.ofNat n = UInt8.ofNat (16 * m + n) := by
    decide +kernel
  have := key ⟨v.toNat, a⟩ ⟨w.toNat, b⟩
  simpa using this

/-- The effect of `decode` on the unread bytes. -/
def dec : Bytes → Bytes → Decoded
  | [], out => .ok out
  | b :: r, out =>
    if b = c! '+' then dec r (out ++ b!" ")
    else if b = c! '%' then
      match r with
      | [] => .err (.hexSequence b)
      | [h] => .err (.hexSequence h)
      | h :: l :: r' =>
        match hexNibble h, hexNibble l with
        | none, _ => .err (.hexSequence h)
        | some _, none => .err (.hexSequence l)
        | some v, some w => dec r' (out ++ [(v <<< 4) + w])
    else if isVisible7bit b then dec r (out ++ [b])
    else .err (.byte b)
termination_by r => r.length

theorem dec_cons (b : UInt8) (r out : Bytes) : dec (b :: r) out =
    if b = c! '+' then dec r (out ++ b!" ")
    else if b = c! '%' then
      match r with
      | [] => .err (.hexSequence b)
      | [h] => .err (.hexSequence h)
      | h :: l :: r' =>
        match hexNibble h, hexNibble l with
        | none, _ => .err (.hexSequence h)
        | some _, none => .err (.hexSequence l)
        | some v, some w => dec r' (out ++ [(v <<< 4) + w])
    else if isVisible7bit b then dec r (out ++ [b])
    else .err (.byte b) := by
  rw [dec.eq_def]
  rcases r with _ | ⟨h, _ | ⟨l, r'⟩⟩ <;> rfl

theorem dec_lit {b : UInt8} (h : Literal b) (r out : Bytes) :
    dec (b :: r) out = dec r (out ++ [b]) := by
  obtain ⟨h1, h2, h3, h4⟩ := h
  rw [dec_cons, if_neg h3, if_neg h4, if_pos]
  simp [isVisible7bit, h1, h2]

theorem dec_lits {pre : Bytes} : ∀ (_ : ∀ b ∈ pre, Literal b) (r out : Bytes),
    dec (pre ++ r) out = dec r (out ++ pre) := by
  induction pre with
  | nil => intro h r out; simp
  | cons b pre ih =>
    intro h r out
    rw [List.cons_append, dec_lit (h b (by simp)), ih (fun x hx => h x (by simp [hx]))]
    simp

theorem lit_of_cont {b : UInt8}
    (h : (if !isVisible7bit b || (b == c! '+' || b == c! '%') then Act.brk else Act.cont) = .cont) :
    Literal b := by
  split at h
  · cases h
  · rename_i h'
    simp [isVisible7bit] at h'
    exact ⟨h'.1.1, h'.1.2, h'.2.1, h'.2.2⟩

theorem hasBytes_rest (c : Ctx) (n : Nat) : c.hasBytes n = decide (n ≤ c.rest.length) := by
  simp [hasBytes, avail_rest]

theorem hex8_cons {c : Ctx} {h l : UInt8} {r : Bytes} (hr : c.rest = h :: l :: r) :
    collectHex8 c = (match hexNibble h, hexNibble l with
      | none, _ => Hex8.fail { c with byte := h, idx := c.idx + 1 }
      | some _, none => .fail { c with byte := l, idx := c.idx + 2 }
      | some v, some w => .ok ((v <<< 4) + w) { c with byte := l, idx := c.idx + 2 }) := by
  have h1 := rest_succ hr
  rw [collectHex8, next_cons hr]
  simp only
  cases hexNibble h with
  | none => simp only
  | some v =>
    simp only
    rw [next_cons (c := { c with byte := h, idx := c.idx + 1 }) (b := l) (l := r) h1]
    simp only
    cases hexNibble l with
    | none => rfl
    | some w => rfl

theorem rest_two {c : Ctx} {h l : UInt8} {r : Bytes} (hr : c.rest = h :: l :: r) :
    c.stream.drop (c.idx + 2) = r :=
  rest_drop (c := c) (pre := [h, l]) (by simpa using hr)

theorem decodeLoop_eq : ∀ (n : Nat) (c : Ctx) (out : Bytes), c.rest.length < n →
    decodeLoop n c out = dec c.rest out := by
  intro n
  induction n with
  | zero => intro c out h; omega
  | succ n ih =>
    intro c out hlen
    rw [decodeLoop]
    rcases collect_cases (fun b => if !isVisible7bit b || (b == c! '+' || b == c! '%') then .brk else .cont)
      c.setMark rfl with ⟨h1, c', h2, h3, h4, h5, h6, h7, h8⟩ |
      ⟨pre, b, post, h1, h2, h3, c', h4, h5, h6, h7, h8, h9, h10, h11⟩
    · have e : c.setMark.collectVisible7bit (fun b => b == c! '+' || b == c! '%') = .eos c' := h2
      simp only [e]
      have hr : c.setMark.rest = c.rest := rfl
      rw [hr] at h1 h4 h7
      have := dec_lits (pre := c.rest) (fun b hb => lit_of_cont (h1 b hb)) [] out
      rw [List.append_nil] at this
      rw [this, dec, h7]
      split
      · rfl
      · rename_i hlt
        have hz : c.rest.length = 0 := by
          have : c'.mark = c.idx := h5
          have : c'.idx = c.idx + c.rest.length := h4
          omega
        rw [List.eq_nil_of_length_eq_zero hz, List.append_nil]
    · have hr : c.setMark.rest = c.rest := rfl
      rw [hr] at h1
      have hb : !isVisible7bit b || (b == c! '+' || b == c! '%') := by
        by_contra hb
        rw [if_neg hb] at h3; exact h3 rfl
      have e : c.setMark.collectVisible7bit (fun b => b == c! '+' || b == c! '%') = .brk c' := by
        have := h11
        rw [if_pos hb] at this
        exact this
      simp only [e]
      have hout : (if c'.sliceLength > 1 then out ++ c'.sliceIgnore else out) = out ++ pre := by
        rw [h9, h10]
        split
        · rfl
        · have : pre.length = 0 := by omega
          rw [List.eq_nil_of_length_eq_zero this, List.append_nil]
      rw [hout, h1, dec_lits (fun b hb => lit_of_cont (h2 b hb)), h7]
      have hlen' : post.length < n := by
        rw [h1] at hlen; simp at hlen; omega
      by_cases p1 : b = c! '+'
      · subst p1
        rw [if_pos (by rfl), dec_cons, if_pos rfl, ih _ _ (by rw [h8]; exact hlen'), h8]
      · rw [if_neg (by simpa using p1), dec_cons, if_neg p1]
        by_cases p2 : b = c! '%'
        · rw [if_pos (by simpa using p2), if_pos p2, hasBytes_rest, hasBytes_rest, h8]
          match post, h8 with
          | [], h8 => simp [p2]
          | [h], h8 =>
            simp only [List.length_cons, List.length_nil]
            rw [next_cons h8]
            simp
          | h :: l :: r', h8 =>
            simp only [List.length_cons]
            rw [if_pos (by simp), hex8_cons h8]
            cases e1 : hexNibble h with
            | none => simp
            | some v =>
              cases e2 : hexNibble l with
              | none => simp
              | some w =>
                simp only
                have e3 : ({ c' with byte := l, idx := c'.idx + 2 } : Ctx).rest = r' := rest_two h8
                rw [ih _ _ (by rw [e3]; simp at hlen'; omega), e3]
        · rw [if_neg (by simpa using p2), if_neg p2]
          have hv : ¬ isVisible7bit b = true := by
            simp [p1, p2] at hb
            simp [hb]
          rw [if_neg hv]

theorem decode_eq (x : Bytes) : decode x = dec x [] :=
  decodeLoop_eq _ _ _ (by simp [Ctx.new, rest])

theorem decodes_dec {x s : Bytes} (h : Decodes x s) : ∀ (r out : Bytes),
    dec (x ++ r) out = dec r (out ++ s) := by
  induction h with
  | nil => intro r out; simp
  | literal hb _ ih => intro r out; rw [List.cons_append, dec_lit hb, ih]; simp
  | plus _ ih => intro r out; rw [List.cons_append, dec_cons, if_pos rfl, ih]; simp
  | escape h1 h2 _ ih =>
    intro r out
    have a := hexDigit_lt h1
    have b := hexDigit_lt h2
    rw [List.cons_append, List.cons_append, List.cons_append, dec_cons, if_neg (by decide), if_pos rfl]
    have e1 := nibble_digit _ _ h1
    have e2 := nibble_digit _ _ h2
    simp only [e1, e2]
    rw [ih, nibble_sum e1 e2]
    simp
    congr <;> omega

theorem offends_dec {x : Bytes} {e : DecodeError} (h : Offends x e) (out : Bytes) :
    dec x out = .err e := by
  cases h with
  | @byte b x h =>
    have h1 : b ≠ c! '+' := by rintro rfl; revert h; decide
    have h2 : b ≠ c! '%' := by rintro rfl; revert h; decide
    rw [dec_cons, if_neg h1, if_neg h2, if_neg]
    simp only [isVisible7bit, Bool.and_eq_true, decide_eq_true_eq, not_and, UInt8.not_le]
    rcases h with h | h
    · intro h'; exact absurd h (by simpa using h')
    · intro _; exact h
  | cut0 => simp [dec_cons]
  | cut1 => simp [dec_cons]
  | high h => rw [dec_cons]; simp [nibble_none.2 h]
  | low h1 h2 => rw [dec_cons]; simp [nibble_digit _ _ h1, nibble_none.2 h2]

theorem dec_split : ∀ (n : Nat) (x : Bytes), x.length ≤ n →
    (∃ s, Decodes x s) ∨ ∃ p r s e, x = p ++ r ∧ Decodes p s ∧ Offends r e := by
  intro n
  induction n with
  | zero =>
    intro x h
    have : x = [] := List.eq_nil_of_length_eq_zero (by omega)
    exact .inl ⟨[], this ▸ .nil⟩
  | succ n ih =>
    intro x h
    match x with
    | [] => exact .inl ⟨[], .nil⟩
    | b :: x =>
      simp at h
      by_cases p1 : b = c! '+'
      · subst p1
        rcases ih x h with ⟨s, hs⟩ | ⟨p, r, s, e, h1, h2, h3⟩
        · exact .inl ⟨_, .plus hs⟩
        · exact .inr ⟨_, r, _, e, by rw [h1]; rfl, .plus h2, h3⟩
      · by_cases p2 : b = c! '%'
        · subst p2
          match x with
          | [] => exact .inr ⟨[], _, [], _, rfl, .nil, .cut0⟩
          | [h] => exact .inr ⟨[], _, [], _, rfl, .nil, .cut1⟩
          | h' :: l :: x =>
            cases e1 : hexNibble h' with
            | none => exact .inr ⟨[], _, [], _, rfl, .nil, .high (nibble_none.1 e1)⟩
            | some v =>
              have d1 := nibble_some _ _ e1
              cases e2 : hexNibble l with
              | none => exact .inr ⟨[], _, [], _, rfl, .nil, .low d1 (nibble_none.1 e2)⟩
              | some w =>
                have d2 := nibble_some _ _ e2
                rcases ih x (by simp at h; omega) with ⟨s, hs⟩ | ⟨p, r, s, e, h1, h2, h3⟩
                · exact .inl ⟨_, .escape d1 d2 hs⟩
                · exact .inr ⟨_, r, _, e, by rw [h1]; rfl, .escape d1 d2 h2, h3⟩
        · by_cases p3 : 0x21 ≤ b ∧ b ≤ 0x7E
          · rcases ih x h with ⟨s, hs⟩ | ⟨p, r, s, e, h1, h2, h3⟩
            · exact .inl ⟨_, .literal ⟨p3.1, p3.2, p1, p2⟩ hs⟩
            · exact .inr ⟨_, r, _, e, by rw [h1]; rfl, .literal ⟨p3.1, p3.2, p1, p2⟩ h2, h3⟩
          · refine .inr ⟨[], _, [], _, rfl, .nil, .byte ?_⟩
            by_contra h'
            simp only [not_or, UInt8.not_lt] at h'
            exact p3 h'

end Verif.Util
