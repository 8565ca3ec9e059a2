import Verif.Http2.FrameSpec
import Verif.Http2.Total

/-!
# The reference machine reads frames (helper lemmas)
-/

set_option linter.unusedSimpArgs false
set_option linter.unusedVariables false

namespace Verif.Http2

variable {K : Slices}

/-! ## Numbers -/

theorem val4 (b1 b2 b3 b4 : UInt8) : (((((0 : UInt32) ||| (b1.toUInt32 <<< 24)) ||| (b2.toUInt32 <<< 16)) |||
    (b3.toUInt32 <<< 8)) ||| b4.toUInt32).toNat = ((b1.toNat * 256 + b2.toNat) * 256 + b3.toNat) * 256 + b4.toNat := by
  have h1 := b1.toNat_lt
  have h2 := b2.toNat_lt
  have h3 := b3.toNat_lt
  have h4 := b4.toNat_lt
  have e1 : (b1.toUInt32 <<< (24 : UInt32)).toNat = b1.toNat <<< 24 := by
    rw [UInt32.toNat_shiftLeft, UInt8.toNat_toUInt32]
    show (b1.toNat <<< 24) % _ = _
    rw [Nat.shiftLeft_eq]; apply Nat.mod_eq_of_lt; omega
  have e2 : (b2.toUInt32 <<< (16 : UInt32)).toNat = b2.toNat <<< 16 := by
    rw [UInt32.toNat_shiftLeft, UInt8.toNat_toUInt32]
    show (b2.toNat <<< 16) % _ = _
    rw [Nat.shiftLeft_eq]; apply Nat.mod_eq_of_lt; omega
  have e3 : (b3.toUInt32 <<< (8 : UInt32)).toNat = b3.toNat <<< 8 := by
    rw [UInt32.toNat_shiftLeft, UInt8.toNat_toUInt32]
    show (b3.toNat <<< 8) % _ = _
    rw [Nat.shiftLeft_eq]; apply Nat.mod_eq_of_lt; omega
  rw [UInt32.toNat_or, UInt32.toNat_or, UInt32.toNat_or, UInt32.toNat_or, e1, e2, e3, UInt8.toNat_toUInt32]
  rw [show (0 : UInt32).toNat = 0 from rfl, Nat.zero_or]
  rw [← Nat.shiftLeft_add_eq_or_of_lt (show b2.toNat <<< 16 < 2 ^ 24 by rw [Nat.shiftLeft_eq]; omega)]
  rw [show b1.toNat <<< 24 + b2.toNat <<< 16 = (b1.toNat * 256 + b2.toNat) <<< 16 by simp only [Nat.shiftLeft_eq]; omega]
  rw [← Nat.shiftLeft_add_eq_or_of_lt (show b3.toNat <<< 8 < 2 ^ 16 by rw [Nat.shiftLeft_eq]; omega)]
  rw [show (b1.toNat * 256 + b2.toNat) <<< 16 + b3.toNat <<< 8 = ((b1.toNat * 256 + b2.toNat) * 256 + b3.toNat) <<< 8 by
    simp only [Nat.shiftLeft_eq]; omega]
  rw [← Nat.shiftLeft_add_eq_or_of_lt (show b4.toNat < 2 ^ 8 by omega)]
  simp only [Nat.shiftLeft_eq]

theorem val2 (b1 b2 : UInt8) : (((0 : UInt16) ||| (b1.toUInt16 <<< 8)) ||| b2.toUInt16).toNat =
    b1.toNat * 256 + b2.toNat := by
  have h1 := b1.toNat_lt
  have h2 := b2.toNat_lt
  have e1 : (b1.toUInt16 <<< (8 : UInt16)).toNat = b1.toNat <<< 8 := by
    rw [UInt16.toNat_shiftLeft, UInt8.toNat_toUInt16]
    show (b1.toNat <<< 8) % _ = _
    rw [Nat.shiftLeft_eq]; apply Nat.mod_eq_of_lt; omega
  rw [UInt16.toNat_or, UInt16.toNat_or, e1, UInt8.toNat_toUInt16, show (0 : UInt16).toNat = 0 from rfl, Nat.zero_or]
  rw [← Nat.shiftLeft_add_eq_or_of_lt (show b2.toNat < 2 ^ 8 by omega), Nat.shiftLeft_eq]

theorem be4 {n : Nat} (hn : n < 2 ^ 32) : ((((0 : UInt32) ||| ((UInt8.ofNat (n / 256 ^ 3)).toUInt32 <<< 24)) |||
    ((UInt8.ofNat (n / 256 ^ 2)).toUInt32 <<< 16)) ||| ((UInt8.ofNat (n / 256 ^ 1)).toUInt32 <<< 8)) |||
    (UInt8.ofNat (n / 256 ^ 0)).toUInt32 = UInt32.ofNat n := by
  apply UInt32.toNat_inj.mp
  rw [val4, UInt32.toNat_ofNat', Nat.mod_eq_of_lt hn]
  simp only [UInt8.toNat_ofNat']
  omega

theorem be2 {n : Nat} (hn : n < 2 ^ 16) : ((0 : UInt16) ||| ((UInt8.ofNat (n / 256 ^ 1)).toUInt16 <<< 8)) |||
    (UInt8.ofNat (n / 256 ^ 0)).toUInt16 = UInt16.ofNat n := by
  apply UInt16.toNat_inj.mp
  rw [val2, UInt16.toNat_ofNat', Nat.mod_eq_of_lt hn]
  simp only [UInt8.toNat_ofNat']
  omega

/-- Payload length and pad length. -/
def pk (n p : Nat) : UInt32 := UInt32.ofNat (n * 256 + p)

theorem pk_toNat {n p : Nat} (hn : n < 2 ^ 24) (hp : p < 256) : (pk n p).toNat = n * 256 + p := by
  rw [pk, UInt32.toNat_ofNat', Nat.mod_eq_of_lt (by omega)]

theorem pk_hi {n p : Nat} {b x y st} (hn : n < 2 ^ 24) (hp : p < 256) : (Core.mk (pk n p) b x y st).hi = n := by
  rw [Core.hi, pk_toNat hn hp]; omega

theorem pk_lo {n p : Nat} {b x y st} (hn : n < 2 ^ 24) (hp : p < 256) : (Core.mk (pk n p) b x y st).lo = p := by
  rw [Core.lo, pk_toNat hn hp]; omega

theorem pk_dec {n p k : Nat} {b x y st} (hn : n < 2 ^ 24) (hp : p < 256) :
    (Core.mk (pk n p) b x y st).dec k = Core.mk (pk (n - k) p) b x y st := by
  rw [Core.dec, pk_hi hn hp, pk_lo hn hp]; rfl

theorem pk_decPayload {n p : Nat} {k : UInt32} {b x y st} (hn : n < 2 ^ 24) (hp : p < 256) (hk : k.toNat ≤ n) :
    (Core.mk (pk n p) b x y st).decPayloadLength k = some (Core.mk (pk (n - k.toNat) p) b x y st) := by
  rw [dec_eq, pk_hi hn hp, if_neg (by omega), pk_dec hn hp]

theorem pk_or {n p : Nat} (hn : n < 2 ^ 24) (hp : p < 256) : pk n 0 ||| (UInt8.ofNat p).toUInt32 = pk n p := by
  apply UInt32.toNat_inj.mp
  rw [UInt32.toNat_or, pk_toNat hn (by decide), pk_toNat hn hp, UInt8.toNat_toUInt32, UInt8.toNat_ofNat',
    Nat.mod_eq_of_lt hp]
  have := Nat.shiftLeft_add_eq_or_of_lt (show p < 2 ^ 8 from hp) n
  rw [Nat.shiftLeft_eq] at this
  rw [Nat.add_zero]
  exact this.symm

/-! ## Reading fields -/

/-- The start of a frame. -/
def s0 : Core := ⟨0, 0, 0, 0, .frameLength1⟩

/-- In state `s1` one byte goes to `bit32b`, shifted by `k`. -/
def Reads (s1 : St) (k : UInt32) (s2 : St) : Prop :=
  ∀ s : Core, s.st = s1 → norm s = .next [] s ∧ ∀ b : UInt8, bstep s b = or32b s (b.toUInt32 <<< k) s2

theorem shl_zero (x : UInt32) : x <<< (0 : UInt32) = x := by
  apply UInt32.toNat_inj.mp
  rw [UInt32.toNat_shiftLeft]
  show (x.toNat <<< 0) % _ = _
  rw [Nat.shiftLeft_zero, Nat.mod_eq_of_lt x.toNat_lt]

theorem read4C {a : UInt32} {x y : UInt16} {s1 s2 s3 s4 s5 : St} (h1 : Reads s1 24 s2) (h2 : Reads s2 16 s3)
    (h3 : Reads s3 8 s4) (h4 : Reads s4 0 s5) (hq : quiet s2 = true ∧ quiet s3 = true ∧ quiet s4 = true) (tr : List Ev)
    {n : Nat} (hn : n < 2 ^ 32) (r : Bytes) (hp : Passes K s1 (be 4 n ++ r)) :
    predC K tr ⟨a, 0, x, y, s1⟩ (be 4 n ++ r) = predC K tr ⟨a, UInt32.ofNat n, x, y, s5⟩ r := by
  simp only [be, List.cons_append, List.nil_append] at hp ⊢
  rw [predC_pass32 hp (h1 _ rfl).1 ((h1 _ rfl).2 _) rfl, predC_or32b hq.1 (h2 _ rfl).1 ((h2 _ rfl).2 _) rfl,
    predC_or32b hq.2.1 (h3 _ rfl).1 ((h3 _ rfl).2 _) rfl, predC_or32b hq.2.2 (h4 _ rfl).1 ((h4 _ rfl).2 _) rfl]
  simp only [shl_zero]
  rw [be4 hn]

theorem read4 {a : UInt32} {x y : UInt16} {s1 s2 s3 s4 s5 : St} (h1 : Reads s1 24 s2) (h2 : Reads s2 16 s3)
    (h3 : Reads s3 8 s4) (h4 : Reads s4 0 s5) (tr : List Ev) {n : Nat} (hn : n < 2 ^ 32) (r : Bytes) :
    pred tr ⟨a, 0, x, y, s1⟩ (be 4 n ++ r) = pred tr ⟨a, UInt32.ofNat n, x, y, s5⟩ r := by
  simp only [be, List.cons_append, List.nil_append]
  rw [pred_or32b (h1 _ rfl).1 ((h1 _ rfl).2 _) rfl, pred_or32b (h2 _ rfl).1 ((h2 _ rfl).2 _) rfl,
    pred_or32b (h3 _ rfl).1 ((h3 _ rfl).2 _) rfl, pred_or32b (h4 _ rfl).1 ((h4 _ rfl).2 _) rfl]
  simp only [shl_zero]
  rw [be4 hn]

macro "reads" : tactic => `(tactic| (intro s hs; constructor <;> simp [norm, bstep, hs, shl_zero]))

theorem word_lt {bit : Bool} {x : UInt32} (hx : x < 0x80000000) : x.toNat + (if bit then 2 ^ 31 else 0) < 2 ^ 32 := by
  have : x.toNat < 2 ^ 31 := UInt32.lt_iff_toNat_lt.mp hx
  split <;> omega

theorem word_and {bit : Bool} {x : UInt32} (hx : x < 0x80000000) :
    UInt32.ofNat (x.toNat + if bit then 2 ^ 31 else 0) &&& 0x7FFFFFFF = x := by
  have h1 : x.toNat < 2 ^ 31 := UInt32.lt_iff_toNat_lt.mp hx
  apply UInt32.toNat_inj.mp
  rw [UInt32.toNat_and, UInt32.toNat_ofNat', Nat.mod_eq_of_lt (word_lt hx)]
  have : ∀ k : Nat, k &&& (0x7FFFFFFF : UInt32).toNat = k % 2 ^ 31 := fun k => Nat.and_two_pow_sub_one_eq_mod _ 31
  rw [this]
  split <;> omega

theorem word_shr {bit : Bool} {x : UInt32} (hx : x < 0x80000000) :
    (UInt32.ofNat (x.toNat + if bit then 2 ^ 31 else 0) >>> 31 == 1) = bit := by
  have h1 : x.toNat < 2 ^ 31 := UInt32.lt_iff_toNat_lt.mp hx
  have : (UInt32.ofNat (x.toNat + if bit then 2 ^ 31 else 0) >>> 31).toNat = if bit then 1 else 0 := by
    rw [UInt32.toNat_shiftRight, UInt32.toNat_ofNat', Nat.mod_eq_of_lt (word_lt hx)]
    show _ >>> 31 = _
    rw [Nat.shiftRight_eq_div_pow]
    split <;> omega
  cases bit
  · rw [beq_eq_false_iff_ne]
    intro h
    rw [h] at this
    exact absurd this (by decide)
  · rw [beq_iff_eq]
    apply UInt32.toNat_inj.mp
    rw [this]
    rfl

/-! ## The header -/

/-- The state after the header. -/
def stOf (t fl : UInt8) : St :=
  let padded := (fl &&& 0x8) == 0x8
  let priority := (fl &&& 0x20) == 0x20
  match t with
  | 0x0 => if padded then .dataPadLength else .dataData
  | 0x1 =>
    if padded then
      if priority then .headersPadLengthWithPriority else .headersPadLengthWithoutPriority
    else if priority then .headersStreamId1
    else .headersFragment
  | 0x2 => .priorityStreamId1
  | 0x3 => .rstStreamErrorCode1
  | 0x4 => .settingsId1
  | 0x5 => if padded then .pushPromisePadLength else .pushPromiseStreamId1
  | 0x6 => .pingData
  | 0x7 => .goAwayStreamId1
  | 0x8 => .windowUpdateIncrement1
  | 0x9 => .headersFragment
  | _ => if padded then .unsupportedPadLength else .unsupportedData

theorem pk_and {n : Nat} {t : UInt8} (hn : n < 2 ^ 24) : (pk n t.toNat &&& 0xFF).toUInt8 = t := by
  apply UInt8.toNat_inj.mp
  have ht := t.toNat_lt
  rw [UInt32.toNat_toUInt8, lo_and, pk_toNat hn ht]
  omega

theorem and_mask (a : UInt32) : (a &&& 0xFFFFFF00).toNat = a.toNat / 256 * 256 := by
  have h1 : a.toNat / 256 * 256 = (a.toNat >>> 8) <<< 8 := by rw [Nat.shiftRight_eq_div_pow, Nat.shiftLeft_eq]
  rw [h1, UInt32.toNat_and]
  apply Nat.eq_of_testBit_eq
  intro i
  rw [Nat.testBit_and, Nat.testBit_shiftLeft, Nat.testBit_shiftRight]
  have h2 : (0xFFFFFF00 : UInt32).toNat.testBit i = (decide (8 ≤ i) && decide (i < 32)) := by
    by_cases hi : i < 32
    · have : ∀ j : _root_.Fin 32, (0xFFFFFF00 : UInt32).toNat.testBit j = decide (8 ≤ j.val) := by decide
      rw [this ⟨i, hi⟩]
      simp [hi]
    · rw [Nat.testBit_lt_two_pow]
      · simp [hi]
      · exact Nat.lt_of_lt_of_le (show _ < 2 ^ 32 by decide) (Nat.pow_le_pow_right (by decide) (by omega))
  rw [h2]
  by_cases h8 : 8 ≤ i
  · by_cases hi : i < 32
    · simp [h8, hi, Nat.add_sub_cancel' h8]
    · have : a.toNat.testBit i = false := by
        apply Nat.testBit_lt_two_pow
        exact Nat.lt_of_lt_of_le a.toNat_lt (Nat.pow_le_pow_right (by decide) (by omega))
      simp [h8, hi, Nat.add_sub_cancel' h8, this]
  · simp [h8]

theorem pk_mask {n : Nat} {t : UInt8} (hn : n < 2 ^ 24) : pk n t.toNat &&& 0xFFFFFF00 = pk n 0 := by
  have ht := t.toNat_lt
  apply UInt32.toNat_inj.mp
  rw [and_mask, pk_toNat hn ht, pk_toNat hn (by decide)]
  omega

theorem toUInt16_toUInt8 (b : UInt8) : b.toUInt16.toUInt8 = b := by
  apply UInt8.toNat_inj.mp
  rw [UInt16.toNat_toUInt8, UInt8.toNat_toUInt16]
  have := b.toNat_lt
  omega

theorem header_end {n : Nat} {t fl : UInt8} {v : UInt32} (hn : n < 2 ^ 24) :
    norm ⟨pk n t.toNat, v, fl.toUInt16, 0, .frameFormatEnd⟩ =
      .next [.frameFormat (UInt32.ofNat n) t fl (v &&& 0x7FFFFFFF)] ⟨pk n 0, 0, 0, 0, stOf t fl⟩ := by
  have e3 : (Core.mk (pk n t.toNat) v fl.toUInt16 0 .frameFormatEnd).payloadLength = UInt32.ofNat n := by
    apply UInt32.toNat_inj.mp
    rw [payload_toNat, pk_hi hn t.toNat_lt, UInt32.toNat_ofNat', Nat.mod_eq_of_lt (by omega)]
  have e4 : frameState ⟨pk n t.toNat, v, fl.toUInt16, 0, .frameFormatEnd⟩ = stOf t fl := by
    unfold frameState stOf Core.hasFlag
    simp only [pk_and hn, toUInt16_toUInt8]
    rfl
  simp only [norm]
  rw [e3, e4]
  simp only [pk_and hn, toUInt16_toUInt8, pk_mask hn]

theorem header_norm {n : Nat} {t fl : UInt8} :
    norm ⟨pk n 0, 0, 0, 0, stOf t fl⟩ = .next [] ⟨pk n 0, 0, 0, 0, stOf t fl⟩ := by
  unfold stOf
  dsimp only
  split <;> (repeat' split) <;> rfl

theorem header_start {n : Nat} {t fl : UInt8} (hn : n < 2 ^ 24) (s : Core) (hs : s.st = .frameLength1) (tr : List Ev)
    (m : Bytes) : predC K tr s (be 3 n ++ [t, fl] ++ m) =
      predC K tr ⟨pk n t.toNat, 0, fl.toUInt16, 0, .frameStreamId1⟩ m := by
  have h4 : ((((0 : UInt32) ||| ((UInt8.ofNat (n / 256 ^ 2)).toUInt32 <<< 24)) |||
      ((UInt8.ofNat (n / 256 ^ 1)).toUInt32 <<< 16)) ||| ((UInt8.ofNat (n / 256 ^ 0)).toUInt32 <<< 8)) |||
      t.toUInt32 = pk n t.toNat := by
    have ht := t.toNat_lt
    apply UInt32.toNat_inj.mp
    rw [val4, pk_toNat hn ht]
    simp only [UInt8.toNat_ofNat']
    omega
  rw [← h4, predC_start (s' := s0) hs rfl]
  simp only [be, List.cons_append, List.nil_append, List.append_assoc]
  simp [predC, Slices.lost, Slices.byte, norm, bstep, or32a, bStart, s0]

theorem pred_header {n : Nat} {t fl : UInt8} {r : Bool} {id : UInt32} (hn : n < 2 ^ 24) (hid : id < 0x80000000)
    (s : Core) (hs : s.st = .frameLength1) (tr : List Ev) (m : Bytes) :
    pred tr s (be 3 n ++ [t, fl] ++ word r id ++ m) =
      pred (tr ++ [.frameFormat (UInt32.ofNat n) t fl id]) ⟨pk n 0, 0, 0, 0, stOf t fl⟩ m := by
  have e1 := header_start (K := .none) (t := t) (fl := fl) hn s hs tr (word r id ++ m)
  rw [predC_none, predC_none, ← List.append_assoc] at e1
  have e2 : pred tr ⟨pk n t.toNat, 0, fl.toUInt16, 0, .frameStreamId1⟩ (word r id ++ m) =
      pred tr ⟨pk n t.toNat, UInt32.ofNat (id.toNat + if r then 2 ^ 31 else 0), fl.toUInt16, 0, .frameFormatEnd⟩ m :=
    read4 (s2 := .frameStreamId2) (s3 := .frameStreamId3) (s4 := .frameStreamId4) (by reads) (by reads) (by reads)
      (by reads) tr (word_lt hid) m
  rw [e1, e2, pred_imm (header_end hn) header_norm, word_and hid]

/-! ## Data and padding -/

theorem fin_blob {k : Kind} {d pd : Bytes} {s : Core} (hs : PaySt s.st k) (hh : s.hi = d.length + pd.length)
    (hl : s.lo = pd.length) (tr : List Ev) (r : Bytes) (hne : d ++ pd ++ r ≠ []) :
    pred tr s (d ++ pd ++ r) = pred (tr ++ (bytesEv k d ++ [.payload k [] true])) s0 r := by
  rw [List.append_assoc] at hne ⊢
  rw [pred_whole (pd ++ r) d s tr hs hne (by omega), List.append_assoc]
  unfold endState
  have hlo : (s.bit32a &&& 0xFF > 0) ↔ 0 < s.lo := pad_pos s
  have hlo' : ((s.dec d.length).bit32a &&& 0xFF > 0) ↔ 0 < s.lo := by rw [pad_pos, dec_lo]
  by_cases hp : 0 < s.lo
  · rw [if_pos (hlo'.mpr hp)]
    refine pred_padWhole r s0 rfl pd _ _ rfl ?_
    show pd.length = (s.dec d.length).hi
    rw [dec_hi]; omega
  · rw [if_neg (fun h => hp (hlo'.mp h))]
    have : pd = [] := List.eq_nil_of_length_eq_zero (by omega)
    rw [this, List.nil_append]
    exact pred_start rfl rfl _ _

/-- The callbacks for the fields that are executed at once when no data follows. -/
def Body.early : Body → List Ev
  | .pushPromise .. => []
  | b => b.fieldEvents

/-- What is shown about every kind of frame. -/
structure BodyRuns (b : Body) (tr : List Ev) (s : Core) (r : Bytes) : Prop where
  full : r ≠ [] ∨ b.waits = false → pred tr s (b.payload ++ r) = pred (tr ++ (b.fieldEvents ++ b.blobEvents)) s0 r
  wait : b.waits = true →
    pred tr s b.payload = (tr ++ b.early, .eos)

theorem pay_nil {k : Kind} {s : Core} (hs : PaySt s.st k) (tr : List Ev) : pred tr s [] = (tr, .eos) := by
  rw [pred, hs.norm]; simp

theorem waits_iff {b : Body} {k : Kind} {d : Bytes} (hb : b.blob = some (k, d)) :
    b.waits = true ↔ d = [] ∧ b.pad.getD [] = [] := by
  unfold Body.waits
  rw [hb]
  cases d <;> simp

/-- Data after the fields. -/
theorem BodyRuns.of_blob {b : Body} {k : Kind} {d : Bytes} {s s' : Core} {tr : List Ev} {r : Bytes} (hb : b.blob = some (k, d))
    (hp : ∀ a q f, b ≠ .pushPromise a q f)
    (hpre : ∀ m, pred tr s (b.padLength ++ b.fields ++ m) =
      pred (tr ++ b.fieldEvents) s' m) (hs : PaySt s'.st k) (hh : s'.hi = d.length + (b.pad.getD []).length)
    (hl : s'.lo = (b.pad.getD []).length) : BodyRuns b tr s r := by
  have hpay : b.payload = b.padLength ++ b.fields ++
      (d ++ b.pad.getD []) := by
    unfold Body.payload
    rw [hb]
    simp only [List.append_assoc]
  have hev : b.blobEvents = bytesEv k d ++ [.payload k [] true] := by
    unfold Body.blobEvents
    rw [hb]
    rfl
  constructor
  · intro hr
    rw [hpay, List.append_assoc, hpre, hev, fin_blob hs hh hl, List.append_assoc]
    intro he
    have h1 : d = [] ∧ b.pad.getD [] = [] ∧ r = [] := by simpa [and_assoc] using he
    rcases hr with hr | hr
    · exact hr h1.2.2
    · rw [(waits_iff hb).mpr ⟨h1.1, h1.2.1⟩] at hr
      cases hr
  · intro hw
    obtain ⟨rfl, h2⟩ := (waits_iff hb).mp hw
    rw [hpay, h2, List.nil_append, hpre, pay_nil hs]
    cases b <;> first | rfl | exact absurd rfl (hp _ _ _)

theorem predC_pad {n p : Nat} {s1 s2 : St} (hn : n < 2 ^ 24) (hp : p < 256) (h1 : 1 ≤ n)
    (hq : quiet s1 = true)
    (hnorm : ∀ s : Core, s.st = s1 → norm s = .next [] s) (hb : ∀ s : Core, s.st = s1 → ∀ b, bstep s b = bPad s b s2)
    (tr : List Ev) (m : Bytes) :
    predC K tr ⟨pk n 0, 0, 0, 0, s1⟩ (UInt8.ofNat p :: m) = predC K tr ⟨pk (n - 1) p, 0, 0, 0, s2⟩ m := by
  rw [predC_byte (es := []) (s' := ⟨pk (n - 1) p, 0, 0, 0, s2⟩) hq (hnorm _ rfl), List.append_nil]
  rw [hb _ rfl, bPad]
  simp only [pk_or hn hp]
  rw [pk_decPayload hn hp (k := 1) h1]
  rfl

theorem pred_pad {n p : Nat} {s1 s2 : St} (hn : n < 2 ^ 24) (hp : p < 256) (h1 : 1 ≤ n) (hq : quiet s1 = true)
    (hnorm : ∀ s : Core, s.st = s1 → norm s = .next [] s) (hb : ∀ s : Core, s.st = s1 → ∀ b, bstep s b = bPad s b s2)
    (tr : List Ev) (m : Bytes) :
    pred tr ⟨pk n 0, 0, 0, 0, s1⟩ (UInt8.ofNat p :: m) = pred tr ⟨pk (n - 1) p, 0, 0, 0, s2⟩ m := by
  simpa only [predC_none] using predC_pad (K := .none) hn hp h1 hq hnorm hb tr m

theorem runs_data {fl : UInt8} {pad : Option Bytes} {d : Bytes} (hf : (Body.data pad d).FlagsOK fl)
    (hok : (Body.data pad d).OK) (tr : List Ev) (r : Bytes) :
    BodyRuns (.data pad d) tr ⟨pk (Body.data pad d).payload.length 0, 0, 0, 0, stOf 0 fl⟩ r := by
  obtain ⟨hpl, hlen, -⟩ := hok
  cases pad with
  | none =>
    have hst : stOf 0 fl = .dataData := by
      have : ¬ (fl &&& 0x8 = 0x8) := fun h => by simpa using hf.mp h
      simp [stOf, this]
    rw [hst]
    have hn : (Body.data none d).payload.length = d.length := by simp [Body.payload, Body.padLength, Body.pad, Body.fields, Body.blob]
    rw [hn] at hlen ⊢
    refine .of_blob (k := .data) (d := d) (s' := ⟨pk d.length 0, 0, 0, 0, .dataData⟩) rfl nofun ?_ rfl ?_ ?_
    · intro m; simp [Body.padLength, Body.pad, Body.fields, Body.fieldEvents]
    · rw [pk_hi hlen (by decide)]; rfl
    · rw [pk_lo hlen (by decide)]; rfl
  | some pd =>
    have hst : stOf 0 fl = .dataPadLength := by
      have : (fl &&& 0x8 = 0x8) := hf.mpr rfl
      simp [stOf, this]
    rw [hst]
    have hpd : pd.length < 256 := hpl pd rfl
    have hn : (Body.data (some pd) d).payload.length = d.length + pd.length + 1 := by
      simp [Body.payload, Body.padLength, Body.pad, Body.fields, Body.blob]
    rw [hn] at hlen ⊢
    refine .of_blob (k := .data) (d := d) (s' := ⟨pk (d.length + pd.length) pd.length, 0, 0, 0, .dataData⟩) rfl nofun ?_
      rfl ?_ ?_
    · intro m
      simp only [Body.padLength, Body.pad, Body.fields, Body.fieldEvents, List.append_nil, List.singleton_append]
      exact pred_pad hlen hpd (by omega) rfl (fun s hs => by simp [norm, hs]) (fun s hs b => by simp [bstep, hs]) tr m
    · rw [pk_hi (by omega) hpd]; rfl
    · rw [pk_lo (by omega) hpd]; rfl

theorem stOf_unknown {t fl : UInt8} (ht : 9 < t) :
    stOf t fl = if (fl &&& 0x8) == 0x8 then .unsupportedPadLength else .unsupportedData := by
  unfold stOf
  simp only
  split <;> first | rfl | exact absurd ht (by decide)

theorem runs_unknown {t fl : UInt8} {pad : Option Bytes} {d : Bytes} (hf : (Body.unknown t pad d).FlagsOK fl)
    (hok : (Body.unknown t pad d).OK) (tr : List Ev) (r : Bytes) :
    BodyRuns (.unknown t pad d) tr ⟨pk (Body.unknown t pad d).payload.length 0, 0, 0, 0, stOf t fl⟩ r := by
  obtain ⟨hpl, hlen, ht⟩ := hok
  rw [stOf_unknown ht]
  cases pad with
  | none =>
    have : ¬ (fl &&& 0x8 = 0x8) := fun h => by simpa using hf.mp h
    rw [if_neg (by simpa using this)]
    have hn : (Body.unknown t none d).payload.length = d.length := by
      simp [Body.payload, Body.padLength, Body.pad, Body.fields, Body.blob]
    rw [hn] at hlen ⊢
    refine .of_blob (k := .unsupported) (d := d) (s' := ⟨pk d.length 0, 0, 0, 0, .unsupportedData⟩) rfl nofun ?_ rfl ?_ ?_
    · intro m; simp [Body.padLength, Body.pad, Body.fields, Body.fieldEvents]
    · rw [pk_hi hlen (by decide)]; rfl
    · rw [pk_lo hlen (by decide)]; rfl
  | some pd =>
    have : (fl &&& 0x8 = 0x8) := hf.mpr rfl
    rw [if_pos (by simpa using this)]
    have hpd : pd.length < 256 := hpl pd rfl
    have hn : (Body.unknown t (some pd) d).payload.length = d.length + pd.length + 1 := by
      simp [Body.payload, Body.padLength, Body.pad, Body.fields, Body.blob]
    rw [hn] at hlen ⊢
    refine .of_blob (k := .unsupported) (d := d) (s' := ⟨pk (d.length + pd.length) pd.length, 0, 0, 0, .unsupportedData⟩)
      rfl nofun ?_ rfl ?_ ?_
    · intro m
      simp only [Body.padLength, Body.pad, Body.fields, Body.fieldEvents, List.append_nil, List.singleton_append]
      exact pred_pad hlen hpd (by omega) rfl (fun s hs => by simp [norm, hs]) (fun s hs b => by simp [bstep, hs]) tr m
    · rw [pk_hi (by omega) hpd]; rfl
    · rw [pk_lo (by omega) hpd]; rfl

theorem runs_continuation {fl : UInt8} {d : Bytes} (hok : (Body.continuation d).OK) (tr : List Ev) (r : Bytes) :
    BodyRuns (.continuation d) tr ⟨pk (Body.continuation d).payload.length 0, 0, 0, 0, stOf 9 fl⟩ r := by
  obtain ⟨-, hlen, -⟩ := hok
  have hn : (Body.continuation d).payload.length = d.length := by
    simp [Body.payload, Body.padLength, Body.pad, Body.fields, Body.blob]
  rw [hn] at hlen ⊢
  refine .of_blob (k := .headersFragment) (d := d) (s' := ⟨pk d.length 0, 0, 0, 0, .headersFragment⟩) rfl nofun ?_ rfl ?_ ?_
  · intro m; simp [Body.padLength, Body.pad, Body.fields, Body.fieldEvents, stOf]
  · rw [pk_hi hlen (by decide)]; rfl
  · rw [pk_lo hlen (by decide)]; rfl

theorem runs_ping {fl : UInt8} {d : Bytes} (hok : (Body.ping d).OK) (tr : List Ev) (r : Bytes) :
    BodyRuns (.ping d) tr ⟨pk (Body.ping d).payload.length 0, 0, 0, 0, stOf 6 fl⟩ r := by
  obtain ⟨-, hlen, -⟩ := hok
  have hn : (Body.ping d).payload.length = d.length := by
    simp [Body.payload, Body.padLength, Body.pad, Body.fields, Body.blob]
  rw [hn] at hlen ⊢
  refine .of_blob (k := .ping) (d := d) (s' := ⟨pk d.length 0, 0, 0, 0, .pingData⟩) rfl nofun ?_ rfl ?_ ?_
  · intro m; simp [Body.padLength, Body.pad, Body.fields, Body.fieldEvents, stOf]
  · rw [pk_hi hlen (by decide)]; rfl
  · rw [pk_lo hlen (by decide)]; rfl

theorem weight_shift (w : UInt8) : ((w.toUInt16 <<< 8) >>> (8 : UInt16)).toUInt8 = w := by
  revert w; exact Util.forall_u8 (by decide +kernel)

theorem be_length : ∀ (k n : Nat), (be k n).length = k
  | 0, _ => rfl
  | k + 1, n => by simp [be, be_length k n]

theorem word_length (b : Bool) (x : UInt32) : (word b x).length = 4 := be_length _ _

theorem predC_prio {n p : Nat} {e : Bool} {d : UInt32} {w : UInt8} (hn : n < 2 ^ 24) (hp : p < 256) (h5 : 5 ≤ n)
    (hd : d < 0x80000000) (tr : List Ev) (m : Bytes) :
    predC K tr ⟨pk n p, 0, 0, 0, .headersStreamId1⟩ (word e d ++ w :: m) =
      predC K (tr ++ [.headers e d w]) ⟨pk (n - 5) p, UInt32.ofNat (d.toNat + if e then 2 ^ 31 else 0), w.toUInt16 <<< 8, 0,
        .headersFragment⟩ m := by
  rw [word, read4C (s2 := .headersStreamId2) (s3 := .headersStreamId3) (s4 := .headersStreamId4) (s5 := .headersWeight)
    (by reads) (by reads) (by reads) (by reads) ⟨rfl, rfl, rfl⟩ tr (word_lt hd) _ (.inl rfl)]
  rw [predC_byte (es := []) (s' := ⟨pk (n - 5) p, UInt32.ofNat (d.toNat + if e then 2 ^ 31 else 0), w.toUInt16 <<< 8, 0,
    .headersCallback⟩) rfl rfl ?_, List.append_nil, predC_imm rfl rfl]
  · simp only [word_shr hd, word_and hd, weight_shift]
  · simp only [bstep]
    rw [pk_decPayload hn hp (k := 5) h5]
    rfl

theorem pred_prio {n p : Nat} {e : Bool} {d : UInt32} {w : UInt8} (hn : n < 2 ^ 24) (hp : p < 256) (h5 : 5 ≤ n)
    (hd : d < 0x80000000) (tr : List Ev) (m : Bytes) :
    pred tr ⟨pk n p, 0, 0, 0, .headersStreamId1⟩ (word e d ++ w :: m) =
      pred (tr ++ [.headers e d w]) ⟨pk (n - 5) p, UInt32.ofNat (d.toNat + if e then 2 ^ 31 else 0), w.toUInt16 <<< 8, 0,
        .headersFragment⟩ m := by
  simpa only [predC_none] using predC_prio (K := .none) hn hp h5 hd tr m

theorem runs_headers {fl : UInt8} {pad : Option Bytes} {q : Option (Bool × UInt32 × UInt8)} {d : Bytes}
    (hf : (Body.headers pad q d).FlagsOK fl) (hok : (Body.headers pad q d).OK) (tr : List Ev) (r : Bytes) :
    BodyRuns (.headers pad q d) tr ⟨pk (Body.headers pad q d).payload.length 0, 0, 0, 0, stOf 1 fl⟩ r := by
  obtain ⟨hpl, hlen, hq⟩ := hok
  obtain ⟨hf1, hf2⟩ := hf
  cases pad with
  | none =>
    have h1 : ¬ (fl &&& 0x8 = 0x8) := fun h => by simpa using hf1.mp h
    cases q with
    | none =>
      have h2 : ¬ (fl &&& 0x20 = 0x20) := fun h => by simpa using hf2.mp h
      have hst : stOf 1 fl = .headersFragment := by simp [stOf, h1, h2]
      rw [hst]
      have hn : (Body.headers none none d).payload.length = d.length := by
        simp [Body.payload, Body.padLength, Body.pad, Body.fields, Body.blob]
      rw [hn] at hlen ⊢
      refine .of_blob (k := .headersFragment) (d := d) (s' := ⟨pk d.length 0, 0, 0, 0, .headersFragment⟩) rfl nofun ?_
        rfl ?_ ?_
      · intro m; simp [Body.padLength, Body.pad, Body.fields, Body.fieldEvents]
      · rw [pk_hi hlen (by decide)]; rfl
      · rw [pk_lo hlen (by decide)]; rfl
    | some q =>
      obtain ⟨e, dep, w⟩ := q
      have h2 : (fl &&& 0x20 = 0x20) := hf2.mpr rfl
      have hst : stOf 1 fl = .headersStreamId1 := by simp [stOf, h1, h2]
      rw [hst]
      have hn : (Body.headers none (some (e, dep, w)) d).payload.length = d.length + 5 := by
        simp [Body.payload, Body.padLength, Body.pad, Body.fields, Body.blob, word_length]; omega
      rw [hn] at hlen ⊢
      refine .of_blob (k := .headersFragment) (d := d) (s' := ⟨pk d.length 0,
        UInt32.ofNat (dep.toNat + if e then 2 ^ 31 else 0), w.toUInt16 <<< 8, 0, .headersFragment⟩) rfl nofun ?_ rfl ?_ ?_
      · intro m
        simp only [Body.padLength, Body.pad, Body.fields, Body.fieldEvents, List.nil_append, List.append_assoc,
          List.singleton_append]
        exact pred_prio hlen (by decide) (by omega) hq tr m
      · rw [pk_hi (by omega) (by decide)]; rfl
      · rw [pk_lo (by omega) (by decide)]; rfl
  | some pd =>
    have h1 : (fl &&& 0x8 = 0x8) := hf1.mpr rfl
    have hpd : pd.length < 256 := hpl pd rfl
    cases q with
    | none =>
      have h2 : ¬ (fl &&& 0x20 = 0x20) := fun h => by simpa using hf2.mp h
      have hst : stOf 1 fl = .headersPadLengthWithoutPriority := by simp [stOf, h1, h2]
      rw [hst]
      have hn : (Body.headers (some pd) none d).payload.length = d.length + pd.length + 1 := by
        simp [Body.payload, Body.padLength, Body.pad, Body.fields, Body.blob]
      rw [hn] at hlen ⊢
      refine .of_blob (k := .headersFragment) (d := d) (s' := ⟨pk (d.length + pd.length) pd.length, 0, 0, 0,
        .headersFragment⟩) rfl nofun ?_ rfl ?_ ?_
      · intro m
        simp only [Body.padLength, Body.pad, Body.fields, Body.fieldEvents, List.append_nil, List.singleton_append]
        rw [pred_pad (s2 := .headersCallback) hlen hpd (by omega) rfl (fun s hs => by simp [norm, hs])
          (fun s hs b => by simp [bstep, hs]) tr m, pred_imm rfl rfl, Nat.add_sub_cancel]
        dsimp only
        rw [show ((0 : UInt32) >>> 31 == 1) = false by decide, show (0 : UInt32) &&& 0x7fffffff = 0 by decide,
          show ((0 : UInt16) >>> 8).toUInt8 = 0 by decide]
      · rw [pk_hi (by omega) hpd]; rfl
      · rw [pk_lo (by omega) hpd]; rfl
    | some q =>
      obtain ⟨e, dep, w⟩ := q
      have h2 : (fl &&& 0x20 = 0x20) := hf2.mpr rfl
      have hst : stOf 1 fl = .headersPadLengthWithPriority := by simp [stOf, h1, h2]
      rw [hst]
      have hn : (Body.headers (some pd) (some (e, dep, w)) d).payload.length = d.length + pd.length + 6 := by
        simp [Body.payload, Body.padLength, Body.pad, Body.fields, Body.blob, word_length]; omega
      rw [hn] at hlen ⊢
      refine .of_blob (k := .headersFragment) (d := d) (s' := ⟨pk (d.length + pd.length) pd.length,
        UInt32.ofNat (dep.toNat + if e then 2 ^ 31 else 0), w.toUInt16 <<< 8, 0, .headersFragment⟩) rfl nofun ?_ rfl ?_ ?_
      · intro m
        simp only [Body.padLength, Body.pad, Body.fields, Body.fieldEvents, List.append_assoc, List.singleton_append,
          List.cons_append]
        rw [pred_pad (s1 := .headersPadLengthWithPriority) (s2 := .headersStreamId1) hlen hpd (by omega) rfl (fun s hs => by simp [norm, hs])
          (fun s hs b => by simp [bstep, hs]) tr]
        exact pred_prio (by omega) hpd (by omega) hq tr m
      · rw [pk_hi (by omega) hpd]; rfl
      · rw [pk_lo (by omega) hpd]; rfl

/-! ## Frames without data -/

theorem BodyRuns.of_fields {b : Body} {s : Core} {tr : List Ev} {r : Bytes} (hb : b.blob = none) (hp : b.pad = none)
    (h : pred tr s (b.fields ++ r) = pred (tr ++ b.fieldEvents) s0 r) : BodyRuns b tr s r := by
  constructor
  · intro _
    simp only [Body.payload, Body.padLength, Body.blobEvents, hb, hp, List.nil_append, List.append_nil, Option.getD_none]
    exact h
  · intro hw
    simp [Body.waits, hb] at hw

theorem ofNat_toNat32 (x : UInt32) : UInt32.ofNat x.toNat = x := UInt32.ofNat_toNat ..

theorem runs_rst {fl : UInt8} {n : Nat} {c : UInt32} (tr : List Ev) (r : Bytes) :
    BodyRuns (.rstStream c) tr ⟨pk n 0, 0, 0, 0, stOf 3 fl⟩ r := by
  refine .of_fields rfl rfl ?_
  show pred tr ⟨pk n 0, 0, 0, 0, .rstStreamErrorCode1⟩ (be 4 c.toNat ++ r) = _
  rw [read4 (s2 := .rstStreamErrorCode2) (s3 := .rstStreamErrorCode3) (s4 := .rstStreamErrorCode4)
    (s5 := .rstStreamCallback) (by reads) (by reads) (by reads) (by reads) tr c.toNat_lt, pred_imm rfl rfl, ofNat_toNat32]
  exact pred_start rfl rfl _ _

theorem runs_window {fl : UInt8} {n : Nat} {c : UInt32} (tr : List Ev) (r : Bytes) :
    BodyRuns (.windowUpdate c) tr ⟨pk n 0, 0, 0, 0, stOf 8 fl⟩ r := by
  refine .of_fields rfl rfl ?_
  show pred tr ⟨pk n 0, 0, 0, 0, .windowUpdateIncrement1⟩ (be 4 c.toNat ++ r) = _
  rw [read4 (s2 := .windowUpdateIncrement2) (s3 := .windowUpdateIncrement3) (s4 := .windowUpdateIncrement4)
    (s5 := .windowUpdateCallback) (by reads) (by reads) (by reads) (by reads) tr c.toNat_lt, pred_imm rfl rfl,
    ofNat_toNat32]
  exact pred_start rfl rfl _ _

theorem runs_settings {fl : UInt8} {n : Nat} {i : UInt16} {v : UInt32} (tr : List Ev) (r : Bytes) :
    BodyRuns (.settings i v) tr ⟨pk n 0, 0, 0, 0, stOf 4 fl⟩ r := by
  refine .of_fields rfl rfl ?_
  show pred tr ⟨pk n 0, 0, 0, 0, .settingsId1⟩ ((be 2 i.toNat ++ be 4 v.toNat) ++ r) = _
  have h1 : pred tr ⟨pk n 0, 0, 0, 0, .settingsId1⟩ (be 2 i.toNat ++ (be 4 v.toNat ++ r)) =
      pred tr ⟨pk n 0, 0, i, 0, .settingsValue1⟩ (be 4 v.toNat ++ r) := by
    have := be2 i.toNat_lt
    rw [show UInt16.ofNat i.toNat = i from UInt16.ofNat_toNat ..] at this
    generalize be 4 v.toNat ++ r = m
    simp only [be, List.cons_append, List.nil_append]
    generalize UInt8.ofNat (i.toNat / 256 ^ 1) = b1 at this ⊢
    generalize UInt8.ofNat (i.toNat / 256 ^ 0) = b2 at this ⊢
    rw [← this, pred_byte rfl rfl, pred_byte rfl rfl]
    simp
  rw [List.append_assoc, h1, read4 (s2 := .settingsValue2) (s3 := .settingsValue3) (s4 := .settingsValue4)
    (s5 := .settingsCallback) (by reads) (by reads) (by reads) (by reads) tr v.toNat_lt, pred_imm rfl rfl, ofNat_toNat32]
  exact pred_start rfl rfl _ _

theorem runs_priority {fl : UInt8} {n : Nat} {e : Bool} {d : UInt32} {w : UInt8} (hd : d < 0x80000000) (tr : List Ev)
    (r : Bytes) : BodyRuns (.priority e d w) tr ⟨pk n 0, 0, 0, 0, stOf 2 fl⟩ r := by
  refine .of_fields rfl rfl ?_
  show pred tr ⟨pk n 0, 0, 0, 0, .priorityStreamId1⟩ ((word e d ++ [w]) ++ r) = _
  rw [List.append_assoc, word, read4 (s2 := .priorityStreamId2) (s3 := .priorityStreamId3) (s4 := .priorityStreamId4)
    (s5 := .priorityWeight) (by reads) (by reads) (by reads) (by reads) tr (word_lt hd), List.singleton_append,
    pred_byte rfl rfl, word_shr hd, word_and hd]
  exact pred_start rfl rfl _ _

/-! ## GOAWAY -/

theorem code_split (c : UInt32) : ((UInt16.ofNat (c.toNat / 65536)).toUInt32 <<< 16) |||
    (UInt16.ofNat (c.toNat % 65536)).toUInt32 = c := by
  have hc := c.toNat_lt
  apply UInt32.toNat_inj.mp
  have h1 : ((UInt16.ofNat (c.toNat / 65536)).toUInt32 <<< (16 : UInt32)).toNat = (c.toNat / 65536) <<< 16 := by
    rw [UInt32.toNat_shiftLeft, UInt16.toNat_toUInt32, UInt16.toNat_ofNat', Nat.mod_eq_of_lt (show c.toNat / 65536 < 2 ^ 16 by omega)]
    show ((c.toNat / 65536) <<< 16) % _ = _
    rw [Nat.shiftLeft_eq]; apply Nat.mod_eq_of_lt; omega
  rw [UInt32.toNat_or, h1, UInt16.toNat_toUInt32, UInt16.toNat_ofNat', Nat.mod_eq_of_lt (show c.toNat % 65536 < 2 ^ 16 by omega),
    ← Nat.shiftLeft_add_eq_or_of_lt (by omega), Nat.shiftLeft_eq]
  omega

theorem goAway_end {n : Nat} {v c : UInt32} (hn : n + 8 < 2 ^ 24) (tr : List Ev) (m : Bytes) :
    predC K tr ⟨pk (n + 8) 0, v, 0, 0, .goAwayErrorCode1⟩ (be 4 c.toNat ++ m) =
      predC K (tr ++ [.goAway (v &&& 0x7FFFFFFF) c]) ⟨pk n 0, v, UInt16.ofNat (c.toNat / 65536),
        UInt16.ofNat (c.toNat % 65536), if 0 < n then .goAwayDebugData else .frameLength1⟩ m := by
  have hc := c.toNat_lt
  have h1 : predC K tr ⟨pk (n + 8) 0, v, 0, 0, .goAwayErrorCode1⟩ (be 4 c.toNat ++ m) =
      predC K tr ⟨pk (n + 8) 0, v, UInt16.ofNat (c.toNat / 65536), UInt16.ofNat (c.toNat % 65536), .goAwayCallback⟩ m := by
    have e1 := be2 (show c.toNat / 65536 < 2 ^ 16 by omega)
    have e2 := be2 (show c.toNat % 65536 < 2 ^ 16 by omega)
    have d1 : UInt8.ofNat (c.toNat / 65536 / 256 ^ 1) = UInt8.ofNat (c.toNat / 256 ^ 3) := by
      congr 1; omega
    have d2 : UInt8.ofNat (c.toNat / 65536 / 256 ^ 0) = UInt8.ofNat (c.toNat / 256 ^ 2) := by
      congr 1; omega
    have d3 : UInt8.ofNat (c.toNat % 65536 / 256 ^ 1) = UInt8.ofNat (c.toNat / 256 ^ 1) := by
      apply UInt8.toNat_inj.mp; simp only [UInt8.toNat_ofNat']; omega
    have d4 : UInt8.ofNat (c.toNat % 65536 / 256 ^ 0) = UInt8.ofNat (c.toNat / 256 ^ 0) := by
      apply UInt8.toNat_inj.mp; simp only [UInt8.toNat_ofNat']; omega
    rw [d1, d2] at e1
    rw [d3, d4] at e2
    rw [← e1, ← e2]
    simp only [be, List.cons_append, List.nil_append]
    generalize UInt8.ofNat (c.toNat / 256 ^ 3) = b1
    generalize UInt8.ofNat (c.toNat / 256 ^ 2) = b2
    generalize UInt8.ofNat (c.toNat / 256 ^ 1) = b3
    generalize UInt8.ofNat (c.toNat / 256 ^ 0) = b4
    rw [predC_byte rfl rfl rfl, predC_byte rfl rfl rfl, predC_byte rfl rfl rfl, predC_byte rfl rfl rfl]
    simp
  rw [h1]
  have hd := pk_decPayload (n := n + 8) (p := 0) (k := 8) (b := v) (x := UInt16.ofNat (c.toNat / 65536))
    (y := UInt16.ofNat (c.toNat % 65536)) (st := .goAwayCallback) hn (by decide) (show 8 ≤ n + 8 by omega)
  rw [show n + 8 - UInt32.toNat 8 = n from Nat.add_sub_cancel ..] at hd
  have hpos : ∀ st, ((Core.mk (pk n 0) v (UInt16.ofNat (c.toNat / 65536)) (UInt16.ofNat (c.toNat % 65536)) st).payloadLength
      > 0) ↔ 0 < n := by
    intro st
    rw [payload_pos, pk_hi (by omega) (by decide)]
  have hn1 : norm ⟨pk (n + 8) 0, v, UInt16.ofNat (c.toNat / 65536), UInt16.ofNat (c.toNat % 65536), .goAwayCallback⟩ =
      .next [.goAway (v &&& 0x7FFFFFFF) c] ⟨pk n 0, v, UInt16.ofNat (c.toNat / 65536), UInt16.ofNat (c.toNat % 65536),
        if 0 < n then .goAwayDebugData else .frameLength1⟩ := by
    simp only [norm, hd]
    rw [code_split]
    simp only [hpos]
  refine predC_imm hn1 ?_ _ _
  split <;> rfl

theorem predC_goAway {n : Nat} {b : Bool} {l c : UInt32} (hn : n + 8 < 2 ^ 24) (hl : l < 0x80000000) (tr : List Ev)
    (m : Bytes) (hK : Clear K (word b l ++ be 4 c.toNat ++ m)) : predC K tr ⟨pk (n + 8) 0, 0, 0, 0, .goAwayStreamId1⟩ (word b l ++ be 4 c.toNat ++ m) =
      predC K (tr ++ [.goAway l c]) ⟨pk n 0, UInt32.ofNat (l.toNat + if b then 2 ^ 31 else 0),
        UInt16.ofNat (c.toNat / 65536), UInt16.ofNat (c.toNat % 65536),
        if 0 < n then .goAwayDebugData else .frameLength1⟩ m := by
  rw [List.append_assoc, word] at hK ⊢
  rw [read4C (s2 := .goAwayStreamId2) (s3 := .goAwayStreamId3) (s4 := .goAwayStreamId4)
    (s5 := .goAwayErrorCode1) (by reads) (by reads) (by reads) (by reads) ⟨rfl, rfl, rfl⟩ tr (word_lt hl) _ (.inr ⟨hK, .inl rfl⟩)]
  rw [goAway_end hn, word_and hl]

theorem pred_goAway {n : Nat} {b : Bool} {l c : UInt32} (hn : n + 8 < 2 ^ 24) (hl : l < 0x80000000) (tr : List Ev)
    (m : Bytes) : pred tr ⟨pk (n + 8) 0, 0, 0, 0, .goAwayStreamId1⟩ (word b l ++ be 4 c.toNat ++ m) =
      pred (tr ++ [.goAway l c]) ⟨pk n 0, UInt32.ofNat (l.toNat + if b then 2 ^ 31 else 0),
        UInt16.ofNat (c.toNat / 65536), UInt16.ofNat (c.toNat % 65536),
        if 0 < n then .goAwayDebugData else .frameLength1⟩ m := by
  simpa only [predC_none] using predC_goAway (K := .none) hn hl tr m rfl

theorem runs_goAway {fl : UInt8} {b : Bool} {l c : UInt32} {d : Bytes} (hok : (Body.goAway b l c d).OK) (tr : List Ev)
    (r : Bytes) :
    BodyRuns (.goAway b l c d) tr ⟨pk (Body.goAway b l c d).payload.length 0, 0, 0, 0, stOf 7 fl⟩ r := by
  obtain ⟨-, hlen, hl⟩ := hok
  have hn : (Body.goAway b l c d).payload.length = d.length + 8 := by
    cases d <;> simp [Body.payload, Body.padLength, Body.pad, Body.fields, Body.blob, word_length, be_length]; omega
  rw [hn] at hlen ⊢
  show BodyRuns _ tr ⟨pk (d.length + 8) 0, 0, 0, 0, .goAwayStreamId1⟩ r
  cases d with
  | nil =>
    refine .of_fields rfl rfl ?_
    exact (pred_goAway hlen hl tr r).trans (pred_start rfl rfl _ _)
  | cons x d =>
    refine .of_blob (k := .goAwayDebugData) (d := x :: d) (s' := ⟨pk (x :: d).length 0,
      UInt32.ofNat (l.toNat + if b then 2 ^ 31 else 0), UInt16.ofNat (c.toNat / 65536), UInt16.ofNat (c.toNat % 65536),
      .goAwayDebugData⟩) rfl nofun ?_ rfl ?_ ?_
    · intro m
      exact pred_goAway hlen hl tr m
    · rw [pk_hi (by omega) (by decide)]; rfl
    · rw [pk_lo (by omega) (by decide)]; rfl

/-! ## PUSH_PROMISE -/

theorem predC_push {n p : Nat} {v : UInt32} (hn : n + 4 < 2 ^ 24) (hp : p < 256) (tr : List Ev) {m : Bytes} (hm : m ≠ []) :
    predC K tr ⟨pk (n + 4) p, v, 0, 0, .pushPromiseCallback⟩ m =
      predC K (tr ++ [.pushPromise v]) ⟨pk n p, v, 0, 0, .headersFragment⟩ m := by
  obtain ⟨b, m, rfl⟩ := List.exists_cons_of_ne_nil hm
  have hd := pk_decPayload (n := n + 4) (p := p) (k := 4) (b := v) (x := 0) (y := 0) (st := .pushPromiseCallback) hn hp
    (show 4 ≤ n + 4 by omega)
  rw [show n + 4 - UInt32.toNat 4 = n from Nat.add_sub_cancel ..] at hd
  simp only [predC, norm, Slices.lost, Slices.byte, bstep, hd]
  cases bPayload .headersFragment ⟨pk n p, v, 0, 0, .headersFragment⟩ b <;> simp [BRes.pre]

theorem pred_push {n p : Nat} {v : UInt32} (hn : n + 4 < 2 ^ 24) (hp : p < 256) (tr : List Ev) {m : Bytes} (hm : m ≠ []) :
    pred tr ⟨pk (n + 4) p, v, 0, 0, .pushPromiseCallback⟩ m =
      pred (tr ++ [.pushPromise v]) ⟨pk n p, v, 0, 0, .headersFragment⟩ m := by
  simpa only [predC_none] using predC_push (K := .none) hn hp tr hm

theorem runs_push {fl : UInt8} {pad : Option Bytes} {v : UInt32} {d : Bytes} (hf : (Body.pushPromise pad v d).FlagsOK fl)
    (hok : (Body.pushPromise pad v d).OK) (tr : List Ev) (r : Bytes) :
    BodyRuns (.pushPromise pad v d) tr ⟨pk (Body.pushPromise pad v d).payload.length 0, 0, 0, 0, stOf 5 fl⟩ r := by
  obtain ⟨hpl, hlen, -⟩ := hok
  have key : ∀ m, pred tr ⟨pk (Body.pushPromise pad v d).payload.length 0, 0, 0, 0, stOf 5 fl⟩
      ((Body.pushPromise pad v d).padLength ++ be 4 v.toNat ++ m) =
      pred tr ⟨pk ((d.length + (pad.getD []).length) + 4) (pad.getD []).length, v, 0, 0, .pushPromiseCallback⟩ m := by
    intro m
    cases pad with
    | none =>
      have h1 : ¬ (fl &&& 0x8 = 0x8) := fun h => by simpa using hf.mp h
      have hst : stOf 5 fl = .pushPromiseStreamId1 := by simp [stOf, h1]
      have hn : (Body.pushPromise none v d).payload.length = d.length + 4 := by
        simp [Body.payload, Body.padLength, Body.pad, Body.fields, Body.blob, be_length]; omega
      rw [hst, hn]
      show pred tr _ (be 4 v.toNat ++ m) = _
      rw [read4 (s2 := .pushPromiseStreamId2) (s3 := .pushPromiseStreamId3) (s4 := .pushPromiseStreamId4)
        (s5 := .pushPromiseCallback) (by reads) (by reads) (by reads) (by reads) tr v.toNat_lt, ofNat_toNat32]
      rfl
    | some pd =>
      have h1 : (fl &&& 0x8 = 0x8) := hf.mpr rfl
      have hpd : pd.length < 256 := hpl pd rfl
      have hst : stOf 5 fl = .pushPromisePadLength := by simp [stOf, h1]
      have hn : (Body.pushPromise (some pd) v d).payload.length = (d.length + pd.length + 4) + 1 := by
        simp [Body.payload, Body.padLength, Body.pad, Body.fields, Body.blob, be_length]; omega
      rw [hn] at hlen
      rw [hst, hn]
      show pred tr _ (UInt8.ofNat pd.length :: (be 4 v.toNat ++ m)) = _
      rw [pred_pad (s2 := .pushPromiseStreamId1) hlen hpd (by omega) rfl (fun s hs => by simp [norm, hs])
          (fun s hs b => by simp [bstep, hs]) tr]
      rw [read4 (s2 := .pushPromiseStreamId2) (s3 := .pushPromiseStreamId3) (s4 := .pushPromiseStreamId4)
        (s5 := .pushPromiseCallback) (by reads) (by reads) (by reads) (by reads) tr v.toNat_lt, ofNat_toNat32]
      rfl
  have hpay : (Body.pushPromise pad v d).payload = (Body.pushPromise pad v d).padLength ++ be 4 v.toNat ++
      (d ++ pad.getD []) := by
    simp [Body.payload, Body.fields, Body.blob, Body.pad, List.append_assoc]
  have hp : (pad.getD []).length < 256 := by
    cases pad with
    | none => decide
    | some pd => exact hpl pd rfl
  have hlen' : (d.length + (pad.getD []).length) + 4 < 2 ^ 24 := by
    rw [hpay] at hlen
    simp only [List.length_append, be_length] at hlen
    omega
  have hw : (Body.pushPromise pad v d).waits = true ↔ d = [] ∧ pad.getD [] = [] := waits_iff rfl
  generalize (Body.pushPromise pad v d).payload.length = N at key ⊢
  constructor
  · intro hr
    have hne : d ++ pad.getD [] ++ r ≠ [] := by
      intro he
      have h1 : d = [] ∧ pad.getD [] = [] ∧ r = [] := by simpa [and_assoc] using he
      rcases hr with hr | hr
      · exact hr h1.2.2
      · rw [hw.mpr ⟨h1.1, h1.2.1⟩] at hr
        cases hr
    rw [hpay, List.append_assoc, key, pred_push hlen' hp tr hne,
      fin_blob (k := .headersFragment) (s := ⟨pk (d.length + (pad.getD []).length) (pad.getD []).length, v, 0, 0,
        .headersFragment⟩) (d := d) (pd := pad.getD []) (show PaySt .headersFragment .headersFragment from rfl)
      (by rw [pk_hi (by omega) hp]) (by rw [pk_lo (by omega) hp]) _ _ hne]
    simp [Body.fieldEvents, Body.blobEvents, Body.blob, bytesEv]
  · intro h
    obtain ⟨rfl, h2⟩ := hw.mp h
    rw [hpay, key, h2]
    simp [pred, norm, Body.early]

/-! ## Frames -/

theorem pred_frame {f : Frame} (hf : f.OK) (s : Core) (hs : s.st = .frameLength1) (tr : List Ev) (r : Bytes) :
    (r ≠ [] ∨ f.body.waits = false → pred tr s (f.write ++ r) = pred (tr ++ f.events) s0 r) ∧
    (f.body.waits = true → pred tr s f.write = (tr ++ [f.format] ++ f.body.early, .eos)) := by
  obtain ⟨fl, res, id, b⟩ := f
  obtain ⟨hid, hfl, hb⟩ := hf
  have hb2 := hb.2.1
  simp only at hid hfl hb hb2
  have hx : ∀ tr r, BodyRuns b tr ⟨pk b.payload.length 0, 0, 0, 0, stOf b.type fl⟩ r := by
    intro tr r
    cases b with
    | data => exact runs_data hfl hb tr r
    | headers => exact runs_headers hfl hb tr r
    | priority => exact runs_priority hb.2.2 tr r
    | rstStream => exact runs_rst tr r
    | settings => exact runs_settings tr r
    | pushPromise => exact runs_push hfl hb tr r
    | ping => exact runs_ping hb tr r
    | goAway => exact runs_goAway hb tr r
    | windowUpdate => exact runs_window tr r
    | continuation => exact runs_continuation hb tr r
    | unknown => exact runs_unknown hfl hb tr r
  constructor
  · intro hr
    simp only [Frame.write]
    rw [List.append_assoc, pred_header hb2 hid s hs, (hx _ r).full hr]
    simp [Frame.events, Frame.format]
  · intro hw
    simp only [Frame.write]
    rw [pred_header hb2 hid s hs, (hx _ []).wait hw]
    simp [Frame.format]

end Verif.Http2
