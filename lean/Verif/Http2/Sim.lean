import Verif.Http2.Slices

/-!
# The parser simulates the reference machine (helper lemmas)
-/

set_option linter.unusedSimpArgs false
set_option linter.unusedVariables false

namespace Verif.Http2

variable {h : Handler} {c : Cfg} {P : Slices → Bytes → Prop} {K : Slices}

/-! ## The reference machine -/

theorem pred_imm {s s' : Core} {es : List Ev} (hn : norm s = .next es s') (hn' : norm s' = .next [] s')
    (tr : List Ev) (m : Bytes) : pred tr s m = pred (tr ++ es) s' m := by
  cases m <;> simp [pred, hn, hn']

theorem pred_byte {s s' : Core} {es : List Ev} {b : UInt8} (hn : norm s = .next [] s) (hb : bstep s b = .next es s')
    (tr : List Ev) (r : Bytes) : pred tr s (b :: r) = pred (tr ++ es) s' r := by
  simp [pred, hn, hb]

theorem pred_panic {s : Core} {es : List Ev} {b : UInt8} (hn : norm s = .next [] s) (hb : bstep s b = .panic es)
    (tr : List Ev) (r : Bytes) : pred tr s (b :: r) = (tr ++ es, .panic) := by
  simp [pred, hn, hb]

theorem pred_same {s s' : Core} (hn : norm s = .next [] s) (hn' : norm s' = .next [] s')
    (hb : ∀ b, bstep s b = bstep s' b) (tr : List Ev) (m : Bytes) : pred tr s m = pred tr s' m := by
  cases m <;> simp [pred, hn, hn', hb]

theorem pred_start {s s' : Core} (h1 : s.st = .frameLength1) (h2 : s'.st = .frameLength1) (tr : List Ev) (m : Bytes) :
    pred tr s m = pred tr s' m := by
  refine pred_same ?_ ?_ ?_ tr m <;> simp [norm, bstep, h1, h2]

theorem flat_append (l : List Ev) (e : Ev) : flat (l ++ [e]) = flat l ++ flatEv e := by simp [flat]

/-! ## Payloads -/

/-- `k` is the kind of the payload that is read in state `st`. -/
def PaySt (st : St) (k : Kind) : Prop :=
  match st with
  | .dataData => k = .data
  | .goAwayDebugData => k = .goAwayDebugData
  | .headersFragment => k = .headersFragment
  | .pingData => k = .ping
  | .unsupportedData => k = .unsupported
  | _ => False

theorem PaySt.norm {s : Core} {k : Kind} (hs : PaySt s.st k) : norm s = .next [] s := by
  unfold Http2.norm; unfold PaySt at hs; split <;> simp_all

theorem PaySt.bstep {s : Core} {k : Kind} (hs : PaySt s.st k) (b : UInt8) : bstep s b = bPayload k s b := by
  unfold PaySt at hs
  unfold Http2.bstep
  split at hs <;> simp_all

/-- One event for every byte. -/
def bytesEv (k : Kind) (x : Bytes) : List Ev := x.map fun b => .payload k [b] false

theorem bPayload_zero {s : Core} {k : Kind} (h : s.hi = s.lo) (b : UInt8) :
    bPayload k s b = (bstep (endState s) b).pre [.payload k [] true] := by
  unfold bPayload
  rw [actual_eq, if_neg (by omega)]
  simp only [h, Nat.sub_self]
  rw [if_pos (by rfl)]
  unfold endState
  by_cases hp : s.bit32a &&& 0xFF > 0 <;> simp [hp, bstep]

theorem endState_norm (s : Core) : norm (endState s) = .next [] (endState s) := by
  unfold endState norm
  split <;> rename_i h <;> revert h <;> by_cases hp : s.bit32a &&& 0xFF > 0 <;> simp [hp]

theorem PaySt.quiet {s : Core} {k : Kind} (hs : PaySt s.st k) : Http2.quiet s.st = true := by
  unfold PaySt at hs
  split at hs <;> simp_all [Http2.quiet]

theorem endState_quiet (s : Core) : quiet (endState s).st = true := by
  simp only [endState]
  split <;> rfl

theorem predC_empty {s : Core} {k : Kind} (hs : PaySt s.st k) (h : s.hi = s.lo) (tr : List Ev) {r : Bytes} (hr : r ≠ []) :
    predC K tr s r = predC K (tr ++ [.payload k [] true]) (endState s) r := by
  obtain ⟨b, r, rfl⟩ := List.exists_cons_of_ne_nil hr
  simp only [predC, hs.norm, endState_norm, hs.bstep, bPayload_zero h, lost_quiet hs.quiet, byte_quiet hs.quiet,
    lost_quiet (endState_quiet s), byte_quiet (endState_quiet s)]
  cases bstep (endState s) b <;> simp [BRes.pre]

theorem dec_one {s : Core} (h : 0 < s.hi) : s.decPayloadLength 1 = some (s.dec 1) := by
  rw [dec_eq, if_neg (by simp; omega)]
  rfl

theorem bPayload_last {s : Core} {k : Kind} (h : s.hi = s.lo + 1) (b : UInt8) :
    bPayload k s b = .next [.payload k [b] false, .payload k [] true] (endState (s.dec 1)) := by
  have := hi_lt s
  unfold bPayload
  rw [actual_eq, if_neg (by omega), dec_one (by omega)]
  simp only [show s.hi - s.lo = 1 by omega]
  rw [if_neg (by decide), if_pos (by rfl)]

theorem bPayload_more {s : Core} {k : Kind} (h : s.lo + 1 < s.hi) (b : UInt8) :
    bPayload k s b = .next [.payload k [b] false] (s.dec 1) := by
  have h1 := hi_lt s
  unfold bPayload
  rw [actual_eq, if_neg (by omega), dec_one (by omega)]
  have e0 : ¬ UInt32.ofNat (s.hi - s.lo) = 0 := by
    rw [show (0 : UInt32) = UInt32.ofNat 0 from rfl, ofNat_eq_iff (by omega) (by omega)]; omega
  have e1 : ¬ UInt32.ofNat (s.hi - s.lo) = 1 := by
    rw [show (1 : UInt32) = UInt32.ofNat 1 from rfl, ofNat_eq_iff (by omega) (by omega)]; omega
  simp only [if_neg e0, if_neg e1]

theorem predC_part {k : Kind} (r : Bytes) : ∀ (x : Bytes) (s : Core) (tr : List Ev), PaySt s.st k →
    s.lo + x.length < s.hi → predC K tr s (x ++ r) = predC K (tr ++ bytesEv k x) (s.dec x.length) r
  | [], s, tr, hs, hx => by simp [dec_zero, bytesEv]
  | b :: x, s, tr, hs, hx => by
    simp only [List.length_cons] at hx
    rw [List.cons_append, predC_byte hs.quiet hs.norm ((hs.bstep b).trans (bPayload_more (by omega) b)),
      predC_part r x (s.dec 1) _ hs (by simp only [dec_hi, dec_lo]; omega), dec_dec]
    simp [bytesEv, Nat.add_comm]

theorem predC_whole {k : Kind} (r : Bytes) : ∀ (x : Bytes) (s : Core) (tr : List Ev), PaySt s.st k → x ++ r ≠ [] →
    s.lo + x.length = s.hi →
    predC K tr s (x ++ r) = predC K (tr ++ bytesEv k x ++ [.payload k [] true]) (endState (s.dec x.length)) r
  | [], s, tr, hs, hr, hx => by
    simp only [List.length_nil, Nat.add_zero] at hx
    rw [List.nil_append] at hr ⊢
    rw [predC_empty hs hx.symm tr hr, List.length_nil, dec_zero]
    simp [bytesEv]
  | [b], s, tr, hs, hr, hx => by
    simp only [List.length_cons, List.length_nil] at hx
    rw [List.singleton_append, predC_byte hs.quiet hs.norm ((hs.bstep b).trans (bPayload_last (by omega) b))]
    simp [bytesEv]
  | b :: b' :: x, s, tr, hs, hr, hx => by
    simp only [List.length_cons] at hx
    rw [List.cons_append, predC_byte hs.quiet hs.norm ((hs.bstep b).trans (bPayload_more (by omega) b)),
      predC_whole r (b' :: x) (s.dec 1) _ hs (by simp) (by simp only [dec_hi, dec_lo, List.length_cons]; omega), dec_dec]
    simp [bytesEv, Nat.add_comm, Nat.add_left_comm]

theorem pad_quiet {s : Core} (hs : s.st = .framePadding) : quiet s.st = true := by rw [hs]; rfl

theorem pad_norm {s : Core} (hs : s.st = .framePadding) : norm s = .next [] s := by simp [norm, hs]

theorem padding_more {s : Core} (hs : s.st = .framePadding) (h : 1 < s.hi) (b : UInt8) :
    bstep s b = .next [] (s.dec 1) := by
  simp only [bstep, hs, bPadding]
  rw [if_neg (by rw [payload_eq_iff]; simp; omega), if_neg (by rw [payload_eq_iff]; simp; omega), dec_eq,
    if_neg (by simp; omega)]
  rfl

theorem predC_padPart (r : Bytes) : ∀ (x : Bytes) (s : Core) (tr : List Ev), s.st = .framePadding → x.length < s.hi →
    predC K tr s (x ++ r) = predC K tr (s.dec x.length) r
  | [], s, tr, hs, hx => by simp [dec_zero]
  | b :: x, s, tr, hs, hx => by
    simp only [List.length_cons] at hx
    rw [List.cons_append, predC_byte (pad_quiet hs) (pad_norm hs) (padding_more hs (by omega) b), List.append_nil,
      predC_padPart r x (s.dec 1) tr hs (by rw [dec_hi]; omega), dec_dec]
    simp [Nat.add_comm]

theorem predC_padWhole (r : Bytes) (s0 : Core) (h0 : s0.st = .frameLength1) : ∀ (x : Bytes) (s : Core) (tr : List Ev),
    s.st = .framePadding → x.length = s.hi → predC K tr s (x ++ r) = predC K tr s0 r
  | [], s, tr, hs, hx => by
    rw [List.nil_append]
    refine predC_same (pad_quiet hs) (by simp [quiet, h0]) (pad_norm hs) (by simp [norm, h0]) (fun b => ?_) tr r
    simp only [bstep, hs, h0, bPadding]
    rw [if_pos (by rw [payload_eq_iff]; exact hx.symm)]
  | [b], s, tr, hs, hx => by
    rw [List.singleton_append, predC_byte (s' := { s with st := .frameLength1 }) (es := []) (pad_quiet hs) (pad_norm hs), List.append_nil,
      predC_start rfl h0]
    simp only [bstep, hs, bPadding]
    rw [if_neg (by rw [payload_eq_iff, ← hx]; simp), if_pos (by rw [payload_eq_iff, ← hx]; rfl)]
  | b :: b' :: x, s, tr, hs, hx => by
    simp only [List.length_cons] at hx
    rw [List.cons_append, predC_byte (pad_quiet hs) (pad_norm hs) (padding_more hs (by omega) b), List.append_nil,
      predC_padWhole r s0 h0 (b' :: x) (s.dec 1) tr hs (by rw [dec_hi, List.length_cons]; omega)]

/-! The same without cuts. -/

theorem pred_part {k : Kind} (r x : Bytes) (s : Core) (tr : List Ev) (hs : PaySt s.st k) (hx : s.lo + x.length < s.hi) :
    pred tr s (x ++ r) = pred (tr ++ bytesEv k x) (s.dec x.length) r := by
  simpa only [predC_none] using predC_part (K := .none) r x s tr hs hx

theorem pred_whole {k : Kind} (r x : Bytes) (s : Core) (tr : List Ev) (hs : PaySt s.st k) (hr : x ++ r ≠ [])
    (hx : s.lo + x.length = s.hi) :
    pred tr s (x ++ r) = pred (tr ++ bytesEv k x ++ [.payload k [] true]) (endState (s.dec x.length)) r := by
  simpa only [predC_none] using predC_whole (K := .none) r x s tr hs hr hx

theorem pred_padWhole (r : Bytes) (s0 : Core) (h0 : s0.st = .frameLength1) (x : Bytes) (s : Core) (tr : List Ev)
    (hs : s.st = .framePadding) (hx : x.length = s.hi) : pred tr s (x ++ r) = pred tr s0 r := by
  simpa only [predC_none] using predC_padWhole (K := .none) r s0 h0 x s tr hs hx

/-! ## Steps -/

/-- Where every state function starts. -/
structure Ok (c : Cfg) : Prop where
  mark : c.ctx.mark = c.ctx.idx
  le : c.ctx.idx ≤ c.ctx.stream.length

theorem rest_nil {x : Ctx} (h : x.available = 0) : x.rest = [] := by
  unfold Ctx.available at h
  exact List.drop_of_length_le (by omega)

theorem rest_cons {x : Ctx} (h : x.available ≠ 0) :
    ∃ b, x.stream[x.idx]? = some b ∧ x.rest = b :: (x.jump 1).rest ∧ (x.jump 1).available + 1 = x.available := by
  unfold Ctx.available at h
  have hi : x.idx < x.stream.length := by omega
  refine ⟨x.stream[x.idx], List.getElem?_eq_getElem hi, List.drop_eq_getElem_cons hi, ?_⟩
  simp only [Ctx.available, Ctx.jump]
  omega

theorem rest_jump {x : Ctx} {n : Nat} : x.rest = x.rest.take n ++ (x.jump n).rest := by
  have : (x.jump n).rest = x.rest.drop n := by simp [Ctx.rest, Ctx.jump]
  rw [this, List.take_append_drop]

theorem rest_length (x : Ctx) : x.rest.length = x.available := by simp [Ctx.rest, Ctx.available]

/-- How many steps without a byte can follow, at most. -/
def rank : St → Nat
  | .framePadding => 1
  | .dataData | .goAwayDebugData | .headersFragment | .pingData | .unsupportedData => 2
  | .pushPromiseCallback => 3
  | .frameFormatEnd | .goAwayCallback | .headersCallback | .rstStreamCallback | .settingsCallback
  | .windowUpdateCallback => 3
  | _ => 0

theorem rank_le (st : St) : rank st ≤ 3 := by cases st <;> simp [rank]

/-- A number that gets smaller with each step. -/
def mu (c : Cfg) : Nat := 4 * c.ctx.available + rank c.p.st

/-- What else is known about the state of a parser whose history is that of the reference machine. -/
def RelSelf (s : Core) : Prop :=
  match s.st with
  | .frameLength2 | .frameLength3 | .frameType | .frameFlags | .frameStreamId1 => s.bit32b = 0
  | .frameStreamId2 | .frameStreamId3 | .frameStreamId4 | .goAwayStreamId4 | .settingsValue4 | .dead
  | .finished => False
  | _ => True

/-- The reference machine gets from one configuration to the other, and then agrees with it whatever follows. (It may
have to see that something follows.) -/
def Same (P : Slices → Bytes → Prop) (c c' : Cfg) : Prop :=
  ∃ u, c.ctx.rest = u ++ c'.ctx.rest ∧
    ∀ K y, P K (u ++ y) → (y = [] → c'.ctx.rest = []) → predC K (flat c.log) c.p (u ++ y) = predC K (flat c'.log) c'.p y

/-- The parser can stop in this state. -/
def Rests (s s' : Core) : Prop := RelSelf s' ∧ (inLongField s.st = false → inLongField s'.st = false)

/-- One step agrees with the reference machine. -/
def StepOK (P : Slices → Bytes → Prop) (c : Cfg) : Out → Prop
  | .cont c' => Ok c' ∧ c'.ctx.stream = c.ctx.stream ∧ mu c' < mu c ∧ Same P c c' ∧ RelSelf c'.p
  | .exit (.eos n) c' => c'.ctx.stream = c.ctx.stream ∧ n = c'.ctx.idx ∧ n = c.ctx.stream.length ∧ Same P c c' ∧
      Rests c.p c'.p
  | .exit (.callback n) c' => c'.ctx.stream = c.ctx.stream ∧ n = c'.ctx.idx ∧ n ≤ c.ctx.stream.length ∧
      Same P c c' ∧ Rests c.p c'.p
  | .panic log => ∀ K fut, P K (c.ctx.rest ++ fut) → predC K (flat c.log) c.p (c.ctx.rest ++ fut) = (flat log, .panic)
  | _ => False

theorem eos_ok (hok : Ok c) (hr : RelSelf c.p) {k : Out} (hk : c.ctx.available ≠ 0 → StepOK P c k) :
    StepOK P c (exitIfEos c k) := by
  unfold exitIfEos
  split
  · rename_i h0
    refine ⟨rfl, rfl, ?_, ⟨[], rfl, fun _ _ _ _ => rfl⟩, hr, id⟩
    have := hok.le
    unfold Ctx.available at h0
    omega
  · rename_i h0; exact hk h0

theorem callback_ok {c' : Cfg} {e : Ev} (hs : c'.ctx.stream = c.ctx.stream) (hle : c'.ctx.idx ≤ c.ctx.stream.length)
    (hm : mu c' < mu c) (hr : RelSelf c'.p ∧ inLongField c'.p.st = false)
    (hp : ∃ u, c.ctx.rest = u ++ c'.ctx.rest ∧ ∀ K y, P K (u ++ y) → (y = [] → c'.ctx.rest = []) →
      predC K (flat c.log) c.p (u ++ y) = predC K (flat c'.log ++ flatEv e) c'.p y) :
    StepOK P c (callback h c' e) := by
  unfold callback
  simp only
  have hp' : Same P c { c' with log := c'.log ++ [e] } := by rw [Same, flat_append]; exact hp
  split
  · exact ⟨⟨rfl, by show c'.ctx.idx ≤ _; simp only [Ctx.setMark, hs]; exact hle⟩, hs, hm, hp', hr.1⟩
  · exact ⟨hs, rfl, hle, hp', hr.1, fun _ => hr.2⟩

/-- A state in which one byte is read. -/
theorem byte_ok' (hok : Ok c) (hr : RelSelf c.p) (f : UInt8 → Core → Core)
    (hb : ∀ K b tr r, P K (b :: r) → predC K tr c.p (b :: r) = predC K tr (f b c.p) r) (hr' : ∀ b, RelSelf (f b c.p)) :
    StepOK P c (exitIfEos c <| getU8 c fun b c => remark { c with p := f b c.p }) := by
  refine eos_ok hok hr fun h0 => ?_
  obtain ⟨b, h1, h2, h3⟩ := rest_cons h0
  simp only [getU8, h1]
  refine ⟨⟨rfl, ?_⟩, rfl, ?_, ?_, hr' b⟩
  · have := hok.le
    simp only [remark, jump, Ctx.jump, Ctx.setMark]
    unfold Ctx.available at h0
    omega
  · show 4 * (c.ctx.jump 1).available + rank _ < 4 * c.ctx.available + rank _
    have := rank_le (f b c.p).st
    simp only [jump]
    omega
  · refine ⟨[b], h2, fun K y hK _ => ?_⟩
    exact hb K b _ y hK

theorem byte_ok (hok : Ok c) (hr : RelSelf c.p) (hq : quiet c.p.st = true) (hn : norm c.p = .next [] c.p)
    (f : UInt8 → Core → Core) (hb : ∀ b, bstep c.p b = .next [] (f b c.p)) (hr' : ∀ b, RelSelf (f b c.p)) :
    StepOK P c (exitIfEos c <| getU8 c fun b c => remark { c with p := f b c.p }) :=
  byte_ok' hok hr f (fun K b tr r _ => by rw [predC_byte hq hn (hb b), List.append_nil]) hr'

/-- A state in which one byte is read, and the payload shortened. -/
theorem dec_ok (hok : Ok c) (hr : RelSelf c.p) (hq : quiet c.p.st = true) (hn : norm c.p = .next [] c.p) (f : UInt8 → Core → Core) (n : UInt32)
    (st : St) (hb : ∀ b, bstep c.p b = match (f b c.p).decPayloadLength n with
      | none => .panic []
      | some s => .next [] { s with st := st }) (hr' : ∀ s : Core, RelSelf { s with st := st }) :
    StepOK P c (exitIfEos c <| getU8 c fun b c => decPayload { c with p := f b c.p } n fun c => transition c st) := by
  refine eos_ok hok hr fun h0 => ?_
  obtain ⟨b, h1, h2, h3⟩ := rest_cons h0
  have hb := hb b
  simp only [getU8, h1, decPayload, jump]
  cases hd : (f b c.p).decPayloadLength n with
  | none =>
    rw [hd] at hb
    exact fun K fut _ => by rw [h2, List.cons_append, predC_panic hq hn hb, List.append_nil]
  | some s =>
    rw [hd] at hb
    refine ⟨⟨rfl, ?_⟩, rfl, ?_, ?_, hr' s⟩
    · have := hok.le
      simp only [remark, setState, jump, Ctx.jump, Ctx.setMark]
      unfold Ctx.available at h0
      omega
    · show 4 * (c.ctx.jump 1).available + rank _ < 4 * c.ctx.available + rank _
      have := rank_le st
      simp only [setState]
      omega
    · refine ⟨[b], h2, fun K y hK _ => ?_⟩
      show predC K _ c.p (b :: y) = predC K _ _ y
      rw [predC_byte hq hn hb, List.append_nil]
      rfl

theorem rest_four {x : Ctx} (h : 4 ≤ x.available) : ∃ b1 b2 b3 b4, x.stream[x.idx]? = some b1 ∧
    x.stream[x.idx + 1]? = some b2 ∧ x.stream[x.idx + 2]? = some b3 ∧ x.stream[x.idx + 3]? = some b4 ∧
    x.rest = b1 :: b2 :: b3 :: b4 :: (x.jump 4).rest ∧ (x.jump 4).available + 4 = x.available := by
  obtain ⟨b1, g1, r1, a1⟩ := rest_cons (x := x) (by omega)
  obtain ⟨b2, g2, r2, a2⟩ := rest_cons (x := x.jump 1) (by omega)
  obtain ⟨b3, g3, r3, a3⟩ := rest_cons (x := (x.jump 1).jump 1) (by omega)
  obtain ⟨b4, g4, r4, a4⟩ := rest_cons (x := ((x.jump 1).jump 1).jump 1) (by omega)
  refine ⟨b1, b2, b3, b4, g1, g2, g3, g4, ?_, ?_⟩
  · rw [r1, r2, r3, r4]
    rfl
  · have : (x.jump 4).available = ((((x.jump 1).jump 1).jump 1).jump 1).available := rfl
    omega

theorem rest_two {x : Ctx} (h : 2 ≤ x.available) : ∃ b1 b2, x.stream[x.idx]? = some b1 ∧
    x.stream[x.idx + 1]? = some b2 ∧
    x.rest = b1 :: b2 :: (x.jump 2).rest ∧ (x.jump 2).available + 2 = x.available := by
  obtain ⟨b1, g1, r1, a1⟩ := rest_cons (x := x) (by omega)
  obtain ⟨b2, g2, r2, a2⟩ := rest_cons (x := x.jump 1) (by omega)
  refine ⟨b1, b2, g1, g2, ?_, ?_⟩
  · rw [r1, r2]
    rfl
  · have : (x.jump 2).available = ((x.jump 1).jump 1).available := rfl
    omega

/-- The next four bytes at once. -/
theorem four_ok (hok : Ok c) (h4 : 4 ≤ c.ctx.available) (s : Core) (hr : RelSelf s) {x : UInt8 → UInt8 → UInt8 → UInt8 → Core}
    (hx : ∀ b1 b2 b3 b4, RelSelf (x b1 b2 b3 b4))
    (hp : ∀ K b1 b2 b3 b4 tr r, P K (b1 :: b2 :: b3 :: b4 :: r) → predC K tr c.p (b1 :: b2 :: b3 :: b4 :: r) = predC K tr (x b1 b2 b3 b4) r)
    {o : Out} (ho : ∀ b1 b2 b3 b4, c.ctx.stream[c.ctx.idx]? = some b1 → c.ctx.stream[c.ctx.idx + 1]? = some b2 →
      c.ctx.stream[c.ctx.idx + 2]? = some b3 → c.ctx.stream[c.ctx.idx + 3]? = some b4 →
      o = remark { jump c 4 with p := x b1 b2 b3 b4 }) : StepOK P c o := by
  obtain ⟨b1, b2, b3, b4, g1, g2, g3, g4, hr, ha⟩ := rest_four h4
  rw [ho b1 b2 b3 b4 g1 g2 g3 g4]
  refine ⟨⟨rfl, ?_⟩, rfl, ?_, ?_, hx _ _ _ _⟩
  · have := hok.le
    simp only [remark, jump, Ctx.jump, Ctx.setMark]
    unfold Ctx.available at h4
    omega
  · show 4 * (c.ctx.jump 4).available + rank _ < 4 * c.ctx.available + rank _
    have := rank_le (x b1 b2 b3 b4).st
    simp only
    omega
  · exact ⟨[b1, b2, b3, b4], hr, fun K y hK _ => hp K b1 b2 b3 b4 _ _ hK⟩

/-- A state in which a 32-bit field begins. -/
theorem first_ok' (hok : Ok c) (hr : RelSelf c.p) (into : UInt32)
    (f : UInt32 → Core → Core) (g : UInt8 → Core → Core)
    (hb : ∀ K b tr r, P K (b :: r) → predC K tr c.p (b :: r) = predC K tr (g b c.p) r)
    (hf : ∀ K b1 b2 b3 b4 tr r, P K (b1 :: b2 :: b3 :: b4 :: r) → predC K tr c.p (b1 :: b2 :: b3 :: b4 :: r) = predC K tr
      (f ((((into ||| (b1.toUInt32 <<< 24)) ||| (b2.toUInt32 <<< 16)) ||| (b3.toUInt32 <<< 8)) ||| b4.toUInt32) c.p) r)
    (hrf : ∀ x, RelSelf (f x c.p)) (hrg : ∀ b, RelSelf (g b c.p)) :
    StepOK P c (exitIfEos c <|
      if c.ctx.available ≥ 4 then readU32 c into fun x c => remark { c with p := f x c.p }
      else getU8 c fun b c => remark { c with p := g b c.p }) := by
  by_cases h4 : c.ctx.available ≥ 4
  · rw [if_pos h4]
    refine eos_ok hok hr fun _ => four_ok hok h4 c.p hr (fun _ _ _ _ => hrf _) hf ?_
    intro b1 b2 b3 b4 g1 g2 g3 g4
    simp only [readU32, g1, g2, g3, g4]
    rfl
  · rw [if_neg h4]
    exact byte_ok' hok hr g hb hrg

theorem first_ok (hok : Ok c) (hr : RelSelf c.p) (hq : quiet c.p.st = true) (hn : norm c.p = .next [] c.p) (into : UInt32)
    (f : UInt32 → Core → Core) (g : UInt8 → Core → Core)
    (hb : ∀ b, bstep c.p b = .next [] (g b c.p))
    (hf : ∀ K b1 b2 b3 b4 tr r, P K (b1 :: b2 :: b3 :: b4 :: r) → predC K tr c.p (b1 :: b2 :: b3 :: b4 :: r) = predC K tr
      (f ((((into ||| (b1.toUInt32 <<< 24)) ||| (b2.toUInt32 <<< 16)) ||| (b3.toUInt32 <<< 8)) ||| b4.toUInt32) c.p) r)
    (hrf : ∀ x, RelSelf (f x c.p)) (hrg : ∀ b, RelSelf (g b c.p)) :
    StepOK P c (exitIfEos c <|
      if c.ctx.available ≥ 4 then readU32 c into fun x c => remark { c with p := f x c.p }
      else getU8 c fun b c => remark { c with p := g b c.p }) :=
  first_ok' hok hr into f g (fun K b tr r _ => by rw [predC_byte hq hn (hb b), List.append_nil]) hf hrf hrg

theorem ite_ok {Q : Prop} [Decidable Q] {a b : Out} (hQ : ¬ Q) (hb : StepOK P c b) :
    StepOK P c (if Q then a else b) := by rw [if_neg hQ]; exact hb

theorem payload_ok {k : Kind} (hok : Ok c) (hs : PaySt c.p.st k) :
    StepOK P c (exitIfEos c <| parsePayloadData h c k) := by
  have hrs : ∀ s : Core, s.st = c.p.st → RelSelf s := by
    intro s e
    unfold RelSelf PaySt at *
    rw [e]
    split at hs <;> simp_all
  refine eos_ok hok (hrs c.p rfl) fun h0 => ?_
  have hhi := hi_lt c.p
  have hrank : rank c.p.st = 2 := by
    unfold PaySt at hs
    split at hs <;> simp_all [rank]
  have hne : c.ctx.rest ≠ [] := by
    intro e
    have := rest_length c.ctx
    rw [e] at this
    exact h0 this.symm
  have hmark := hok.mark
  have hle := hok.le
  unfold parsePayloadData
  rw [actual_eq]
  by_cases hlt : c.p.hi < c.p.lo
  · rw [if_pos hlt]
    obtain ⟨b, h1, h2, h3⟩ := rest_cons h0
    intro K fut _
    rw [h2, List.cons_append, predC_panic hs.quiet hs.norm (es := []), List.append_nil]
    rw [hs.bstep, bPayload, actual_eq, if_pos hlt]
  rw [if_neg hlt]
  simp only
  rw [ofNat_toNat (by omega)]
  by_cases hge : c.ctx.available ≥ c.p.hi - c.p.lo
  · rw [if_pos hge]
    simp only [decPayload, jump]
    rw [dec_eq, ofNat_toNat (by omega), if_neg (by omega)]
    simp only
    refine ite_ok (by show ¬ c.ctx.idx + (c.p.hi - c.p.lo) < c.ctx.mark; omega) ?_
    have hl : (c.ctx.rest.take (c.p.hi - c.p.lo)).length = c.p.hi - c.p.lo := by
      rw [List.length_take, rest_length]; omega
    have e1 : setState { c with p := c.p.dec (c.p.hi - c.p.lo), ctx := c.ctx.jump (c.p.hi - c.p.lo) }
        (if (c.p.dec (c.p.hi - c.p.lo)).bit32a &&& 0xFF > 0 then .framePadding else .frameLength1) =
        { c with p := endState (c.p.dec (c.p.hi - c.p.lo)), ctx := c.ctx.jump (c.p.hi - c.p.lo) } := rfl
    rw [e1]
    have hst : (endState (c.p.dec (c.p.hi - c.p.lo))).st = .framePadding ∨
        (endState (c.p.dec (c.p.hi - c.p.lo))).st = .frameLength1 := by
      simp only [endState]
      split
      · exact .inl rfl
      · exact .inr rfl
    refine callback_ok rfl ?_ ?_ ?_ ?_
    · show c.ctx.idx + _ ≤ _
      unfold Ctx.available at hge h0
      omega
    · have : rank (endState (c.p.dec (c.p.hi - c.p.lo))).st < 2 := by
        rcases hst with e | e <;> rw [e] <;> simp [rank]
      have h5 : (c.ctx.jump (c.p.hi - c.p.lo)).available ≤ c.ctx.available := by
        simp only [Ctx.available, Ctx.jump]; omega
      simp only [mu, hrank]
      omega
    · unfold RelSelf
      rcases hst with e | e <;> rw [e] <;> exact ⟨trivial, rfl⟩
    · have hsl : (c.ctx.jump (c.p.hi - c.p.lo)).slice = c.ctx.rest.take (c.p.hi - c.p.lo) := by
        simp only [Ctx.slice, Ctx.jump, hmark, Ctx.rest]
        congr 1
        omega
      rw [show (Cfg.mk (endState (c.p.dec (c.p.hi - c.p.lo))) (c.ctx.jump (c.p.hi - c.p.lo)) c.log).ctx.slice
        = c.ctx.rest.take (c.p.hi - c.p.lo) from hsl]
      refine ⟨c.ctx.rest.take (c.p.hi - c.p.lo), rest_jump, fun K y hK hy => ?_⟩
      rw [predC_whole _ _ c.p (flat c.log) hs ?_ (by rw [hl]; omega), hl]
      rotate_left
      · intro he
        have he := List.append_eq_nil_iff.mp he
        refine hne ?_
        rw [rest_jump (x := c.ctx) (n := c.p.hi - c.p.lo), he.1]
        exact hy he.2
      simp only [flatEv, bytesEv, List.append_assoc]
      rfl
  · rw [if_neg hge]
    have hav : c.ctx.available < 2 ^ 24 := by omega
    unfold decPayload
    rw [dec_eq, ofNat_toNat hav, if_neg (by omega)]
    dsimp only
    refine ite_ok (by show ¬ c.ctx.idx + c.ctx.available < c.ctx.mark; omega) ?_
    have hl : (c.ctx.rest.take c.ctx.available).length = c.ctx.available := by
      rw [List.length_take, rest_length]; omega
    have hsl : (c.ctx.jump c.ctx.available).slice = c.ctx.rest.take c.ctx.available := by
      simp only [Ctx.slice, Ctx.jump, hmark, Ctx.rest]
      congr 1
      omega
    have hsame : Same P c (Cfg.mk (c.p.dec c.ctx.available) (c.ctx.jump c.ctx.available)
        (c.log ++ [.payload k (c.ctx.jump c.ctx.available).slice false])) := by
      refine ⟨c.ctx.rest.take c.ctx.available, rest_jump, fun K y hK _ => ?_⟩
      rw [flat_append, hsl]
      rw [predC_part _ _ c.p (flat c.log) hs (by rw [hl]; omega), hl]
      simp only [flatEv, bytesEv, List.append_nil, Bool.false_eq_true, if_false]
    have hi : c.ctx.idx + c.ctx.available = c.ctx.stream.length := by
      unfold Ctx.available; omega
    split
    · exact ⟨rfl, rfl, hi, hsame, hrs _ rfl, id⟩
    · exact ⟨rfl, rfl, Nat.le_of_eq hi, hsame, hrs _ rfl, id⟩

theorem padding_ok (hok : Ok c) (hs : c.p.st = .framePadding) : StepOK P c (frame_padding c) := by
  have hrs : ∀ s : Core, s.st = .framePadding → RelSelf s := by
    intro s e
    unfold RelSelf
    rw [e]
    trivial
  refine eos_ok hok (hrs _ hs) fun h0 => ?_
  have hhi := hi_lt c.p
  have hle := hok.le
  rw [payload_toNat]
  by_cases hge : c.ctx.available ≥ c.p.hi
  · rw [if_pos hge]
    have hl : (c.ctx.rest.take c.p.hi).length = c.p.hi := by
      rw [List.length_take, rest_length]; omega
    refine ⟨⟨rfl, ?_⟩, rfl, ?_, ?_, trivial⟩
    · show c.ctx.idx + _ ≤ c.ctx.stream.length
      unfold Ctx.available at hge h0
      omega
    · have h5 : (c.ctx.jump c.p.hi).available ≤ c.ctx.available := by
        simp only [Ctx.available, Ctx.jump]; omega
      show 4 * (c.ctx.jump c.p.hi).available + 0 < 4 * c.ctx.available + rank c.p.st
      rw [hs]
      simp only [rank]
      omega
    · refine ⟨c.ctx.rest.take c.p.hi, rest_jump, fun K y hK _ => ?_⟩
      rw [predC_padWhole _ { c.p with st := .frameLength1 } rfl _ _ _ hs hl]
      rfl
  · rw [if_neg hge]
    simp only [decPayload]
    rw [dec_eq, ofNat_toNat (by omega), if_neg (by omega)]
    have hl : (c.ctx.rest.take c.ctx.available).length = c.ctx.available := by
      rw [List.length_take, rest_length]; omega
    refine ⟨rfl, rfl, ?_, ?_, hrs _ hs, id⟩
    · show c.ctx.idx + c.ctx.available = _
      unfold Ctx.available; omega
    · refine ⟨c.ctx.rest.take c.ctx.available, rest_jump, fun K y hK _ => ?_⟩
      rw [predC_padPart _ _ c.p (flat c.log) hs (by rw [hl]; omega), hl]
      rfl

end Verif.Http2
