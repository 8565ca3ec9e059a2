import Verif.Http2.RunsFrame
import Verif.Http2.CutSpec

/-!
# Runs over any bytes (helper lemmas)
-/

namespace Verif.Http2

variable {K : Slices} {tr : List Ev} {s : Core} {r : Bytes}

/-- The reference machine tells `t`. -/
def Tells (K : Slices) (tr : List Ev) (s : Core) (r : Bytes) (t : Tale) : Prop :=
  predC K tr s r = match t.2 with
    | .stop => (tr ++ t.1, .eos)
    | .panic => (tr ++ t.1, .panic)
    | .go r' => predC K (tr ++ t.1) s0 r'

theorem Tells.tell {es : List Ev} {t : Tale} {s' : Core} {r' : Bytes} (h : Tells K (tr ++ es) s r t) (he : predC K tr s' r' = predC K (tr ++ es) s r) :
    Tells K tr s' r' (tell es t) := by
  unfold Tells Http2.tell at *
  rw [he, h]
  simp only [List.append_assoc]

theorem Tells.same {t : Tale} {s' : Core} {r' : Bytes} (h : Tells K tr s r t) (he : predC K tr s' r' = predC K tr s r) :
    Tells K tr s' r' t := by unfold Tells at *; rw [he, h]

theorem Tells.go {es : List Ev} {r' : Bytes} {s' : Core} (hs : s'.st = .frameLength1)
    (he : predC K tr s r = predC K (tr ++ es) s' r') : Tells K tr s r (es, .go r') := by
  unfold Tells
  rw [he]
  exact predC_start hs rfl _ _

theorem Tells.stop (hn : norm s = .next [] s) : Tells K tr s [] ([], .stop) := by
  unfold Tells
  rw [predC, hn]

/-! ## Data -/

theorem pad_any {q : Core} (hq : q.st = .framePadding) (u : Bytes) : predC K tr q u = predC K tr s0 (u.drop q.hi) := by
  by_cases hu : u.length < q.hi
  · have := predC_padPart (K := K) [] u q tr hq hu
    rw [List.append_nil, predC, pad_norm (show (q.dec u.length).st = _ from hq)] at this
    rw [List.drop_eq_nil_of_le (by omega), this]
    rfl
  · have := predC_padWhole (K := K) (u.drop q.hi) s0 rfl (u.take q.hi) q tr hq (by rw [List.length_take]; omega)
    rwa [List.take_append_drop] at this

theorem tells_data {k : Kind} (hs : PaySt s.st k) : Tells K tr s r (readData k s.hi s.lo r) := by
  unfold readData
  split
  · subst r; exact .stop hs.norm
  · rename_i hne
    split
    · obtain ⟨b, r', rfl⟩ := List.exists_cons_of_ne_nil hne
      unfold Tells
      rw [predC_panic (es := []) hs.quiet hs.norm (by rw [hs.bstep, bPayload, actual_eq, if_pos (by assumption)])]
    · split
      · have := predC_part (K := K) [] r s tr hs (by omega)
        rw [List.append_nil, predC, (show PaySt (s.dec r.length).st k from hs).norm] at this
        unfold Tells
        rw [this]
        simp [bytesEv]
      · have hsp : r = r.take (s.hi - s.lo) ++ r.drop (s.hi - s.lo) := (List.take_append_drop _ _).symm
        have h1 := predC_whole (K := K) (r.drop (s.hi - s.lo)) (r.take (s.hi - s.lo)) s tr hs (by rw [← hsp]; exact hne)
          (by rw [List.length_take]; omega)
        rw [← hsp, List.append_assoc] at h1
        unfold Tells
        show _ = predC K (tr ++ (bytesEv k (r.take (s.hi - s.lo)) ++ [.payload k [] true])) s0 (r.drop s.hi)
        rw [h1]
        generalize tr ++ (_ ++ _) = tr'
        have hl : (r.take (s.hi - s.lo)).length = s.hi - s.lo := by rw [List.length_take]; omega
        rw [hl]
        have hd : r.drop s.hi = (r.drop (s.hi - s.lo)).drop s.lo := by
          rw [List.drop_drop]; congr 1; omega
        rw [hd]
        generalize r.drop (s.hi - s.lo) = u
        unfold endState
        have hlo : ((s.dec (s.hi - s.lo)).bit32a &&& 0xFF > 0) ↔ 0 < s.lo := by rw [pad_pos, dec_lo]
        by_cases hp : 0 < s.lo
        · rw [if_pos (hlo.mpr hp), pad_any rfl]
          congr 2
          show (s.dec (s.hi - s.lo)).hi = _
          rw [dec_hi]; omega
        · rw [if_neg (fun h => hp (hlo.mp h)), show s.lo = 0 by omega, List.drop_zero]
          refine predC_start ?_ rfl _ _
          rfl

/-! ## Fields -/

theorem num1 (b : UInt8) : num [b] = b.toNat := by simp [num]

theorem be_num2 (a b : UInt8) : num [a, b] < 2 ^ 16 ∧ be 2 (num [a, b]) = [a, b] := by
  have := a.toNat_lt; have := b.toNat_lt
  have h : num [a, b] = a.toNat * 256 + b.toNat := by simp [num]
  rw [h]
  refine ⟨by omega, ?_⟩
  simp only [be, List.cons.injEq, and_true]
  refine ⟨?_, ?_⟩ <;> apply UInt8.toNat_inj.mp <;> rw [UInt8.toNat_ofNat'] <;> omega

theorem be_num3 (a b c : UInt8) : num [a, b, c] < 2 ^ 24 ∧ be 3 (num [a, b, c]) = [a, b, c] := by
  have := a.toNat_lt; have := b.toNat_lt; have := c.toNat_lt
  have h : num [a, b, c] = (a.toNat * 256 + b.toNat) * 256 + c.toNat := by simp [num]
  rw [h]
  refine ⟨by omega, ?_⟩
  simp only [be, List.cons.injEq, and_true]
  refine ⟨?_, ?_, ?_⟩ <;> apply UInt8.toNat_inj.mp <;> rw [UInt8.toNat_ofNat'] <;> omega

theorem be_num4 (a b c d : UInt8) : num [a, b, c, d] < 2 ^ 32 ∧ be 4 (num [a, b, c, d]) = [a, b, c, d] := by
  have := a.toNat_lt; have := b.toNat_lt; have := c.toNat_lt; have := d.toNat_lt
  have h : num [a, b, c, d] = ((a.toNat * 256 + b.toNat) * 256 + c.toNat) * 256 + d.toNat := by simp [num]
  rw [h]
  refine ⟨by omega, ?_⟩
  simp only [be, List.cons.injEq, and_true]
  refine ⟨?_, ?_, ?_, ?_⟩ <;> apply UInt8.toNat_inj.mp <;> rw [UInt8.toNat_ofNat'] <;> omega

theorem field4 {F : Nat → Bytes → Tale} (h0 : r.length < 4 → Tells K tr s r ([], .stop))
    (hF : ∀ x r', x < 2 ^ 32 → r = be 4 x ++ r' → Tells K tr s (be 4 x ++ r') (F x r')) :
    Tells K tr s r (readField 4 r F) := by
  unfold readField
  split
  · exact h0 (by assumption)
  · match r with
    | a :: b :: c :: d :: r =>
      obtain ⟨h1, h2⟩ := be_num4 a b c d
      have := hF _ r h1 (by rw [h2]; rfl)
      rw [h2] at this
      exact this
    | [] | [_] | [_, _] | [_, _, _] => rename_i h; exact absurd (by simp) h

theorem field1 {F : Nat → Bytes → Tale} (hn : norm s = .next [] s)
    (hF : ∀ (x : UInt8) r, Tells K tr s (x :: r) (F x.toNat r)) : Tells K tr s r (readField 1 r F) := by
  unfold readField
  cases r with
  | nil => exact .stop hn
  | cons b r =>
    rw [if_neg (by simp)]
    show Tells K tr s (b :: r) (F (num [b]) r)
    rw [num1]
    exact hF b r

/-- A field of four bytes that goes to `bit32b`. -/
theorem tells_field4 {a : UInt32} {x y : UInt16} {s1 s2 s3 s4 s5 : St} (h1 : Reads s1 24 s2) (h2 : Reads s2 16 s3)
    (h3 : Reads s3 8 s4) (h4 : Reads s4 0 s5) (hq : quiet s2 = true ∧ quiet s3 = true ∧ quiet s4 = true)
    (hp : Passes K s1 r) {F : Nat → Bytes → Tale}
    (hF : ∀ n r, n < 2 ^ 32 → Tells K tr ⟨a, UInt32.ofNat n, x, y, s5⟩ r (F n r)) :
    Tells K tr ⟨a, 0, x, y, s1⟩ r (readField 4 r F) := by
  refine field4 ?_ fun n r hn he => (hF n r hn).same (read4C h1 h2 h3 h4 hq tr hn r (he ▸ hp))
  intro hu
  unfold Tells
  match r with
  | [] => rw [predC, (h1 _ rfl).1]
  | [_] => rw [predC_pass32 hp (h1 _ rfl).1 ((h1 _ rfl).2 _) rfl, predC, (h2 _ rfl).1]
  | [_, _] =>
    rw [predC_pass32 hp (h1 _ rfl).1 ((h1 _ rfl).2 _) rfl, predC_or32b hq.1 (h2 _ rfl).1 ((h2 _ rfl).2 _) rfl, predC,
      (h3 _ rfl).1]
  | [_, _, _] =>
    rw [predC_pass32 hp (h1 _ rfl).1 ((h1 _ rfl).2 _) rfl, predC_or32b hq.1 (h2 _ rfl).1 ((h2 _ rfl).2 _) rfl,
      predC_or32b hq.2.1 (h3 _ rfl).1 ((h3 _ rfl).2 _) rfl, predC, (h4 _ rfl).1]
  | _ :: _ :: _ :: _ :: _ => exact absurd hu (by simp)

/-! ## Payloads -/

theorem tells_pk {k : Kind} {n p : Nat} {b : UInt32} {x y : UInt16} {st : St} (hn : n < 2 ^ 24) (hp : p < 256)
    (hs : PaySt st k) : Tells K tr ⟨pk n p, b, x, y, st⟩ r (readData k n p r) := by
  have := tells_data (K := K) (tr := tr) (r := r) (s := ⟨pk n p, b, x, y, st⟩) (k := k) hs
  rwa [pk_hi hn hp, pk_lo hn hp] at this

theorem tells_pad {n : Nat} {s1 s2 : St} (hn : n < 2 ^ 24) (hq : quiet s1 = true) {F : Nat → Nat → Bytes → Tale}
    (hnorm : ∀ s : Core, s.st = s1 → norm s = .next [] s) (hb : ∀ s : Core, s.st = s1 → ∀ b, bstep s b = bPad s b s2)
    (hF : ∀ n p r, n < 2 ^ 24 → p < 256 → Tells K tr ⟨pk n p, 0, 0, 0, s2⟩ r (F n p r)) :
    Tells K tr ⟨pk n 0, 0, 0, 0, s1⟩ r (readPad true n r F) := by
  unfold readPad
  rw [if_pos rfl]
  refine field1 (hnorm _ rfl) fun b r => ?_
  have hlt := b.toNat_lt
  split
  · unfold Tells
    rw [predC_panic (es := []) hq (hnorm _ rfl)]
    rw [hb _ rfl, bPad]
    have e : pk n 0 ||| b.toUInt32 = pk n b.toNat := by
      have := pk_or (p := b.toNat) hn hlt
      rwa [UInt8.ofNat_toNat] at this
    simp only [e]
    rw [dec_eq, if_pos (by rw [pk_hi hn hlt]; show n < 1; assumption)]
  · have := predC_pad (K := K) (s1 := s1) (s2 := s2) hn hlt (by omega) hq hnorm hb tr r
    rw [UInt8.ofNat_toNat] at this
    exact (hF (n - 1) b.toNat r (by omega) hlt).same this

theorem num_word (x : Nat) (hx : x < 2 ^ 32) : be 4 x = word (decide (2 ^ 31 ≤ x)) (UInt32.ofNat (x % 2 ^ 31)) ∧
    UInt32.ofNat (x % 2 ^ 31) < 0x80000000 := by
  have h1 : (UInt32.ofNat (x % 2 ^ 31)).toNat = x % 2 ^ 31 := by
    rw [UInt32.toNat_ofNat', Nat.mod_eq_of_lt (by omega)]
  refine ⟨?_, ?_⟩
  · rw [word, h1]
    congr 1
    by_cases h : 2 ^ 31 ≤ x
    · rw [decide_eq_true h, if_pos rfl]; omega
    · rw [decide_eq_false h, if_neg (by decide)]; omega
  · rw [UInt32.lt_iff_toNat_lt, h1]
    show _ < 2 ^ 31
    omega

theorem ofNat_word (x : Nat) (hx : x < 2 ^ 32) : UInt32.ofNat x =
    UInt32.ofNat ((UInt32.ofNat (x % 2 ^ 31)).toNat + if decide (2 ^ 31 ≤ x) then 2 ^ 31 else 0) := by
  rw [UInt32.toNat_ofNat', Nat.mod_eq_of_lt (a := x % 2 ^ 31) (by omega)]
  congr 1
  by_cases h : 2 ^ 31 ≤ x
  · rw [decide_eq_true h, if_pos rfl]; omega
  · rw [decide_eq_false h, if_neg (by decide)]; omega

theorem tells_push {n p : Nat} {x : Nat} (hn : n < 2 ^ 24) (hp : p < 256) :
    Tells K tr ⟨pk n p, UInt32.ofNat x, 0, 0, .pushPromiseCallback⟩ r (if r = [] then ([], .stop)
      else if n < 4 then ([], .panic)
      else tell [.pushPromise (UInt32.ofNat x)] (readData .headersFragment (n - 4) p r)) := by
  split
  · subst r; exact .stop rfl
  · rename_i hr
    split
    · obtain ⟨b, r', rfl⟩ := List.exists_cons_of_ne_nil hr
      unfold Tells
      rw [predC_panic (es := []) rfl rfl]
      simp only [bstep]
      rw [dec_eq, if_pos (by rw [pk_hi hn hp]; assumption)]
    · obtain ⟨m, rfl⟩ : ∃ m, n = m + 4 := ⟨n - 4, by omega⟩
      exact (tells_pk (by omega) hp (show PaySt .headersFragment .headersFragment from rfl)).tell (predC_push hn hp tr hr)

theorem tells_prio {n p : Nat} (hn : n < 2 ^ 24) (hp : p < 256) :
    Tells K tr ⟨pk n p, 0, 0, 0, .headersStreamId1⟩ r (readField 4 r fun d r => readField 1 r fun w r =>
        if n < 5 then ([], .panic)
        else tell [.headers (2 ^ 31 ≤ d) (UInt32.ofNat (d % 2 ^ 31)) (UInt8.ofNat w)]
          (readData .headersFragment (n - 5) p r)) := by
  refine tells_field4 (s2 := .headersStreamId2) (s3 := .headersStreamId3) (s4 := .headersStreamId4) (s5 := .headersWeight)
    (by reads) (by reads) (by reads) (by reads) ⟨rfl, rfl, rfl⟩ (.inl rfl) fun d r hd => ?_
  refine field1 rfl fun w r => ?_
  rw [UInt8.ofNat_toNat]
  split
  · unfold Tells
    rw [predC_panic (es := []) rfl rfl]
    simp only [bstep]
    rw [dec_eq, if_pos]
    show (Core.mk (pk n p) (UInt32.ofNat d) (w.toUInt16 <<< 8) 0 .headersWeight).hi < 5
    rw [pk_hi hn hp]; assumption
  · obtain ⟨hw, hlt⟩ := num_word d hd
    have h1 := predC_prio (K := K) (n := n) (p := p) (e := decide (2 ^ 31 ≤ d)) (w := w) hn hp (by omega) hlt tr r
    rw [← hw, read4C (s2 := .headersStreamId2) (s3 := .headersStreamId3) (s4 := .headersStreamId4) (s5 := .headersWeight)
      (by reads) (by reads) (by reads) (by reads) ⟨rfl, rfl, rfl⟩ tr hd _ (.inl rfl)] at h1
    exact (tells_pk (by omega) hp (show PaySt .headersFragment .headersFragment from rfl)).tell h1

theorem tells_goAway {n : Nat} (hn : n < 2 ^ 24) (hC : Clear K r) :
    Tells K tr ⟨pk n 0, 0, 0, 0, .goAwayStreamId1⟩ r (readField 4 r fun l r => readField 4 r fun c r =>
      if n < 8 then ([], .panic)
      else tell [.goAway (UInt32.ofNat (l % 2 ^ 31)) (UInt32.ofNat c)]
        (if n = 8 then ([], .go r) else readData .goAwayDebugData (n - 8) 0 r)) := by
  refine tells_field4 (s2 := .goAwayStreamId2) (s3 := .goAwayStreamId3) (s4 := .goAwayStreamId4) (s5 := .goAwayErrorCode1)
    (by reads) (by reads) (by reads) (by reads) ⟨rfl, rfl, rfl⟩ (.inr ⟨hC, .inl rfl⟩) fun l r hl => ?_
  refine field4 ?_ ?_
  · intro hu
    unfold Tells
    match r with
    | [] => simp [predC, norm]
    | [_] => simp [predC, Slices.lost, Slices.byte, norm, bstep, or16a, or16b]
    | [_, _] => simp [predC, Slices.lost, Slices.byte, norm, bstep, or16a, or16b]
    | [_, _, _] => simp [predC, Slices.lost, Slices.byte, norm, bstep, or16a, or16b]
    | _ :: _ :: _ :: _ :: _ => exact absurd hu (by simp)
  · intro c r hc _
    split
    · unfold Tells
      simp only [be, List.cons_append, List.nil_append]
      have : ∀ x y, norm ⟨pk n 0, UInt32.ofNat l, x, y, .goAwayCallback⟩ = .panic [] := by
        intro x y
        simp only [norm]
        rw [dec_eq, if_pos (by rw [pk_hi hn (by decide)]; assumption)]
      rw [predC_byte rfl rfl rfl, predC_byte rfl rfl rfl, predC_byte rfl rfl rfl, predC_byte rfl rfl rfl]
      cases r <;> simp only [predC, this] <;> simp
    · obtain ⟨m, rfl⟩ : ∃ m, n = m + 8 := ⟨n - 8, by omega⟩
      have h1 := goAway_end (K := K) (v := UInt32.ofNat l) (c := UInt32.ofNat c) hn tr r
      have hcc : (UInt32.ofNat c).toNat = c := by rw [UInt32.toNat_ofNat', Nat.mod_eq_of_lt hc]
      have hll : UInt32.ofNat l &&& 0x7FFFFFFF = UInt32.ofNat (l % 2 ^ 31) := by
        obtain ⟨hw, hlt⟩ := num_word l hl
        have := word_and (bit := decide (2 ^ 31 ≤ l)) hlt
        rw [← this, ofNat_word l hl]
      rw [hcc, hll] at h1
      split
      · have hm : m = 0 := by omega
        subst hm
        rw [if_neg (Nat.lt_irrefl 0)] at h1
        refine Tells.tell (es := [.goAway (UInt32.ofNat (l % 2 ^ 31)) (UInt32.ofNat c)]) (Tells.go (s' := s0) (es := []) rfl ?_) h1
        rw [List.append_nil]
        exact predC_start rfl rfl _ _
      · rw [if_pos (show 0 < m by omega)] at h1
        exact (tells_pk (by omega) (by decide) (show PaySt .goAwayDebugData .goAwayDebugData from rfl)).tell h1

theorem tells_imm {s s' : Core} {e : Ev} (hn : norm s = .next [e] s') (hs : s'.st = .frameLength1) :
    Tells K tr s r ([e], .go r) :=
  .go hs (predC_imm hn (by simp [norm, hs]) _ _)

theorem tells_priority {n : Nat} : Tells K tr ⟨pk n 0, 0, 0, 0, .priorityStreamId1⟩ r
    (readField 4 r fun d r => readField 1 r fun w r =>
      ([.priority (2 ^ 31 ≤ d) (UInt32.ofNat (d % 2 ^ 31)) (UInt8.ofNat w)], .go r)) := by
  refine tells_field4 (s2 := .priorityStreamId2) (s3 := .priorityStreamId3) (s4 := .priorityStreamId4)
    (s5 := .priorityWeight) (by reads) (by reads) (by reads) (by reads) ⟨rfl, rfl, rfl⟩ (.inl rfl) fun d r hd => ?_
  refine field1 rfl fun w r => ?_
  rw [UInt8.ofNat_toNat]
  obtain ⟨hw, hlt⟩ := num_word d hd
  have hd' := ofNat_word d hd
  refine Tells.go (s' := ⟨pk n 0, UInt32.ofNat d, 0, 0, .frameLength1⟩) rfl (predC_byte rfl rfl ?_ _ _)
  simp only [bstep]
  rw [hd', word_shr hlt, word_and hlt]

theorem tells_settings {n : Nat} (hC : K.within (K.total - (r.length - 2)) = false) : Tells K tr ⟨pk n 0, 0, 0, 0, .settingsId1⟩ r
    (readField 2 r fun i r => readField 4 r fun v r => ([.settings (UInt16.ofNat i) (UInt32.ofNat v)], .go r)) := by
  unfold readField
  split
  · unfold Tells
    match r with
    | [] => rfl
    | [_] => simp [predC, Slices.lost, Slices.byte, norm, bstep, or16a]
    | _ :: _ :: _ => rename_i h; exact absurd h (by simp)
  · match r with
    | [] | [_] => rename_i h; exact absurd (by simp) h
    | a :: b :: r =>
      obtain ⟨h1, h2⟩ := be_num2 a b
      show Tells K tr _ (a :: b :: r) (readField 4 r fun v r => ([.settings (UInt16.ofNat (num [a, b])) (UInt32.ofNat v)], .go r))
      have e : predC K tr ⟨pk n 0, 0, 0, 0, .settingsId1⟩ (a :: b :: r) =
          predC K tr ⟨pk n 0, 0, UInt16.ofNat (num [a, b]), 0, .settingsValue1⟩ r := by
        have := be2 h1
        rw [predC_byte rfl rfl rfl, predC_byte rfl rfl rfl, ← this]
        simp only [be, List.cons.injEq, and_true] at h2
        simp only [h2.1, h2.2, List.append_nil]
      refine Tells.same (s := ⟨pk n 0, 0, UInt16.ofNat (num [a, b]), 0, .settingsValue1⟩) (r := r) ?_ e
      exact tells_field4 (s2 := .settingsValue2) (s3 := .settingsValue3) (s4 := .settingsValue4)
        (s5 := .settingsCallback) (by reads) (by reads) (by reads) (by reads) ⟨rfl, rfl, rfl⟩ (.inr ⟨hC, .inr rfl⟩) fun v r hv => tells_imm rfl rfl

theorem tells_body {n : Nat} {t fl : UInt8} (hn : n < 2 ^ 24)
    (h4 : t = 4 → K.within (K.total - (r.length - 2)) = false) (h7 : t = 7 → Clear K r) :
    Tells K tr ⟨pk n 0, 0, 0, 0, stOf t fl⟩ r (readBody n t fl r) := by
  have pad : ∀ {s1 s2 : St} {F : Nat → Nat → Bytes → Tale} (hq : quiet s1 = true)
      (hnorm : ∀ s : Core, s.st = s1 → norm s = .next [] s) (hb : ∀ s : Core, s.st = s1 → ∀ b, bstep s b = bPad s b s2)
      (hF : ∀ n p r, n < 2 ^ 24 → p < 256 → Tells K tr ⟨pk n p, 0, 0, 0, s2⟩ r (F n p r)),
      Tells K tr ⟨pk n 0, 0, 0, 0, if (fl &&& 0x8 == 0x8) = true then s1 else s2⟩ r
        (readPad (fl &&& 0x8 == 0x8) n r F) := by
    intro s1 s2 F hq hnorm hb hF
    cases fl &&& 0x8 == 0x8
    · exact hF n 0 r hn (by decide)
    · exact tells_pad hn hq hnorm hb hF
  unfold stOf readBody
  dsimp only
  split
  · exact pad rfl (fun s hs => by simp [norm, hs]) (fun s hs b => by simp [bstep, hs]) fun n p r hn hp => tells_pk hn hp rfl
  · cases fl &&& 0x20 == 0x20
    · cases fl &&& 0x8 == 0x8
      · have := tells_pk (K := K) (tr := tr) (r := r) (n := n) (p := 0) (b := 0) (x := 0) (y := 0) hn (by decide)
          (show PaySt .headersFragment .headersFragment from rfl)
        exact this
      · refine tells_pad hn (s1 := .headersPadLengthWithoutPriority) (s2 := .headersCallback)
          rfl (fun s hs => by simp [norm, hs]) (fun s hs b => by simp [bstep, hs]) fun n p r hn hp => ?_
        refine Tells.tell (es := [.headers false 0 0]) (s := ⟨pk n p, 0, 0, 0, .headersFragment⟩) (tells_pk hn hp rfl) ?_
        exact predC_imm (by simp [norm]) rfl _ _
    · exact pad rfl (fun s hs => by simp [norm, hs]) (fun s hs b => by simp [bstep, hs]) fun n p r hn hp => tells_prio hn hp
  · exact tells_priority
  · exact tells_field4 (s2 := .rstStreamErrorCode2) (s3 := .rstStreamErrorCode3) (s4 := .rstStreamErrorCode4)
      (s5 := .rstStreamCallback) (by reads) (by reads) (by reads) (by reads) ⟨rfl, rfl, rfl⟩ (.inl rfl) fun c r hc => tells_imm rfl rfl
  · exact tells_settings (h4 rfl)
  · refine pad rfl (fun s hs => by simp [norm, hs]) (fun s hs b => by simp [bstep, hs]) fun n p r hn hp => ?_
    exact tells_field4 (s2 := .pushPromiseStreamId2) (s3 := .pushPromiseStreamId3) (s4 := .pushPromiseStreamId4)
      (s5 := .pushPromiseCallback) (by reads) (by reads) (by reads) (by reads) ⟨rfl, rfl, rfl⟩ (.inl rfl) fun x r hx => tells_push hn hp
  · exact tells_pk hn (by decide) rfl
  · exact tells_goAway hn (h7 rfl)
  · exact tells_field4 (s2 := .windowUpdateIncrement2) (s3 := .windowUpdateIncrement3) (s4 := .windowUpdateIncrement4)
      (s5 := .windowUpdateCallback) (by reads) (by reads) (by reads) (by reads) ⟨rfl, rfl, rfl⟩ (.inl rfl) fun c r hc => tells_imm rfl rfl
  · exact tells_pk hn (by decide) rfl
  · have e : readBody n t fl r = readPad (fl &&& 0x8 == 0x8) n r (readData .unsupported) := by
      unfold readBody
      dsimp only
      split <;> first | rfl | contradiction
    have g := pad (s1 := .unsupportedPadLength) (s2 := .unsupportedData) (F := readData .unsupported)
      rfl (fun s hs => by simp [norm, hs]) (fun s hs b => by simp [bstep, hs]) fun n p r hn hp => tells_pk hn hp rfl
    rw [← e] at g
    exact g

/-! ## Frames -/

theorem be4_low {x : Nat} (hx : x < 2 ^ 32) : be 4 (x % 2 ^ 16) = 0 :: 0 :: (be 4 x).drop 2 := by
  simp only [be, List.drop_succ_cons, List.drop_zero, List.cons.injEq, and_true]
  refine ⟨?_, ?_, ?_, ?_⟩ <;> apply UInt8.toNat_inj.mp <;> simp only [UInt8.toNat_ofNat'] <;>
    first | omega | (show _ = 0; omega)

/-- The stream id of a frame header. -/
theorem predC_id {a : UInt32} {x y : UInt16} {n : Nat} (hn : n < 2 ^ 32) (r : Bytes) :
    predC K tr ⟨a, 0, x, y, .frameStreamId1⟩ (be 4 n ++ r) =
      predC K tr ⟨a, UInt32.ofNat (if K.within (K.total - (r.length + 4)) then n % 2 ^ 16 else n), x, y,
        .frameFormatEnd⟩ r := by
  have hp : K.total - (r.length + 3) - 1 = K.total - (r.length + 4) := by rw [Nat.sub_sub]
  simp only [be, List.cons_append, List.nil_append]
  cases hz : K.within (K.total - (r.length + 4))
  · simp only [predC, Slices.lost, Slices.byte, norm, bstep, or32b, List.length_cons, hp, hz, List.append_nil,
      Bool.false_eq_true, if_false]
    rw [be4 hn]
  · simp only [predC, Slices.lost, Slices.byte, norm, bstep, or32b, List.length_cons, hp, hz, List.append_nil,
      Bool.false_eq_true, if_false, if_true]
    have h1 := be4 (n := n % 2 ^ 16) (by omega)
    have h2 := be4_low hn
    simp only [be, List.drop_succ_cons, List.drop_zero, List.cons.injEq, and_true] at h2
    rw [h2.1, h2.2.1, h2.2.2.1, h2.2.2.2] at h1
    rw [h1]

/-- The header of a frame. -/
theorem predC_header {n x : Nat} {t fl : UInt8} (hn : n < 2 ^ 24) (hx : x < 2 ^ 32) (s : Core) (hs : s.st = .frameLength1)
    (m : Bytes) : predC K tr s (be 3 n ++ [t, fl] ++ be 4 x ++ m) =
      predC K (tr ++ [.frameFormat (UInt32.ofNat n) t fl
          (UInt32.ofNat (x % if K.within (K.total - (m.length + 4)) then 2 ^ 16 else 2 ^ 31))])
        ⟨pk n 0, 0, 0, 0, stOf t fl⟩ m := by
  rw [List.append_assoc, header_start hn s hs, predC_id hx, predC_imm (header_end hn) header_norm]
  have key : ∀ v, v < 2 ^ 32 → UInt32.ofNat v &&& 0x7FFFFFFF = UInt32.ofNat (v % 2 ^ 31) := by
    intro v hv
    rw [ofNat_word v hv, word_and (num_word v hv).2]
  split
  · rw [key _ (by omega), Nat.mod_eq_of_lt (a := x % 2 ^ 16) (by omega)]
  · rw [key _ hx]

/-- A frame that is never completed. -/
theorem tells_lost {st : St} {n : Nat} (h : st = .goAwayStreamId1 ∨ st = .settingsValue1) {x : UInt16}
    (hK : K.within (K.total - r.length) = true) : Tells K tr ⟨pk n 0, 0, x, 0, st⟩ r ([], .stop) := by
  unfold Tells
  cases r with
  | nil => rcases h with rfl | rfl <;> simp [predC, norm]
  | cons b r => rcases h with rfl | rfl <;> simp [predC, norm, Slices.lost, show K.within (K.total - (r.length + 1)) = true from hK]

theorem tells_lostSettings {n : Nat} (hK : K.within (K.total - (r.length - 2)) = true) :
    Tells K tr ⟨pk n 0, 0, 0, 0, .settingsId1⟩ r ([], .stop) := by
  match r with
  | [] => rfl
  | [_] => unfold Tells; simp [predC, Slices.lost, Slices.byte, norm, bstep, or16a]
  | a :: b :: r =>
    refine Tells.same (s := ⟨pk n 0, 0, ((0 : UInt16) ||| (a.toUInt16 <<< 8)) ||| b.toUInt16, 0, .settingsValue1⟩) (r := r)
      (tells_lost (.inr rfl) hK) ?_
    rw [predC_byte rfl rfl rfl, predC_byte rfl rfl rfl]
    simp

theorem tells_payload {n : Nat} {t f : UInt8} {c9 c11 : Bool} (hn : n < 2 ^ 24)
    (w9 : c9 = K.within (K.total - r.length)) (w11 : 2 ≤ r.length → c11 = K.within (K.total - (r.length - 2))) :
    Tells K tr ⟨pk n 0, 0, 0, 0, stOf t f⟩ r (if t.toNat = 4 ∧ c11 = true ∨ t.toNat = 7 ∧ c9 = true then ([], .stop)
      else readBody n t f r) := by
  have key : ∀ (t : UInt8) (n : Nat), t.toNat = n → t = UInt8.ofNat n := by
    rintro t n rfl; exact (UInt8.ofNat_toNat ..).symm
  have short : r.length < 2 → Tells K tr ⟨pk n 0, 0, 0, 0, .settingsId1⟩ r ([], .stop) := by
    intro hr
    match r with
    | [] => rfl
    | [_] => unfold Tells; simp [predC, Slices.lost, Slices.byte, norm, bstep, or16a]
    | _ :: _ :: _ => exact absurd hr (by simp)
  split
  · rename_i hc
    rcases hc with ⟨ht, hc⟩ | ⟨ht, hc⟩
    · have := key t 4 ht
      subst this
      by_cases hr : 2 ≤ r.length
      · exact tells_lostSettings ((w11 hr).symm.trans hc)
      · exact short (by omega)
    · have := key t 7 ht
      subst this
      exact tells_lost (.inl rfl) (w9.symm.trans hc)
  · rename_i hc
    rw [not_or] at hc
    by_cases hs : t = 4 ∧ r.length < 2
    · obtain ⟨rfl, hs⟩ := hs
      have e : readBody n 4 f r = ([], .stop) := by
        simp only [readBody, readField]
        rw [if_pos hs]
      rw [e]
      exact short hs
    · refine tells_body hn ?_ ?_
      · rintro rfl
        have : 2 ≤ r.length := by
          by_contra hlt
          exact hs ⟨rfl, by omega⟩
        rw [← w11 this]
        have := hc.1
        cases c11
        · rfl
        · exact absurd ⟨rfl, rfl⟩ this
      · rintro rfl
        show K.within (K.total - r.length) = false
        rw [← w9]
        have := hc.2
        cases c9
        · rfl
        · exact absurd ⟨rfl, rfl⟩ this

theorem tells_frame {marks : List Nat} {total : Nat} (hl : r.length ≤ total) :
    Tells ⟨marks.contains, total⟩ tr s0 r (readFrameC marks (total - r.length) r) := by
  match r with
  | [] => rfl
  | [_] => unfold Tells; simp [readFrameC, readField, predC, Slices.lost, Slices.byte, norm, bstep, or32a, bStart, s0]
  | [_, _] => unfold Tells; simp [readFrameC, readField, predC, Slices.lost, Slices.byte, norm, bstep, or32a, bStart, s0]
  | [_, _, _] => unfold Tells; simp [readFrameC, readField, predC, Slices.lost, Slices.byte, norm, bstep, or32a, bStart, s0]
  | [_, _, _, _] =>
    unfold Tells; simp [readFrameC, readField, predC, Slices.lost, Slices.byte, norm, bstep, or32a, bStart, s0]
  | [_, _, _, _, _] =>
    unfold Tells; simp [readFrameC, readField, predC, Slices.lost, Slices.byte, norm, bstep, or32a, bStart, s0]
  | [_, _, _, _, _, _] =>
    unfold Tells; simp [readFrameC, readField, predC, Slices.lost, Slices.byte, norm, bstep, or32a, or32b, bStart, s0]
  | [_, _, _, _, _, _, _] =>
    unfold Tells; simp [readFrameC, readField, predC, Slices.lost, Slices.byte, norm, bstep, or32a, or32b, bStart, s0]
  | [_, _, _, _, _, _, _, _] =>
    unfold Tells; simp [readFrameC, readField, predC, Slices.lost, Slices.byte, norm, bstep, or32a, or32b, bStart, s0]
  | l1 :: l2 :: l3 :: t :: f :: a :: b :: c :: d :: r =>
    obtain ⟨h1, h2⟩ := be_num3 l1 l2 l3
    obtain ⟨h3, h4⟩ := be_num4 a b c d
    have e : ∀ pos, readFrameC marks pos (l1 :: l2 :: l3 :: t :: f :: a :: b :: c :: d :: r) =
        tell [.frameFormat (UInt32.ofNat (num [l1, l2, l3])) t f
            (UInt32.ofNat (num [a, b, c, d] % if cutIn marks (pos + 5) then 2 ^ 16 else 2 ^ 31))]
          (if t.toNat = 4 ∧ cutIn marks (pos + 11) ∨ t.toNat = 7 ∧ cutIn marks (pos + 9) then ([], .stop)
            else readBody (num [l1, l2, l3]) t f r) := by
      intro pos
      unfold readFrameC readField
      rw [if_neg (by simp)]
      show (if r.length + 1 + 1 + 1 + 1 + 1 + 1 < 1 then _ else if r.length + 1 + 1 + 1 + 1 + 1 < 1 then _ else
        if r.length + 1 + 1 + 1 + 1 < 4 then _ else tell [.frameFormat _ (UInt8.ofNat (num [t])) (UInt8.ofNat (num [f])) _]
          (if num [t] = 4 ∧ _ ∨ num [t] = 7 ∧ _ then _ else
            readBody _ (UInt8.ofNat (num [t])) (UInt8.ofNat (num [f])) r)) = _
      rw [if_neg (by omega), if_neg (by omega), if_neg (by omega)]
      simp only [num1, UInt8.ofNat_toNat]
      rfl
    rw [e]
    simp only [List.length_cons] at hl ⊢
    have p5 : total - (r.length + 4) = total - (r.length + 1 + 1 + 1 + 1 + 1 + 1 + 1 + 1 + 1) + 5 := by omega
    have p9 : total - r.length = total - (r.length + 1 + 1 + 1 + 1 + 1 + 1 + 1 + 1 + 1) + 9 := by omega
    have p11 : 2 ≤ r.length → total - (r.length - 2) = total - (r.length + 1 + 1 + 1 + 1 + 1 + 1 + 1 + 1 + 1) + 11 := by omega
    generalize total - (r.length + 1 + 1 + 1 + 1 + 1 + 1 + 1 + 1 + 1) = pos at p5 p9 p11 ⊢
    have hh := predC_header (K := ⟨marks.contains, total⟩) (tr := tr) (t := t) (fl := f) h1 h3 s0 rfl r
    rw [h2, h4, show (⟨marks.contains, total⟩ : Slices).within (total - (r.length + 4)) = cutIn marks (pos + 5) by rw [p5]; rfl] at hh
    refine Tells.tell (s := ⟨pk (num [l1, l2, l3]) 0, 0, 0, 0, stOf t f⟩) ?_ hh
    exact tells_payload h1 (by rw [← p9]; rfl) fun h => by rw [← p11 h]; rfl

/-- If bytes are left, at most `n`. -/
def Rest (n : Nat) (t : Tale) : Prop := ∀ r, t.2 = .go r → r.length ≤ n

theorem Rest.none {n : Nat} {es : List Ev} : Rest n (es, .stop) ∧ Rest n (es, .panic) := ⟨nofun, nofun⟩

theorem Rest.field {n size : Nat} {F : Nat → Bytes → Tale} (hF : ∀ x u, u.length + size ≤ r.length → Rest n (F x u)) :
    Rest n (readField size r F) := by
  unfold readField
  split
  · exact Rest.none.1
  · exact hF _ _ (by rw [List.length_drop]; omega)

theorem Rest.fields {n size : Nat} {F : Nat → Bytes → Tale} (hr : r.length ≤ n) (hF : ∀ x u, u.length ≤ n → Rest n (F x u)) :
    Rest n (readField size r F) := Rest.field fun _ _ h => hF _ _ (by omega)

theorem Rest.pad {n k : Nat} {p : Bool} {F : Nat → Nat → Bytes → Tale} (hr : r.length ≤ n)
    (hF : ∀ x y u, u.length ≤ n → Rest n (F x y u)) : Rest n (readPad p k r F) := by
  unfold readPad
  split
  · refine Rest.fields hr fun x u hu => ?_
    split
    · exact Rest.none.2
    · exact hF _ _ _ hu
  · exact hF _ _ _ hr

theorem Rest.data {n k p : Nat} {d : Kind} (hr : r.length ≤ n) : Rest n (readData d k p r) := by
  unfold readData
  split
  · exact Rest.none.1
  split
  · exact Rest.none.2
  split
  · exact Rest.none.1
  · intro r' h
    cases h
    rw [List.length_drop]; omega

theorem Rest.tell {n : Nat} {es : List Ev} {t : Tale} (h : Rest n t) : Rest n (tell es t) := h

theorem Rest.one {n : Nat} {es : List Ev} (hr : r.length ≤ n) : Rest n (es, .go r) := by
  intro r' h; cases h; exact hr

theorem rest_body {n : Nat} {t fl : UInt8} : Rest r.length (readBody n t fl r) := by
  unfold readBody
  dsimp only
  have hr : r.length ≤ r.length := Nat.le_refl _
  split
  · exact .pad hr fun _ _ _ h => .data h
  · refine .pad hr fun _ _ _ h => ?_
    split
    · refine .fields h fun _ _ h => .fields h fun _ _ h => ?_
      split
      · exact Rest.none.2
      · exact .tell (.data h)
    · exact .tell (.data h)
  · exact .fields hr fun _ _ h => .fields h fun _ _ h => .one h
  · exact .fields hr fun _ _ h => .one h
  · exact .fields hr fun _ _ h => .fields h fun _ _ h => .one h
  · refine .pad hr fun _ _ _ h => .fields h fun _ _ h => ?_
    split
    · exact Rest.none.1
    split
    · exact Rest.none.2
    · exact .tell (.data h)
  · exact .data hr
  · refine .fields hr fun _ _ h => .fields h fun _ _ h => ?_
    split
    · exact Rest.none.2
    · refine .tell ?_
      split
      · exact .one h
      · exact .data h
  · exact .fields hr fun _ _ h => .one h
  · exact .data hr
  · exact .pad hr fun _ _ _ h => .data h

theorem rest_frame {marks : List Nat} {pos : Nat} : Rest (r.length - 1) (readFrameC marks pos r) := by
  unfold readFrameC
  refine .field fun _ u h => .field fun _ v h => .field fun _ w h => .field fun _ x h => ?_
  refine .tell ?_
  split
  · exact Rest.none.1
  · exact fun y hy => Nat.le_trans (rest_body y hy) (by omega)

theorem predC_any {marks : List Nat} {total : Nat} : ∀ (k : Nat) (r : Bytes) (tr : List Ev), r.length ≤ k →
    r.length ≤ total → predC ⟨marks.contains, total⟩ tr s0 r =
      (tr ++ (readFramesC marks k (total - r.length) r).1,
        if (readFramesC marks k (total - r.length) r).2 then .panic else .eos)
  | 0, r, tr, h, _ => by
    rw [List.eq_nil_of_length_eq_zero (Nat.le_zero.mp h)]
    rfl
  | k + 1, r, tr, h, hl => by
    have h1 : Tells ⟨marks.contains, total⟩ tr s0 r (readFrameC marks (total - r.length) r) := tells_frame hl
    have h2 : Rest (r.length - 1) (readFrameC marks (total - r.length) r) := rest_frame
    rw [readFramesC]
    generalize readFrameC marks (total - r.length) r = t at h1 h2
    obtain ⟨es, a⟩ := t
    unfold Tells at h1
    rw [h1]
    cases a with
    | stop => rfl
    | panic => rfl
    | go u =>
      simp only
      have hu := h2 u rfl
      rw [predC_any k u _ (by omega) (by omega), List.append_assoc]
      simp only [show total - r.length + (r.length - u.length) = total - u.length by omega]

theorem predC_told (marks : List Nat) (m : Bytes) : predC ⟨marks.contains, m.length⟩ [] s0 m =
    ((toldC marks m).1, if (toldC marks m).2 then .panic else .eos) := by
  have := predC_any (marks := marks) (total := m.length) m.length m [] (Nat.le_refl _) (Nat.le_refl _)
  rw [Nat.sub_self] at this
  exact this

theorem readFrameC_nil (pos : Nat) (r : Bytes) : readFrameC [] pos r = readFrame r := by
  simp [readFrameC, readFrame, cutIn]

theorem readFramesC_nil : ∀ (k pos : Nat) (r : Bytes), readFramesC [] k pos r = readFrames k r
  | 0, _, _ => rfl
  | k + 1, pos, r => by
    rw [readFramesC, readFrames, readFrameC_nil]
    cases h : readFrame r with
    | mk es a => cases a <;> simp [readFramesC_nil k]

theorem toldC_nil (m : Bytes) : toldC [] m = told m := readFramesC_nil ..

theorem pred_told (m : Bytes) : predNew m = ((told m).1, if (told m).2 then .panic else .eos) := by
  rw [← toldC_nil, ← predC_told]
  exact (predC_uncut (fun _ => rfl) _ _ _).symm

end Verif.Http2
