import Verif.Http2.OrderSpec
import Verif.Http2.CutSpec
import Verif.Http2.Total
import Verif.Http2.CostSpec
import Mathlib.Tactic.SplitIfs

/-!
# Helper lemmas: the order of the callbacks in the description of all input
-/

namespace Verif.Http2

/-- Where we are after `l`, starting at `s`. -/
def walk (s : Spot) (l : List Ev) : Option Spot := l.foldlM Spot.next s

theorem walk_nil (s : Spot) : walk s [] = some s := rfl
theorem walk_cons (s : Spot) (e : Ev) (l : List Ev) : walk s (e :: l) = (s.next e).bind fun t => walk t l := rfl
theorem walk_append (s : Spot) (l m : List Ev) : walk s (l ++ m) = (walk s l).bind fun t => walk t m := by
  simp [walk, List.foldlM_append]

theorem next_payload {s t : Spot} {k : Kind} {d : Bytes} {fin : Bool} : s.next (.payload k d fin) = some t ↔
    (s.over = false ∧ s.due = false ∧ k = Spot.kind s.type ∧ d.length ≤ s.left ∧
      (fin = true → Spot.padded s.type s.flags = true ∨ d.length = s.left)) ∧
    t = { s with left := s.left - d.length, over := fin } := by
  rw [Spot.next]
  constructor
  · intro h
    by_cases hc : s.over = false ∧ s.due = false ∧ k = Spot.kind s.type ∧ d.length ≤ s.left ∧
      (fin = true → Spot.padded s.type s.flags = true ∨ d.length = s.left)
    · rw [if_pos hc] at h
      exact ⟨hc, (Option.some.inj h).symm⟩
    · rw [if_neg hc] at h; cases h
  · rintro ⟨hc, rfl⟩
    rw [if_pos hc]

/-- Data byte by byte. -/
theorem walk_bytes (k : Kind) : ∀ (d : Bytes) (s : Spot), s.over = false → s.due = false → k = Spot.kind s.type →
    d.length ≤ s.left → walk s (d.map fun b => .payload k [b] false) = some { s with left := s.left - d.length }
  | [], s, _, _, _, _ => by simp [walk_nil]
  | b :: d, s, h1, h2, h3, h4 => by
    simp only [List.length_cons] at h4
    have hn : s.next (.payload k [b] false) = some { s with left := s.left - [b].length, over := false } :=
      next_payload.2 ⟨⟨h1, h2, h3, by simp only [List.length_cons, List.length_nil]; omega, nofun⟩, rfl⟩
    rw [List.map_cons, walk_cons, hn, Option.bind_some]
    refine (walk_bytes k d { s with left := s.left - [b].length, over := false } rfl h2 h3
      (by simp only [List.length_cons, List.length_nil]; omega)).trans ?_
    obtain ⟨a, b, c, e, f⟩ := s
    simp only at h1 ⊢
    simp only [List.length_cons, List.length_nil, h1]
    congr 2
    omega

/-- Conversely. -/
theorem of_walk_bytes (k : Kind) : ∀ (d : Bytes) (s t : Spot), d ≠ [] →
    walk s (d.map fun b => .payload k [b] false) = some t →
    s.over = false ∧ s.due = false ∧ k = Spot.kind s.type ∧ d.length ≤ s.left ∧ t = { s with left := s.left - d.length }
  | [], _, _, h, _ => absurd rfl h
  | b :: d, s, t, _, h => by
    rw [List.map_cons, walk_cons] at h
    cases hn : s.next (.payload k [b] false) with
    | none => rw [hn] at h; cases h
    | some u =>
      rw [hn, Option.bind_some] at h
      obtain ⟨⟨h1, h2, h3, h4, -⟩, rfl⟩ := next_payload.1 hn
      by_cases hd : d = []
      · subst hd
        rw [List.map_nil, walk_nil, Option.some.injEq] at h
        refine ⟨h1, h2, h3, h4, ?_⟩
        rw [← h]
        obtain ⟨a, b, c, e, f⟩ := s
        simp_all
      · obtain ⟨-, -, -, g4, g5⟩ := of_walk_bytes k d _ t hd h
        simp only [List.length_cons, List.length_nil] at h4 g4 g5 ⊢
        refine ⟨h1, h2, h3, by omega, ?_⟩
        rw [g5, h1]
        congr 1
        omega

/-- The order is the same for data in pieces and byte by byte. -/
theorem next_of_flatEv {e : Ev} (he : Good e) {s t : Spot} (h : walk s (flatEv e) = some t) : s.next e = some t := by
  have one : ∀ e, walk s [e] = some t → s.next e = some t := by
    intro e h
    rw [walk_cons] at h
    cases hn : s.next e <;> rw [hn] at h
    · cases h
    · simpa [walk_nil] using h
  cases e with
  | payload k d f =>
    simp only [flatEv] at h
    cases f with
    | false =>
      have hd : d ≠ [] := he rfl
      simp only [Bool.false_eq_true, if_false, List.append_nil] at h
      obtain ⟨h1, h2, h3, h4, rfl⟩ := of_walk_bytes k d s t hd h
      refine next_payload.2 ⟨⟨h1, h2, h3, h4, nofun⟩, ?_⟩
      obtain ⟨a, b, c, e, f⟩ := s
      simp_all
    | true =>
      simp only [if_true] at h
      by_cases hd : d = []
      · subst hd
        exact one _ h
      · rw [walk_append] at h
        cases hw : walk s (d.map fun b => .payload k [b] false) with
        | none => rw [hw] at h; cases h
        | some u =>
          rw [hw, Option.bind_some] at h
          obtain ⟨h1, h2, h3, h4, rfl⟩ := of_walk_bytes k d s u hd hw
          rw [walk_cons] at h
          cases hn : Spot.next { s with left := s.left - d.length } (.payload k [] true) with
          | none => rw [hn] at h; cases h
          | some v =>
            rw [hn, Option.bind_some, walk_nil, Option.some.injEq] at h
            obtain ⟨⟨-, -, -, -, g⟩, rfl⟩ := next_payload.1 hn
            rw [← h]
            refine next_payload.2 ⟨⟨h1, h2, h3, h4, fun _ => (g rfl).imp id fun g => ?_⟩, by simp⟩
            simp only [List.length_nil] at g
            omega
  | _ => exact one _ h

theorem walk_of_flat : ∀ (l : List Ev) (s t : Spot), GoodLog l → walk s (flat l) = some t → walk s l = some t
  | [], _, _, _, h => h
  | e :: l, s, t, hg, h => by
    rw [flat, List.flatMap_cons, walk_append] at h
    cases hw : walk s (flatEv e) with
    | none => rw [hw] at h; cases h
    | some u =>
      rw [hw, Option.bind_some] at h
      rw [walk_cons, next_of_flatEv (hg e (by simp)) hw, Option.bind_some]
      exact walk_of_flat l u t (fun x hx => hg x (by simp [hx])) h

/-- `t` is in order after `s`; if it ends, the frame is over. -/
def InOrder (s : Spot) (t : Tale) : Prop := ∃ u, walk s t.1 = some u ∧ ((∃ r, t.2 = .go r) → u.over = true)

variable {s u : Spot} {t : Tale} {n : Nat} {r : Bytes}

theorem o_stop : InOrder s ([], .stop) := ⟨s, rfl, nofun⟩
theorem o_panic : InOrder s ([], .panic) := ⟨s, rfl, nofun⟩

theorem o_tell {es : List Ev} (h : walk s es = some u) (ht : InOrder u t) : InOrder s (tell es t) := by
  obtain ⟨v, h1, h2⟩ := ht
  exact ⟨v, by simp only [tell, walk_append, h, Option.bind_some, h1], h2⟩

theorem o_field {size : Nat} {k : Nat → Bytes → Tale} (h : ∀ v s', InOrder s (k v s')) :
    InOrder s (readField size r k) := by
  unfold readField
  split_ifs
  · exact o_stop
  · exact h _ _

theorem o_pad {padded : Bool} {k : Nat → Nat → Bytes → Tale} (h1 : padded = true → 1 ≤ n → ∀ p r, InOrder s (k (n - 1) p r))
    (h2 : padded = false → InOrder s (k n 0 r)) : InOrder s (readPad padded n r k) := by
  unfold readPad
  cases padded with
  | true =>
    rw [if_pos rfl]
    refine o_field fun v s' => ?_
    split_ifs
    · exact o_panic
    · exact h1 rfl (by omega) _ _
  | false => exact h2 rfl

theorem o_data {k : Kind} {p : Nat} (h1 : s.over = false) (h2 : s.due = false) (h3 : k = Spot.kind s.type)
    (h4 : s.left = n) (h5 : p = 0 ∨ Spot.padded s.type s.flags = true) : InOrder s (readData k n p r) := by
  unfold readData
  split_ifs with ha hb hc
  · exact o_stop
  · exact o_panic
  · exact ⟨_, walk_bytes k r s h1 h2 h3 (by omega), nofun⟩
  · have hn : Spot.next { s with left := s.left - (r.take (n - p)).length } (.payload k [] true) =
        some { s with left := s.left - (r.take (n - p)).length, over := true } := by
      refine next_payload.2 ⟨⟨h1, h2, h3, Nat.zero_le _, fun _ => ?_⟩, rfl⟩
      rcases h5 with rfl | h5
      · right
        simp only [List.length_nil, List.length_take]
        omega
      · exact .inl h5
    refine ⟨_, by
      rw [walk_append, walk_bytes k _ s h1 h2 h3 (by rw [List.length_take]; omega), Option.bind_some, walk_cons, hn,
        Option.bind_some, walk_nil], fun _ => rfl⟩

theorem o_fields {e : Ev} {t : UInt8} {k : Tale} (he : s.next e = s.fields t) (h1 : s.over = false)
    (h2 : s.due = true) (h3 : s.type = t)
    (hk : InOrder { s with due := false, over := t == 2 || t == 3 || t == 4 || t == 8 || (t == 7 && s.left == 0) } k) :
    InOrder s (tell [e] k) :=
  o_tell (by rw [walk_cons, he, Spot.fields, if_pos ⟨h1, h2, h3⟩, Option.bind_some, walk_nil]) hk

/-- The last callback of a frame. -/
theorem o_last {e : Ev} {t : UInt8} (he : s.next e = s.fields t) (h1 : s.over = false) (h2 : s.due = true)
    (h3 : s.type = t) (ht : (t == 2 || t == 3 || t == 4 || t == 8) = true) : InOrder s ([e], .go r) :=
  ⟨_, by rw [walk_cons, he, Spot.fields, if_pos ⟨h1, h2, h3⟩, Option.bind_some, walk_nil], fun _ => by simp [ht]⟩

theorem padded1 (fl : UInt8) : Spot.padded 1 fl = (fl &&& 0x8 == 0x8) := rfl
theorem padded5 (fl : UInt8) : Spot.padded 5 fl = (fl &&& 0x8 == 0x8) := rfl
theorem padded7 (fl : UInt8) : Spot.padded 7 fl = false := rfl
theorem padded_other {ty : UInt8} (fl : UInt8) (h : 9 < ty) : Spot.padded ty fl = (fl &&& 0x8 == 0x8) := by
  simp [Spot.padded, h]

theorem o_body (ty fl : UInt8) : InOrder (Spot.enter n ty fl) (readBody n ty fl r) := by
  unfold readBody
  dsimp only
  split
  · exact o_pad (fun hp h1 p r => o_data rfl rfl rfl (by simp [Spot.enter, Spot.overhead, Spot.padded, hp]) (.inr hp))
      fun hp => o_data rfl rfl rfl (by simp [Spot.enter, Spot.overhead, Spot.padded, hp]) (.inl rfl)
  · have key : ∀ (m p : Nat) (q : Bytes), m = n - (if (fl &&& 0x8 == 0x8) = true then 1 else 0) →
        (p = 0 ∨ (fl &&& 0x8 == 0x8) = true) → InOrder (Spot.enter n 1 fl)
        (if (fl &&& 0x20 == 0x20) = true then
          readField 4 q fun d r => readField 1 r fun w r =>
          if m < 5 then ([], .panic)
          else tell [.headers (2 ^ 31 ≤ d) (UInt32.ofNat (d % 2 ^ 31)) (UInt8.ofNat w)]
            (readData .headersFragment (m - 5) p r)
        else tell (if (fl &&& 0x8 == 0x8) = true then [.headers false 0 0] else []) (readData .headersFragment m p q)) := by
      intro m p q hm hp
      by_cases hq : (fl &&& 0x20 == 0x20) = true
      · rw [if_pos hq]
        refine o_field fun d _ => o_field fun w r => ?_
        by_cases h5 : m < 5
        · rw [if_pos h5]; exact o_panic
        · rw [if_neg h5]
          refine o_fields (t := 1) (if_pos (.inl hq)) rfl (by simp [Spot.enter, Spot.hasFields, Spot.prio, hq]) rfl ?_
          refine o_data rfl rfl rfl ?_ hp
          cases hd : (fl &&& 0x8 == 0x8) <;>
            simp only [Spot.enter, Spot.overhead, Spot.prio, padded1, hq, hd, if_true, hm, Bool.false_eq_true, if_false] <;>
            omega
      · rw [if_neg hq]
        by_cases hd : (fl &&& 0x8 == 0x8) = true
        · rw [if_pos hd]
          refine o_fields (t := 1) (if_pos (.inr rfl)) rfl (by simp [Spot.enter, Spot.hasFields, Spot.padded, hd]) rfl ?_
          refine o_data rfl rfl rfl ?_ hp
          simp only [Spot.enter, Spot.overhead, Spot.prio, Spot.padded, hq, hd, if_true, hm]
          simp
        · rw [if_neg hd]
          refine o_tell (u := Spot.enter n 1 fl) rfl ?_
          refine o_data rfl ?_ rfl ?_ hp
          · simp [Spot.enter, Spot.hasFields, Spot.padded, Spot.prio, hd, hq]
          · simp only [Spot.enter, Spot.overhead, Spot.prio, Spot.padded, hq, hd, if_true, hm]
            simp
    refine o_pad (fun hp h1 p r => key _ _ _ ?_ (.inr hp)) fun hp => key _ _ _ ?_ (.inl rfl)
    · rw [if_pos hp]
    · rw [if_neg (by rw [hp]; nofun)]; rfl
  · exact o_field fun _ _ => o_field fun _ _ => o_last (t := 2) rfl rfl rfl rfl rfl
  · exact o_field fun _ _ => o_last (t := 3) rfl rfl rfl rfl rfl
  · exact o_field fun _ _ => o_field fun _ _ => o_last (t := 4) rfl rfl rfl rfl rfl
  · have key : ∀ (m p : Nat) (q : Bytes), m = n - (if (fl &&& 0x8 == 0x8) = true then 1 else 0) →
        (p = 0 ∨ (fl &&& 0x8 == 0x8) = true) → InOrder (Spot.enter n 5 fl)
        (readField 4 q fun s r =>
          if r = [] then ([], .stop)
          else if m < 4 then ([], .panic)
          else tell [.pushPromise (UInt32.ofNat s)] (readData .headersFragment (m - 4) p r)) := by
      intro m p q hm hp
      refine o_field fun d r => ?_
      by_cases hr : r = []
      · rw [if_pos hr]; exact o_stop
      · rw [if_neg hr]
        by_cases h5 : m < 4
        · rw [if_pos h5]; exact o_panic
        · rw [if_neg h5]
          refine o_fields (t := 5) rfl rfl rfl rfl ?_
          refine o_data rfl rfl rfl ?_ hp
          cases hd : (fl &&& 0x8 == 0x8) <;>
            simp only [Spot.enter, Spot.overhead, padded5, hd, hm, if_true, Bool.false_eq_true, if_false,
              show (5 : UInt8) ≠ 1 by decide] <;> omega
    refine o_pad (fun hp h1 p r => key _ _ _ ?_ (.inr hp)) fun hp => key _ _ _ ?_ (.inl rfl)
    · rw [if_pos hp]
    · rw [if_neg (by rw [hp]; nofun)]; rfl
  · exact o_data rfl rfl rfl rfl (.inl rfl)
  · refine o_field fun l _ => o_field fun c r => ?_
    by_cases h8 : n < 8
    · rw [if_pos h8]; exact o_panic
    · rw [if_neg h8]
      refine o_fields (t := 7) rfl rfl rfl rfl ?_
      by_cases hn : n = 8
      · subst hn
        rw [if_pos rfl]
        exact ⟨_, rfl, fun _ => rfl⟩
      · rw [if_neg hn]
        refine o_data ?_ rfl rfl rfl (.inl rfl)
        have : n - 8 ≠ 0 := by omega
        simpa [Spot.enter, Spot.overhead, padded7] using this
  · exact o_field fun _ _ => o_last (t := 8) rfl rfl rfl rfl rfl
  · exact o_data rfl rfl rfl rfl (.inl rfl)
  · rename_i h0 h1 h2 h3 h4 h5 h6 h7 h8 h9
    have hty : 9 < ty := by
      have : ∀ ty : UInt8, ¬ty = 0 → ¬ty = 1 → ¬ty = 2 → ¬ty = 3 → ¬ty = 4 → ¬ty = 5 → ¬ty = 6 → ¬ty = 7 → ¬ty = 8 →
          ¬ty = 9 → 9 < ty := by
        intro ty
        simp only [← UInt8.toNat_inj, UInt8.lt_iff_toNat_lt, UInt8.reduceToNat]
        omega
      exact this ty h0 h1 h2 h3 h4 h5 h6 h7 h8 h9
    have hk : Kind.unsupported = Spot.kind ty := by simp_all [Spot.kind]
    have hd : (Spot.enter n ty fl).due = false := by simp_all [Spot.enter, Spot.hasFields]
    have hl : (Spot.enter n ty fl).left = n - (if (fl &&& 0x8 == 0x8) = true then 1 else 0) := by
      simp_all [Spot.enter, Spot.overhead, padded_other]
    refine o_pad (fun hp h1 p r => o_data rfl hd hk ?_ (.inr ((padded_other fl hty).trans hp))) fun hp => o_data rfl hd hk ?_ (.inl rfl)
    · rw [hl, if_pos hp]
    · rw [hl, if_neg (by rw [hp]; nofun)]; rfl

theorem o_frame {marks : List Nat} {pos : Nat} (h : s.over = true) : InOrder s (readFrameC marks pos r) := by
  unfold readFrameC
  have hk : ∀ k : Nat → Bytes → Tale, readField 3 r k = if r.length < 3 then ([], .stop) else k (num (r.take 3)) (r.drop 3) :=
    fun _ => rfl
  rw [hk]
  by_cases h3 : r.length < 3
  · rw [if_pos h3]; exact o_stop
  rw [if_neg h3]
  have hn : (UInt32.ofNat (num (r.take 3))).toNat = num (r.take 3) := by
    have : num (r.take 3) < 2 ^ 24 := by
      match r, h3 with
      | a :: b :: c :: r, _ =>
        have ha := a.toNat_lt
        have hb := b.toNat_lt
        have hc := c.toNat_lt
        simp only [num, List.take_succ_cons, List.take_zero, List.foldl_cons, List.foldl_nil]
        omega
      | [], h | [_], h | [_, _], h => exact absurd (by simp) h
    rw [UInt32.toNat_ofNat', Nat.mod_eq_of_lt (by omega)]
  refine o_field fun t _ => o_field fun f _ => o_field fun id _ => ?_
  refine o_tell (u := Spot.enter (num (r.take 3)) (UInt8.ofNat t) (UInt8.ofNat f)) ?_ ?_
  · rw [walk_cons, Spot.next, if_pos h, hn]; rfl
  · split_ifs
    · exact o_stop
    · exact o_body _ _

theorem o_frames {marks : List Nat} : ∀ (k pos : Nat) (m : Bytes) (s : Spot), s.over = true →
    ∃ u, walk s (readFramesC marks k pos m).1 = some u
  | 0, _, _, s, _ => ⟨s, rfl⟩
  | k + 1, pos, m, s, h => by
    obtain ⟨u, h1, h2⟩ := o_frame (marks := marks) (pos := pos) (r := m) h
    rw [readFramesC]
    generalize readFrameC marks pos m = t at h1 h2
    obtain ⟨es, a⟩ := t
    cases a with
    | stop => exact ⟨u, h1⟩
    | panic => exact ⟨u, h1⟩
    | go r =>
      obtain ⟨v, h3⟩ := o_frames k (pos + (m.length - r.length)) r u (h2 ⟨r, rfl⟩)
      exact ⟨v, by simp only [walk_append]; rw [h1, Option.bind_some, h3]⟩

/-- A beginning of an accepted history is accepted. -/
theorem walk_prefix {l x : List Ev} (h : walk s (l ++ x) = some u) : ∃ v, walk s l = some v := by
  rw [walk_append] at h
  cases hw : walk s l with
  | none => rw [hw] at h; cases h
  | some v => exact ⟨v, rfl⟩

/-- Within a frame the payload is no longer than what is left of it. -/
theorem walk_left : ∀ (l : List Ev) (s u : Spot), frames l = 0 → walk s l = some u → handed l + u.left ≤ s.left
  | [], s, u, _, h => by
    cases h
    simp [handed]
  | e :: l, s, u, hf, h => by
    rw [walk_cons] at h
    cases hn : s.next e with
    | none => rw [hn] at h; cases h
    | some v =>
      rw [hn, Option.bind_some] at h
      have hs : handed (e :: l) = e.size + handed l := by simp [handed]
      have hc : frames (e :: l) = frames l + if e.isFrame = true then 1 else 0 := by simp [frames, List.countP_cons]
      have key : e.size + v.left ≤ s.left := by
        have hfl : ∀ t, s.fields t = some v → v.left = s.left := by
          intro t h
          unfold Spot.fields at h
          split_ifs at h
          cases h; rfl
        cases e with
        | frameFormat => simp [Ev.isFrame] at hc; omega
        | headers =>
          rw [Spot.next] at hn
          split_ifs at hn
          simp only [Ev.size, hfl _ hn]; omega
        | payload k d fin =>
          obtain ⟨⟨-, -, -, h4, -⟩, rfl⟩ := next_payload.1 hn
          simp only [Ev.size]
          omega
        | _ => simp only [Ev.size, hfl _ hn]; omega
      have := walk_left l v u (by omega) h
      omega

end Verif.Http2
