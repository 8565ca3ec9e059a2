import Mathlib.Tactic.SplitIfs
import Verif.Http2.Cuts
import Verif.Http2.FramingSpec

/-!
# The frames as everybody else finds them

Lemmas for C110.
-/

namespace Verif.Http2.Framing

/-- No frame header is told, and `n` bytes are read, if there are so many. -/
def Good (n : Nat) (r : Bytes) (t : Tale) : Prop :=
  (∀ e ∈ t.1, isFormat e = false) ∧ (t.2 = .go (r.drop n) ∨ t.2 = .stop ∧ r.length ≤ n)

theorem good_data {k : Kind} {n p : Nat} {r : Bytes} (h : p ≤ n) : Good n r (readData k n p r) := by
  unfold readData
  by_cases h1 : r = []
  · rw [if_pos h1, h1]; exact ⟨nofun, .inr ⟨rfl, Nat.zero_le _⟩⟩
  rw [if_neg h1, if_neg (by omega)]
  by_cases h2 : r.length < n - p
  · rw [if_pos h2]
    refine ⟨fun e he => ?_, .inr ⟨rfl, by omega⟩⟩
    obtain ⟨b, -, rfl⟩ := List.mem_map.1 he
    rfl
  · rw [if_neg h2]
    refine ⟨fun e he => ?_, .inl rfl⟩
    rcases List.mem_append.1 he with he | he
    · obtain ⟨b, -, rfl⟩ := List.mem_map.1 he
      rfl
    · rw [List.mem_singleton.1 he]; rfl

theorem good_field {size n : Nat} {r : Bytes} {k : Nat → Bytes → Tale} (hs : size ≤ n)
    (h : ∀ v, Good (n - size) (r.drop size) (k v (r.drop size))) : Good n r (readField size r k) := by
  unfold readField
  by_cases h1 : r.length < size
  · rw [if_pos h1]; exact ⟨nofun, .inr ⟨rfl, by omega⟩⟩
  · rw [if_neg h1]
    obtain ⟨h2, h3⟩ := h (num (r.take size))
    refine ⟨h2, ?_⟩
    rcases h3 with h3 | ⟨h3, h4⟩
    · rw [List.drop_drop, show size + (n - size) = n by omega] at h3
      exact .inl h3
    · rw [List.length_drop] at h4
      exact .inr ⟨h3, by omega⟩

theorem good_tell {n : Nat} {r : Bytes} {es : List Ev} {t : Tale} (he : ∀ e ∈ es, isFormat e = false) (h : Good n r t) :
    Good n r (tell es t) := by
  refine ⟨fun e h1 => ?_, h.2⟩
  rcases List.mem_append.1 h1 with h1 | h1
  · exact he e h1
  · exact h.1 e h1

theorem good_one {n : Nat} {r : Bytes} {e : Ev} (he : isFormat e = false) (hn : n = 0) : Good n r ([e], .go r) := by
  subst hn
  exact ⟨fun e' h => by rw [List.mem_singleton.1 h]; exact he, .inl rfl⟩

theorem good_pad {fl : UInt8} {n x : Nat} {r : Bytes} {k : Nat → Nat → Bytes → Tale} (hn : padding fl r + x ≤ n)
    (h : ∀ n p r, p + x ≤ n → Good n r (k n p r)) : Good n r (readPad ((fl &&& 0x8) == 0x8) n r k) := by
  unfold readPad
  unfold padding at hn
  by_cases hp : ((fl &&& 0x8) == 0x8) = true
  · rw [if_pos hp] at hn ⊢
    cases r with
    | nil => exact ⟨by simp [readField], .inr ⟨by simp [readField], by simp⟩⟩
    | cons b r =>
      have hb : num ((b :: r).take 1) = b.toNat := by simp [num]
      have := good_field (size := 1) (n := n) (r := b :: r)
        (k := fun p r => if n < 1 then ([], .panic) else k (n - 1) b.toNat r) (by omega) fun v => by
        rw [if_neg (by omega)]
        exact h _ _ _ (by simp at hn; omega)
      unfold readField at this ⊢
      rw [hb]
      exact this
  · rw [if_neg hp] at hn ⊢
    exact h _ _ _ hn

theorem good_body {n : Nat} {ty fl : UInt8} {r : Bytes} (h : Suits n ty fl r) : Good n r (readBody n ty fl r) := by
  unfold readBody
  dsimp only
  split
  · exact good_pad (x := 0) h fun _ _ _ hp => good_data hp
  · have h : padding fl r + (if (fl &&& 0x20) == 0x20 then 5 else 0) ≤ n := h
    refine good_pad h fun n p r hp => ?_
    by_cases hq : ((fl &&& 0x20) == 0x20) = true
    · rw [if_pos hq] at hp ⊢
      refine good_field (by omega) fun _ => good_field (by omega) fun _ => ?_
      rw [if_neg (by omega)]
      have := good_data (k := .headersFragment) (n := n - 5) (p := p) (r := (r.drop 4).drop 1) (by omega)
      exact good_tell (by simp [isFormat]) (by rw [show n - 4 - 1 = n - 5 by omega]; exact this)
    · rw [if_neg hq] at hp ⊢
      refine good_tell (fun e he => ?_) (good_data hp)
      split at he
      · rw [List.mem_singleton.1 he]; rfl
      · cases he
  · have h : n = 5 := h
    exact good_field (by omega) fun _ => good_field (by omega) fun _ => good_one rfl (by omega)
  · have h : n = 4 := h
    exact good_field (by omega) fun _ => good_one rfl (by omega)
  · have h : n = 6 := h
    exact good_field (by omega) fun _ => good_field (by omega) fun _ => good_one rfl (by omega)
  · have h : padding fl r + 4 ≤ n := h
    refine good_pad h fun n p r hp => good_field (by omega) fun _ => ?_
    by_cases hr : r.drop 4 = []
    · rw [if_pos hr, hr]
      exact ⟨nofun, .inr ⟨rfl, Nat.zero_le _⟩⟩
    · rw [if_neg hr, if_neg (by omega)]
      exact good_tell (by simp [isFormat]) (good_data (by omega))
  · exact good_data (Nat.zero_le _)
  · have h : 8 ≤ n := h
    refine good_field (by omega) fun _ => good_field (by omega) fun _ => ?_
    rw [if_neg (by omega)]
    refine good_tell (by simp [isFormat]) ?_
    rw [show n - 4 - 4 = n - 8 by omega]
    by_cases h8 : n = 8
    · rw [if_pos h8, h8]
      exact ⟨nofun, .inl rfl⟩
    · rw [if_neg h8]
      exact good_data (Nat.zero_le _)
  · have h : n = 4 := h
    exact good_field (by omega) fun _ => good_one rfl (by omega)
  · exact good_data (Nat.zero_le _)
  · rename_i h0 h1 h2 h3 h4 h5 h6 h7 h8 h9
    unfold Suits at h
    rw [if_neg h2, if_neg (by rintro (e | e); exacts [h3 e, h8 e]), if_neg h4, if_neg h7,
      if_neg (by rintro (e | e); exacts [h6 e, h9 e]), if_neg h1, if_neg h5] at h
    exact good_pad (x := 0) h fun _ _ _ hp => good_data hp

theorem frame_cons (a b c t f i j k l : UInt8) (r : Bytes) : readFrame (a :: b :: c :: t :: f :: i :: j :: k :: l :: r) =
    tell [.frameFormat (UInt32.ofNat (num [a, b, c])) t f (UInt32.ofNat (num [i, j, k, l] % 2 ^ 31))]
      (readBody (num [a, b, c]) t f r) := by
  have h3 : ¬ (r.length + 1 + 1 + 1 + 1 + 1 + 1 + 1 + 1 + 1 < 3) := by omega
  have h4 : ¬ (r.length + 1 + 1 + 1 + 1 < 4) := by omega
  simp [readFrame, readField, num, h3, h4]

theorem frame_short {m : Bytes} (h : m.length < 9) : readFrame m = ([], .stop) := by
  unfold readFrame readField
  simp only [List.length_drop]
  repeat' first | rfl | split
  all_goals omega

theorem frames_filter : ∀ (k : Nat) (m : Bytes), suitAll k m = true →
    (readFrames k m).2 = false ∧ (readFrames k m).1.filter isFormat = headersIn k m
  | 0, m, _ => ⟨rfl, by cases m <;> rfl⟩
  | n + 1, m, h => by
    rcases Nat.lt_or_ge m.length 9 with hm | hm
    · rw [readFrames, frame_short hm]
      refine ⟨rfl, ?_⟩
      rw [headersIn.eq_2]
      · rfl
      · rintro k a b c t f i j k' l r - rfl
        simp at hm
        omega
    · match m, hm, h with
      | a :: b :: c :: t :: f :: i :: j :: k :: l :: r, _, h =>
        obtain ⟨h1, h2⟩ := Bool.and_eq_true_iff.1 h
        have h1 := of_decide_eq_true h1
        obtain ⟨g1, g2⟩ := good_body h1
        have ih := frames_filter n _ h2
        rw [readFrames, frame_cons, headersIn]
        have e0 : (readBody (num [a, b, c]) t f r).1.filter isFormat = [] := by
          rw [List.filter_eq_nil_iff]
          intro e he
          rw [g1 e he]
          decide
        generalize readBody (num [a, b, c]) t f r = x at g1 g2 e0
        obtain ⟨es, y⟩ := x
        rcases g2 with g2 | ⟨g2, g3⟩
        · cases g2
          refine ⟨ih.1, ?_⟩
          change List.filter isFormat (_ :: es ++ _) = _
          rw [List.cons_append, List.filter_cons_of_pos rfl, List.filter_append, e0, ih.2]
          rfl
        · cases g2
          refine ⟨rfl, ?_⟩
          change List.filter isFormat (_ :: es) = _
          rw [List.filter_cons_of_pos rfl, e0, List.drop_eq_nil_of_le g3]
          cases n <;> rfl

theorem told_filter {m : Bytes} (h : FramesFit m) :
    (told m).2 = false ∧ (told m).1.filter isFormat = framesIn m := frames_filter _ _ h

theorem flat_filter : ∀ l : List Ev, (flat l).filter isFormat = l.filter isFormat
  | [] => rfl
  | e :: l => by
    have ih := flat_filter l
    rw [flat] at ih ⊢
    rw [List.flatMap_cons, List.filter_append, ih]
    cases e with
    | payload k d f =>
      rw [List.filter_cons_of_neg (by simp [isFormat])]
      suffices h : (flatEv (.payload k d f)).filter isFormat = [] by rw [h]; rfl
      rw [List.filter_eq_nil_iff]
      intro e he
      rcases List.mem_append.1 he with he | he
      · obtain ⟨b, -, rfl⟩ := List.mem_map.1 he
        simp [isFormat]
      · cases f with
        | false => cases he
        | true => rw [List.mem_singleton.1 he]; simp [isFormat]
    | frameFormat => rfl
    | _ => rfl

theorem same_filter {l k : List Ev} (h : List.Forall₂ (fun e' e : Ev => e' = e ∨ e' = e.halfId) l k) :
    List.Forall₂ (fun e' e : Ev => e' = e ∨ e' = e.halfId) (l.filter isFormat) (k.filter isFormat) := by
  induction h with
  | nil => exact .nil
  | @cons a b l k h1 h2 ih =>
    have hf : isFormat a = isFormat b := by
      rcases h1 with rfl | rfl
      · rfl
      · cases b <;> rfl
    cases hb : isFormat b with
    | true => rw [List.filter_cons_of_pos (hf.trans hb), List.filter_cons_of_pos hb]; exact .cons h1 ih
    | false =>
      rw [List.filter_cons_of_neg (by rw [hf, hb]; decide), List.filter_cons_of_neg (by rw [hb]; decide)]
      exact ih

end Verif.Http2.Framing
