import Verif.Http2.ReleaseFrame

/-!
# The two descriptions compared (helper lemmas)
-/

namespace Verif.Http2


namespace Release

variable {r : Bytes}

/-- The end of the bytes, without another frame. -/
def Swallows (t : Tale) : Prop := t.2 = none ∧ ∀ e ∈ t.1, e.inside = true

/-- The description without overflow checks follows the other one. -/
def Follows (t : Http2.Tale) (t' : Tale) : Prop :=
  match t.2 with
  | .stop => t' = (t.1, none)
  | .go r => t' = (t.1, some r)
  | .panic => t'.2 = none ∧ ∃ es, t'.1 = t.1 ++ es ∧ ∀ e ∈ es, e.inside = true

theorem Swallows.none : Swallows ([], none) := ⟨rfl, nofun⟩

theorem Swallows.tell {es : List Ev} {t : Tale} (he : ∀ e ∈ es, e.inside = true) (ht : Swallows t) :
    Swallows (tell es t) := by
  refine ⟨ht.1, ?_⟩
  simp only [Release.tell, List.mem_append]
  rintro e (h | h)
  · exact he e h
  · exact ht.2 e h

theorem Swallows.follows {t : Tale} (ht : Swallows t) : Follows ([], .panic) t :=
  ⟨ht.1, t.1, rfl, ht.2⟩

theorem Follows.tell {es : List Ev} {t : Http2.Tale} {t' : Tale} (h : Follows t t') :
    Follows (Http2.tell es t) (tell es t') := by
  unfold Follows Http2.tell Release.tell at *
  cases ht : t.2 with
  | stop => rw [ht] at h; simp only at h ⊢; rw [h]
  | go r => rw [ht] at h; simp only at h ⊢; rw [h]
  | panic =>
    rw [ht] at h
    simp only at h ⊢
    obtain ⟨h1, fs, h2, h3⟩ := h
    exact ⟨h1, fs, by rw [h2, List.append_assoc], h3⟩

theorem Swallows.field {size : Nat} {F : Nat → Bytes → Tale} (hF : ∀ n r', r'.length ≤ r.length → Swallows (F n r')) :
    Swallows (readField size r F) := by
  unfold readField
  split
  · exact .none
  · exact hF _ _ (by rw [List.length_drop]; omega)

theorem Follows.field {size : Nat} {F : Nat → Bytes → Http2.Tale} {F' : Nat → Bytes → Tale}
    (hF : ∀ n r', r'.length ≤ r.length → Follows (F n r') (F' n r')) :
    Follows (Http2.readField size r F) (readField size r F') := by
  unfold Http2.readField readField
  split
  · rfl
  · exact hF _ _ (by rw [List.length_drop]; omega)

theorem num_one {b : UInt8} : num [b] < 256 := by
  have := b.toNat_lt
  simp [num]; omega

theorem Follows.pad {b : Bool} {n : Nat} {F : Nat → Nat → Bytes → Http2.Tale} {F' : Nat → Nat → Bytes → Tale}
    (hF : ∀ n q r', r'.length ≤ r.length → q < 256 → Follows (F n q r') (F' n q r'))
    (hS : ∀ q r', r'.length ≤ r.length → q < 256 → Swallows (F' (2 ^ 24 - 1) q r')) :
    Follows (Http2.readPad b n r F) (readPad b n r F') := by
  unfold Http2.readPad readPad
  split
  · unfold Http2.readField readField
    split
    · rfl
    · cases r with
      | nil => rename_i hl; exact absurd (by simp) hl
      | cons c r =>
        have hq : num ((c :: r).take 1) < 256 := num_one
        simp only
        generalize num ((c :: r).take 1) = q at hq
        have hl : ((c :: r).drop 1).length ≤ (c :: r).length := by simp
        split
        · rename_i hn
          have : minus n 1 = 2 ^ 24 - 1 := by unfold minus; rw [if_neg (by omega)]; omega
          rw [this]
          exact (hS q _ hl hq).follows
        · rename_i hn
          have : minus n 1 = n - 1 := by unfold minus; rw [if_pos (by omega)]
          rw [this]
          exact hF (n - 1) q _ hl hq
  · exact hF n 0 r (Nat.le_refl _) (by decide)

theorem minus_below {n k : Nat} (h : n < k) : minus n k = 2 ^ 24 + n - k := by
  unfold minus; rw [if_neg (by omega)]

theorem minus_ge {n k : Nat} (h : k ≤ n) : minus n k = n - k := by
  unfold minus; rw [if_pos h]

theorem swallows_data {k : Kind} {n q : Nat} (h : r.length < if q ≤ n then n - q else 2 ^ 32 + n - q) :
    Swallows (readData k n q r) := by
  by_cases hn : r = []
  · simp only [readData, if_pos hn]; exact .none
  · simp only [readData, if_neg hn, if_pos h]
    refine ⟨rfl, ?_⟩
    simp only [List.mem_map]
    rintro e ⟨b, -, rfl⟩
    rfl

theorem follows_data {k : Kind} {n q : Nat} (hr : r.length < 2 ^ 24) (hq : q < 256) :
    Follows (Http2.readData k n q r) (readData k n q r) := by
  unfold Http2.readData
  split
  · rename_i h; subst h; rfl
  · split
    · exact (swallows_data (by rw [if_neg (by omega)]; omega)).follows
    · rename_i h0 hn
      have hqn : q ≤ n := by omega
      simp only [readData, if_neg h0, if_pos hqn]
      by_cases hl : r.length < n - q
      · simp only [if_pos hl]; rfl
      · simp only [if_neg hl]
        unfold Follows
        simp only
        rw [show n - q + q = n by omega]

theorem follows_short {k : Kind} {n q j : Nat} {e : Ev} (hr : r.length < 2 ^ 24 - 264) (hq : q < 256)
    (hj : j ≤ 8) (he : e.inside = true) :
    Follows (if n < j then ([], .panic) else Http2.tell [e] (Http2.readData k (n - j) q r))
      (tell [e] (readData k (minus n j) q r)) := by
  split
  · rename_i hn
    rw [minus_below hn]
    refine (Swallows.tell (by simpa using he) (swallows_data ?_)).follows
    split <;> omega
  · rename_i hn
    rw [minus_ge (by omega)]
    exact .tell (follows_data (by omega) hq)

theorem swallows_wrap {k : Kind} {q j : Nat} (hr : r.length < 2 ^ 24 - 264) (hq : q < 256) (hj : j ≤ 8) :
    Swallows (readData k (minus (2 ^ 24 - 1) j) q r) := by
  rw [minus_ge (by omega)]
  apply swallows_data
  split <;> omega

theorem follows_body {n : Nat} {t fl : UInt8} (hr : r.length < 2 ^ 24 - 264) :
    Follows (Http2.readBody n t fl r) (readBody n t fl r) := by
  have w0 : ∀ {k : Kind} {q : Nat} {r : Bytes}, r.length < 2 ^ 24 - 264 → q < 256 →
      Swallows (readData k (2 ^ 24 - 1) q r) := fun h1 h2 => swallows_wrap (j := 0) h1 h2 (by decide)
  unfold Http2.readBody readBody
  dsimp only
  split
  · exact .pad (fun _ _ _ h hq => follows_data (by omega) hq) fun _ _ h hq => w0 (by omega) hq
  · refine .pad (fun _ _ _ h hq => ?_) fun _ _ h hq => ?_
    · split
      · refine .field fun _ _ h' => .field fun _ _ h'' => ?_
        exact follows_short (by omega) hq (by decide) rfl
      · exact .tell (follows_data (by omega) hq)
    · split
      · exact .field fun _ _ h' => .field fun _ _ h'' => .tell (by simp [Ev.inside]) (swallows_wrap (by omega) hq (by decide))
      · refine .tell ?_ (w0 (by omega) hq)
        split <;> simp [Ev.inside]
  · exact .field fun _ _ h => .field fun _ _ h' => rfl
  · exact .field fun _ _ h => rfl
  · exact .field fun _ _ h => .field fun _ _ h' => rfl
  · refine .pad (fun _ _ _ h hq => .field fun _ _ h' => ?_) fun _ _ h hq => .field fun _ _ h' => ?_
    · split
      · rfl
      · exact follows_short (by omega) hq (by decide) rfl
    · split
      · exact .none
      · exact .tell (by simp [Ev.inside]) (swallows_wrap (by omega) hq (by decide))
  · exact follows_data (by omega) (by decide)
  · refine .field fun _ _ h => .field fun _ r' h' => ?_
    split
    · rename_i hn
      rw [if_neg (by omega), minus_below hn]
      refine (Swallows.tell (by simp [Ev.inside]) (swallows_data ?_)).follows
      split <;> omega
    · refine .tell ?_
      split
      · rfl
      · rw [minus_ge (by omega)]
        exact follows_data (by omega) (by decide)
  · exact .field fun _ _ h => rfl
  · exact follows_data (by omega) (by decide)
  · split <;> try contradiction
    refine .pad (r := r) (fun _ _ _ h hq => ?_) fun _ _ h hq => ?_
    · exact follows_data (by omega) hq
    · exact w0 (by omega) hq

theorem follows_frame (hr : r.length < 2 ^ 24 - 264) : Follows (Http2.readFrame r) (readFrame r) := by
  unfold Http2.readFrame readFrame
  refine .field (r := r) fun _ _ h1 => .field fun _ _ h2 => .field fun _ _ h3 => .field fun _ _ h4 => .tell ?_
  exact follows_body (by omega)

theorem follows_frames : ∀ (k : Nat) (m : Bytes), m.length < 2 ^ 24 - 264 →
    ∃ es, readFrames k m = (Http2.readFrames k m).1 ++ es ∧ (∀ e ∈ es, e.inside = true) ∧
      ((Http2.readFrames k m).2 = false → es = [])
  | 0, m, _ => ⟨[], rfl, nofun, fun _ => rfl⟩
  | k + 1, m, hm => by
    have hf := follows_frame hm
    have hl := leaves_frame (r := m)
    unfold readFrames Http2.readFrames
    generalize readFrame m = t' at hf hl
    generalize Http2.readFrame m = t at hf
    obtain ⟨es, a⟩ := t
    cases a with
    | stop =>
      obtain rfl : t' = (es, none) := hf
      exact ⟨[], by simp, nofun, fun _ => rfl⟩
    | go r =>
      obtain rfl : t' = (es, some r) := hf
      have := hl r rfl
      obtain ⟨fs, h1, h2, h3⟩ := follows_frames k r (by omega)
      exact ⟨fs, by simp only [h1, List.append_assoc], h2, h3⟩
    | panic =>
      obtain ⟨h1, fs, h2, h3⟩ := hf
      obtain ⟨es', a'⟩ := t'
      simp only at h1 h2
      subst h1 h2
      exact ⟨fs, rfl, h3, nofun⟩

end Release
end Verif.Http2
