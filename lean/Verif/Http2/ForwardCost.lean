import Verif.Http2.ForwardFrames
import Verif.Http2.Cost

/-!
# Lemmas: how long the frames are that were written

Used by C104. The pad length is counted with the end of the payload.
-/

namespace Verif.Http2

/-- What a callback stands for: `c` bytes for the pad length, and a priority if there is one. -/
def szEv (c : Nat) (pr : Bool) : Ev → Nat
  | .payload _ d f => d.length + if f then c else 0
  | .frameFormat .. => 9
  | .headers .. => if pr then 5 else 0
  | .priority .. => 5
  | .rstStream _ => 4
  | .settings .. => 6
  | .pushPromise _ => 4
  | .goAway .. => 8
  | .windowUpdate _ => 4

/-- The callbacks of one frame. -/
def sz (c : Nat) (pr : Bool) (l : List Ev) : Nat := (l.map (szEv c pr)).sum

/-- The length of the pad length. -/
def padOf (t f : UInt8) : Nat := if Spot.padded t f then 1 else 0

/-- The callbacks of several frames. -/
def szL (c : Nat) (pr : Bool) : List Ev → Nat
  | [] => 0
  | .frameFormat _ t f _ :: l => 9 + szL (padOf t f) (Spot.prio f) l
  | e :: l => szEv c pr e + szL c pr l

variable {c : Nat} {pr : Bool}

theorem sz_nil : sz c pr [] = 0 := rfl
theorem sz_cons (e : Ev) (l : List Ev) : sz c pr (e :: l) = szEv c pr e + sz c pr l := by simp [sz]
theorem sz_append (l m : List Ev) : sz c pr (l ++ m) = sz c pr l + sz c pr m := by simp [sz]

theorem szL_frame (n : UInt32) (t f : UInt8) (id : UInt32) (l : List Ev) :
    szL c pr (.frameFormat n t f id :: l) = 9 + szL (padOf t f) (Spot.prio f) l := rfl
theorem szL_cons (e : Ev) (l : List Ev) (he : e.isFrame = false) : szL c pr (e :: l) = szEv c pr e + szL c pr l := by
  cases e with
  | frameFormat => cases he
  | _ => rfl

theorem szL_body : ∀ (es l : List Ev), (∀ e ∈ es, e.isFrame = false) → szL c pr (es ++ l) = sz c pr es + szL c pr l
  | [], l, _ => by simp [sz_nil]
  | e :: es, l, h => by
    rw [List.cons_append, szL_cons _ _ (h e (by simp)), szL_body es l fun x hx => h x (by simp [hx]), sz_cons]; omega

theorem sz_map (k : Kind) : ∀ d : Bytes, sz c pr (d.map fun x => .payload k [x] false) = d.length
  | [] => rfl
  | x :: d => by rw [List.map_cons, sz_cons, sz_map k d]; simp [szEv, Nat.add_comm]

theorem flatEv_noFrame {e : Ev} (he : e.isFrame = false) : ∀ x ∈ flatEv e, x.isFrame = false := by
  cases e with
  | frameFormat => cases he
  | payload k d f => cases f <;> simp [flatEv, Ev.isFrame, or_imp, forall_and]
  | _ => simp [flatEv, Ev.isFrame]

theorem sz_flatEv (e : Ev) : sz c pr (flatEv e) = szEv c pr e := by
  cases e with
  | payload k d f => cases f <;> simp [flatEv, sz_append, sz_map, sz_cons, sz_nil, szEv]
  | _ => simp [flatEv, sz_cons, sz_nil]

theorem szL_flat : ∀ (l : List Ev) (c : Nat) (pr : Bool), szL c pr (flat l) = szL c pr l
  | [], _, _ => rfl
  | e :: l, c, pr => by
    rw [flat_cons]
    by_cases he : e.isFrame = true
    · cases e with
      | frameFormat n t f id => rw [szL_frame, ← szL_flat l]; rfl
      | _ => cases he
    · have he : e.isFrame = false := by simpa using he
      rw [szL_cons _ _ he, szL_body _ _ (flatEv_noFrame he), sz_flatEv, szL_flat l]

theorem szL_le : ∀ (l m : List Ev) (c : Nat) (pr : Bool), szL c pr l ≤ szL c pr (l ++ m)
  | [], _, _, _ => Nat.zero_le _
  | e :: l, m, c, pr => by
    rw [List.cons_append]
    by_cases he : e.isFrame = true
    · cases e with
      | frameFormat n t f id => rw [szL_frame, szL_frame]; have := szL_le l m (padOf t f) (Spot.prio f); omega
      | _ => cases he
    · have he : e.isFrame = false := by simpa using he
      rw [szL_cons _ _ he, szL_cons _ _ he]; have := szL_le l m c pr; omega

/-! ## What was received -/

/-- What `t` tells about one frame, and what it leaves, is at most `n`. -/
def D (c : Nat) (pr : Bool) (t : Tale) (n : Nat) : Prop :=
  sz c pr t.1 + left t.2 ≤ n ∧ ∀ e ∈ t.1, e.isFrame = false

variable {t : Tale} {n m : Nat} {r : Bytes}

theorem d_stop : D c pr ([], .stop) n := ⟨by simp [left, sz_nil], nofun⟩
theorem d_panic : D c pr ([], .panic) n := ⟨by simp [left, sz_nil], nofun⟩
theorem d_go (h : r.length ≤ n) : D c pr ([], .go r) n := ⟨by simpa [left, sz_nil] using h, nofun⟩

theorem d_tell {e : Ev} (he : e.isFrame = false) (h : D c pr t m) (hm : szEv c pr e + m ≤ n) : D c pr (tell [e] t) n := by
  refine ⟨?_, ?_⟩
  · have := h.1
    simp only [tell, sz_append, sz_cons, sz_nil] at this ⊢; omega
  · intro x hx
    simp only [tell, List.cons_append, List.nil_append, List.mem_cons] at hx
    rcases hx with rfl | hx
    · exact he
    · exact h.2 x hx

theorem d_one {e : Ev} (he : e.isFrame = false) (hm : szEv c pr e + r.length ≤ n) : D c pr ([e], .go r) n :=
  d_tell he (d_go (Nat.le_refl _)) hm

theorem d_field {size : Nat} {k : Nat → Bytes → Tale} (h : ∀ v s, s.length + size = r.length → D c pr (k v s) n) :
    D c pr (readField size r k) n := by
  unfold readField
  split_ifs
  · exact d_stop
  · exact h _ _ (by simp only [List.length_drop]; omega)

theorem d_pad {padded : Bool} {k : Nat → Nat → Bytes → Tale}
    (h : ∀ v p s, (s.length + if padded then 1 else 0) ≤ r.length → D c pr (k v p s) n) : D c pr (readPad padded m r k) n := by
  unfold readPad
  cases padded with
  | true =>
    rw [if_pos rfl]
    refine d_field fun v s hs => ?_
    split_ifs
    · exact d_panic
    · exact h _ _ _ (by simp; omega)
  | false =>
    rw [if_neg (by simp)]
    exact h _ _ _ (by simp)

theorem d_data {k : Kind} {p : Nat} (hn : r.length + c ≤ n) : D c pr (readData k m p r) n := by
  unfold readData
  split_ifs
  · exact d_stop
  · exact d_panic
  · refine ⟨by simp only [sz_map, left]; omega, ?_⟩
    simp [Ev.isFrame]
  · refine ⟨?_, fun e he => ?_⟩
    swap
    · rcases List.mem_append.1 he with he | he
      · obtain ⟨x, -, rfl⟩ := List.mem_map.1 he
        rfl
      · rw [List.mem_singleton.1 he]; rfl
    simp only [sz_append, sz_map, left, sz_cons, sz_nil, szEv, List.length_take, List.length_drop, List.length_nil,
      if_true]
    omega

theorem d_body {v : Nat} {ty fl : UInt8} : D (padOf ty fl) (Spot.prio fl) (readBody v ty fl r) r.length := by
  unfold readBody
  dsimp only
  split
  · exact d_pad fun _ _ _ hs => d_data hs
  · refine d_pad fun v' _ s hs => ?_
    by_cases hp : (fl &&& 0x20 == 0x20) = true
    · rw [if_pos hp]
      refine d_field fun _ s' hs' => d_field fun _ s'' hs'' => ?_
      split_ifs
      · exact d_panic
      · refine d_tell rfl (d_data (Nat.le_refl _)) ?_
        have h1 : s.length + padOf 1 fl ≤ r.length := hs
        have h2 : szEv (padOf 1 fl) (Spot.prio fl) (.headers (2 ^ 31 ≤ ‹Nat›) 0 0) ≤ 5 := by
          simp only [szEv]; cases Spot.prio fl <;> simp
        simp only [szEv] at h2 ⊢
        omega
    · rw [if_neg hp]
      have h1 : s.length + padOf 1 fl ≤ r.length := hs
      have h2 : Spot.prio fl = false := by simpa [Spot.prio] using hp
      cases (fl &&& 0x8 == 0x8) with
      | true => exact d_tell rfl (d_data (Nat.le_refl _)) (by simp only [szEv, h2]; simp; omega)
      | false => exact d_data h1
  · exact d_field fun _ s hs => d_field fun _ s' hs' => d_one rfl (by simp only [szEv]; omega)
  · exact d_field fun _ s hs => d_one rfl (by simp only [szEv]; omega)
  · exact d_field fun _ s hs => d_field fun _ s' hs' => d_one rfl (by simp only [szEv]; omega)
  · refine d_pad fun _ _ s hs => d_field fun _ s' hs' => ?_
    have h1 : s.length + padOf 5 fl ≤ r.length := hs
    split_ifs
    · exact d_stop
    · exact d_panic
    · exact d_tell rfl (d_data (Nat.le_refl _)) (by simp only [szEv]; omega)
  · exact d_data (Nat.le_refl _)
  · refine d_field fun _ s hs => d_field fun _ s' hs' => ?_
    split_ifs
    · exact d_panic
    · exact d_tell rfl (d_go (Nat.le_refl _)) (by simp only [szEv]; omega)
    · exact d_tell rfl (d_data (Nat.le_refl _)) (by simp only [szEv]; have : padOf 7 fl = 0 := rfl; omega)
  · exact d_field fun _ s hs => d_one rfl (by simp only [szEv]; omega)
  · exact d_data (Nat.le_refl _)
  · rename_i h0 h1 h2 h3 h4 h5 h6 h7 h8 h9
    refine d_pad fun _ _ _ hs => d_data (Nat.le_trans ?_ hs)
    refine Nat.add_le_add_left ?_ _
    have h : Spot.padded ty fl = true → (fl &&& 0x8 == 0x8) = true := fun h => (Bool.and_eq_true_iff.1 h).2
    rw [padOf]
    by_cases hp : Spot.padded ty fl = true
    · exact Nat.le_of_eq (by rw [if_pos hp, if_pos (h hp)])
    · rw [if_neg hp]; exact Nat.zero_le _

/-- What is told about one frame with its header. -/
def OneFrame (t : Tale) (n : Nat) : Prop :=
  t = ([], .stop) ∨ ∃ v ty fl id es a, t = (.frameFormat v ty fl id :: es, a) ∧
    9 + sz (padOf ty fl) (Spot.prio fl) es + left a ≤ n ∧ ∀ e ∈ es, e.isFrame = false

theorem w_field {size : Nat} {k : Nat → Bytes → Tale} (h : ∀ v s, s.length + size = r.length → OneFrame (k v s) n) :
    OneFrame (readField size r k) n := by
  unfold readField
  split_ifs
  · exact .inl rfl
  · exact h _ _ (by simp only [List.length_drop]; omega)

theorem w_frame (marks : List Nat) (pos : Nat) : OneFrame (readFrameC marks pos r) r.length := by
  unfold readFrameC
  refine w_field fun n s hs => w_field fun ty s' hs' => w_field fun fl s'' hs'' => w_field fun id s3 hs3 => ?_
  by_cases hc : ty = 4 ∧ cutIn marks (pos + 11) = true ∨ ty = 7 ∧ cutIn marks (pos + 9) = true
  · rw [if_pos hc]
    exact .inr ⟨_, _, _, _, [], .stop, rfl, by simp only [left, sz_nil]; omega, nofun⟩
  · rw [if_neg hc]
    obtain ⟨h1, h2⟩ := d_body (v := n) (ty := UInt8.ofNat ty) (fl := UInt8.ofNat fl) (r := s3)
    generalize readBody n (UInt8.ofNat ty) (UInt8.ofNat fl) s3 = t at h1 h2
    exact .inr ⟨_, _, _, _, t.1, t.2, rfl, by omega, h2⟩

theorem szL_frames (marks : List Nat) : ∀ (k pos : Nat) (m : Bytes) (c : Nat) (pr : Bool),
    szL c pr (readFramesC marks k pos m).1 ≤ m.length
  | 0, _, _, _, _ => by simp [readFramesC, szL]
  | k + 1, pos, m, c, pr => by
    have H := w_frame (r := m) marks pos
    rw [readFramesC]
    rcases H with H | ⟨n, t, f, id, es, a, H, h1, h2⟩
    · rw [H]; simp [szL]
    · rw [H]
      cases a with
      | stop =>
        simp only [left, szL_frame] at h1 ⊢
        have := szL_body (c := padOf t f) (pr := Spot.prio f) es [] h2
        rw [List.append_nil] at this
        rw [this, szL]; omega
      | panic =>
        simp only [left, szL_frame] at h1 ⊢
        have := szL_body (c := padOf t f) (pr := Spot.prio f) es [] h2
        rw [List.append_nil] at this
        rw [this, szL]; omega
      | go r =>
        simp only [left, List.cons_append, szL_frame] at h1 ⊢
        rw [szL_body _ _ h2]
        have := szL_frames marks k (pos + (m.length - r.length)) r (padOf t f) (Spot.prio f)
        omega

/-! ## What was written -/

theorem part_len (d : Draft) {e : Ev} (c : Nat) (he : e.isFrame = false) : (d.part e).length ≤ szEv c (Spot.prio d.flags) e := by
  cases e with
  | frameFormat => cases he
  | headers e x w => simp only [Draft.part, szEv]; cases Spot.prio d.flags <;> simp [word, be_len]
  | payload k x f => simp [Draft.part, szEv]
  | _ => simp [Draft.part, szEv, word, be_len]

theorem parts_len (d : Draft) (c : Nat) : ∀ l : List Ev, (∀ e ∈ l, e.isFrame = false) →
    (l.flatMap d.part).length ≤ sz c (Spot.prio d.flags) l
  | [], _ => Nat.le_refl _
  | e :: l, h => by
    have h1 := part_len d c (h e (by simp))
    have h2 := parts_len d c l fun x hx => h x (by simp [hx])
    rw [List.flatMap_cons, List.length_append, sz_cons]
    omega

/-- Data that is read to its end has the pad length. -/
theorem EndsOnce.padData (d : Draft) {l : List Ev} {s : Spot} (h : EndsOnce s l) (h1 : s.over = false) (h2 : s.due = false)
    (c : Nat) : (l.flatMap d.part).length + c ≤ sz c pr l := by
  have h3 := (h.data d h1 h2).1
  have h4 : sz c pr (flat l) = sz c pr l := by
    rw [sz, flat, List.map_flatMap]
    clear h h3
    induction l with
    | nil => rfl
    | cons e l ih =>
      have := sz_flatEv (c := c) (pr := pr) e
      rw [sz] at this
      rw [List.flatMap_cons, List.sum_append, ih, this, sz_cons]
  rw [← h4, h3, sz_append, dataEvs, sz_map, sz_cons, sz_nil]
  simp [szEv]

/-- The payload of a frame that was written. -/
theorem EndsOnce.text (d : Draft) {l : List Ev} {n : Nat} {t f : UInt8} (h : EndsOnce (Spot.enter n t f) l)
    (hf : d.flags = f) : padOf t f + (l.flatMap d.part).length ≤ sz (padOf t f) (Spot.prio f) l := by
  have hno := h.noFrame rfl
  cases hd : (Spot.enter n t f).due with
  | false => have := h.padData (pr := Spot.prio f) d rfl hd (padOf t f); omega
  | true =>
    obtain ⟨e, k, v, h1, h2, h3⟩ := h.cons rfl
    subst h1
    obtain ⟨h4, h5⟩ := first_field h2 rfl hd
    have h6 := part_len d (padOf t f) (hno e (by simp))
    rw [hf] at h6
    rw [List.flatMap_cons, List.length_append, sz_cons]
    by_cases hv : v.over = true
    · rw [h3.over hv]
      have : padOf t f = 0 := by
        rw [h5] at hv
        simp only [Spot.enter, Bool.or_eq_true, beq_iff_eq, Bool.and_eq_true] at hv
        rcases hv with (((rfl | rfl) | rfl) | rfl) | ⟨rfl, -⟩ <;> rfl
      simp only [List.flatMap_nil, List.length_nil, sz_nil]
      omega
    · have := h3.padData (pr := Spot.prio f) d (by simpa using hv) (by rw [h5]) (padOf t f)
      omega

/-- What is written is no longer than what the callbacks stand for. -/
theorem forward_size : ∀ (j : Nat) (l : List Ev) (s u : Spot) (d : Draft) (c : Nat) (pr : Bool), l.length ≤ j → s.over = true →
    walk s l = some u → u.over = true → (forwardFrom d l).length ≤ szL c pr l
  | _, [], _, _, _, _, _, _, _, _, _ => Nat.le_refl _
  | 0, _ :: _, _, _, _, _, _, hj, _, _, _ => absurd hj (by simp)
  | j + 1, e :: l, s, u, d, c, pr, hj, hs, h, hu => by
    rw [walk_cons] at h
    cases hn : s.next e with
    | none => rw [hn] at h; cases h
    | some w =>
      rw [hn, Option.bind_some] at h
      have hno : ∀ t, s.fields t ≠ some w := by
        intro t ht
        unfold Spot.fields at ht
        split_ifs at ht with hc
        rw [hs] at hc
        exact absurd hc.1 (by simp)
      cases e with
      | frameFormat n t f id =>
        rw [Spot.next, if_pos hs] at hn
        cases hn
        obtain ⟨es, rest, v, i1, i2, i3, i4, i5⟩ := first_frame l (.start n t f id) _ u rfl (by
          intro _ (h7 : t = 7)
          subst h7
          rfl) h hu
        rw [forwardFrom, i5, szL_frame, i1, szL_body _ _ (i2.noFrame rfl), List.length_append]
        have h1 := forward_size j rest v u ((Draft.start n t f id).fill es) (padOf t f) (Spot.prio f)
          (by rw [i1] at hj; simp at hj; omega) i4 i3 hu
        have h2 := i2.text (.start n t f id) rfl
        have h3 : ((Draft.start n t f id).fill es).write.length = 9 + (padOf t f + (es.flatMap (Draft.start n t f id).part).length) := by
          have h4 : (Draft.start n t f id).text.length = padOf t f := by
            simp only [Draft.start, padOf]; cases Spot.padded t f <;> rfl
          simp only [Draft.write, Draft.fill, word, List.length_append, be_len, List.length_cons, List.length_nil, h4]
        omega
      | payload =>
        obtain ⟨⟨h1, -⟩, -⟩ := next_payload.1 hn
        rw [hs] at h1; cases h1
      | headers =>
        rw [Spot.next] at hn
        split_ifs at hn
        exact absurd hn (hno _)
      | _ => exact absurd hn (hno _)

end Verif.Http2
