import Verif.Http1.CostSpec
import Verif.Http1.ReadSpec
import Verif.Http1.Progress
import Verif.Http1.Lengths
import Mathlib.Tactic.SplitIfs

/-!
# Helper lemmas: what a tale costs

`B c t n`: what `t` tells and what it leaves is at most `n`, where a byte of data counts 1 and a callback without
data counts `c`.
-/

namespace Verif.Http1

/-- The weight of a callback. -/
def wt1 (c : Nat) (e : Ev) : Nat := if isData e then e.size else c

/-- The weight of a history. -/
def wt (c : Nat) (l : List Ev) : Nat := (l.map (wt1 c)).sum

theorem wt_nil {c : Nat} : wt c [] = 0 := rfl
theorem wt_cons {c : Nat} (e : Ev) (l : List Ev) : wt c (e :: l) = wt1 c e + wt c l := by simp [wt]
theorem wt_append {c : Nat} (l m : List Ev) : wt c (l ++ m) = wt c l + wt c m := by simp [wt]

theorem wt_map {c : Nat} {ev : Bytes → Ev} (h : ∀ d, wt1 c (ev d) = d.length) :
    ∀ d : Bytes, wt c (d.map fun b => ev [b]) = d.length
  | [] => rfl
  | b :: d => by simp [wt_cons, h, wt_map h d, Nat.add_comm]

theorem wt_flatEv {c : Nat} (e : Ev) : wt c (flatEv e) = wt1 c e := by
  cases e <;> simp only [flatEv] <;> first
    | exact wt_map (fun _ => rfl) _
    | simp [wt_cons, wt_nil]

theorem wt_flat {c : Nat} : ∀ l : List Ev, wt c (flat l) = wt c l
  | [] => rfl
  | e :: l => by
    have := wt_flat (c := c) l
    simp only [flat, List.flatMap_cons, wt_append, wt_flatEv, wt_cons] at this ⊢
    omega

theorem wt_zero : ∀ l : List Ev, wt 0 l = handed l
  | [] => rfl
  | e :: l => by
    have := wt_zero l
    rw [wt_cons, this]
    cases e <;> simp [wt1, isData, handed, Ev.size]

/-- Without empty data, the weight counts at least the callbacks. -/
theorem length_le_wt : ∀ l : List Ev, (∀ e ∈ l, isData e = true → 0 < e.size) → l.length ≤ wt 1 l
  | [], _ => Nat.le_refl _
  | e :: l, h => by
    have := length_le_wt l (fun x hx => h x (by simp [hx]))
    have h1 : 1 ≤ wt1 1 e := by
      unfold wt1
      split_ifs with hd
      · exact h e (by simp) hd
      · exact Nat.le_refl _
    simp only [List.length_cons, wt_cons]
    omega

namespace Read

/-- The bytes that are left at the end. -/
def left : Ending → Nat
  | .done r | .wrong _ r | .boundary r => r.length
  | _ => 0

/-- What `t` tells and leaves is at most `n`. -/
def B (c : Nat) (t : Tale) (n : Nat) : Prop := wt c t.told + left t.ending ≤ n

variable {c : Nat} {t : Tale} {n m : Nat} {r : Bytes}

theorem B.mono (h : B c t m) (hm : m ≤ n) : B c t n := Nat.le_trans h hm

theorem b_say {es : List Ev} (h : B c t m) (hm : wt c es + m ≤ n) : B c (say es t) n := by
  simp only [B, say, wt_append] at h ⊢; omega

theorem b_more : B c more n := by simp [B, more, left, wt_nil]
theorem b_crash : B c crash n := by simp [B, crash, left, wt_nil]
theorem b_done (h : r.length ≤ n) : B c (done r) n := by simp [B, done, left, wt_nil, h]
theorem b_wrong {e : PErr} (h : r.length ≤ n) : B c (wrong e r) n := by simp [B, wrong, left, wt_nil, h]
theorem b_boundary (h : r.length ≤ n) : B c (boundary r) n := by simp [B, boundary, left, wt_nil, h]

theorem b_then {k : List Ev → Bytes → Tale} {y : Nat} (h : B c t n)
    (hk : ∀ s, B c (k t.told s) (s.length + y)) : B c (t.then k) (n + y) := by
  obtain ⟨es, e⟩ := t
  cases e with
  | done s =>
    refine b_say (hk s) ?_
    simp only [B, left] at h ⊢; omega
  | _ => exact h.mono (by omega)

/-- What `k` tells and leaves is at most `x` more than what it gets. -/
def G (c x : Nat) (k : Bytes → Tale) : Prop := ∀ s, B c (k s) (s.length + x)

variable {x y : Nat} {k : Bytes → Tale} {a : UInt8} {e : UInt8 → PErr} {ev : Bytes → Ev}

theorem G.mono (h : G c y k) (hy : y ≤ x) : G c x k := fun s => (h s).mono (by omega)

theorem g_look {f : UInt8 → Bytes → Tale} (h : ∀ b s, B c (f b s) (s.length + 1 + x)) : G c x fun r => look r f := by
  intro r
  cases r with
  | nil => exact b_more
  | cons b s => exact h b s

theorem g_the (h : G c (x + 1) k) : G c x (the a e k) := by
  refine g_look fun b s => ?_
  split_ifs
  · exact (h s).mono (by omega)
  · exact b_wrong (by omega)

theorem g_crlf (h : G c (x + 2) k) : G c x (crlf k) := g_the (g_the h)

theorem g_say {es : List Ev} (h : G c y k) (hy : wt c es + y ≤ x) : G c x fun r => say es (k r) :=
  fun s => b_say (h s) (by omega)

theorem take_drop_length (p : UInt8 → Prop) [DecidablePred p] (r : Bytes) :
    (r.takeWhile p).length + (r.dropWhile p).length = r.length := by
  rw [← List.length_append, List.takeWhile_append_dropWhile]

theorem g_word {p : UInt8 → Prop} [DecidablePred p] (hev : ∀ d, wt1 c (ev d) = d.length) (h : G c x k) :
    G c x (word p ev k) := by
  intro r
  have hl := take_drop_length p r
  refine b_say (h _) ?_
  rw [wt_cons, wt_nil, hev]; omega

theorem g_word1 {p : UInt8 → Prop} [DecidablePred p] (hev : ∀ d, wt1 c (ev d) = d.length) (h : G c x k) :
    G c x (word1 p ev e k) := by
  intro r
  unfold word1
  cases r with
  | nil => exact b_more
  | cons b s =>
    simp only [look]
    split_ifs
    · exact g_word hev h _
    · exact b_wrong (by simp only [List.length_cons]; omega)

theorem g_number {f : Nat → Bytes → Tale} (h : ∀ v, G c (x + 2) (f v)) : G c x (number e a f) := by
  intro r
  unfold number
  dsimp only
  split_ifs with h0
  · exact g_look (fun b s => b_wrong (by omega)) r
  · have h1 : 0 < ((r.take 3).takeWhile fun b => decide (Digit b)).length := List.length_pos_iff.2 h0
    have h2 := (List.takeWhile_sublist (fun b => decide (Digit b)) (l := r.take 3)).length_le
    rw [List.length_take] at h2
    refine (g_the (h _) _).mono ?_
    simp only [List.length_drop]; omega

theorem g_code {f : Nat → Bytes → Tale} (h : ∀ v, G c (x + 4) (f v)) : G c x (code f) := by
  intro r
  unfold code
  dsimp only
  have h2 := (List.takeWhile_sublist (fun b => decide (Digit b)) (l := r.take 3)).length_le
  rw [List.length_take] at h2
  split_ifs with h0
  · refine (g_look (x := x) (fun b s => b_wrong (by omega)) _).mono ?_
    simp only [List.length_drop]; omega
  · refine (g_the (h _) _).mono ?_
    simp only [List.length_drop]; omega

theorem g_text {ends : Bytes} {marks : Bool} {f : UInt8 → Bytes → Tale} (hev : ∀ d, wt1 c (ev d) = d.length)
    (h : ∀ b, G c (x + 1) (f b)) : ∀ (r : Bytes) (p : Place), B c (text ev e ends marks f p r) (r.length + x)
  | [], p => by cases p <;> exact b_more
  | b :: r, p => by
    have ih : ∀ p, B c (text ev e ends marks f p r) (r.length + x) := g_text hev h r
    have h1 : wt c [ev [b]] = 1 := by simp [wt_cons, wt_nil, hev]
    have h2 : wt c (if marks then [ev [b]] else []) ≤ 1 := by split_ifs <;> simp [h1, wt_nil]
    have h3 := h b r
    have hl : (b :: r).length = r.length + 1 := rfl
    cases p <;> simp only [text] <;> split_ifs
    all_goals first
      | exact b_crash
      | exact h3.mono (by omega)
      | exact b_wrong (by omega)
      | exact b_say (ih _) (by omega)
      | exact b_say (ih _) (by simp only [wt_nil]; omega)

theorem g_strip (h : G c x k) : G c x (strip e k) := by
  intro r
  have hl := take_drop_length Blank r
  unfold strip
  generalize r.dropWhile (fun b => decide (Blank b)) = s at hl
  cases s with
  | nil => exact b_more
  | cons b s =>
    simp only [look, List.length_cons] at hl ⊢
    split_ifs
    · exact (h _).mono (by simp only [List.length_cons]; omega)
    · exact b_wrong (by omega)

theorem g_value (h : G c (x + 2) k) : G c x (value k) := fun r => g_text (fun _ => rfl) (fun _ => g_the h) r _

theorem g_lines {fin : Bytes → Tale} (h : G c (x + 2) fin) : ∀ n, G c x (lines fin n)
  | 0 => fun _ => b_more
  | n + 1 => by
    have ih := g_lines h n
    intro r
    unfold lines
    cases r with
    | nil => exact b_more
    | cons b s =>
      simp only [look]
      have hl : (b :: s).length = s.length + 1 := rfl
      split_ifs
      · exact (g_the (x := x + 1) h s).mono (by omega)
      · exact (g_value (x := x) (ih.mono (by omega)) s).mono (by omega)
      · refine g_word (fun d => ?_) (g_look fun b s => ?_) _
        · simp [wt1, isData, Ev.size, Verif.lower]
        · split_ifs
          · exact b_crash
          · exact (g_strip (g_value (x := x) (ih.mono (by omega))) s).mono (by omega)
          · exact b_wrong (by omega)
      · exact b_wrong (by omega)

section
variable (hc : c ≤ 1)
include hc

theorem g_headers : G c 0 headers := by
  intro r
  refine g_lines (x := 0) (g_say (y := 0) (fun s => b_done (by omega)) ?_) _ _
  simp [wt_cons, wt_nil, wt1, isData]; omega

theorem g_trailers : G c 0 trailers := by
  intro r
  refine g_lines (x := 0) (g_say (y := 0) (fun s => b_done (by omega)) ?_) _ _
  simp [wt_cons, wt_nil, wt1, isData]; omega

theorem g_version (h : G c (x + 3) k) : G c x (version a k) := by
  refine g_number fun _ => g_number fun _ => g_say h ?_
  simp [wt_cons, wt_nil, wt1, isData]; omega

theorem g_startEnd : G c 1 startEnd := by
  refine g_say (y := 0) (g_the ((g_headers hc).mono (by omega))) ?_
  simp [wt_cons, wt_nil, wt1, isData]; omega

theorem g_request : G c 0 request := by
  refine g_word1 (fun _ => rfl) (g_the (g_word1 (fun _ => rfl) (g_the ?_)))
  refine g_the (g_the (g_the (g_the (g_the (g_version hc ((g_startEnd hc).mono (by omega)))))))

theorem g_response : G c 0 response := by
  refine g_version hc (g_code fun _ => g_say (y := 0) ?_ (by simp [wt_cons, wt_nil, wt1, isData]; omega))
  exact g_word1 (fun _ => rfl) (g_the (g_startEnd hc))

theorem g_start (lossy : Bool) : G c 0 (start lossy) := by
  intro r
  unfold start
  split_ifs
  · exact (g_response hc _).mono (by simp)
  · exact b_more
  · exact (g_request hc _).mono (by simp)
  · exact g_request hc r

theorem g_head (lossy : Bool) : G c 0 (head lossy) := fun _ =>
  (g_start hc lossy _).mono ((List.dropWhile_sublist _).length_le)

theorem g_extensions (h : G c x k) : ∀ n, G c x (extensions k n)
  | 0 => fun _ => b_more
  | n + 1 => by
    have ih := g_extensions h n
    have hs : ∀ b, G c (x + 1) fun s => say [.chunkExtensionFinished] (if b = c! '\r' then k s else extensions k n s) := by
      intro b
      refine g_say (y := x) (fun s => ?_) (by simp [wt_cons, wt_nil, wt1, isData]; omega)
      split_ifs
      · exact h s
      · exact ih s
    intro r
    simp only [extensions]
    refine g_strip (x := x) (g_word (fun d => ?_) (g_look fun b s => ?_)) r
    · simp [wt1, isData, Ev.size, Verif.lower]
    · by_cases h1 : b = 255
      · rw [if_pos h1]; exact b_crash
      rw [if_neg h1]
      by_cases h2 : b = c! '='
      · rw [if_pos h2]
        exact (g_strip (x := x) (fun r => g_text (fun _ => rfl) hs r _) s).mono (by omega)
      rw [if_neg h2]
      by_cases h3 : b = c! '\r' ∨ b = c! ';'
      · rw [if_pos h3]
        exact (hs b s).mono (by omega)
      rw [if_neg h3]
      exact b_wrong (by omega)

theorem g_chunks : ∀ n, G c c (chunks n)
  | 0 => fun _ => b_more
  | n + 1 => by
    have ih := g_chunks n
    intro r
    unfold chunks
    cases r with
    | nil => exact b_more
    | cons b s =>
      have hl : (b :: s).length = s.length + 1 := rfl
      simp only [look]
      by_cases hx : hex b = none
      · rw [if_pos hx]; exact b_wrong (by omega)
      rw [if_neg hx]
      generalize hds : (if b = c! '0' then [b] else ((b :: s).take 8).takeWhile fun b => (hex b).isSome) = ds
      have hpos : 0 < ds.length := by
        rw [← hds]
        split_ifs
        · exact Nat.one_pos
        · simp only [List.take_succ_cons, List.takeWhile_cons, Option.isSome_iff_ne_none, ne_eq, hx, not_false_eq_true,
            if_true, List.length_cons]
          exact Nat.succ_pos _
      have hle : ds.length ≤ s.length + 1 := by
        rw [← hds]
        split_ifs
        · simp
        · refine Nat.le_trans (List.takeWhile_sublist _).length_le ?_
          simp
      have w1 : wt c [Ev.chunkBegin] ≤ c := by simp [wt_cons, wt_nil, wt1, isData]
      have w2 : ∀ v, wt c [Ev.chunkLength v] ≤ 1 := fun v => by simp [wt_cons, wt_nil, wt1, isData]; omega
      have hd : ∀ v : Nat, G c c fun r => say [.chunkExtensionsFinished] (the (c! '\n') .crlfSequence
          (fun r => say [.chunkData (r.take v)] (crlf (chunks n) (r.drop v))) r) := by
        intro v
        refine g_say (y := 0) (g_the fun r => ?_) (by simp [wt_cons, wt_nil, wt1, isData])
        refine b_say (g_crlf (x := 1) (ih.mono (by omega)) _) ?_
        simp only [wt_cons, wt_nil, wt1, isData, Ev.size, if_true, List.length_take, List.length_drop]
        omega
      refine b_say (m := s.length + 1) ?_ (by omega)
      refine (g_look (x := 1) (fun b s => ?_) _).mono (by simp only [List.length_drop, List.length_cons]; omega)
      split_ifs
      · exact b_say (g_the (x := 1) ((g_trailers hc).mono (by omega)) s) (by have := w2 (hexNum ds); omega)
      · exact b_say (hd _ s) (by have := w2 (hexNum ds); omega)
      · exact b_say (g_extensions hc (hd _) _ s) (by have := w2 (hexNum ds); omega)
      · exact b_wrong (by omega)

end

theorem g_fields {stop : Tale} {rest : Bytes} (hc : c ≤ 1) (hs : B c stop m) (hr : rest.length ≤ m) :
    ∀ (r : Bytes) (val : Bool), B c (fields stop rest val r) (r.length + m)
  | [], val => by unfold fields; exact hs.mono (by omega)
  | [b], val => by
    have h1 := g_fields hc hs hr []
    have w1 : ∀ d, wt c [formEv val [d]] = 1 := fun d => by cases val <;> rfl
    have w2 : ∀ q, wt c (formBegin q) ≤ 1 := fun q => by
      unfold formBegin; split_ifs <;> simp [wt_cons, wt_nil, wt1, isData, hc]
    have hl : [b].length = 1 := rfl
    unfold fields
    split_ifs
    · exact hs.mono (by omega)
    · exact b_say (h1 _) (by rw [w1]; simp)
    · exact b_say (h1 _) (by have := w2 []; simp; omega)
    · exact (h1 _).mono (by simp)
    · exact b_say (h1 _) (by rw [w1]; simp)
    · exact b_wrong (by simp; omega)
  | [b, a], val => by
    have h1 := g_fields hc hs hr [a]
    have w1 : ∀ d, wt c [formEv val [d]] = 1 := fun d => by cases val <;> rfl
    have w2 : ∀ q, wt c (formBegin q) ≤ 1 := fun q => by
      unfold formBegin; split_ifs <;> simp [wt_cons, wt_nil, wt1, isData, hc]
    have hl : [b, a].length = 2 := rfl
    have hl' : [a].length = 1 := rfl
    unfold fields
    dsimp only
    split_ifs
    · exact b_wrong (by omega)
    · exact hs.mono (by omega)
    · exact b_say (h1 _) (by rw [w1]; omega)
    · exact b_say (h1 _) (by have := w2 [a]; omega)
    · exact (h1 _).mono (by omega)
    · exact b_say (h1 _) (by rw [w1]; omega)
    · exact b_wrong (by simp; omega)
  | b :: a :: d :: s, val => by
    have h1 := g_fields hc hs hr (a :: d :: s)
    have h2 := g_fields hc hs hr s
    have w1 : ∀ d, wt c [formEv val [d]] = 1 := fun d => by cases val <;> rfl
    have w2 : ∀ q, wt c (formBegin q) ≤ 1 := fun q => by
      unfold formBegin; split_ifs <;> simp [wt_cons, wt_nil, wt1, isData, hc]
    have hl : (b :: a :: d :: s).length = s.length + 3 := rfl
    have hl' : (a :: d :: s).length = s.length + 2 := rfl
    unfold fields
    dsimp only
    split_ifs
    · split
      · exact b_say (h2 _) (by rw [w1]; omega)
      · exact b_wrong (by simp; omega)
      · exact b_wrong (by simp; omega)
    · exact b_say (h1 _) (by rw [w1]; omega)
    · exact b_say (h1 _) (by have := w2 (a :: d :: s); omega)
    · exact (h1 _).mono (by omega)
    · exact b_say (h1 _) (by rw [w1]; omega)
    · exact b_wrong (by simp; omega)

theorem b_form (hc : c ≤ 1) (n : Nat) (msg : Bytes) : B c (form n msg) (msg.length + 2 * c) := by
  have w2 : ∀ q, wt c (formBegin q) ≤ c := fun q => by
    unfold formBegin; split_ifs <;> simp [wt_cons, wt_nil, wt1, isData]
  unfold form
  refine b_say (g_fields hc (m := (msg.drop n).length + c) ?_ (by omega) _ _) ?_
  · split_ifs
    · exact b_say (b_done (Nat.le_refl _)) (by simp [wt_cons, wt_nil, wt1, isData]; omega)
    · exact b_more
  · have := w2 (msg.take n)
    simp only [List.length_take, List.length_drop]
    omega

/-! ## Multipart -/

theorem g_done : G c 0 done := fun s => b_done (by omega)

theorem g_literal (h : G c x k) : ∀ bd, G c x (literal k bd)
  | [] => h
  | d :: bd => by
    intro r
    cases r with
    | nil => exact b_more
    | cons b r =>
      unfold literal
      split_ifs
      · exact (g_literal h bd r).mono (by simp)
      · exact b_boundary (by simp only [List.length_cons]; omega)

theorem g_dashes (bd : Bytes) : G c 0 (dashes bd) :=
  g_the (g_the (g_literal (g_done.mono (by omega)) bd))

theorem common_le : ∀ a b : Bytes, common a b ≤ a.length
  | [], _ => by simp [common]
  | _ :: _, [] => by simp [common]
  | a :: x, b :: y => by
    have := common_le x y
    unfold common
    split_ifs <;> simp only [List.length_cons] <;> omega

theorem g_scan (bd : Bytes) : ∀ n, G c 0 (scan bd n)
  | 0 => fun _ => b_more
  | n + 1 => by
    have ih : G c 0 (scan bd n) := g_scan bd n
    have w : ∀ d, wt c [.multipartData d] = d.length := fun d => by simp [wt_cons, wt_nil, wt1, isData, Ev.size]
    intro r
    unfold scan
    refine g_look (x := 0) (fun b r => ?_) r
    split_ifs
    · exact b_say (ih _) (by rw [w]; simp; omega)
    refine (g_look (x := 1) (fun b r => ?_) r).mono (by omega)
    split_ifs
    · exact b_say (ih _) (by rw [w]; simp; omega)
    refine (g_look (x := 2) (fun b r => ?_) r).mono (by omega)
    split_ifs
    · exact b_say (ih _) (by rw [w]; simp; omega)
    refine (g_look (x := 3) (fun b r => ?_) r).mono (by omega)
    split_ifs
    · exact b_say (ih _) (by rw [w]; simp; omega)
    · exact b_done (by simp; omega)
    · exact b_more
    · refine b_say (ih _) ?_
      have := common_le r bd
      rw [w]
      simp
      omega

theorem g_sized (bd : Bytes) (n : Nat) : G c 0 (sized bd n) := by
  intro r
  unfold sized
  refine b_say (g_the (x := 0) (g_the ((g_dashes bd).mono (by omega))) _) ?_
  simp [wt_cons, wt_nil, wt1, isData, Ev.size]
  omega

theorem g_part (hc : c ≤ 1) (cl : List Ev → Option Nat) (bd : Bytes) (seen : List Ev) : G c 1 (part cl bd seen) := by
  intro r
  unfold part
  refine b_then (y := 0) (b_say (g_the (x := 0) (fun r => ?_) r) ?_) fun s => ?_
  · exact g_lines (x := 1) (g_say (y := 0) g_done (by simp [wt_cons, wt_nil, wt1, isData]; omega)) _ _
  · simp [wt_cons, wt_nil, wt1, isData]; omega
  · split
    · exact g_sized bd _ s
    · exact g_scan bd _ s

theorem g_parts (hc : c ≤ 1) (cl : List Ev → Option Nat) (bd : Bytes) : ∀ n seen, G c 0 (parts cl bd n seen)
  | 0, _ => fun _ => b_more
  | n + 1, seen => by
    intro r
    unfold parts
    refine g_look (x := 0) (fun b s => ?_) r
    split_ifs
    · exact b_then (y := 0) (g_part hc cl bd seen s) fun s => g_parts hc cl bd n (seen ++ _) s
    · exact (g_the (x := 1) (g_say (y := 0) g_done (by simp [wt_cons, wt_nil, wt1, isData]; omega)) s).mono (by omega)
    · exact b_wrong (by omega)

theorem g_multipart (hc : c ≤ 1) (cl : List Ev → Option Nat) (bd : Bytes) : G c 0 (multipart cl bd) := fun r =>
  b_then (y := 0) (g_dashes bd r) fun s => g_parts hc cl bd _ _ s

/-! ## Runs -/

/-- What a complete run costs. -/
theorem cost_of_follows {l : List Ev} {o : Outcome} (hf : Follows l t o) (hb : B c t n) :
    wt c o.world.log ≤ wt c l + n ∧
      (o.last = .finished ∨ (∃ e, o.last = .err e ∧ ∀ b, e ≠ .multipartBoundary b) →
        wt c o.world.log + o.rest.length ≤ wt c l + n) := by
  have key : ∀ es, flat o.world.log ++ es = flat l ++ flat t.told → wt c o.world.log ≤ wt c l + wt c t.told := by
    intro es he
    have := congrArg (wt c) he
    simp only [wt_append, wt_flat] at this
    omega
  obtain ⟨es, en⟩ := t
  simp only [B] at hb key
  unfold Follows at hf
  cases en with
  | more =>
    obtain ⟨h1, h2, h3⟩ := hf
    have := key [] (by simpa using h3)
    simp only [left] at hb
    exact ⟨by omega, by simp [h1]⟩
  | done r =>
    obtain ⟨h1, rfl, h3⟩ := hf
    have := key [] (by simpa using h3)
    simp only [left] at hb
    exact ⟨by omega, fun _ => by omega⟩
  | wrong e r =>
    obtain ⟨h1, rfl, d, _, h3⟩ := hf
    have := key _ h3
    simp only [left] at hb
    exact ⟨by omega, fun _ => by omega⟩
  | boundary r =>
    obtain ⟨⟨b, h1⟩, _, h3⟩ := hf
    have := key [] (by simpa using h3)
    simp only [left] at hb
    refine ⟨by omega, ?_⟩
    rw [h1]
    rintro (h | ⟨e, h, he⟩)
    · cases h
    · cases h; exact absurd rfl (he b)
  | crash =>
    obtain ⟨h1, d, _, h3⟩ := hf
    have := key _ h3
    simp only [left] at hb
    exact ⟨by omega, by simp [h1]⟩

end Read

variable {h : Handler}

/-- Every run can be continued until it is complete. -/
theorem drive_more : ∀ (ks : List Nat) (a : End) (st : Stage) (w : World) (m : Bytes),
    Reach anyBoundary st w.p → (st = .fresh → ∃ k, ks.head? = some k ∧ m.take k ≠ []) →
    ∃ ks', (drive h a (ks ++ ks') w m).complete ∧
      Grew (drive h a ks w m).world.log (drive h a (ks ++ ks') w m).world.log
  | [], a, st, w, m, hr, hs => by
    obtain ⟨j, _, hc⟩ := drive_ends (h := h) (8 * m.length + 6) a st w m (List.replicate (8 * m.length + 9) 1) hr
      (fun h => by obtain ⟨k, hk, _⟩ := hs h; cases hk)
      (fun k hk => by rw [(List.mem_replicate.1 hk).2]; exact Nat.one_pos) (pot_le _ _) (by simp)
    exact ⟨_, hc, drive_grew _ _ _ _ _⟩
  | k :: ks, a, st, w, m, hr, hs => by
    have hmode := (reach_mode hr).1
    have hok := callOK (h := h) (s := m.take k) (w := w) (fun hp => urlSt_of_mode (by rwa [hp] at hmode))
    have hsafe := safe_resume (h := h) (s := m.take k) (mp := False) hmode False.elim
    simp only [List.cons_append, drive_cons]
    rcases he : resume h w (m.take k) with ⟨r, w'⟩
    rw [he] at hok hsafe
    rcases r with (n | n | n) | e | _ | _ | _
    · exact drive_more ks _ .running w' _ (.resumeOk hr h _ he) nofun
    · exact drive_more ks _ .running w' _ (.resumeOk hr h _ he) nofun
    · exact ⟨[], trivial, .refl⟩
    · exact ⟨[], trivial, .refl⟩
    · exact ⟨[], trivial, .refl⟩
    · obtain ⟨h1, h2⟩ : w.p.fn = .detect1 ∧ m.take k = [] := hsafe
      obtain ⟨k', hk, h3⟩ := hs (by by_contra hst; exact ((reach_mode hr).2.1 hst).1 h1)
      cases hk
      exact absurd h2 h3
    · exact absurd hok (by simp [CallOK])

theorem grew_wt {c : Nat} {a b : List Ev} (H : Grew a b) : wt c a ≤ wt c b := by
  obtain ⟨t, rfl, _⟩ := H
  rw [wt_append]; omega

/-- Runs are frugal if the complete ones do what a tale says. -/
theorem frugal_of {ks : List Nat} {st : Stage} {w : World} {m : Bytes} {x : Nat} (hr : Reach anyBoundary st w.p)
    (hs : st = .fresh → ∃ k, ks.head? = some k ∧ m.take k ≠ [])
    (hf : ∀ ks', (drive h .idle (ks ++ ks') w m).complete → ∃ t, Read.Follows w.log t (drive h .idle (ks ++ ks') w m) ∧
      Read.B 0 t m.length ∧ Read.B 1 t (m.length + x)) :
    Frugal w.log m.length x (drive h .idle ks w m) := by
  obtain ⟨t, h1, h2⟩ := drive_grew h ks .idle w m
  have h3 : t.length ≤ wt 1 t := length_le_wt t fun e he hd => by
    have := h2 e he
    cases e <;> simp [flatEv, isData, Ev.size, List.length_pos_iff] at this hd ⊢ <;> exact this
  refine ⟨t, h1, ?_⟩
  obtain ⟨ks', hc, hg⟩ := drive_more (h := h) ks .idle st w m hr hs
  obtain ⟨u, hu, b0, b1⟩ := hf ks' hc
  have c0 := (Read.cost_of_follows hu b0).1
  have c1 := (Read.cost_of_follows hu b1).1
  have g0 := grew_wt (c := 0) hg
  have g1 := grew_wt (c := 1) hg
  rw [h1, wt_append] at g0 g1
  have z := wt_zero t
  refine ⟨by omega, by omega, fun hl => ?_⟩
  have hc' : (drive h .idle ks w m).complete := by
    rcases hl with hl | ⟨e, hl, _⟩ <;> simp [Outcome.complete, hl]
  obtain ⟨v, hv, b0, b1⟩ := hf [] (by rwa [List.append_nil])
  rw [List.append_nil] at hv
  have c0 := (Read.cost_of_follows hv b0).2 hl
  have c1 := (Read.cost_of_follows hv b1).2 hl
  rw [h1, wt_append] at c0 c1
  exact ⟨by omega, by omega⟩

end Verif.Http1
