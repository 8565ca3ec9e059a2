import Verif.Props.Http2ReleaseAny

/-!
# What the HTTP/2 parser without overflow checks reported is final

C84 for a parser compiled without overflow checks, whose reader is `Release.told` (`Verif.Http2.ReleaseSpec`).
-/

namespace Verif.Http2

namespace Release

/-- `b` is what `a` becomes with more bytes. -/
def Ext (a b : Tale) : Prop :=
  match a with
  | (es, none) => es <+: b.1
  | (es, some r) => ∃ x, b = (es, some (r ++ x))

variable {r : Bytes}

theorem ext_none {b : Tale} : Ext ([], none) b := List.nil_prefix

theorem ext_some {es : List Ev} (x : Bytes) : Ext (es, some r) (es, some (r ++ x)) := ⟨x, rfl⟩

theorem ext_tell {es : List Ev} {a b : Tale} (he : Ext a b) : Ext (tell es a) (tell es b) := by
  obtain ⟨fs, o⟩ := a
  cases o with
  | none => exact (List.prefix_append_right_inj es).mpr he
  | some r =>
    obtain ⟨x, rfl⟩ := he
    exact ⟨x, rfl⟩

theorem ext_field {size : Nat} {k : Nat → Bytes → Tale} {x : Bytes} (hk : ∀ v s, Ext (k v s) (k v (s ++ x))) :
    Ext (readField size r k) (readField size (r ++ x) k) := by
  unfold readField
  by_cases h1 : r.length < size
  · rw [if_pos h1]; exact ext_none
  · rw [if_neg h1, if_neg (by rw [List.length_append]; omega), List.take_append_of_le_length (by omega),
      List.drop_append_of_le_length (by omega)]
    exact hk _ _

theorem ext_pad {padded : Bool} {n : Nat} {k : Nat → Nat → Bytes → Tale} {x : Bytes}
    (hk : ∀ v p s, Ext (k v p s) (k v p (s ++ x))) : Ext (readPad padded n r k) (readPad padded n (r ++ x) k) := by
  unfold readPad
  cases padded with
  | true => exact ext_field fun v s => hk _ _ _
  | false => exact hk _ _ _

theorem ext_data {k : Kind} {n p : Nat} (x : Bytes) : Ext (readData k n p r) (readData k n p (r ++ x)) := by
  unfold readData
  generalize (if p ≤ n then n - p else 2 ^ 32 + n - p) = size
  dsimp only
  by_cases h1 : r = []
  · rw [if_pos h1]; exact ext_none
  have h2 : r ++ x ≠ [] := by simp [h1]
  rw [if_neg h1, if_neg h2]
  by_cases h3 : r.length < size
  · rw [if_pos h3]
    by_cases h4 : (r ++ x).length < size
    · rw [if_pos h4]
      show _ <+: _
      rw [List.map_append]
      exact List.prefix_append _ _
    · rw [if_neg h4]
      show _ <+: _
      rw [List.take_append, List.take_of_length_le (by omega), List.map_append, List.append_assoc]
      exact List.prefix_append _ _
  · rw [if_neg h3, if_neg (by rw [List.length_append]; omega), List.take_append_of_le_length (by omega), List.drop_append]
    exact ext_some _

theorem ext_body {n : Nat} {ty fl : UInt8} (x : Bytes) : Ext (readBody n ty fl r) (readBody n ty fl (r ++ x)) := by
  unfold readBody
  dsimp only
  split
  · exact ext_pad fun _ _ _ => ext_data x
  · refine ext_pad fun _ _ _ => ?_
    split
    · exact ext_field fun _ _ => ext_field fun _ _ => ext_tell (ext_data x)
    · exact ext_tell (ext_data x)
  · exact ext_field fun _ _ => ext_field fun _ _ => ext_some x
  · exact ext_field fun _ _ => ext_some x
  · exact ext_field fun _ _ => ext_field fun _ _ => ext_some x
  · refine ext_pad fun _ _ _ => ext_field fun _ s => ?_
    by_cases h1 : s = []
    · rw [if_pos h1]; exact ext_none
    · rw [if_neg h1, if_neg (by simp [h1])]; exact ext_tell (ext_data x)
  · exact ext_data x
  · refine ext_field fun _ _ => ext_field fun _ _ => ext_tell ?_
    split
    · exact ext_some x
    · exact ext_data x
  · exact ext_field fun _ _ => ext_some x
  · exact ext_data x
  · exact ext_pad fun _ _ _ => ext_data x

theorem ext_frame (x : Bytes) : Ext (readFrame r) (readFrame (r ++ x)) :=
  ext_field fun _ _ => ext_field fun _ _ => ext_field fun _ _ => ext_field fun _ _ => ext_tell (ext_body x)

theorem frames_mono : ∀ (k k' : Nat) (m x : Bytes), k ≤ k' → readFrames k m <+: readFrames k' (m ++ x)
  | 0, _, _, _, _ => List.nil_prefix
  | k + 1, 0, _, _, hk => absurd hk (by omega)
  | k + 1, k' + 1, m, x, hk => by
    have he := ext_frame (r := m) x
    rw [readFrames, readFrames]
    generalize readFrame m = a at he
    generalize readFrame (m ++ x) = b at he
    obtain ⟨es, o⟩ := a
    cases o with
    | none =>
      obtain ⟨fs, o'⟩ := b
      cases o' with
      | none => exact he
      | some r' => exact List.IsPrefix.trans he (List.prefix_append _ _)
    | some r =>
      obtain ⟨y, rfl⟩ := he
      exact (List.prefix_append_right_inj es).mpr (frames_mono k k' r y (by omega))

end Release

/-! ## C84 -/

/-- **C84**, without overflow checks, for the description of what is read: the callbacks for `m` are a beginning of
those for `m ++ x`. -/
theorem Release.C84_release_told (m x : Bytes) : Release.told m <+: Release.told (m ++ x) :=
  Release.frames_mono _ _ m x (by rw [List.length_append]; omega)

/-- **C84**, without overflow checks: a client that has passed all of `m` has seen what a client that passes `m ++ x`
sees before anything else, whatever their callbacks answer. (Missing: slices that end within the fields of C41 and C70,
for which `C84_fails` is a witness as well without overflow checks, see below.) -/
theorem Release.C84_release_final_partial (h h' : Handler) (m x : Bytes) (n n' : Nat) (hn : 4 * m.length + 1 ≤ n)
    (hn' : 4 * (m ++ x).length + 1 ≤ n') :
    flat (Release.feed h n ⟨.new, []⟩ m).2.1.log <+: flat (Release.feed h' n' ⟨.new, []⟩ (m ++ x)).2.1.log := by
  rw [(C95_one_slice h m n hn).2.2, (C95_one_slice h' (m ++ x) n' hn').2.2]
  exact Release.C84_release_told m x

/-- A frame with more padding than payload, then what looks like another frame: it is never told as one, however many
bytes follow. With overflow checks the first byte after the pad length makes the parser panic. -/
example : let m := header 1 0 8 false 1 ++ [5] ++ b!"a"
    let x := header 8 6 0 false 0
    Release.told m = [.frameFormat 1 0 8 1, .payload .data b!"a" false] ∧
    Release.told (m ++ x) = Release.told m ++ x.map (.payload .data [·] false) ∧ (told m).2 = true := by decide +kernel

/-- The full C84 fails without overflow checks, too: the witness of `C84_fails`. -/
theorem Release.C84_release_fails :
    let m := header 4 0 0 false 65537 ++ b!"abcd"
    let o := Release.run yes [7, 2, 100] m
    let o' := Release.run yes [100] (m ++ header 8 6 0 false 0)
    o.last = .eos ∧ o.rest = [] ∧ o'.last = .eos ∧ o'.rest = [] ∧ ¬ flat o.world.log <+: flat o'.world.log := by
  decide +kernel

end Verif.Http2
