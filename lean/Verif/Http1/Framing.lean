import Verif.Http1.FramingSpec
import Verif.Http1.LooseSpec
import Verif.Http1.End
import Verif.Util.ByteLemmas

/-!
# Lemmas for C108
-/

namespace Verif.Http1

/-! ## The scanner looks at what it skips only -/

theorem empty_local : ∀ {x r : Bytes}, afterEmptyLine x = some r →
    ∃ p, x = p ++ r ∧ 4 ≤ p.length ∧ ∀ z, afterEmptyLine (p ++ z) = some z
  | x, r, h => by
    induction x using afterEmptyLine.induct generalizing r with
    | case1 r' => cases h; exact ⟨[13, 10, 13, 10], rfl, by simp, fun _ => rfl⟩
    | case2 b m hm ih =>
      rw [afterEmptyLine] at h
      · obtain ⟨p, h1, h2, h3⟩ := ih _ h
        refine ⟨b :: p, by rw [h1]; rfl, by simp only [List.length_cons]; omega, fun z => ?_⟩
        rw [List.cons_append, afterEmptyLine]
        · exact h3 z
        · intro r'' hb e
          obtain ⟨p1, p2, p3, p', rfl⟩ : ∃ p1 p2 p3 p', p = p1 :: p2 :: p3 :: p' := by
            match p, h2 with
            | p1 :: p2 :: p3 :: p', _ => exact ⟨p1, p2, p3, p', rfl⟩
          simp only [List.cons_append, List.cons.injEq] at e
          obtain ⟨rfl, rfl, rfl, -⟩ := e
          exact hm (p' ++ r) hb (by rw [h1]; rfl)
      · exact hm
    | case3 => cases h

theorem split_local : ∀ {x line r : Bytes}, splitLine x = some (line, r) →
    x = line ++ 13 :: 10 :: r ∧ ∀ z, splitLine (line ++ 13 :: 10 :: z) = some (line, z)
  | x, line, r, h => by
    induction x using splitLine.induct generalizing line r with
    | case1 r' => cases h; exact ⟨rfl, fun _ => rfl⟩
    | case2 b m hm ih =>
      rw [splitLine] at h
      · cases hs : splitLine m with
        | none => rw [hs] at h; cases h
        | some y =>
          obtain ⟨l', r'⟩ := y
          rw [hs] at h
          simp only [Option.map_some, Option.some.injEq, Prod.mk.injEq] at h
          obtain ⟨rfl, rfl⟩ := h
          obtain ⟨h1, h2⟩ := ih _ _ hs
          refine ⟨by rw [h1]; rfl, fun z => ?_⟩
          rw [List.cons_append, splitLine]
          · rw [h2]; rfl
          · intro r'' hb e
            cases l' with
            | nil => cases e
            | cons c l' =>
              simp only [List.cons_append, List.cons.injEq] at e
              obtain ⟨rfl, -⟩ := e
              exact hm (l' ++ 13 :: 10 :: r') hb (by rw [h1]; rfl)
      · exact hm
    | case3 => cases h

theorem chunks_local {last : Bytes → Bool} : ∀ (n : Nat) (x r : Bytes), afterChunks last n x = some r →
    ∃ p, x = p ++ r ∧ p ≠ [] ∧ ∀ z k, p.length ≤ k → afterChunks last k (p ++ z) = some z
  | 0, x, r, h => by cases h
  | n + 1, x, r, h => by
    rw [afterChunks] at h
    cases hs : splitLine x with
    | none => rw [hs] at h; cases h
    | some y =>
      obtain ⟨line, s⟩ := y
      rw [hs] at h
      obtain ⟨h1, h2⟩ := split_local hs
      change (if last line = true then _ else _) = _ at h
      by_cases hl : last line = true
      · rw [if_pos hl] at h
        obtain ⟨q, h3, h4, h5⟩ := empty_local h
        obtain ⟨p, rfl⟩ : ∃ p, q = 13 :: 10 :: p := by
          match q, h4 with
          | a :: b :: p, _ =>
            simp only [List.cons_append, List.nil_append, List.cons.injEq] at h3
            obtain ⟨rfl, rfl, -⟩ := h3
            exact ⟨p, rfl⟩
        have h3' : s = p ++ r := by simpa using h3
        refine ⟨line ++ 13 :: 10 :: p, by rw [h1, h3']; simp, by simp, fun z k hk => ?_⟩
        obtain ⟨k, rfl⟩ : ∃ k', k = k' + 1 := ⟨k - 1, by simp only [List.length_append, List.length_cons] at hk; omega⟩
        rw [afterChunks, List.append_assoc, List.cons_append, List.cons_append, h2]
        change (if last line = true then _ else _) = _
        rw [if_pos hl]
        exact h5 z
      · rw [if_neg hl] at h
        split at h
        · rename_i s' hd
          obtain ⟨p, rfl, h4, h5⟩ := chunks_local n s' r h
          have hlen : lineSize line ≤ s.length := by
            have := congrArg List.length hd
            simp only [List.length_drop, List.length_cons] at this
            omega
          have hs' : s = s.take (lineSize line) ++ 13 :: 10 :: (p ++ r) := by rw [← hd, List.take_append_drop]
          refine ⟨line ++ 13 :: 10 :: (s.take (lineSize line) ++ 13 :: 10 :: p), ?_, by simp, fun z k hk => ?_⟩
          · rw [h1]
            conv => lhs; rw [hs']
            simp
          · obtain ⟨k, rfl⟩ : ∃ k', k = k' + 1 :=
              ⟨k - 1, by simp only [List.length_append, List.length_cons] at hk; omega⟩
            have hk' : p.length ≤ k := by simp only [List.length_append, List.length_cons] at hk; omega
            have e : line ++ 13 :: 10 :: (s.take (lineSize line) ++ 13 :: 10 :: p) ++ z =
                line ++ 13 :: 10 :: (s.take (lineSize line) ++ 13 :: 10 :: (p ++ z)) := by simp
            rw [afterChunks, e, h2]
            change (if last line = true then _ else _) = _
            rw [if_neg hl, List.drop_append_of_le_length (by simp; omega), List.drop_eq_nil_of_le (by rw [List.length_take]; omega)]
            exact h5 z k hk'
        · cases h

/-- More bytes do not change the end. -/
theorem body_more {last : Bytes → Bool} {x r : Bytes} (h : afterBody last x = some r) (z : Bytes) :
    afterBody last (x ++ z) = some (r ++ z) := by
  obtain ⟨p, rfl, -, h2⟩ := chunks_local _ _ _ h
  rw [List.append_assoc]
  exact h2 _ _ (by simp)

/-- Where the end is, when it is not in a beginning. -/
theorem body_beyond {last : Bytes → Bool} {y w r : Bytes} {b : UInt8} (h1 : afterBody last y = none)
    (h2 : afterBody last (y ++ b :: w) = some r) : r.length ≤ w.length := by
  obtain ⟨p, h3, -, h4⟩ := chunks_local _ _ _ h2
  rcases Nat.lt_or_ge w.length r.length with hlt | hge
  · exfalso
    have hp : p.length ≤ y.length := by
      have := congrArg List.length h3
      simp only [List.length_append, List.length_cons] at this
      omega
    have : y = p ++ y.drop p.length := by
      have := congrArg (List.take p.length) h3
      rw [List.take_append_of_le_length hp, List.take_left'  rfl] at this
      conv => lhs; rw [← List.take_append_drop p.length y, this]
    have h5 := h4 (y.drop p.length) y.length hp
    rw [← this] at h5
    rw [afterBody, h5] at h1
    cases h1
  · exact hge

/-! ## Bodies of the grammar -/

theorem split_line {s : Bytes} (h : Unbroken s) (r : Bytes) : splitLine (s ++ 13 :: 10 :: r) = some (s, r) := by
  induction s with
  | nil => rfl
  | cons b s ih =>
    rw [List.cons_append, splitLine]
    · rw [ih fun c hc => h c (by simp [hc])]; rfl
    · intro r' hb
      exact absurd hb (h b (by simp)).1

theorem hex_digit {b : UInt8} {n : Nat} (h : Util.HexDigit b n) : Read.hex b = some n := by
  have hn : n < 16 := by
    rcases h with h | h <;> exact (List.getElem?_eq_some_iff.1 h).1
  have key : ∀ b : UInt8, ∀ n : _root_.Fin 16, Util.HexDigit b n → Read.hex b = some n.1 :=
    Util.forall_u8 (by decide +kernel)
  exact key b ⟨n, hn⟩ h

theorem hexVal_num {ds : Bytes} {n : Nat} (h : HexVal ds n) :
    Read.hexNum ds = n ∧ ∀ b ∈ ds, (Read.hex b).isSome = true := by
  induction h with
  | nil => exact ⟨rfl, nofun⟩
  | @snoc ds v b n _ hb ih =>
    refine ⟨?_, fun c hc => ?_⟩
    · rw [Read.hexNum, List.foldl_append, ← Read.hexNum, ih.1]
      simp [hex_digit hb]
    · rcases List.mem_append.1 hc with hc | hc
      · exact ih.2 c hc
      · cases List.mem_singleton.1 hc
        rw [hex_digit hb]; rfl

theorem hex_unbroken {b : UInt8} (h : (Read.hex b).isSome = true) : b ≠ 13 ∧ b ≠ 10 := by
  constructor <;> rintro rfl <;> exact absurd h (by decide)

theorem extQuoted_unbroken {q m : Bytes} (h : ExtQuoted q m) : Unbroken q := by
  induction h with
  | nil => exact .nil
  | byte hb _ _ ih => exact .cons (quoted_unbroken _ hb) ih
  | @esc b q m hb _ _ ih =>
    refine .cons (by decide) (.cons ?_ ih)
    constructor <;> rintro rfl <;> exact absurd hb (by decide)

theorem extText_unbroken {x m : Bytes} (h : ExtText x m) : Unbroken x := by
  induction h with
  | nil => exact .nil
  | byte hb _ _ _ ih => exact .cons (field_unbroken _ hb) ih
  | quoted hq _ ih => exact .cons (by decide) ((extQuoted_unbroken hq).append (.cons (by decide) ih))

theorem ext_unbroken {last : Bool} {x : Extension} (h : x.Loose last) : Unbroken x.write := by
  unfold Extension.write
  refine (((Unbroken.cons (by decide) .nil).append (unbroken_of blank_unbroken h.blanks)).append
    (unbroken_of token_unbroken h.name)).append ?_
  cases hv : x.value with
  | none => exact .nil
  | some v =>
    obtain ⟨h1, h2, -⟩ := h.value v hv
    exact ((Unbroken.cons (by decide) .nil).append (unbroken_of blank_unbroken h1)).append (extText_unbroken h2)

theorem exts_unbroken : ∀ {l : List Extension}, looseExtensions l → Unbroken (l.flatMap Extension.write)
  | [], _ => .nil
  | [x], h => by
    rw [List.flatMap_cons]
    exact (ext_unbroken h).append .nil
  | x :: y :: l, h => by
    rw [List.flatMap_cons]
    exact (ext_unbroken h.1).append (exts_unbroken h.2)

/-- The size line of a chunk. -/
def Chunk.line (x : Chunk) : Bytes := x.size ++ x.extensions.flatMap Extension.write

theorem Chunk.line_unbroken {x : Chunk} (h : x.Loose) : Unbroken x.line :=
  Unbroken.append (fun b hb => hex_unbroken ((hexVal_num h.size).2 b hb)) (exts_unbroken h.extensions)

theorem Chunk.line_size {x : Chunk} (h : x.Loose) : lineSize x.line = x.data.length := by
  obtain ⟨h1, h2⟩ := hexVal_num h.size
  have : x.line.takeWhile (fun b => (Read.hex b).isSome) = x.size := by
    rw [Chunk.line, List.takeWhile_append_of_pos h2]
    cases he : x.extensions with
    | nil => simp
    | cons e l =>
      rw [List.flatMap_cons, Extension.write]
      simp only [List.cons_append, List.append_assoc]
      rw [List.takeWhile_cons, if_neg (by decide)]
      simp
  rw [lineSize, this, h1]

theorem Chunk.line_bare {x : Chunk} (h : x.Loose) : bareZero x.line = false := by
  rw [bareZero, beq_eq_false_iff_ne]
  rcases h.first with ⟨b, t, h1, h2⟩ | ⟨h1, h2⟩
  · rw [Chunk.line, h1]
    intro e
    exact h2 (List.cons.inj e).1
  · rw [Chunk.line, h1]
    cases he : x.extensions with
    | nil => exact absurd he h2
    | cons e l =>
      rw [List.flatMap_cons, Extension.write]
      simp

theorem trailer_after {l : List Line} (h : ∀ y ∈ l, y.OK) (r : Bytes) :
    afterEmptyLine (b!"\r\n" ++ (l.flatMap Line.write ++ b!"\r\n" ++ r)) = some r := by
  have e : Line.write = fun y => y.text ++ [13, 10] := funext Line.write_eq
  have := after_lines r (l.map Line.text) fun s hs => by
    obtain ⟨y, hy, rfl⟩ := List.mem_map.1 hs
    exact Line.text_unbroken (h y hy)
  rw [List.flatMap_map] at this
  rw [e]
  simpa using this

theorem chunks_after {last : Bytes → Bool} (h0 : last b!"0" = true) {t : List Line} (ht : ∀ y ∈ t, y.OK) (r : Bytes) :
    ∀ (cs : List Chunk), (∀ y ∈ cs, y.Loose ∧ last y.line = false) → ∀ n, cs.length < n →
      afterChunks last n (cs.flatMap Chunk.write ++ b!"0\r\n" ++ t.flatMap Line.write ++ b!"\r\n" ++ r) = some r
  | [], _, n + 1, _ => by
    have e : ([] : List Chunk).flatMap Chunk.write ++ b!"0\r\n" ++ t.flatMap Line.write ++ b!"\r\n" ++ r =
        b!"0" ++ 13 :: 10 :: (t.flatMap Line.write ++ b!"\r\n" ++ r) := by simp
    rw [e, afterChunks, split_line (by intro b hb; revert b; decide)]
    change (if last b!"0" = true then _ else _) = _
    rw [if_pos h0]
    exact trailer_after ht r
  | x :: cs, h, n + 1, hn => by
    obtain ⟨h1, h2⟩ := h x (by simp)
    have ih := chunks_after h0 ht r cs (fun y hy => h y (by simp [hy])) n (by simp only [List.length_cons] at hn; omega)
    generalize hw : cs.flatMap Chunk.write ++ b!"0\r\n" ++ t.flatMap Line.write ++ b!"\r\n" ++ r = w at ih
    have e : (x :: cs).flatMap Chunk.write ++ b!"0\r\n" ++ t.flatMap Line.write ++ b!"\r\n" ++ r =
        x.line ++ 13 :: 10 :: (x.data ++ 13 :: 10 :: w) := by
      rw [← hw]; simp [Chunk.write, Chunk.line]
    rw [e, afterChunks, split_line (Chunk.line_unbroken h1)]
    change (if last x.line = true then _ else _) = _
    rw [if_neg (by rw [h2]; nofun), Chunk.line_size h1, List.drop_left' rfl]
    exact ih

theorem chunk_write_pos (x : Chunk) : 0 < x.write.length := by simp [Chunk.write]; omega

theorem chunks_short : ∀ cs : List Chunk, cs.length ≤ (cs.flatMap Chunk.write).length
  | [] => by simp
  | x :: cs => by
    have := chunks_short cs
    have := chunk_write_pos x
    rw [List.flatMap_cons, List.length_append, List.length_cons]
    omega

theorem body_after {last : Bytes → Bool} (h0 : last b!"0" = true) {x : LooseBody} (h : x.OK)
    (hl : ∀ y ∈ x.chunks, last y.line = false) (r : Bytes) : afterBody last (x.write ++ r) = some r := by
  refine chunks_after h0 h.trailer r x.chunks (fun y hy => ⟨h.chunks y hy, hl y hy⟩) _ ?_
  have := chunks_short x.chunks
  simp only [LooseBody.write, List.length_append, List.length_cons]
  omega

/-! ## Lines that end with LF -/

theorem split_lf {s : Bytes} (h : Unbroken s) (r : Bytes) : splitLf (s ++ 13 :: 10 :: r) = some (s ++ [13], r) := by
  induction s with
  | nil => rfl
  | cons b s ih =>
    rw [List.cons_append, splitLf, if_neg (h b (by simp)).2, ih fun c hc => h c (by simp [hc])]
    rfl

theorem lf_line {s : Bytes} (h : Unbroken s) (r : Bytes) : lfLine (s ++ 13 :: 10 :: r) = some (s, r) := by
  rw [lfLine, split_lf h]
  simp

theorem lf_trailer (r : Bytes) : ∀ (ls : List Bytes), (∀ s ∈ ls, Unbroken s ∧ s ≠ []) → ∀ n, ls.length < n →
    lfTrailer n (ls.flatMap (· ++ [13, 10]) ++ 13 :: 10 :: r) = some r
  | [], _, n + 1, _ => rfl
  | s :: ls, h, n + 1, hn => by
    obtain ⟨h1, h2⟩ := h s (by simp)
    have ih := lf_trailer r ls (fun t ht => h t (by simp [ht])) n (by simp only [List.length_cons] at hn; omega)
    rw [List.flatMap_cons, List.append_assoc, List.append_assoc, lfTrailer]
    simp only [List.cons_append, List.nil_append]
    rw [lf_line h1]
    cases s with
    | nil => exact absurd rfl h2
    | cons b s => exact ih

theorem lines_short : ∀ ls : List Bytes, ls.length ≤ (ls.flatMap (· ++ [13, 10])).length
  | [] => by simp
  | s :: ls => by
    have := lines_short ls
    rw [List.flatMap_cons, List.length_append, List.length_cons]
    simp only [List.length_append, List.length_cons]
    omega

theorem trailer_lf {l : List Line} (h : ∀ y ∈ l, y.OK) (r : Bytes) :
    let x := l.flatMap Line.write ++ b!"\r\n" ++ r
    lfTrailer x.length x = some r := by
  intro x
  have e : Line.write = fun y => y.text ++ [13, 10] := funext Line.write_eq
  have hx : x = (l.map Line.text).flatMap (· ++ [13, 10]) ++ 13 :: 10 :: r := by
    change l.flatMap Line.write ++ _ ++ _ = _
    rw [List.flatMap_map, e]
    simp
  have := lines_short (l.map Line.text)
  rw [hx]
  refine lf_trailer r _ (fun s hs => ?_) _ ?_
  · obtain ⟨y, hy, rfl⟩ := List.mem_map.1 hs
    exact Line.text_unbroken (h y hy)
  · rw [List.length_append, List.length_cons]
    omega

theorem chunks_lf {last : Bytes → Bool} (h0 : last b!"0" = true) {t : List Line} (ht : ∀ y ∈ t, y.OK) (r : Bytes) :
    ∀ (cs : List Chunk), (∀ y ∈ cs, y.Loose ∧ last y.line = false) → ∀ n, cs.length < n →
      lfChunks last n (cs.flatMap Chunk.write ++ b!"0\r\n" ++ t.flatMap Line.write ++ b!"\r\n" ++ r) = some r
  | [], _, n + 1, _ => by
    have e : ([] : List Chunk).flatMap Chunk.write ++ b!"0\r\n" ++ t.flatMap Line.write ++ b!"\r\n" ++ r =
        b!"0" ++ 13 :: 10 :: (t.flatMap Line.write ++ b!"\r\n" ++ r) := by simp
    rw [e, lfChunks, lf_line (by intro b hb; revert b; decide)]
    change (if last b!"0" = true then _ else _) = _
    rw [if_pos h0]
    exact trailer_lf ht r
  | x :: cs, h, n + 1, hn => by
    obtain ⟨h1, h2⟩ := h x (by simp)
    have ih := chunks_lf h0 ht r cs (fun y hy => h y (by simp [hy])) n (by simp only [List.length_cons] at hn; omega)
    generalize hw : cs.flatMap Chunk.write ++ b!"0\r\n" ++ t.flatMap Line.write ++ b!"\r\n" ++ r = w at ih
    have e : (x :: cs).flatMap Chunk.write ++ b!"0\r\n" ++ t.flatMap Line.write ++ b!"\r\n" ++ r =
        x.line ++ 13 :: 10 :: (x.data ++ 13 :: 10 :: w) := by
      rw [← hw]; simp [Chunk.write, Chunk.line]
    rw [e, lfChunks, lf_line (Chunk.line_unbroken h1)]
    change (if last x.line = true then _ else _) = _
    rw [if_neg (by rw [h2]; nofun), Chunk.line_size h1, List.drop_left' rfl,
      show lfLine (13 :: 10 :: w) = some ([], w) from lf_line (s := []) .nil w]
    exact ih

theorem body_lf {last : Bytes → Bool} (h0 : last b!"0" = true) {x : LooseBody} (h : x.OK)
    (hl : ∀ y ∈ x.chunks, last y.line = false) (r : Bytes) : lfBody last (x.write ++ r) = some r := by
  refine chunks_lf h0 h.trailer r x.chunks (fun y hy => ⟨h.chunks y hy, hl y hy⟩) _ ?_
  have := chunks_short x.chunks
  simp only [LooseBody.write, List.length_append, List.length_cons]
  omega

end Verif.Http1
