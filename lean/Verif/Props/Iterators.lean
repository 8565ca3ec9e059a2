import Verif.Util.ReadSpec
import Verif.Props.Field
import Verif.Props.Query

/-!
# What any bytes mean to the iterators

C79 (header fields), C80 (queries): what every call of `next` does, for every byte string; the readers are in
`Verif.Util.ReadSpec`.
-/

namespace Verif.Util

open Ctx

/-! ## C79 -/

/-- What the reader of C79 calls it. -/
def FOut.got : FOut → Read.Got FieldError
  | .item x r => .item x r
  | .stop => .nothing
  | .error e => .wrong e []
  | .panic => .crash

theorem blank_eq : blank = fun b => decide (Blank b) := by
  funext b
  have : ∀ b, blank b = decide (Blank b) := by apply forall_u8; decide +kernel
  exact this b

theorem fAfter_got (d : UInt8) (n v r : Bytes) : (fAfter d n v r).got = Read.afterQuoted d n v r := by
  unfold fAfter Read.afterQuoted
  rw [blank_eq]
  generalize r.dropWhile _ = r
  rcases r with _ | ⟨a, _ | ⟨b, r⟩⟩
  · rfl
  · rfl
  · dsimp only; split <;> rfl

theorem quoted_not : ∀ b : UInt8, QuotedByte b → b ≠ c! '"' ∧ b ≠ c! '\\' ∧ FieldByte b := by
  apply forall_u8; decide +kernel

theorem quoted_iff : ∀ b : UInt8, b ≠ c! '"' → b ≠ c! '\\' → (QuotedByte b ↔ FieldByte b) := by
  apply forall_u8; decide +kernel

theorem fQuoted_got (d : UInt8) (n : Bytes) : ∀ (k : Nat) (r : Bytes) (p : UInt8) (v : Bytes), r.length ≤ k →
    (fQuoted d n p r v).got = Read.quotedValue d n p r v
  | _, [], p, v, _ => by rw [fQuoted, Read.quotedValue]; rfl
  | 0, b :: r, _, _, hk => by simp at hk
  | k + 1, b :: r, p, v, hk => by
    simp only [List.length_cons] at hk
    rw [fQuoted_cons, Read.quotedValue.eq_def]
    dsimp only
    by_cases h0 : b = 255
    · rw [if_pos h0, if_pos h0]; rfl
    rw [if_neg h0, if_neg h0]
    by_cases h1 : b = c! '"'
    · rw [if_pos h1, if_neg (fun h => (quoted_not b h).1 h1), if_pos h1, fAfter_got]
    rw [if_neg h1, if_neg h1]
    by_cases h2 : b = c! '\\'
    · rw [if_pos h2, if_neg (fun h => (quoted_not b h).2.1 h2), if_pos h2]
      cases r with
      | nil => rfl
      | cons e r => exact fQuoted_got d n k r e _ (by simp at hk; omega)
    rw [if_neg h2, if_neg h2]
    by_cases h3 : FieldByte b
    · rw [if_pos h3, if_pos ((quoted_iff b h1 h2).mpr h3)]; exact fQuoted_got d n k r b _ (by omega)
    · rw [if_neg h3, if_neg (fun h => h3 ((quoted_iff b h1 h2).mp h))]; rfl

theorem fPlain_got (d : UInt8) (n : Bytes) : ∀ (r v : Bytes), (fPlain d n r v).got = Read.plainValue d n r v
  | [], v => rfl
  | b :: r, v => by
    rw [fPlain, Read.plainValue]
    split
    · rfl
    split
    · rfl
    split
    · exact fPlain_got d n r _
    · rfl

theorem fValue_got (d : UInt8) (n r : Bytes) : (fValue d n r).got = Read.fieldValue d n r := by
  unfold fValue Read.fieldValue
  rw [blank_eq]
  generalize r.dropWhile _ = r
  cases r with
  | nil => rfl
  | cons b r =>
    dsimp only
    split
    · exact fQuoted_got d n _ r b [] (Nat.le_refl _)
    · exact fPlain_got d n _ _

theorem stop_iff (d : UInt8) (z : Bool) (b : UInt8) (h1 : b ≠ c! '=') (h2 : b ≠ c! '/') (h3 : b ≠ d)
    (h4 : ¬ (z = true ∧ UpperByte b)) : fieldStop d z b = false := by
  unfold fieldStop
  have h5 : (z && isUpper b) = false := by
    cases z
    · rfl
    · have : ∀ b : UInt8, ¬ UpperByte b → isUpper b = false := by apply forall_u8; decide +kernel
      exact this b fun h => h4 ⟨rfl, h⟩
  simp [h1, h2, h3, h5]

theorem upper_facts : ∀ b : UInt8, UpperByte b → isUpper b = true ∧ lower [b] = [b + 0x20] := by
  apply forall_u8; decide +kernel

theorem upper_token' : ∀ b : UInt8, isUpper b = true → TokenByte b := by
  apply forall_u8; decide +kernel

theorem token_eq : ∀ b : UInt8, TokenByte b → b ≠ c! '=' ∧ b ≠ c! '/' := by
  apply forall_u8; decide +kernel

theorem fName_got (d : UInt8) (z : Bool) : ∀ (r : Bytes) (loose : Bool) (n : Bytes),
    (fName d z loose r n).got = Read.fieldItem d z loose r n
  | [], loose, n => by rw [fName, Read.fieldItem]; cases loose <;> rfl
  | b :: r, loose, n => by
    rw [fName_cons, Read.fieldItem]
    have hb : (loose && blank b) = decide (loose = true ∧ Blank b) := by
      rw [blank_eq]; cases loose <;> simp
    rw [hb]
    by_cases h0 : loose = true ∧ Blank b
    · rw [if_pos (by simp [h0]), if_pos h0]; exact fName_got d z r true n
    rw [if_neg (by simpa using h0), if_neg h0]
    by_cases h1 : b = 255
    · rw [if_pos h1, if_pos h1]; rfl
    rw [if_neg h1, if_neg h1]
    by_cases h2 : b = c! '='
    · rw [if_pos h2, if_pos h2, if_neg (fun h => (token_eq b h.1).1 h2)]; exact fValue_got d n r
    rw [if_neg h2, if_neg h2]
    by_cases h3 : b = c! '/'
    · rw [if_pos h3, if_pos h3, if_neg (fun h => (token_eq b h.1).2 h3), h3]; exact fName_got d z r true _
    rw [if_neg h3, if_neg h3]
    by_cases h4 : b = d
    · rw [if_pos h4, if_pos h4, if_neg (fun h => by have := h.2; simp [fieldStop, h4] at this)]; rfl
    rw [if_neg h4, if_neg h4]
    by_cases h5 : z = true ∧ UpperByte b
    · obtain ⟨h6, h7⟩ := upper_facts b h5.2
      rw [if_pos h5, if_neg (fun h => by have := h.2; simp [fieldStop, h5.1, h6] at this), if_pos h6, h7]
      exact fName_got d z r true _
    rw [if_neg h5]
    have h6 := stop_iff d z b h2 h3 h4 h5
    by_cases h7 : TokenByte b
    · rw [if_pos h7, if_pos ⟨h7, h6⟩]; exact fName_got d z r false _
    · rw [if_neg h7, if_neg (fun h => h7 h.1), if_neg (fun h => h7 (upper_token' b h))]; rfl

theorem said_field (d : UInt8) (z : Bool) : ∀ (n : Nat) (it : FieldIter) (first : Bool),
    it.ctx.idx ≤ it.ctx.stream.length → it.delimiter = d → it.normalize = z →
    said FieldIter.next FieldIter.errs n it = Read.calls (fun _ r => Read.fieldItem d z true r []) n first it.ctx.rest
  | 0, _, _, _, _, _ => rfl
  | n + 1, it, first, hi, hd, hz => by
    rw [said, Read.calls]
    rcases field_next hi with ⟨e0, e⟩ | ⟨_, hm⟩
    · rw [e, e0]
      have := said_field d z n it false hi hd hz
      rw [e0] at this
      simp only [Read.fieldItem, if_true, List.drop_length, this]
    · rw [hd, hz] at hm
      rw [← fName_got]
      generalize fName d z true it.ctx.rest [] = o at hm
      cases o with
      | item x r =>
        obtain ⟨it', h1, -, h3, h4, h5, h6, h7⟩ := hm
        rw [h1]
        simp only [FOut.got, h5, List.drop_length]
        rw [said_field d z n it' false h4 (h6.trans hd) (h7.trans hz), h3]
      | stop =>
        obtain ⟨it', h1, -, h3, h4, h5, h6, h7⟩ := hm
        rw [h1]
        simp only [FOut.got, h5, List.drop_length]
        rw [said_field d z n it' false h4 (h6.trans hd) (h7.trans hz), h3]
      | error e =>
        obtain ⟨it', h1, -, h3, h4, h5, h6, h7⟩ := hm
        rw [h1]
        simp only [FOut.got, h5, List.drop_left]
        rw [said_field d z n it' false h4 (h6.trans hd) (h7.trans hz), h3]
      | panic =>
        have hm : it.next = .panic := hm
        rw [hm]; rfl

/-- **C79.** For every byte string, delimiter and flag, and any number of calls: `next` returns the items, reports the
errors and panics as the reader `Read.field` says. -/
theorem C79_fields (x : Bytes) (d : UInt8) (z : Bool) (n : Nat) :
    said FieldIter.next FieldIter.errs n (FieldIter.new x d z) = Read.field d z n x := by
  rw [said_field d z n _ true (fnew_idx x d z) rfl rfl, fnew_rest]; rfl

/-- An oddity in each item: a blank in the middle of a name, an empty name, one more byte after a closing quote. Then an
error. The other field contains byte 255. -/
example : said FieldIter.next FieldIter.errs 5 (FieldIter.new b!"text/ Html; =1;b=\"c\\\"\"!;d{e" (c! ';') true) =
      [.returns (some (b!"text/html", none)) [], .returns (some ([], some b!"1")) [],
        .returns (some (b!"b", some b!"c\"")) [], .returns none [.name (c! '{')], .returns none []] ∧
    Read.field (c! ';') true 5 b!"text/ Html; =1;b=\"c\\\"\"!;d{e" =
      [.returns (some (b!"text/html", none)) [], .returns (some ([], some b!"1")) [],
        .returns (some (b!"b", some b!"c\"")) [], .returns none [.name (c! '{')], .returns none []] ∧
    Read.field (c! ';') true 5 (b!"a;b=c" ++ [255]) = [.returns (some (b!"a", none)) [], .panic] := by decide +kernel

/-! ## C80 -/

/-- What the reader of C80 calls it. -/
def QOut.got : QOut → Read.Got QueryError
  | .item x r => .item x r
  | .error e r => .wrong e r

theorem hex_eq : ∀ b : UInt8, (Read.hexDigit b).map UInt8.ofNat = hexNibble b := by
  apply forall_u8; decide +kernel

theorem hex_small {b : UInt8} {i : Nat} (h : Read.hexDigit b = some i) : i < 16 := by
  have := List.mem_of_find?_eq_some h
  simpa using this

theorem hex_cases (b : UInt8) : (Read.hexDigit b = none ∧ hexNibble b = none) ∨
    ∃ i, i < 16 ∧ Read.hexDigit b = some i ∧ hexNibble b = some (UInt8.ofNat i) := by
  have := hex_eq b
  cases h : Read.hexDigit b with
  | none => rw [h] at this; exact .inl ⟨rfl, this.symm⟩
  | some i => rw [h] at this; exact .inr ⟨i, hex_small h, rfl, this.symm⟩

theorem hex_sum (i j : Nat) (hi : i < 16) (hj : j < 16) :
    (UInt8.ofNat i <<< 4) + UInt8.ofNat j = UInt8.ofNat (16 * i + j) := by
  have : ∀ i j : Fin 16, (UInt8.ofNat i <<< 4) + UInt8.ofNat j = UInt8.ofNat (16 * i + j) := by decide +kernel
  exact this ⟨i, hi⟩ ⟨j, hj⟩

theorem visible_eq : ∀ b : UInt8, (isVisible7bit b = true) = (0x21 ≤ b ∧ b ≤ 0x7E) := by
  intro b; simp [isVisible7bit]

theorem qv_got (n : Bytes) : ∀ (k : Nat) (r v : Bytes), r.length ≤ k → (qv n r v).got = Read.queryValue n r v
  | _, [], v, _ => by rw [qv, Read.queryValue]; rfl
  | 0, b :: r, _, hk => by simp at hk
  | k + 1, b :: r, v, hk => by
    simp only [List.length_cons] at hk
    rw [qv_cons, Read.queryValue.eq_def]
    dsimp only
    by_cases h1 : b = c! '%'
    · rw [if_pos h1, if_pos h1]
      rcases r with _ | ⟨h, _ | ⟨l, r⟩⟩
      · rfl
      · rfl
      · simp only [List.length_cons] at hk
        rcases hex_cases h with ⟨e1, e2⟩ | ⟨i, hi, e1, e2⟩
        · simp only [e1, e2]; rfl
        · rcases hex_cases l with ⟨e3, e4⟩ | ⟨j, hj, e3, e4⟩
          · simp only [e1, e2, e3, e4]; rfl
          · simp only [e1, e2, e3, e4, hex_sum i j hi hj]
            exact qv_got n k r _ (by omega)
    rw [if_neg h1, if_neg h1]
    split
    · exact qv_got n k r _ (by omega)
    split
    · rfl
    simp only [visible_eq]
    split
    · exact qv_got n k r _ (by omega)
    · rfl

theorem qn_got : ∀ (r : Bytes) (first : Bool) (n : Bytes), (qn first r n).got = Read.queryName first r n
  | [], _, _ => rfl
  | b :: r, first, n => by
    rw [qn.eq_def, Read.queryName.eq_def]
    dsimp only
    by_cases h1 : b = c! '%'
    · rw [if_pos h1, if_pos h1]
      rcases r with _ | ⟨h, _ | ⟨l, r⟩⟩
      · rfl
      · rfl
      · rcases hex_cases h with ⟨e1, e2⟩ | ⟨i, hi, e1, e2⟩
        · simp only [e1, e2]; rfl
        · rcases hex_cases l with ⟨e3, e4⟩ | ⟨j, hj, e3, e4⟩
          · simp only [e1, e2, e3, e4]; rfl
          · simp only [e1, e2, e3, e4]; rfl
    rw [if_neg h1, if_neg h1]
    split
    · exact qn_got r false _
    split
    · cases first
      · exact qv_got n _ r [] (Nat.le_refl _)
      · rfl
    split
    · cases first <;> rfl
    simp only [visible_eq]
    split
    · exact qn_got r false _
    · rfl

theorem item_moves {it it' : QueryIter} {r : Bytes} (hl : r.length < it.ctx.rest.length)
    (hs : it'.ctx.stream = it.ctx.stream) (hr' : it'.ctx.rest = r) :
    (it'.ctx.idx == 0) = false := by
  have h1 : r.length = it'.ctx.stream.length - it'.ctx.idx := by rw [← hr']; simp [Ctx.rest]
  have h2 : it.ctx.rest.length = it.ctx.stream.length - it.ctx.idx := by simp [Ctx.rest]
  rw [hs] at h1
  rw [beq_eq_false_iff_ne]
  omega

theorem said_query : ∀ (n : Nat) (it : QueryIter), it.ctx.idx ≤ it.ctx.stream.length →
    said QueryIter.next QueryIter.errs n it =
      Read.calls (fun first r => if r = [] then .nothing else Read.queryName first r []) n (it.ctx.idx == 0) it.ctx.rest
  | 0, _, _ => rfl
  | n + 1, it, hi => by
    rw [said, Read.calls]
    have hf : ∀ (n : Nat) (f g : Bool), Read.calls (fun first r => if r = [] then .nothing else Read.queryName first r []) n f [] =
        Read.calls (fun first r => if r = [] then .nothing else Read.queryName first r []) n g [] := by
      intro n f g; cases n <;> simp [Read.calls]
    rcases query_next hi with ⟨e0, e⟩ | ⟨hne, hm⟩
    · rw [e, e0]
      have := said_query n it hi
      rw [e0, hf n _ false] at this
      simp only [if_true, List.drop_length, this]
    · rw [if_neg hne, ← qn_got]
      have hlt := (qn_lt it.ctx.rest (it.ctx.idx == 0) []).2 hne
      generalize qn (it.ctx.idx == 0) it.ctx.rest [] = o at hm hlt
      generalize it.next = s at hm
      cases o with
      | item x r =>
        cases s with
        | item y it' =>
          obtain ⟨rfl, h1, h2, h3, h4⟩ := hm
          simp only [QOut.got, h4, List.drop_length]
          rw [said_query n it' h3, item_moves hlt h1 h2, h2]
        | none it' => exact hm.elim
        | panic => exact hm.elim
        | diverge => exact hm.elim
      | error e r =>
        cases s with
        | none it' =>
          obtain ⟨h1, h2, h3, h4⟩ := hm
          simp only [QOut.got, h4, List.drop_left]
          rw [said_query n it' h3, item_moves hlt h1 h2, h2]
        | item y it' => exact hm.elim
        | panic => exact hm.elim
        | diverge => exact hm.elim

/-- **C80.** For every byte string and any number of calls: `next` returns the items and reports the errors as the
reader `Read.query` says. It never panics. -/
theorem C80_queries (x : Bytes) (n : Nat) :
    said QueryIter.next QueryIter.errs n (QueryIter.new x) = Read.query n x := by
  rw [said_query n _ (new_idx x), new_rest]; rfl

/-- Iteration goes on after an error. -/
example : said QueryIter.next QueryIter.errs 5 (QueryIter.new b!"a+b=%41&;c=%4xd=1&e") =
      [.returns (some (b!"a b", some b!"A")) [], .returns (some ([], none)) [], .returns none [.value (c! 'x')],
        .returns (some (b!"d", some b!"1")) [], .returns (some (b!"e", none)) []] ∧
    Read.query 5 b!"a+b=%41&;c=%4xd=1&e" =
      [.returns (some (b!"a b", some b!"A")) [], .returns (some ([], none)) [], .returns none [.value (c! 'x')],
        .returns (some (b!"d", some b!"1")) [], .returns (some (b!"e", none)) []] := by decide +kernel

end Verif.Util
