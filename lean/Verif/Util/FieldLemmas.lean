import Verif.Util.Field
import Verif.Util.DecodeLemmas
import Mathlib.Data.List.TakeWhile
import Verif.Util.FieldSpec

/-!
# Header field iteration (helper lemmas)
-/

namespace Verif.Util

open Ctx

theorem tok_eq : ∀ b : UInt8, isToken b = if b = 255 then none else some (decide (TokenByte b)) := by
  apply forall_u8; decide +kernel

theorem fld_eq : ∀ b : UInt8, isHeaderField b = if b = 255 then none else some (decide (FieldByte b)) := by
  apply forall_u8; decide +kernel

theorem quo_eq : ∀ b : UInt8, isQuotedHeaderField b = if b = 255 then none else some (decide (QuotedByte b)) := by
  apply forall_u8; decide +kernel

/-- The effect of a part of `next` on the unread bytes. -/
inductive FOut
  | item (x : Item) (r : Bytes)
  /-- `None` without an error, nothing left -/
  | stop
  /-- `None` with an error, nothing left -/
  | error (e : FieldError)
  | panic

/-- A space or a tab. -/
def blank (b : UInt8) : Bool := b == c! ' ' || b == c! '\t'

/-- After the closing quote. -/
def fAfter (d : UInt8) (n v r : Bytes) : FOut :=
  match r.dropWhile blank with
  | [] => .item (n, some v) []
  | [_] => .item (n, some v) []
  | _ :: b :: r => if b = d then .item (n, some v) r else .error (.value b)

/-- The loop over a quoted value; `p` is the byte read last. -/
def fQuoted (d : UInt8) (n : Bytes) : UInt8 → Bytes → Bytes → FOut
  | p, [], _ => .error (.value p)
  | _, [b], v => if b = 255 then .panic else if QuotedByte b then .error (.value b)
    else if b = c! '"' then fAfter d n v []
    else if b = c! '\\' then .error (.name b) else .error (.value b)
  | _, b :: e :: r, v =>
    if b = 255 then .panic
    else if QuotedByte b then fQuoted d n b (e :: r) (v ++ [b])
    else if b = c! '"' then fAfter d n v (e :: r)
    else if b = c! '\\' then fQuoted d n e r (v ++ [e])
    else .error (.value b)

/-- An unquoted value. -/
def fPlain (d : UInt8) (n : Bytes) : Bytes → Bytes → FOut
  | [], v => .item (n, some v) []
  | b :: r, v =>
    if b = 255 then .panic
    else if b = d then .item (n, some v) r
    else if FieldByte b then fPlain d n r (v ++ [b])
    else .error (.value b)

/-- The part after the equals sign. -/
def fValue (d : UInt8) (n r : Bytes) : FOut :=
  match r.dropWhile blank with
  | [] => .item (n, none) []
  | b :: r => if b = c! '"' then fQuoted d n b r [] else fPlain d n (b :: r) []

/-- The outer loop; `start` says that blanks are skipped. -/
def fName (d : UInt8) (z : Bool) : Bool → Bytes → Bytes → FOut
  | start, [], n => if start then .stop else .item (n, none) []
  | start, b :: r, n =>
    if start && blank b then fName d z true r n
    else if b = 255 then .panic
    else if TokenByte b ∧ fieldStop d z b = false then fName d z false r (n ++ [b])
    else if b = c! '=' then fValue d n r
    else if b = c! '/' then fName d z true r (n ++ [c! '/'])
    else if b = d then .item (n, none) r
    else if isUpper b then fName d z true r (n ++ [b + 0x20])
    else .error (.name b)

theorem fQuoted_cons (d : UInt8) (n : Bytes) (p b : UInt8) (r v : Bytes) : fQuoted d n p (b :: r) v =
    if b = 255 then .panic
    else if QuotedByte b then fQuoted d n b r (v ++ [b])
    else if b = c! '"' then fAfter d n v r
    else if b = c! '\\' then (match r with | [] => .error (.name b) | e :: r => fQuoted d n e r (v ++ [e]))
    else .error (.value b) := by
  cases r with
  | nil => simp [fQuoted]
  | cons e r => rw [fQuoted]

theorem fName_cons (d : UInt8) (z start : Bool) (b : UInt8) (r n : Bytes) :
    fName d z start (b :: r) n =
    if start && blank b then fName d z true r n
    else if b = 255 then .panic
    else if TokenByte b ∧ fieldStop d z b = false then fName d z false r (n ++ [b])
    else if b = c! '=' then fValue d n r
    else if b = c! '/' then fName d z true r (n ++ [c! '/'])
    else if b = d then .item (n, none) r
    else if isUpper b then fName d z true r (n ++ [b + 0x20])
    else .error (.name b) := by
  rw [fName]

/-- The step `s` of the iterator `it` has the effect `o`. -/
def FMatch (it : FieldIter) (o : FOut) (s : Step FieldIter) : Prop :=
  match o with
  | .item x r => ∃ it', s = .item x it' ∧ it'.ctx.stream = it.ctx.stream ∧ it'.ctx.rest = r ∧
      it'.ctx.idx ≤ it'.ctx.stream.length ∧ it'.errs = it.errs ∧ it'.delimiter = it.delimiter ∧
      it'.normalize = it.normalize
  | .stop => ∃ it', s = .none it' ∧ it'.ctx.stream = it.ctx.stream ∧ it'.ctx.rest = [] ∧
      it'.ctx.idx ≤ it'.ctx.stream.length ∧ it'.errs = it.errs ∧ it'.delimiter = it.delimiter ∧
      it'.normalize = it.normalize
  | .error e => ∃ it', s = .none it' ∧ it'.ctx.stream = it.ctx.stream ∧ it'.ctx.rest = [] ∧
      it'.ctx.idx ≤ it'.ctx.stream.length ∧ it'.errs = it.errs ++ [e] ∧
      it'.delimiter = it.delimiter ∧ it'.normalize = it.normalize
  | .panic => s = .panic

/-- The iterators agree in what the matching looks at. -/
structure FSame (it it' : FieldIter) : Prop where
  stream : it'.ctx.stream = it.ctx.stream
  errs : it'.errs = it.errs
  delimiter : it'.delimiter = it.delimiter
  normalize : it'.normalize = it.normalize

theorem FMatch.mono {it it' : FieldIter} {o : FOut} {s : Step FieldIter} (h : FMatch it' o s)
    (hs : FSame it it') : FMatch it o s := by
  obtain ⟨h1, h2, h3, h4⟩ := hs
  cases o <;> simp only [FMatch, h1, h2, h3, h4] at h ⊢ <;> exact h

theorem fmatch_error {it it' : FieldIter} (hs : FSame it it')
    (h3 : it'.ctx.idx ≤ it'.ctx.stream.length) {mk : UInt8 → FieldError} {b : UInt8}
    (hb : it'.ctx.byte = b) : FMatch it (.error (mk b)) (it'.submitError mk) := by
  refine ⟨_, rfl, hs.stream, ?_, ?_, by simp [hs.errs, jump, hb],
    hs.delimiter, hs.normalize⟩
  · simp [rest, jump, available]; omega
  · simp [jump, available]; omega

theorem fmatch_item {it it' : FieldIter} {x : Item} {r : Bytes} (hs : FSame it it')
    (h2 : it'.ctx.rest = r) (h3 : it'.ctx.idx ≤ it'.ctx.stream.length) :
    FMatch it (.item x r) (.item x it') :=
  ⟨it', rfl, hs.stream, h2, h3, hs.errs, hs.delimiter, hs.normalize⟩

/-- What `consume_linear_space!` does to the unread bytes. -/
theorem blank_cases (c : Ctx) (hi : c.idx ≤ c.stream.length) :
    (c.rest.dropWhile blank = [] ∧ ∃ c', c.consumeLinearSpace = .eos c' ∧ c'.stream = c.stream ∧
      c'.rest = [] ∧ c'.idx ≤ c'.stream.length) ∨
    ∃ b r c', c.rest.dropWhile blank = b :: r ∧ c.consumeLinearSpace = .brk c' ∧
      c'.stream = c.stream ∧ c'.rest = r ∧ c'.byte = b ∧ c'.idx ≤ c'.stream.length ∧
      c'.replay.rest = b :: r ∧ c'.replay.idx ≤ c'.stream.length := by
  unfold consumeLinearSpace
  by_cases h0 : c.available = 0
  · rw [if_pos h0]
    have : c.rest = [] := List.eq_nil_of_length_eq_zero (by rw [← avail_rest]; exact h0)
    exact .inl ⟨by simp [this], c, rfl, rfl, this, hi⟩
  · rw [if_neg h0]
    cases hr : c.rest with
    | nil => rw [avail_rest, hr] at h0; simp at h0
    | cons a t =>
      have hst : (c.startsWith [c! ' '] || c.startsWith [c! '\t']) = blank a := by
        simp only [startsWith, hr, List.isPrefixOf, Bool.and_true, blank]
        rw [show (c! ' ' == a) = (a == c! ' ') from BEq.comm,
          show (c! '\t' == a) = (a == c! '\t') from BEq.comm]
      rw [hst]
      by_cases hb : blank a = true
      · rw [if_pos hb]
        have e0 : c.linearSpaceLoop = collectGo (fun b => if blank b then .cont else .brk) c.rest c := rfl
        rw [e0]
        rcases collectGo_cases (fun b => if blank b then Act.cont else .brk) c.rest c with
          ⟨h1, h2⟩ | ⟨pre, b, post, h1, h2, h3, h4⟩
        · rw [h2]
          refine .inl ⟨?_, _, rfl, rfl, ?_, ?_⟩
          · rw [← hr]; refine List.dropWhile_eq_nil_iff.2 ?_
            intro x hx
            have := h1 x hx
            split at this
            · assumption
            · cases this
          · simp [rest]; omega
          · simp [rest]; omega
        · have hbb : blank b = false := by
            by_contra hh
            rw [if_pos (by simpa using hh)] at h3; exact h3 rfl
          rw [if_neg (by simp [hbb])] at h4
          rw [h4]
          have hlen := congrArg List.length h1
          simp [rest] at hlen
          refine .inr ⟨b, post, _, ?_, rfl, rfl, ?_, rfl, ?_, ?_, ?_⟩
          · rw [← hr, h1]
            rw [List.dropWhile_append_of_pos]
            · rw [List.dropWhile_cons_of_neg (by simp [hbb])]
            · intro x hx
              have := h2 x hx
              split at this
              · assumption
              · cases this
          · have := rest_drop (c := c) (pre := pre ++ [b]) (post := post) (by simpa using h1)
            simpa [rest, Nat.add_assoc] using this
          · show c.idx + pre.length + 1 ≤ c.stream.length
            omega
          · show c.stream.drop (c.idx + pre.length + 1 - 1) = _
            exact rest_drop h1
          · show c.idx + pre.length + 1 - 1 ≤ c.stream.length
            omega
      · rw [if_neg hb, next_cons hr]
        have := idx_of_rest hr
        refine .inr ⟨a, t, _, ?_, rfl, rfl, rest_succ hr, rfl, ?_, ?_, ?_⟩
        · rw [List.dropWhile_cons_of_neg hb]
        · show c.idx + 1 ≤ c.stream.length
          omega
        · show c.stream.drop (c.idx + 1 - 1) = _
          exact hr
        · show c.idx + 1 - 1 ≤ c.stream.length
          omega

theorem afterQuote_match {it : FieldIter} {v : Bytes} (hv : it.value ++ it.ctx.sliceIgnore = v)
    (hi : it.ctx.idx ≤ it.ctx.stream.length) :
    FMatch it (fAfter it.delimiter it.name v it.ctx.rest) (afterQuote it) := by
  unfold afterQuote fAfter
  dsimp only
  rcases blank_cases it.ctx hi with ⟨h1, c', h2, h3, h4, h5⟩ | ⟨b, r, c', h1, h2, h3, h4, h5, h6, _⟩
  · rw [h1, h2, hv]
    exact fmatch_item ⟨h3, rfl, rfl, rfl⟩ h4 h5
  · rw [h1, h2, hv]
    dsimp only
    cases r with
    | nil =>
      rw [if_pos (by rw [avail_rest, h4]; rfl)]
      exact fmatch_item ⟨h3, rfl, rfl, rfl⟩ h4 h6
    | cons e r =>
      rw [if_neg (by rw [avail_rest, h4]; simp), next_cons h4]
      have := idx_of_rest h4
      dsimp only
      by_cases he : e = it.delimiter
      · rw [if_pos he, if_pos (by simpa using he)]
        exact fmatch_item ⟨h3, rfl, rfl, rfl⟩ (rest_succ h4) this
      · rw [if_neg he, if_neg (by simpa using he)]
        refine fmatch_error (mk := .value) ?_ ?_ ?_ <;> [exact ⟨h3, rfl, rfl, rfl⟩; exact this; rfl]

theorem classAct_cases {cls : UInt8 → Option Bool} {stop : UInt8 → Bool} {P : UInt8 → Prop}
    [DecidablePred P] (h : ∀ b, cls b = if b = 255 then none else some (decide (P b))) (b : UInt8) :
    classAct cls stop b = if b = 255 then .panic else if P b ∧ stop b = false then .cont else .brk := by
  rw [classAct, h]
  by_cases hb : b = 255
  · simp [hb]
  · simp only [if_neg hb]
    by_cases hp : P b
    · cases hs : stop b <;> simp [hp]
    · simp [hp]

/-- The pass of a collection loop for a byte class, on the unread bytes. -/
theorem class_cases {cls : UInt8 → Option Bool} {stop : UInt8 → Bool} {P : UInt8 → Prop}
    [DecidablePred P] (h : ∀ b, cls b = if b = 255 then none else some (decide (P b))) (c : Ctx)
    (hi : c.idx ≤ c.stream.length) (hm : c.mark = c.idx) :
    ((∀ b ∈ c.rest, b ≠ 255 ∧ P b ∧ stop b = false) ∧
      ∃ c', c.collect (classAct cls stop) = .eos c' ∧ c'.stream = c.stream ∧ c'.rest = [] ∧
        c'.idx ≤ c'.stream.length ∧ c'.slice = c.rest ∧ c'.sliceLength = c.rest.length ∧
        c'.byte = c.rest.getLast?.getD c.byte) ∨
    ∃ pre b post, c.rest = pre ++ b :: post ∧ (∀ x ∈ pre, x ≠ 255 ∧ P x ∧ stop x = false) ∧
      ((b = 255 ∧ c.collect (classAct cls stop) = .panic) ∨
       (b ≠ 255 ∧ ¬ (P b ∧ stop b = false) ∧
        ∃ c', c.collect (classAct cls stop) = .brk c' ∧ c'.stream = c.stream ∧ c'.rest = post ∧
          c'.byte = b ∧ c'.idx ≤ c'.stream.length ∧ c'.sliceIgnore = pre ∧
          c'.sliceLength = pre.length + 1)) := by
  have act : ∀ b, classAct cls stop b = .cont → b ≠ 255 ∧ P b ∧ stop b = false := by
    intro b hb
    rw [classAct_cases h] at hb
    split at hb
    · cases hb
    · split at hb
      · exact ⟨by assumption, by assumption⟩
      · cases hb
  rcases collect_cases (classAct cls stop) c hm with ⟨h1, c', h2, h3, h4, h5, h6, h7, h8⟩ |
      ⟨pre, b, post, h1, h2, h3, c', h4, h5, h6, h7, h8, h9, h10, h11⟩
  · refine .inl ⟨fun b hb => act b (h1 b hb), c', h2, h3, h6, ?_, h7, h8⟩
    rw [h4, h3]; simp [rest]; omega
  · refine .inr ⟨pre, b, post, h1, fun b hb => act b (h2 b hb), ?_⟩
    rw [classAct_cases h] at h11 h3
    by_cases hb : b = 255
    · rw [if_pos hb] at h11
      exact .inl ⟨hb, h11⟩
    · rw [if_neg hb] at h11 h3
      by_cases hp : P b ∧ stop b = false
      · rw [if_pos hp] at h3; exact absurd rfl h3
      · rw [if_neg hp] at h11
        refine .inr ⟨hb, hp, c', h11, h4, h8, h7, ?_, h9, h10⟩
        have := congrArg List.length h1
        rw [h5, h4]; simp [rest] at this; omega

theorem fQuoted_pre {d : UInt8} {n pre : Bytes} : ∀ (_ : ∀ b ∈ pre, b ≠ 255 ∧ QuotedByte b)
    (p : UInt8) (r v : Bytes), fQuoted d n p (pre ++ r) v = fQuoted d n (pre.getLast?.getD p) r (v ++ pre) := by
  induction pre with
  | nil => intro _ p r v; simp
  | cons b pre ih =>
    intro h p r v
    rw [List.cons_append, fQuoted_cons, if_neg (h b (by simp)).1, if_pos (h b (by simp)).2,
      ih (fun x hx => h x (by simp [hx]))]
    cases pre with
    | nil => simp
    | cons e pre => rw [List.getLast?_cons_cons]; cases h : (e :: pre).getLast? <;> simp at h ⊢

theorem fPlain_pre {d : UInt8} {n pre : Bytes} : ∀ (_ : ∀ b ∈ pre, b ≠ 255 ∧ FieldByte b ∧ b ≠ d)
    (r v : Bytes), fPlain d n (pre ++ r) v = fPlain d n r (v ++ pre) := by
  induction pre with
  | nil => intro _ r v; simp
  | cons b pre ih =>
    intro h r v
    obtain ⟨h1, h2, h3⟩ := h b (by simp)
    rw [List.cons_append, fPlain, if_neg h1, if_neg h3, if_pos h2, ih (fun x hx => h x (by simp [hx]))]
    simp

theorem quotedLoop_match : ∀ (k : Nat) (it : FieldIter), it.ctx.rest.length < k →
    it.ctx.idx ≤ it.ctx.stream.length →
    FMatch it (fQuoted it.delimiter it.name it.ctx.byte it.ctx.rest it.value) (quotedLoop k it) := by
  intro k
  induction k with
  | zero => intro it h; omega
  | succ k ih =>
    intro it hlen hidx
    rw [quotedLoop]
    rcases class_cases (stop := fun _ => false) quo_eq it.ctx.setMark hidx rfl with
      ⟨h1, c', h2, h3, h4, h5, h6, h7, hby⟩ | ⟨pre, b, post, h1, h2, h3⟩
    · have e : it.ctx.setMark.collectQuotedField = .eos c' := h2
      simp only [e]
      have := fQuoted_pre (d := it.delimiter) (n := it.name) (pre := it.ctx.rest)
        (fun b hb => ⟨(h1 b hb).1, (h1 b hb).2.1⟩) it.ctx.byte [] it.value
      rw [List.append_nil] at this
      rw [this, fQuoted]
      refine fmatch_error (mk := .value) ?_ ?_ ?_ <;> [exact ⟨h3, rfl, rfl, rfl⟩; exact h5; exact hby]
    · have h1 : it.ctx.rest = pre ++ b :: post := h1
      rw [h1, fQuoted_pre (fun b hb => ⟨(h2 b hb).1, (h2 b hb).2.1⟩), fQuoted_cons]
      rcases h3 with ⟨hb, h3⟩ | ⟨hb, hp, c', h3, h4, h5, h6, h7, h8, h9⟩
      · have e : it.ctx.setMark.collectQuotedField = .panic := h3
        simp only [e]
        rw [if_pos hb]; rfl
      · have e : it.ctx.setMark.collectQuotedField = .brk c' := h3
        simp only [e]
        have hq : ¬ QuotedByte b := fun hq => hp ⟨hq, rfl⟩
        have hs : c'.stream = it.ctx.stream := h4
        rw [if_neg hb, if_neg hq, h6]
        by_cases p1 : b = c! '"'
        · rw [if_pos p1, if_pos (show (b == c! '"') = true by simpa using p1)]
          have := afterQuote_match (it := { it with ctx := c' }) (v := it.value ++ pre)
            (by dsimp only; rw [h8]) h7
          simp only [h5] at this
          exact this.mono ⟨hs, rfl, rfl, rfl⟩
        · rw [if_neg p1, if_neg (show ¬ (b == c! '"') = true by simpa using p1)]
          by_cases p2 : b = c! '\\'
          · rw [if_pos p2, if_pos (show (b == c! '\\') = true by simpa using p2)]
            cases post with
            | nil =>
              rw [if_pos (by rw [isEos, avail_rest, h5]; rfl)]
              refine fmatch_error (mk := .name) ?_ ?_ ?_ <;> [exact ⟨hs, rfl, rfl, rfl⟩; exact h7; exact h6]
            | cons a r =>
              rw [if_neg (by rw [isEos, avail_rest, h5]; simp), next_cons h5]
              have i2 := idx_of_rest h5
              have e3 : ({ c' with byte := a, idx := c'.idx + 1 } : Ctx).rest = r := rest_succ h5
              have := ih { it with ctx := { c' with byte := a, idx := c'.idx + 1 }, value := it.value ++ pre ++ [a] }
                (by dsimp only; rw [e3]; rw [h1] at hlen; simp at hlen; omega) i2
              simp only [e3] at this
              simp only [h8]
              exact this.mono ⟨hs, rfl, rfl, rfl⟩
          · rw [if_neg p2, if_neg (show ¬ (b == c! '\\') = true by simpa using p2)]
            refine fmatch_error (mk := .value) ?_ ?_ ?_ <;> [exact ⟨hs, rfl, rfl, rfl⟩; exact h7; exact h6]

theorem unquoted_match (it : FieldIter) (hi : it.ctx.replay.idx ≤ it.ctx.stream.length)
    (hv : it.value = []) :
    FMatch it (fPlain it.delimiter it.name it.ctx.replay.rest []) (unquoted it) := by
  unfold unquoted
  dsimp only
  rcases class_cases (stop := fun b => b == it.delimiter) fld_eq it.ctx.replay.setMark hi rfl with
      ⟨h1, c', h2, h3, h4, h5, h6, h7, hby⟩ | ⟨pre, b, post, h1, h2, h3⟩
  · have e : it.ctx.replay.setMark.collectField (fun b => b == it.delimiter) = .eos c' := h2
    simp only [e]
    have := fPlain_pre (d := it.delimiter) (n := it.name) (pre := it.ctx.replay.rest)
      (fun b hb => ⟨(h1 b hb).1, (h1 b hb).2.1, by simpa using (h1 b hb).2.2⟩) [] []
    rw [List.append_nil] at this
    rw [this, fPlain]
    have h6 : c'.slice = it.ctx.replay.rest := h6
    have h7 : c'.sliceLength = it.ctx.replay.rest.length := h7
    have hv2 : (if c'.sliceLength > 0 then ({ it with ctx := c', value := it.value ++ c'.slice } : FieldIter)
        else { it with ctx := c' }) = { it with ctx := c', value := it.ctx.replay.rest } := by
      rw [h7, h6, hv]
      split
      · simp
      · have : it.ctx.replay.rest.length = 0 := by omega
        rw [List.eq_nil_of_length_eq_zero this]
    rw [hv2]
    exact fmatch_item ⟨h3, rfl, rfl, rfl⟩ h4 h5
  · have h1 : it.ctx.replay.rest = pre ++ b :: post := h1
    rw [h1, fPlain_pre (fun b hb => ⟨(h2 b hb).1, (h2 b hb).2.1, by simpa using (h2 b hb).2.2⟩), fPlain]
    rcases h3 with ⟨hb, h3⟩ | ⟨hb, hp, c', h3, h4, h5, h6, h7, h8, h9⟩
    · have e : it.ctx.replay.setMark.collectField (fun b => b == it.delimiter) = .panic := h3
      simp only [e]
      rw [if_pos hb]; rfl
    · have e : it.ctx.replay.setMark.collectField (fun b => b == it.delimiter) = .brk c' := h3
      simp only [e]
      rw [if_neg hb, if_neg (show ¬ c'.sliceLength = 0 by omega), h6]
      by_cases p1 : b = it.delimiter
      · rw [if_pos p1, if_pos (show (b == it.delimiter) = true by simpa using p1), h8]
        exact fmatch_item ⟨h4, rfl, rfl, rfl⟩ h5 h7
      · rw [if_neg p1, if_neg (show ¬ (b == it.delimiter) = true by simpa using p1), if_neg (by
          intro hf; exact hp ⟨hf, by simpa using p1⟩)]
        refine fmatch_error (mk := .value) ?_ ?_ ?_ <;> [exact ⟨h4, rfl, rfl, rfl⟩; exact h7; exact h6]

theorem fieldValue_match (k : Nat) (it : FieldIter) (hlen : it.ctx.rest.length < k)
    (hi : it.ctx.idx ≤ it.ctx.stream.length) (hv : it.value = []) :
    FMatch it (fValue it.delimiter it.name it.ctx.rest) (fieldValue k it) := by
  unfold fieldValue fValue
  rcases blank_cases it.ctx hi with ⟨h1, c', h2, h3, h4, h5⟩ | ⟨b, r, c', h1, h2, h3, h4, h5, h6, h7, h8⟩
  · rw [h1, h2]
    exact fmatch_item ⟨h3, rfl, rfl, rfl⟩ h4 h5
  · rw [h1, h2]
    dsimp only
    rw [h5]
    have hl : r.length < k := by
      have := (List.dropWhile_sublist (l := it.ctx.rest) blank).length_le
      rw [h1] at this; simp at this; omega
    by_cases p1 : b = c! '"'
    · rw [if_pos p1, if_pos (show (b == c! '"') = true by simpa using p1)]
      have := quotedLoop_match k { it with ctx := c' } (by dsimp only; rw [h4]; exact hl) h6
      simp only [h4, h5, hv] at this
      rw [hv]
      exact this.mono ⟨h3, rfl, rfl, rfl⟩
    · rw [if_neg p1, if_neg (show ¬ (b == c! '"') = true by simpa using p1)]
      have := unquoted_match { it with ctx := c' } h8 hv
      simp only [h7] at this
      exact this.mono ⟨h3, rfl, rfl, rfl⟩

theorem fName_pre {d : UInt8} {z : Bool} {pre : Bytes} :
    ∀ (_ : ∀ b ∈ pre, b ≠ 255 ∧ TokenByte b ∧ fieldStop d z b = false) (r n : Bytes),
    fName d z false (pre ++ r) n = fName d z false r (n ++ pre) := by
  induction pre with
  | nil => intro _ r v; simp
  | cons b pre ih =>
    intro h r v
    obtain ⟨h1, h2⟩ := h b (by simp)
    rw [List.cons_append, fName, if_neg (by simp), if_neg h1, if_pos h2, ih (fun x hx => h x (by simp [hx]))]
    simp

theorem fName_start (d : UInt8) (z : Bool) : ∀ (r n : Bytes), fName d z true r n =
    (match r.dropWhile blank with
    | [] => .stop
    | b :: r => fName d z false (b :: r) n) := by
  intro r
  induction r with
  | nil => intro n; simp [fName]
  | cons b r ih =>
    intro n
    by_cases hb : blank b = true
    · rw [fName, if_pos (by simp [hb]), ih, List.dropWhile_cons_of_pos hb]
    · rw [fName, if_neg (by simp [hb]), List.dropWhile_cons_of_neg hb]
      dsimp only
      rw [fName_cons]
      simp only [Bool.false_and, Bool.false_eq_true, if_false]

theorem fieldLoop_match : ∀ (k : Nat) (it : FieldIter), it.ctx.rest.length < k →
    it.ctx.idx ≤ it.ctx.stream.length → it.value = [] →
    FMatch it (fName it.delimiter it.normalize true it.ctx.rest it.name) (fieldLoop k it) := by
  intro k
  induction k with
  | zero => intro it h; omega
  | succ k ih =>
    intro it hlen hidx hval
    rw [fieldLoop, fName_start]
    rcases blank_cases it.ctx hidx with ⟨h1, c', h2, h3, h4, h5⟩ | ⟨b0, r0, c0, g1, g2, g3, g4, g5, g6, g7, g8⟩
    · rw [h1, h2]
      exact ⟨_, rfl, h3, h4, h5, rfl, rfl, rfl⟩
    · rw [g1, g2]
      dsimp only
      have hl0 : r0.length < k := by
        have := (List.dropWhile_sublist (l := it.ctx.rest) blank).length_le
        rw [g1] at this; simp at this; omega
      rcases class_cases (stop := fieldStop it.delimiter it.normalize) tok_eq c0.replay.setMark (by
          show c0.replay.idx ≤ c0.stream.length; exact g8) rfl with
        ⟨h1, c', h2, h3, h4, h5, h6, h7, hby⟩ | ⟨pre, b, post, h1, h2, h3⟩
      · have e : c0.replay.setMark.collectTokens (fieldStop it.delimiter it.normalize) = .eos c' := h2
        simp only [e]
        have hr : c0.replay.setMark.rest = b0 :: r0 := g7
        rw [hr] at h1 h6 h7
        have := fName_pre (d := it.delimiter) (z := it.normalize) (pre := b0 :: r0) h1 [] it.name
        rw [List.append_nil] at this
        rw [this, fName, if_neg (by simp), if_pos (by rw [h7]; simp), h6]
        exact fmatch_item ⟨h3.trans g3, rfl, rfl, rfl⟩ h4 h5
      · have h1 : b0 :: r0 = pre ++ b :: post := g7.symm.trans h1
        have hl : post.length < k := by
          have := congrArg List.length h1
          simp at this; omega
        rw [h1, fName_pre h2, fName, if_neg (by simp)]
        rcases h3 with ⟨hb, h3⟩ | ⟨hb, hp, c', h3, h4, h5, h6, h7, h8, h9⟩
        · have e : c0.replay.setMark.collectTokens (fieldStop it.delimiter it.normalize) = .panic := h3
          simp only [e]
          rw [if_pos hb]; rfl
        · have e : c0.replay.setMark.collectTokens (fieldStop it.delimiter it.normalize) = .brk c' := h3
          simp only [e]
          have hs : c'.stream = it.ctx.stream := h4.trans g3
          rw [if_neg hb, if_neg hp, h6, h8]
          by_cases p1 : b = c! '='
          · rw [if_pos p1, if_pos (show (b == c! '=') = true by simpa using p1)]
            have := fieldValue_match k { it with ctx := c', name := it.name ++ pre }
              (by dsimp only; rw [h5]; exact hl) h7 hval
            simp only [h5] at this
            exact this.mono ⟨hs, rfl, rfl, rfl⟩
          · rw [if_neg p1, if_neg (show ¬ (b == c! '=') = true by simpa using p1)]
            by_cases p2 : b = c! '/'
            · rw [if_pos p2, if_pos (show (b == c! '/') = true by simpa using p2)]
              have := ih { it with ctx := c', name := it.name ++ pre ++ [c! '/'] }
                (by dsimp only; rw [h5]; exact hl) h7 hval
              simp only [h5] at this
              exact this.mono ⟨hs, rfl, rfl, rfl⟩
            · rw [if_neg p2, if_neg (show ¬ (b == c! '/') = true by simpa using p2)]
              by_cases p3 : b = it.delimiter
              · rw [if_pos p3, if_pos (show (b == it.delimiter) = true by simpa using p3)]
                exact fmatch_item ⟨hs, rfl, rfl, rfl⟩ h5 h7
              · rw [if_neg p3, if_neg (show ¬ (b == it.delimiter) = true by simpa using p3)]
                by_cases p4 : isUpper b = true
                · rw [if_pos p4, if_pos p4]
                  have := ih { it with ctx := c', name := it.name ++ pre ++ [b + 0x20] }
                    (by dsimp only; rw [h5]; exact hl) h7 hval
                  simp only [h5] at this
                  exact this.mono ⟨hs, rfl, rfl, rfl⟩
                · rw [if_neg p4, if_neg p4]
                  refine fmatch_error (mk := .name) ?_ ?_ ?_ <;> [exact ⟨hs, rfl, rfl, rfl⟩; exact h7; exact h6]

theorem field_next {it : FieldIter} (hi : it.ctx.idx ≤ it.ctx.stream.length) :
    (it.ctx.rest = [] ∧ it.next = .none it) ∨
    (it.ctx.rest ≠ [] ∧ FMatch it (fName it.delimiter it.normalize true it.ctx.rest []) it.next) := by
  unfold FieldIter.next
  by_cases h : it.ctx.available = 0
  · rw [if_pos h]
    rw [avail_rest] at h
    exact .inl ⟨List.eq_nil_of_length_eq_zero h, rfl⟩
  · rw [if_neg h]
    rw [avail_rest] at h ⊢
    refine .inr ⟨fun e => h (by simp [e]), ?_⟩
    have := fieldLoop_match (it.ctx.rest.length + 2) { it with name := [], value := [] }
      (by dsimp only; omega) hi rfl
    exact this.mono ⟨rfl, rfl, rfl, rfl⟩

end Verif.Util
