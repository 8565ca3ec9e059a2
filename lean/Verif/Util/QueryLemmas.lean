import Verif.Util.DecodeLemmas
import Verif.Util.QuerySpec

/-!
# Query iteration (helper lemmas)
-/

namespace Verif.Util

open Ctx

/-- The effect of a loop of `next` on the unread bytes. -/
inductive QOut
  /-- an item, and the bytes left -/
  | item (x : Item) (r : Bytes)
  /-- an error, and the bytes left -/
  | error (e : QueryError) (r : Bytes)

/-- The value loop on the unread bytes. -/
def qv (n : Bytes) : Bytes → Bytes → QOut
  | [], v => .item (n, some v) []
  | b :: r, v =>
    if b = c! '%' then
      match r with
      | [] => .error (.value b) []
      | [h] => .error (.value h) []
      | h :: l :: r' =>
        match hexNibble h, hexNibble l with
        | none, _ => .error (.value h) (l :: r')
        | some _, none => .error (.value l) r'
        | some x, some y => qv n r' (v ++ [(x <<< 4) + y])
    else if b = c! '+' then qv n r (v ++ b!" ")
    else if b = c! '&' ∨ b = c! ';' then .item (n, some v) r
    else if isVisible7bit b then qv n r (v ++ [b])
    else .error (.value b) []
termination_by r => r.length

/-- The field loop on the unread bytes; `first` says that no byte of the query was read yet. -/
def qn (first : Bool) : Bytes → Bytes → QOut
  | [], n => .item (n, none) []
  | b :: r, n =>
    if b = c! '%' then
      match r with
      | [] => .error (.name b) []
      | [h] => .error (.name h) []
      | h :: l :: r' =>
        match hexNibble h, hexNibble l with
        | none, _ => .error (.name h) (l :: r')
        | some _, none => .error (.name l) r'
        | some _, some _ => .error (.name l) []
    else if b = c! '+' then qn false r (n ++ b!" ")
    else if b = c! '=' then if first then .error (.name b) [] else qv n r []
    else if b = c! '&' ∨ b = c! ';' then if first then .error (.name b) [] else .item (n, none) r
    else if isVisible7bit b then qn false r (n ++ [b])
    else .error (.name b) []

theorem qv_cons (n : Bytes) (b : UInt8) (r v : Bytes) : qv n (b :: r) v =
    if b = c! '%' then
      match r with
      | [] => .error (.value b) []
      | [h] => .error (.value h) []
      | h :: l :: r' =>
        match hexNibble h, hexNibble l with
        | none, _ => .error (.value h) (l :: r')
        | some _, none => .error (.value l) r'
        | some x, some y => qv n r' (v ++ [(x <<< 4) + y])
    else if b = c! '+' then qv n r (v ++ b!" ")
    else if b = c! '&' ∨ b = c! ';' then .item (n, some v) r
    else if isVisible7bit b then qv n r (v ++ [b])
    else .error (.value b) [] := by
  rw [qv.eq_def]
  rcases r with _ | ⟨h, _ | ⟨l, r'⟩⟩ <;> rfl

/-- The step `s` of the iterator `it` has the effect `o`. -/
def QMatch (it : QueryIter) : QOut → Step QueryIter → Prop
  | .item x r, .item y it' => x = y ∧ it'.ctx.stream = it.ctx.stream ∧ it'.ctx.rest = r ∧
      it'.ctx.idx ≤ it'.ctx.stream.length ∧ it'.errs = it.errs
  | .error e r, .none it' => it'.ctx.stream = it.ctx.stream ∧ it'.ctx.rest = r ∧
      it'.ctx.idx ≤ it'.ctx.stream.length ∧ it'.errs = it.errs ++ [e]
  | _, _ => False

theorem QMatch.mono {it it' : QueryIter} {o : QOut} {s : Step QueryIter} (h : QMatch it' o s)
    (h1 : it'.ctx.stream = it.ctx.stream) (h2 : it'.errs = it.errs) :
    QMatch it o s := by
  cases o <;> cases s <;> simp only [QMatch, h1, h2] at h ⊢ <;> exact h

theorem match_error {it it' : QueryIter} (h1 : it'.ctx.stream = it.ctx.stream)
    (h2 : it'.errs = it.errs) (h3 : it'.ctx.idx ≤ it'.ctx.stream.length)
    {mk : UInt8 → QueryError} {e : QueryError} (he : mk it'.ctx.byte = e) :
    QMatch it (.error e []) (it'.submitError mk) := by
  refine ⟨h1, ?_, ?_, ?_⟩
  · simp [rest, jump, available]; omega
  · simp [jump, available]; omega
  · simp [h2, jump, he]

/-- A byte that both loops of `next` copy. -/
theorem qv_lits {n pre : Bytes} : ∀ (_ : ∀ b ∈ pre, isVisible7bit b = true ∧ b ≠ c! '%' ∧ b ≠ c! '+' ∧
    b ≠ c! '&' ∧ b ≠ c! ';') (r v : Bytes), qv n (pre ++ r) v = qv n r (v ++ pre) := by
  induction pre with
  | nil => intro h r v; simp
  | cons b pre ih =>
    intro h r v
    obtain ⟨h1, h2, h3, h4, h5⟩ := h b (by simp)
    rw [List.cons_append, qv_cons, if_neg h2, if_neg h3, if_neg (by simp [h4, h5]), if_pos h1,
      ih (fun x hx => h x (by simp [hx]))]
    simp

theorem qn_lits {pre : Bytes} : ∀ (_ : ∀ b ∈ pre, isVisible7bit b = true ∧ b ≠ c! '%' ∧ b ≠ c! '+' ∧
    b ≠ c! '=' ∧ b ≠ c! '&' ∧ b ≠ c! ';') (first : Bool) (r n : Bytes),
    qn first (pre ++ r) n = qn (first && pre.isEmpty) r (n ++ pre) := by
  induction pre with
  | nil => intro h f r v; simp
  | cons b pre ih =>
    intro h f r v
    obtain ⟨h1, h2, h3, h4, h5, h6⟩ := h b (by simp)
    rw [List.cons_append, qn.eq_def]
    simp only [if_neg h2, if_neg h3, if_neg h4, h5, h6, or_self, if_false, if_pos h1]
    rw [ih (fun x hx => h x (by simp [hx]))]
    simp

theorem valueLoop_match : ∀ (k : Nat) (it : QueryIter), it.ctx.rest.length < k →
    it.ctx.idx ≤ it.ctx.stream.length →
    QMatch it (qv it.name it.ctx.rest it.value) (valueLoop k it) := by
  intro k
  induction k with
  | zero => intro it h; omega
  | succ k ih =>
    intro it hlen hidx
    rw [valueLoop]
    rcases collect_cases (fun b => if !isVisible7bit b || (b == c! '%' || b == c! '+' || b == c! '&' ||
      b == c! ';') then .brk else .cont)
      it.ctx.setMark rfl with ⟨h1, c', h2, h3, h4, h5, h6, h7, h8⟩ |
      ⟨pre, b, post, h1, h2, h3, c', h4, h5, h6, h7, h8, h9, h10, h11⟩
    · have e : it.ctx.setMark.collectVisible7bit (fun b => b == c! '%' || b == c! '+' || b == c! '&' ||
        b == c! ';') = .eos c' := h2
      simp only [e]
      have hr : it.ctx.setMark.rest = it.ctx.rest := rfl
      rw [hr] at h1 h4 h7 h8
      have := qv_lits (n := it.name) (pre := it.ctx.rest) (fun b hb => by
        have := h1 b hb
        split at this
        · cases this
        · rename_i h'; simp at h'; simp [h']) [] it.value
      rw [List.append_nil] at this
      rw [this, qv]
      have hi : c'.idx ≤ c'.stream.length := by
        rw [h4, h3]; show it.ctx.idx + _ ≤ it.ctx.stream.length
        simp [rest]; omega
      split
      · exact ⟨by simp [h7], h3, h6, hi, rfl⟩
      · rename_i hz
        refine ⟨?_, h3, h6, hi, rfl⟩
        have : it.ctx.rest.length = 0 := by omega
        simp [List.eq_nil_of_length_eq_zero this]
    · have hr : it.ctx.setMark.rest = it.ctx.rest := rfl
      rw [hr] at h1
      have hb : !isVisible7bit b || (b == c! '%' || b == c! '+' || b == c! '&' || b == c! ';') := by
        by_contra hb
        rw [if_neg hb] at h3; exact h3 rfl
      have e : it.ctx.setMark.collectVisible7bit (fun b => b == c! '%' || b == c! '+' || b == c! '&' ||
        b == c! ';') = .brk c' := by
        have := h11
        rw [if_pos hb] at this
        exact this
      simp only [e]
      have hs : c'.stream = it.ctx.stream := h4
      have hi : c'.idx ≤ c'.stream.length := by
        rw [h5, h4]; show it.ctx.idx + _ + 1 ≤ it.ctx.stream.length
        have := congrArg List.length h1
        simp [rest] at this; omega
      have hout : (if c'.sliceLength > 1 then
          ({ it with ctx := c', value := it.value ++ c'.sliceIgnore } : QueryIter)
          else { it with ctx := c' }) = { it with ctx := c', value := it.value ++ pre } := by
        rw [h9, h10]
        split
        · rfl
        · have : pre.length = 0 := by omega
          rw [List.eq_nil_of_length_eq_zero this, List.append_nil]
      rw [hout, h1, qv_lits (fun b hb => by
        have := h2 b hb
        split at this
        · cases this
        · rename_i h'; simp at h'; simp [h']), h7]
      have hlen' : post.length < k := by
        rw [h1] at hlen; simp at hlen; omega
      rw [qv_cons]
      by_cases p1 : b = c! '%'
      · rw [if_pos p1, if_pos (show (b == c! '%') = true by simpa using p1), hasBytes_rest, hasBytes_rest, h8]
        match post, h8 with
        | [], h8 =>
          rw [if_neg (by simp), if_neg (by simp)]
          exact match_error (it := it) (it' := { it with ctx := c', value := it.value ++ pre }) hs rfl hi
            (by simp [h7])
        | [h], h8 =>
          rw [if_neg (by simp), if_pos (by simp), next_cons h8]
          have := idx_of_rest h8
          exact match_error (it := it) (it' := { it with
              ctx := { c' with byte := h, idx := c'.idx + 1 }, value := it.value ++ pre }) hs rfl
            (by show c'.idx + 1 ≤ c'.stream.length; omega) rfl
        | h :: l :: r', h8 =>
          rw [if_pos (by simp), hex8_cons h8]
          have i2 : c'.idx + 2 ≤ c'.stream.length := by
            have := congrArg List.length h8
            simp [rest] at this; omega
          dsimp only
          cases e1 : hexNibble h with
          | none =>
            dsimp only
            exact ⟨hs, rest_succ h8, by show c'.idx + 1 ≤ c'.stream.length; omega, rfl⟩
          | some x =>
            cases e2 : hexNibble l with
            | none =>
              dsimp only
              exact ⟨hs, rest_two h8, i2, rfl⟩
            | some y =>
              simp only
              have e3 : ({ c' with byte := l, idx := c'.idx + 2 } : Ctx).rest = r' := rest_two h8
              have := ih { it with ctx := { c' with byte := l, idx := c'.idx + 2 }, value := it.value ++ pre ++ [(x <<< 4) + y] }
                (by dsimp only; rw [e3]; simp at hlen'; omega) i2
              simp only [e3] at this
              exact QMatch.mono this hs rfl
      · rw [if_neg p1, if_neg (show ¬ (b == c! '%') = true by simpa using p1)]
        by_cases p2 : b = c! '+'
        · rw [if_pos p2, if_pos (show (b == c! '+') = true by simpa using p2)]
          have := ih { it with ctx := c', value := it.value ++ pre ++ b!" " }
            (by show c'.rest.length < k; rw [h8]; exact hlen') hi
          simp only [h8] at this
          exact QMatch.mono this hs rfl
        · rw [if_neg p2, if_neg (show ¬ (b == c! '+') = true by simpa using p2)]
          by_cases p3 : b = c! '&' ∨ b = c! ';'
          · rw [if_pos p3, if_pos (show (b == c! '&' || b == c! ';') = true by simpa using p3)]
            exact ⟨rfl, hs, h8, hi, rfl⟩
          · rw [if_neg p3, if_neg (show ¬ (b == c! '&' || b == c! ';') = true by simpa using p3)]
            have hv : ¬ isVisible7bit b = true := by
              simp only [not_or] at p3
              simp [p1, p2, p3] at hb
              simp [hb]
            rw [if_neg hv]
            exact match_error (it := it) (it' := { it with ctx := c', value := it.value ++ pre }) hs rfl hi
              (by simp [h7])

theorem nameLoop_match : ∀ (k : Nat) (it : QueryIter), it.ctx.rest.length + 1 < k →
    it.ctx.idx ≤ it.ctx.stream.length → it.value = [] →
    QMatch it (qn (it.ctx.idx == 0) it.ctx.rest it.name) (nameLoop k it) := by
  intro k
  induction k with
  | zero => intro it h; omega
  | succ k ih =>
    intro it hlen hidx hval
    rw [nameLoop]
    rcases collect_cases (fun b => if !isVisible7bit b || (b == c! '%' || b == c! '+' || b == c! '=' ||
      b == c! '&' || b == c! ';') then .brk else .cont)
      it.ctx.setMark rfl with ⟨h1, c', h2, h3, h4, h5, h6, h7, h8⟩ |
      ⟨pre, b, post, h1, h2, h3, c', h4, h5, h6, h7, h8, h9, h10, h11⟩
    · have e : it.ctx.setMark.collectVisible7bit (fun b => b == c! '%' || b == c! '+' || b == c! '=' ||
        b == c! '&' || b == c! ';') = .eos c' := h2
      simp only [e]
      have hr : it.ctx.setMark.rest = it.ctx.rest := rfl
      rw [hr] at h1 h4 h7 h8
      have := qn_lits (pre := it.ctx.rest) (fun b hb => by
        have := h1 b hb
        split at this
        · cases this
        · rename_i h'; simp at h'; simp [h']) (it.ctx.idx == 0) [] it.name
      rw [List.append_nil] at this
      rw [this, qn]
      have hi : c'.idx ≤ c'.stream.length := by
        rw [h4, h3]; show it.ctx.idx + _ ≤ it.ctx.stream.length
        simp [rest]; omega
      split
      · exact ⟨by simp [h7], h3, h6, hi, rfl⟩
      · rename_i hz
        refine ⟨?_, h3, h6, hi, rfl⟩
        have : it.ctx.rest.length = 0 := by omega
        simp [List.eq_nil_of_length_eq_zero this]
    · have hr : it.ctx.setMark.rest = it.ctx.rest := rfl
      rw [hr] at h1
      have hb : !isVisible7bit b || (b == c! '%' || b == c! '+' || b == c! '=' || b == c! '&' ||
          b == c! ';') := by
        by_contra hb
        rw [if_neg hb] at h3; exact h3 rfl
      have e : it.ctx.setMark.collectVisible7bit (fun b => b == c! '%' || b == c! '+' || b == c! '=' ||
        b == c! '&' || b == c! ';') = .brk c' := by
        have := h11
        rw [if_pos hb] at this
        exact this
      simp only [e]
      have hs : c'.stream = it.ctx.stream := h4
      have hi : c'.idx ≤ c'.stream.length := by
        rw [h5, h4]; show it.ctx.idx + _ + 1 ≤ it.ctx.stream.length
        have := congrArg List.length h1
        simp [rest] at this; omega
      have hout : (if c'.sliceLength > 1 then
          ({ it with ctx := c', name := it.name ++ c'.sliceIgnore } : QueryIter)
          else { it with ctx := c' }) = { it with ctx := c', name := it.name ++ pre } := by
        rw [h9, h10]
        split
        · rfl
        · have : pre.length = 0 := by omega
          rw [List.eq_nil_of_length_eq_zero this, List.append_nil]
      have hf : (c'.idx = 1) ↔ (it.ctx.idx == 0 && pre.isEmpty) = true := by
        have : c'.idx = it.ctx.idx + pre.length + 1 := h5
        rw [Bool.and_eq_true, List.isEmpty_iff, ← List.length_eq_zero_iff, beq_iff_eq, this]
        omega
      rw [hout, h1, qn_lits (fun b hb => by
        have := h2 b hb
        split at this
        · cases this
        · rename_i h'; simp at h'; simp [h']), h7]
      generalize (it.ctx.idx == 0 && pre.isEmpty) = first at hf ⊢
      have hlen' : post.length + 1 < k := by
        rw [h1] at hlen; simp at hlen; omega
      have hnz : (c'.idx == 0) = false := by rw [h5]; simp
      rw [qn.eq_def]
      dsimp only
      by_cases p1 : b = c! '%'
      · rw [if_pos p1, if_pos (show (b == c! '%') = true by simpa using p1), hasBytes_rest, hasBytes_rest, h8]
        match post, h8 with
        | [], h8 =>
          rw [if_neg (by simp), if_neg (by simp)]
          exact match_error (it := it) (it' := { it with ctx := c', name := it.name ++ pre }) hs rfl hi
            (by simp [h7])
        | [h], h8 =>
          rw [if_neg (by simp), if_pos (by simp), next_cons h8]
          have := idx_of_rest h8
          exact match_error (it := it) (it' := { it with
              ctx := { c' with byte := h, idx := c'.idx + 1 }, name := it.name ++ pre }) hs rfl
            (by show c'.idx + 1 ≤ c'.stream.length; omega) rfl
        | h :: l :: r', h8 =>
          rw [if_pos (by simp), hex8_cons h8]
          have i2 : c'.idx + 2 ≤ c'.stream.length := by
            have := congrArg List.length h8
            simp [rest] at this; omega
          dsimp only
          cases e1 : hexNibble h with
          | none =>
            dsimp only
            exact ⟨hs, rest_succ h8, by show c'.idx + 1 ≤ c'.stream.length; omega, rfl⟩
          | some x =>
            cases e2 : hexNibble l with
            | none =>
              dsimp only
              exact ⟨hs, rest_two h8, i2, rfl⟩
            | some y =>
              exact match_error (it := it) (it' := { it with
                ctx := { c' with byte := l, idx := c'.idx + 2 }, name := it.name ++ pre ++ [(x <<< 4) + y] })
                hs rfl i2 rfl
      · rw [if_neg p1, if_neg (show ¬ (b == c! '%') = true by simpa using p1)]
        by_cases p2 : b = c! '+'
        · rw [if_pos p2, if_pos (show (b == c! '+') = true by simpa using p2)]
          have := ih { it with ctx := c', name := it.name ++ pre ++ b!" " }
            (by show c'.rest.length + 1 < k; rw [h8]; exact hlen') hi hval
          simp only [h8, hnz] at this
          exact QMatch.mono this hs rfl
        · rw [if_neg p2, if_neg (show ¬ (b == c! '+') = true by simpa using p2)]
          by_cases p4 : b = c! '='
          · rw [if_pos p4, if_pos (show (b == c! '=') = true by simpa using p4)]
            by_cases hfirst : first = true
            · rw [if_pos hfirst, if_pos (hf.2 hfirst)]
              exact match_error (it := it) (it' := { it with ctx := c', name := it.name ++ pre }) hs rfl hi
                (by simp [h7])
            · rw [if_neg hfirst, if_neg (fun hh => hfirst (hf.1 hh))]
              have := valueLoop_match k { it with ctx := c', name := it.name ++ pre }
                (by show c'.rest.length < k; rw [h8]; omega) hi
              simp only [h8, hval] at this
              rw [hval]
              exact QMatch.mono this hs rfl
          · rw [if_neg p4, if_neg (show ¬ (b == c! '=') = true by simpa using p4)]
            by_cases p3 : b = c! '&' ∨ b = c! ';'
            · rw [if_pos p3, if_pos (show (b == c! '&' || b == c! ';') = true by simpa using p3)]
              by_cases hfirst : first = true
              · rw [if_pos hfirst, if_pos (hf.2 hfirst)]
                exact match_error (it := it) (it' := { it with ctx := c', name := it.name ++ pre }) hs rfl hi
                  (by simp [h7])
              · rw [if_neg hfirst, if_neg (fun hh => hfirst (hf.1 hh))]
                exact ⟨rfl, hs, h8, hi, rfl⟩
            · rw [if_neg p3, if_neg (show ¬ (b == c! '&' || b == c! ';') = true by simpa using p3)]
              have hv : ¬ isVisible7bit b = true := by
                simp only [not_or] at p3
                simp [p1, p2, p3, p4] at hb
                simp [hb]
              rw [if_neg hv, ite_self]
              exact match_error (it := it) (it' := { it with ctx := c', name := it.name ++ pre }) hs rfl hi
                (by simp [h7])

theorem query_next {it : QueryIter} (hi : it.ctx.idx ≤ it.ctx.stream.length) :
    (it.ctx.rest = [] ∧ it.next = .none it) ∨
    (it.ctx.rest ≠ [] ∧ QMatch it (qn (it.ctx.idx == 0) it.ctx.rest []) it.next) := by
  unfold QueryIter.next
  by_cases h : it.ctx.available = 0
  · rw [if_pos h]
    rw [avail_rest] at h
    exact .inl ⟨List.eq_nil_of_length_eq_zero h, rfl⟩
  · rw [if_neg h]
    rw [avail_rest] at h ⊢
    refine .inr ⟨fun e => h (by simp [e]), ?_⟩
    have := nameLoop_match (it.ctx.rest.length + 2) { it with name := [], value := [] }
      (by dsimp only; omega) hi rfl
    exact QMatch.mono this rfl rfl

theorem qv_writes {u v : Bytes} (h : Decodes u v) : ∀ (_ : ∀ b ∈ u, b ∉ b!"&;") (n r acc : Bytes),
    qv n (u ++ r) acc = qv n r (acc ++ v) := by
  induction h with
  | nil => intro _ n r acc; simp
  | @literal b x s hb _ ih =>
    intro hs n r acc
    have := hs b (by simp)
    simp only [List.mem_cons, List.not_mem_nil, or_false, not_or] at this
    rw [List.cons_append, qv_cons, if_neg hb.2.2.2, if_neg hb.2.2.1, if_neg (by simp [this]),
      if_pos (by simp [isVisible7bit, hb.1, hb.2.1]), ih (fun b hb => hs b (by simp [hb]))]
    simp
  | plus _ ih =>
    intro hs n r acc
    rw [List.cons_append, qv_cons, if_neg (by decide), if_pos rfl, ih (fun b hb => hs b (by simp [hb]))]
    simp
  | escape h1 h2 _ ih =>
    intro hs n r acc
    have a := hexDigit_lt h1
    have b := hexDigit_lt h2
    rw [List.cons_append, List.cons_append, List.cons_append, qv_cons, if_pos rfl]
    have e1 := nibble_digit _ _ h1
    have e2 := nibble_digit _ _ h2
    simp only [e1, e2]
    rw [ih (fun b hb => hs b (by simp [hb])), nibble_sum e1 e2]
    simp
    congr <;> omega

theorem qn_writes {u v : Bytes} (h : Decodes u v) : ∀ (_ : ∀ b ∈ u, b ∉ b!"=&;") (_ : c! '%' ∉ u)
    (f : Bool) (r acc : Bytes), qn f (u ++ r) acc = qn (f && u.isEmpty) r (acc ++ v) := by
  induction h with
  | nil => intro _ _ f r acc; simp
  | @literal b x s hb _ ih =>
    intro hs hp f r acc
    have := hs b (by simp)
    simp only [List.mem_cons, List.not_mem_nil, or_false, not_or] at this hp
    rw [List.cons_append, qn.eq_def]
    simp only [if_neg hb.2.2.2, if_neg hb.2.2.1, this, if_false, or_self]
    rw [if_pos (by simp [isVisible7bit, hb.1, hb.2.1]), ih (fun b hb => hs b (by simp [hb])) hp.2]
    simp
  | plus _ ih =>
    intro hs hp f r acc
    simp only [List.mem_cons, not_or] at hp
    rw [List.cons_append, qn.eq_def]
    dsimp only
    rw [if_neg (by decide), if_pos rfl, ih (fun b hb => hs b (by simp [hb])) hp.2]
    simp
  | escape h1 h2 _ ih =>
    intro hs hp f r acc
    simp at hp

theorem qv_item : ∀ (k : Nat) (n r acc : Bytes) (x : Item) (r' : Bytes), r.length ≤ k →
    qv n r acc = .item x r' → ∃ u v, WritesValue u v ∧ x = (n, some (acc ++ v)) ∧
      ((r = u ∧ r' = []) ∨ ∃ s, (s = c! '&' ∨ s = c! ';') ∧ r = u ++ s :: r') := by
  intro k
  induction k with
  | zero =>
    intro n r acc x r' hk h
    have : r = [] := List.eq_nil_of_length_eq_zero (by omega)
    subst this
    simp only [qv, QOut.item.injEq] at h
    obtain ⟨rfl, rfl⟩ := h
    exact ⟨[], [], ⟨.nil, by simp⟩, by simp, .inl ⟨rfl, rfl⟩⟩
  | succ k ih =>
    intro n r acc x r' hk h
    match r with
    | [] =>
      simp only [qv, QOut.item.injEq] at h
      obtain ⟨rfl, rfl⟩ := h
      exact ⟨[], [], ⟨.nil, by simp⟩, by simp, .inl ⟨rfl, rfl⟩⟩
    | b :: r =>
      rw [qv_cons] at h
      simp at hk
      by_cases p1 : b = c! '%'
      · rw [if_pos p1] at h
        subst p1
        match r with
        | [] => cases h
        | [_] => cases h
        | h' :: l :: r =>
          dsimp only at h
          cases e1 : hexNibble h' with
          | none => rw [e1] at h; cases h
          | some p =>
            cases e2 : hexNibble l with
            | none => rw [e1, e2] at h; cases h
            | some q =>
              rw [e1, e2] at h
              obtain ⟨u, v, ⟨h1, h2⟩, h3, h4⟩ := ih _ _ _ _ _ (by simp at hk; omega) h
              refine ⟨c! '%' :: h' :: l :: u, _, ⟨.escape (nibble_some _ _ e1) (nibble_some _ _ e2) h1, ?_⟩, ?_, ?_⟩
              · intro b hb
                simp only [List.mem_cons] at hb
                have key : ∀ a : UInt8, hexNibble a ≠ none → a ∉ b!"&;" := by
                  apply forall_u8; decide +kernel
                rcases hb with rfl | rfl | rfl | hb
                · decide
                · exact key _ (by simp [e1])
                · exact key _ (by simp [e2])
                · exact h2 b hb
              · rw [h3, nibble_sum e1 e2]; simp
              · rcases h4 with ⟨rfl, h4⟩ | ⟨s, hs, rfl⟩
                · exact .inl ⟨rfl, h4⟩
                · exact .inr ⟨s, hs, rfl⟩
      · rw [if_neg p1] at h
        by_cases p2 : b = c! '+'
        · rw [if_pos p2] at h
          subst p2
          obtain ⟨u, v, ⟨h1, h2⟩, h3, h4⟩ := ih _ _ _ _ _ hk h
          refine ⟨c! '+' :: u, _, ⟨.plus h1, ?_⟩, by rw [h3]; simp, ?_⟩
          · intro b hb
            rcases List.mem_cons.1 hb with rfl | hb
            · decide
            · exact h2 b hb
          · rcases h4 with ⟨rfl, h4⟩ | ⟨s, hs, rfl⟩
            · exact .inl ⟨rfl, h4⟩
            · exact .inr ⟨s, hs, rfl⟩
        · rw [if_neg p2] at h
          by_cases p3 : b = c! '&' ∨ b = c! ';'
          · rw [if_pos p3] at h
            simp only [QOut.item.injEq] at h
            obtain ⟨rfl, rfl⟩ := h
            exact ⟨[], [], ⟨.nil, by simp⟩, by simp, .inr ⟨b, p3, rfl⟩⟩
          · rw [if_neg p3] at h
            by_cases p4 : isVisible7bit b = true
            · rw [if_pos p4] at h
              obtain ⟨u, v, ⟨h1, h2⟩, h3, h4⟩ := ih _ _ _ _ _ hk h
              simp [isVisible7bit] at p4
              refine ⟨b :: u, _, ⟨.literal ⟨p4.1, p4.2, p2, p1⟩ h1, ?_⟩, by rw [h3]; simp, ?_⟩
              · intro a ha
                rcases List.mem_cons.1 ha with rfl | ha
                · simpa using p3
                · exact h2 a ha
              · rcases h4 with ⟨rfl, h4⟩ | ⟨s, hs, rfl⟩
                · exact .inl ⟨rfl, h4⟩
                · exact .inr ⟨s, hs, rfl⟩
            · rw [if_neg p4] at h; cases h

/-- The bytes of an item: a name, or a name and a value, at the end or before a separator. -/
def OneItem (r acc : Bytes) (x : Item) (r' : Bytes) : Prop :=
  ∃ w n, WritesName false w n ∧
    ((x = (acc ++ n, none) ∧ r = w ∧ r' = []) ∨
     (∃ s, (s = c! '&' ∨ s = c! ';') ∧ x = (acc ++ n, none) ∧ r = w ++ s :: r') ∨
     (∃ u v, WritesValue u v ∧ x = (acc ++ n, some v) ∧ r = w ++ c! '=' :: u ∧ r' = []) ∨
     (∃ u v s, WritesValue u v ∧ (s = c! '&' ∨ s = c! ';') ∧ x = (acc ++ n, some v) ∧
        r = w ++ c! '=' :: u ++ s :: r'))

theorem OneItem.cons {b a : UInt8} {r acc r' : Bytes} {x : Item}
    (hb : ∀ {w n}, WritesName false w n → WritesName false (b :: w) (a :: n))
    (h : OneItem r (acc ++ [a]) x r') : OneItem (b :: r) acc x r' := by
  obtain ⟨w, n, hw, h⟩ := h
  refine ⟨b :: w, a :: n, hb hw, ?_⟩
  rcases h with ⟨h1, h2, h3⟩ | ⟨s, hs, h1, h2⟩ | ⟨u, v, hu, h1, h2, h3⟩ | ⟨u, v, s, hu, hs, h1, h2⟩
  · exact .inl ⟨by simp [h1], by rw [h2], h3⟩
  · exact .inr (.inl ⟨s, hs, by simp [h1], by rw [h2]; rfl⟩)
  · exact .inr (.inr (.inl ⟨u, v, hu, by simp [h1], by rw [h2]; rfl, h3⟩))
  · exact .inr (.inr (.inr ⟨u, v, s, hu, hs, by simp [h1], by rw [h2]; rfl⟩))

theorem qn_item : ∀ (r : Bytes) (f : Bool) (acc : Bytes) (x : Item) (r' : Bytes),
    qn f r acc = .item x r' → OneItem r acc x r' ∧ (f = true → ∀ b ∈ r.head?, b ∉ b!"=&;") := by
  intro r
  induction r with
  | nil =>
    intro f acc x r' h
    simp only [qn, QOut.item.injEq] at h
    obtain ⟨rfl, rfl⟩ := h
    exact ⟨⟨[], [], ⟨.nil, by simp, by simp⟩, .inl (by simp)⟩, by simp⟩
  | cons b r ih =>
    intro f acc x r' h
    rw [qn.eq_def] at h
    dsimp only at h
    by_cases p1 : b = c! '%'
    · rw [if_pos p1] at h
      match r with
      | [] => cases h
      | [_] => cases h
      | h' :: l :: r =>
        dsimp only at h
        cases e1 : hexNibble h' with
        | none => rw [e1] at h; cases h
        | some p =>
          cases e2 : hexNibble l with
          | none => rw [e1, e2] at h; cases h
          | some q => rw [e1, e2] at h; cases h
    · rw [if_neg p1] at h
      by_cases p2 : b = c! '+'
      · rw [if_pos p2] at h
        subst p2
        refine ⟨(ih _ _ _ _ h).1.cons ?_, by simp⟩
        rintro w n ⟨h1, h2, h3⟩
        refine ⟨.plus h1, ?_, ?_⟩
        · intro b hb
          rcases List.mem_cons.1 hb with rfl | hb
          · decide
          · exact h2 b hb
        · intro _; simp [h3]
      · rw [if_neg p2] at h
        by_cases p4 : b = c! '='
        · rw [if_pos p4] at h
          subst p4
          cases f with
          | true => cases h
          | false =>
            obtain ⟨u, v, h1, h2, h3⟩ := qv_item _ _ _ _ _ _ le_rfl h
            refine ⟨⟨[], [], ⟨.nil, by simp, by simp⟩, ?_⟩, by simp⟩
            rcases h3 with ⟨rfl, h3⟩ | ⟨s, hs, rfl⟩
            · exact .inr (.inr (.inl ⟨_, v, h1, by simp [h2], rfl, h3⟩))
            · exact .inr (.inr (.inr ⟨u, v, s, h1, hs, by simp [h2], rfl⟩))
        · rw [if_neg p4] at h
          by_cases p3 : b = c! '&' ∨ b = c! ';'
          · rw [if_pos p3] at h
            cases f with
            | true => cases h
            | false =>
              simp at h
              obtain ⟨rfl, rfl⟩ := h
              exact ⟨⟨[], [], ⟨.nil, by simp, by simp⟩, .inr (.inl ⟨b, p3, by simp, rfl⟩)⟩, by simp⟩
          · rw [if_neg p3] at h
            by_cases p5 : isVisible7bit b = true
            · rw [if_pos p5] at h
              simp [isVisible7bit] at p5
              have hb : b ∉ b!"=&;" := by
                simp only [List.mem_cons, List.not_mem_nil, or_false, not_or]
                simp only [not_or] at p3
                exact ⟨p4, p3.1, p3.2⟩
              refine ⟨(ih _ _ _ _ h).1.cons ?_, fun _ a ha => ?_⟩
              · rintro w n ⟨h1, h2, h3⟩
                refine ⟨.literal ⟨p5.1, p5.2, p2, p1⟩ h1, ?_, ?_⟩
                · intro a ha
                  rcases List.mem_cons.1 ha with rfl | ha
                  · exact hb
                  · exact h2 a ha
                · intro _
                  simp only [List.mem_cons, not_or]
                  exact ⟨fun e => p1 e.symm, h3 rfl⟩
              · simp at ha; exact ha ▸ hb
            · rw [if_neg p5] at h; cases h

/-- Bytes left are fewer than before. -/
def QOut.lt (k : Nat) : QOut → Prop
  | .item _ r => r.length < k
  | .error _ r => r.length < k

theorem qv_le : ∀ (k : Nat) (n r acc : Bytes), r.length ≤ k → (qv n r acc).lt (r.length + 1) := by
  intro k
  induction k with
  | zero =>
    intro n r acc hk
    have : r = [] := List.eq_nil_of_length_eq_zero (by omega)
    subst this
    simp [qv, QOut.lt]
  | succ k ih =>
    intro n r acc hk
    match r with
    | [] => simp [qv, QOut.lt]
    | b :: r =>
      rw [qv_cons]
      simp at hk
      have mono : ∀ {o : QOut} {i j : Nat}, o.lt i → i ≤ j → o.lt j := by
        intro o i j h hij; cases o <;> simp [QOut.lt] at h ⊢ <;> omega
      split
      · match r with
        | [] => simp [QOut.lt]
        | [_] => simp [QOut.lt]
        | h' :: l :: r =>
          dsimp only
          split
          · simp [QOut.lt]
          · simp [QOut.lt]; omega
          · exact mono (ih _ _ _ (by simp at hk; omega)) (by simp)
      · split
        · exact mono (ih _ _ _ hk) (by simp)
        · split
          · simp [QOut.lt]; omega
          · split
            · exact mono (ih _ _ _ hk) (by simp)
            · simp [QOut.lt]

theorem qn_lt : ∀ (r : Bytes) (f : Bool) (acc : Bytes), (qn f r acc).lt (r.length + 1) ∧
    (r ≠ [] → (qn f r acc).lt r.length) := by
  have mono : ∀ {o : QOut} {i j : Nat}, o.lt i → i ≤ j → o.lt j := by
    intro o i j h hij; cases o <;> simp [QOut.lt] at h ⊢ <;> omega
  intro r
  induction r with
  | nil => intro f acc; simp [qn, QOut.lt]
  | cons b r ih =>
    intro f acc
    suffices h : (qn f (b :: r) acc).lt (b :: r).length from ⟨mono h (by simp), fun _ => h⟩
    rw [qn.eq_def]
    dsimp only
    split
    · match r with
      | [] => simp [QOut.lt]
      | [_] => simp [QOut.lt]
      | h' :: l :: r =>
        dsimp only
        split
        · simp [QOut.lt]
        · simp [QOut.lt]; omega
        · simp [QOut.lt]
    · split
      · exact mono (ih _ _).1 (by simp)
      · split
        · split
          · simp [QOut.lt]
          · exact mono (qv_le _ _ _ _ le_rfl) (by simp)
        · split
          · split
            · simp [QOut.lt]
            · simp [QOut.lt]
          · split
            · exact mono (ih _ _).1 (by simp)
            · simp [QOut.lt]

theorem EscapesOK.suffix {p r : Bytes} (h : EscapesOK (p ++ r)) : EscapesOK r := by
  intro q a b t e
  exact h (p ++ q) a b t (by rw [e]; simp)

/-- An error leaves no bytes. -/
def QOut.clean : QOut → Prop
  | .item _ _ => True
  | .error _ r => r = []

theorem qv_clean : ∀ (k : Nat) (n r acc : Bytes), r.length ≤ k → EscapesOK r → (qv n r acc).clean := by
  intro k
  induction k with
  | zero =>
    intro n r acc hk _
    have : r = [] := List.eq_nil_of_length_eq_zero (by omega)
    subst this
    simp [qv, QOut.clean]
  | succ k ih =>
    intro n r acc hk hr
    match r with
    | [] => simp [qv, QOut.clean]
    | b :: r =>
      rw [qv_cons]
      simp at hk
      split
      · rename_i hb
        subst hb
        match r with
        | [] => simp [QOut.clean]
        | [_] => simp [QOut.clean]
        | h' :: l :: r =>
          obtain ⟨⟨m, h1⟩, n, h2⟩ := hr [] h' l r rfl
          dsimp only
          rw [nibble_digit _ _ h1, nibble_digit _ _ h2]
          exact ih _ _ _ (by simp at hk; omega) (hr.suffix (p := [_, _, _]))
      · split
        · exact ih _ _ _ hk (hr.suffix (p := [_]))
        · split
          · simp [QOut.clean]
          · split
            · exact ih _ _ _ hk (hr.suffix (p := [_]))
            · simp [QOut.clean]

theorem qn_clean : ∀ (r : Bytes) (f : Bool) (acc : Bytes), EscapesOK r → (qn f r acc).clean := by
  intro r
  induction r with
  | nil => intro f acc _; simp [qn, QOut.clean]
  | cons b r ih =>
    intro f acc hr
    rw [qn.eq_def]
    dsimp only
    split
    · rename_i hb
      subst hb
      match r with
      | [] => simp [QOut.clean]
      | [_] => simp [QOut.clean]
      | h' :: l :: r =>
        obtain ⟨⟨m, h1⟩, n, h2⟩ := hr [] h' l r rfl
        dsimp only
        rw [nibble_digit _ _ h1, nibble_digit _ _ h2]
        simp [QOut.clean]
    · split
      · exact ih _ _ (hr.suffix (p := [_]))
      · split
        · split
          · simp [QOut.clean]
          · exact qv_clean _ _ _ _ le_rfl (hr.suffix (p := [_]))
        · split
          · split
            · simp [QOut.clean]
            · simp [QOut.clean]
          · split
            · exact ih _ _ (hr.suffix (p := [_]))
            · simp [QOut.clean]

end Verif.Util
