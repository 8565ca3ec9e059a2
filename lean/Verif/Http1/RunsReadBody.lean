import Verif.Http1.RunsRead
import Verif.Http1.RunsUrl
import Verif.Http1.SimCall

/-!
# The reference machine reads URL-encoded and multipart bodies as described (helper lemmas)
-/

set_option linter.unusedSimpArgs false
set_option linter.unusedVariables false

namespace Verif.Http1

open Read

variable {env : Env} {F : List Ev → Bytes → List Ev × Fin}

/-! ## URL-encoded bodies -/

theorem hexDigit_eq (b : UInt8) : hexDigit b = (hex b).map UInt8.ofNat := by
  revert b; apply Util.forall_u8; decide +kernel

theorem hex_lt {b : UInt8} {n : Nat} (h : hex b = some n) : n < 16 := by
  have key : ∀ b : UInt8, (hex b).getD 0 < 16 := by
    apply Util.forall_u8; decide +kernel
  have := key b
  rw [h] at this
  exact this

/-- The state within a value or a name. -/
def formState (val : Bool) : AS := if val then .uVal else .uName

theorem flat_formEv (val : Bool) (b : UInt8) : flat [formEv val [b]] = [formEv val [b]] := by
  cases val <;> rfl

/-- What comes after the last byte of a body of length `n`. -/
def formStop (n : Nat) (msg : Bytes) : Tale :=
  if n ≤ msg.length then say [.bodyFinished] (done (msg.drop n)) else more

theorem endU_stop (n : Nat) (msg : Bytes) (tr : List Ev) :
    endU n msg (tr, .eos) = res atEnd tr (formStop n msg) := by
  simp only [endU, formStop]
  split
  · rw [res_say, res_done]; rfl
  · rw [res_more]

theorem pred_formFirst (tr : List Ev) (r : Bytes) :
    pred env tr .uFirst r = pred env (tr ++ formBegin r) (formState false) r := by
  cases r with
  | nil => simp [pred, norm, formBegin, formState]
  | cons b r =>
    rw [Plain.step (s := .uFirst) ⟨fun _ => rfl, nofun⟩, formState, if_neg (by simp),
      Plain.step (s := .uName) ⟨fun _ => rfl, nofun⟩]
    simp only [bstep, formBegin]
    cases h : bUName b <;> simp [BRes.pre]
    all_goals (unfold bUName at h; split at h <;> try cases h)
    all_goals (split at h <;> try cases h)
    all_goals (split at h <;> try cases h)
    all_goals (split at h <;> try cases h)
    all_goals (split at h <;> try cases h)

theorem bForm (val : Bool) (b : UInt8) : bstep env (formState val) b =
    if b = c! '%' then .next [] (if val then .uValH1 else .uNameH1)
    else if b = c! '+' then .next [] (if val then .uValPlus else .uNamePlus)
    else if b = c! '&' ∨ b = c! ';' then .next [] .uFirst
    else if b = c! '=' ∧ val = false then .next [] .uVal
    else if VisibleByte b then .next [formEv val [b]] (formState val)
    else .err [] (formErr val b) := by
  cases val
  · simp only [formState, bstep, bUName, visible_eq, formEv, formErr, Bool.false_eq_true, if_false, and_true, beq_iff_eq,
      Bool.or_eq_true, decide_eq_true_eq]
    by_cases h1 : b = c! '%'
    · simp [h1]
    by_cases h2 : b = c! '+'
    · simp [h1, h2]
    by_cases h3 : b = c! '='
    · simp [h1, h2, h3]
    simp [h1, h2, h3]
  · simp only [formState, bstep, bUVal, visible_eq, formEv, formErr, if_true, beq_iff_eq,
      Bool.or_eq_true, decide_eq_true_eq, reduceCtorEq, and_false, if_false]
    by_cases h1 : b = c! '%'
    · simp [h1]
    by_cases h2 : b = c! '+'
    · simp [h1, h2]
    simp [h1, h2]

theorem plain_form (val : Bool) : Plain env (formState val) := by
  cases val <;> exact ⟨fun _ => rfl, nofun⟩

theorem is_fields (n : Nat) (msg : Bytes) : ∀ (val : Bool) (r : Bytes) (tr : List Ev),
    endU n msg (pred env tr (formState val) r) = res atEnd tr (fields (formStop n msg) (msg.drop n) val r)
  | val, [], tr => by rw [(plain_form val).nil, endU_stop, fields]
  | val, b :: r, tr => by
    rw [(plain_form val).step, bForm, fields.eq_def]
    simp only
    by_cases h1 : b = c! '%'
    · simp only [h1, if_true, List.append_nil]
      match r with
      | [] => cases val <;> simp [pred, norm, endU_stop]
      | [a] =>
        cases val <;> cases ha : hex a <;>
          simp [pred, norm, bstep, hexDigit_eq, ha, endU, res_wrong, formErr, ← endU_stop]
      | a :: c :: s =>
        cases ha : hex a with
        | none => cases val <;> simp [pred, norm, bstep, hexDigit_eq, ha, endU, res_wrong, formErr]
        | some m =>
          cases hc : hex c with
          | none => cases val <;> simp [pred, norm, bstep, hexDigit_eq, ha, hc, endU, res_wrong, formErr]
          | some k =>
            have := is_fields n msg val s (tr ++ [formEv val [UInt8.ofNat (16 * m + k)]])
            simp only [ha, hc]
            rw [res_say, flat_formEv, ← this]
            cases val <;> simp [pred, norm, bstep, hexDigit_eq, ha, hc, hex_join (hex_lt ha) (hex_lt hc), formEv, formState]
    by_cases h2 : b = c! '+'
    · have := is_fields n msg val r (tr ++ [formEv val b!" "])
      rw [if_neg h1, if_pos h2, if_neg h1, if_pos h2, res_say, flat_formEv, ← this]
      cases val <;> cases r <;> simp [pred, norm, formEv, formState]
    by_cases h3 : b = c! '&' ∨ b = c! ';'
    · have := is_fields n msg false r (tr ++ formBegin r)
      rw [if_neg h1, if_neg h2, if_pos h3, if_neg h1, if_neg h2, if_pos h3, res_say]
      simp only [List.append_nil]
      rw [pred_formFirst, this]
      congr 1
      unfold formBegin; split <;> rfl
    by_cases h4 : b = c! '=' ∧ val = false
    · have := is_fields n msg true r tr
      rw [if_neg h1, if_neg h2, if_neg h3, if_pos h4, if_neg h1, if_neg h2, if_neg h3, if_pos h4]
      simpa [formState] using this
    by_cases h5 : VisibleByte b
    · have := is_fields n msg val r (tr ++ [formEv val [b]])
      simp only [h1, h2, h3, h4, h5, if_true, if_false, res_say, flat_formEv]
      exact this
    · simp [h1, h2, h3, h4, h5, endU, res_wrong]
termination_by _ r => r.length

theorem is_form (n : Nat) (msg : Bytes) (tr : List Ev) :
    endU n msg (pred env tr .uFirst (msg.take n)) = res atEnd tr (form n msg) := by
  rw [pred_formFirst, is_fields, form, res_say]
  congr 1
  unfold formBegin; split <;> rfl

/-! ## Multipart bodies -/

theorem res_then {G : List Ev → Bytes → List Ev × Fin} {tr : List Ev} {t : Tale} {k : List Ev → Bytes → Tale}
    (hF : ∀ r, t.ending = .done r → F (tr ++ flat t.told) r = res G (tr ++ flat t.told) (k t.told r)) :
    res F tr t = res G tr (t.then k) := by
  obtain ⟨es, e⟩ := t
  cases e with
  | done r =>
    show F (tr ++ flat es) r = res G tr (say es (k es r))
    rw [res_say]
    exact hF r rfl
  | _ => rfl

/-- What is read as `t` says, whatever comes after it, leaves at most `n` bytes. -/
theorem short_of_is {s : AS} {n : Nat} {t : Tale} {tr : List Ev} {x : Bytes} {A : List Ev × Fin}
    (h : ∀ F, Is env F s n done → A = res F tr t) {r : Bytes} (hr : t.ending = .done r) : r.length ≤ n := by
  by_contra hn
  have key : ∀ X : Fin, A = ([], X) := by
    intro X
    rw [h (fun tr r => if r.length ≤ n then pred env tr s r else ([], X)) (fun tr r h => by rw [res_done, if_pos h])]
    obtain ⟨es, e⟩ := t
    simp only at hr
    subst hr
    simp only [res, if_neg hn]
  have h1 := key .eos
  rw [key .panic] at h1
  cases h1

variable {bd : Bytes}

theorem flat_join (a b : List Ev) : flat (a ++ b) = flat a ++ flat b := by simp [flat]

theorem pred_boundEnd (hb : env.boundary = some bd) (exp : Bool) (tr : List Ev) (r : Bytes) :
    pred env tr (.bound exp bd.length) r = pred env tr .boundCr r := by
  have := pred_eps (env := env) (tr := tr) (s := .bound exp bd.length) (s1 := .boundCr) (es := [])
    (by simp [norm, hb]) rfl r
  simpa using this

theorem plain_bound (hb : env.boundary = some bd) {exp : Bool} {i : Nat} (hi : i < bd.length) :
    Plain env (.bound exp i) := ⟨fun tr => by simp [norm, hb, Nat.not_le.2 hi], nofun⟩

theorem is_literal (hb : env.boundary = some bd) {n : Nat} (hF : Is env F .boundCr n done) :
    ∀ (r : Bytes) (i : Nat) (tr : List Ev), i ≤ bd.length → r.length ≤ n →
    pred env tr (.bound true i) r = res F tr (literal done (bd.drop i) r) := by
  intro r
  induction r with
  | nil =>
    intro i tr hi hr
    by_cases h : i = bd.length
    · subst h
      rw [pred_boundEnd hb, List.drop_length, literal, hF _ _ hr]
    · have hi' : i < bd.length := by omega
      rw [(plain_bound hb hi').nil, List.drop_eq_getElem_cons hi', literal, res_more]
  | cons b r ih =>
    intro i tr hi hr
    by_cases h : i = bd.length
    · subst h
      rw [pred_boundEnd hb, List.drop_length, literal, hF _ _ hr]
    · have hi' : i < bd.length := by omega
      simp only [List.length_cons] at hr
      rw [(plain_bound hb hi').step, List.drop_eq_getElem_cons hi', literal]
      simp only [bstep, hb, List.getElem?_eq_getElem hi', Option.some.injEq]
      by_cases hc : b = bd[i]
      · simp only [hc, if_true, List.append_nil]
        exact ih (i + 1) tr (by omega) (by omega)
      · simp [hc, Ne.symm hc, res, boundary, flat]

theorem is_dashes (hb : env.boundary = some bd) {n : Nat} (hF : Is env F .boundCr n done) :
    Is env F (.hyphen1 true) n (dashes bd) := by
  refine is_the (s' := .hyphen2 true) ⟨fun _ => rfl, nofun⟩ (fun b => ?_) <|
    is_the (s' := .bound true 0) ⟨fun _ => rfl, nofun⟩ (fun b => ?_) ?_
  · by_cases h : b = c! '-' <;> simp [bstep, bExpect, h]
  · by_cases h : b = c! '-' <;> simp [bstep, bExpect, h]
  · intro tr r hr
    have := is_literal hb hF r 0 tr (Nat.zero_le _) hr
    simpa using this

theorem pred_partData : ∀ (r : Bytes) (v : Nat) (tr : List Ev),
    pred env tr (mpLen' v) r = pred env (tr ++ flat [.multipartData (r.take v)]) .mpLenCr (r.drop v)
  | [], v, tr => by
    by_cases hv : v = 0 <;> simp [mpLen', pred, norm, hv, flat, flatEv]
  | b :: r, 0, tr => by simp [mpLen', flat, flatEv]
  | b :: r, v + 1, tr => by
    have := pred_partData r v (tr ++ [.multipartData [b]])
    simp only [List.take_succ_cons, List.drop_succ_cons]
    rw [show flat [Ev.multipartData (b :: r.take v)] = [.multipartData [b]] ++ flat [.multipartData (r.take v)] from rfl,
      ← List.append_assoc, ← this, mpLen', if_neg (Nat.succ_ne_zero v)]
    rw [Plain.step (s := .mpLen (v + 1)) ⟨fun _ => by simp [norm, mpLen'], nofun⟩]
    simp only [bstep, Nat.add_sub_cancel]
    have e := pred_eps (env := env) (tr := tr ++ [.multipartData [b]]) (s := .mpLen v) (s1 := mpLen' v) (es := [])
      rfl (by by_cases h : v = 0 <;> simp [mpLen', h, norm]) r
    simpa using e

theorem is_sized (hb : env.boundary = some bd) {n : Nat} (hF : Is env F .boundCr n done) (v : Nat) :
    Is env F (mpLen' v) n (sized bd v) := by
  intro tr r hr
  rw [pred_partData, sized, res_say]
  refine is_the (s := .mpLenCr) (s' := .mpLenLf) ⟨fun _ => rfl, nofun⟩ (fun _ => rfl)
    (is_the (s' := .hyphen1 true) ⟨fun _ => rfl, nofun⟩ (fun _ => rfl) (is_dashes hb hF)) _ _ ?_
  simp only [List.length_drop]
  omega

theorem pred_boundary (hb : env.boundary = some bd) : ∀ (r : Bytes) (i : Nat) (tr : List Ev), i ≤ bd.length →
    pred env tr (.bound false i) r =
      if bd.drop i <+: r then pred env tr .boundCr (r.drop (bd.length - i))
      else if r <+: bd.drop i then (tr, .eos)
      else pred env (tr ++ flat [.multipartData (b!"\r\n--" ++ bd.take (i + common r (bd.drop i)))]) .mpByte
        (r.drop (common r (bd.drop i))) := by
  intro r
  induction r with
  | nil =>
    intro i tr hi
    by_cases h : i = bd.length
    · subst h
      rw [pred_boundEnd hb]
      simp
    · have hi' : i < bd.length := by omega
      rw [(plain_bound hb hi').nil]
      simp
      omega
  | cons b r ih =>
    intro i tr hi
    by_cases h : i = bd.length
    · subst h
      rw [pred_boundEnd hb]
      simp
    · have hi' : i < bd.length := by omega
      rw [(plain_bound hb hi').step, List.drop_eq_getElem_cons hi']
      simp only [bstep, hb, List.getElem?_eq_getElem hi', Option.some.injEq, List.cons_prefix_cons, common]
      by_cases hc : b = bd[i]
      · subst hc
        simp only [if_true, List.append_nil, true_and, List.drop_succ_cons]
        rw [ih (i + 1) tr (by omega), show bd.length - i = bd.length - (i + 1) + 1 by omega, List.drop_succ_cons]
        rw [show i + (common r (bd.drop (i + 1)) + 1) = i + 1 + common r (bd.drop (i + 1)) by omega]
      · simp only [Ne.symm hc, hc, if_false, false_and, List.drop_zero, Nat.add_zero, Bool.false_eq_true]
        rw [Plain.step (s := .mpByte) ⟨fun _ => rfl, nofun⟩]
        simp only [bstep, bMpByte]
        by_cases hr : b = c! '\r'
        · simp [hr, BRes.pre, flat]
        · simp [hr, BRes.pre, flat]

theorem common_le : ∀ a b : Bytes, common a b ≤ a.length
  | a :: x, b :: y => by
    simp only [common]
    split
    · have := common_le x y; simp only [List.length_cons]; omega
    · exact Nat.zero_le _
  | [], _ => by simp [common]
  | _ :: _, [] => by simp [common]

theorem is_scan (hb : env.boundary = some bd) : ∀ n, Is env F .boundCr n done → Is env F .mpByte n (scan bd n)
  | 0, _ => by
    intro tr r hr
    have : r = [] := List.eq_nil_of_length_eq_zero (by omega)
    subst this
    rw [Plain.nil (s := .mpByte) ⟨fun _ => rfl, nofun⟩, scan, res_more]
  | n + 1, hF => by
    have ih := is_scan hb n (hF.mono (Nat.le_succ n))
    intro tr r hr
    match r with
    | [] => simp [pred, norm, scan, look, res_more]
    | b :: r =>
      simp only [List.length_cons] at hr
      rw [Plain.step (s := .mpByte) ⟨fun _ => rfl, nofun⟩]
      by_cases h1 : b = c! '\r'
      swap
      · simp only [bstep, bMpByte, h1, beq_iff_eq, if_false, scan, look, ne_eq, not_false_eq_true, if_true, res_say]
        exact ih _ r (by omega)
      subst h1
      simp only [bstep, bMpByte, beq_self_eq_true, if_true, List.append_nil, scan, look, ne_eq, not_true_eq_false, if_false]
      match r with
      | [] => simp [pred, norm, res_more]
      | b :: r =>
        simp only [List.length_cons] at hr
        rw [Plain.step (s := .mpByteLf) ⟨fun _ => rfl, nofun⟩]
        by_cases h2 : b = c! '\n'
        swap
        · simp only [bstep, h2, beq_iff_eq, if_false, not_false_eq_true, if_true, res_say]
          have := ih (tr ++ flat [.multipartData [c! '\r', b]]) r (by omega)
          simpa [flat, flatEv] using this
        subst h2
        simp only [bstep, beq_self_eq_true, if_true, List.append_nil, not_true_eq_false, if_false]
        match r with
        | [] => simp [pred, norm, res_more]
        | b :: r =>
          simp only [List.length_cons] at hr
          rw [Plain.step (s := .hyphen1 false) ⟨fun _ => rfl, nofun⟩]
          by_cases h3 : b = c! '-'
          swap
          · simp only [bstep, h3, beq_iff_eq, if_false, not_false_eq_true, if_true, res_say, Bool.false_eq_true]
            have := ih (tr ++ flat [.multipartData (b!"\r\n" ++ [b])]) r (by omega)
            simpa [flat, flatEv] using this
          subst h3
          simp only [bstep, beq_self_eq_true, if_true, List.append_nil, not_true_eq_false, if_false]
          match r with
          | [] => simp [pred, norm, res_more]
          | b :: r =>
            simp only [List.length_cons] at hr
            rw [Plain.step (s := .hyphen2 false) ⟨fun _ => rfl, nofun⟩]
            by_cases h4 : b = c! '-'
            swap
            · simp only [bstep, h4, beq_iff_eq, if_false, not_false_eq_true, if_true, res_say, Bool.false_eq_true]
              have := ih (tr ++ flat [.multipartData (b!"\r\n-" ++ [b])]) r (by omega)
              simpa [flat, flatEv] using this
            subst h4
            simp only [bstep, beq_self_eq_true, if_true, List.append_nil, not_true_eq_false, if_false]
            rw [pred_boundary hb r 0 tr (Nat.zero_le _)]
            simp only [List.drop_zero, Nat.sub_zero, Nat.zero_add]
            have hcl := common_le r bd
            split
            · exact hF _ _ (by simp only [List.length_drop]; omega)
            · split
              · rw [res_more]
              · rw [res_say]
                exact ih _ _ (by simp only [List.length_drop]; omega)

theorem is_part {cl : List Ev → Option Nat} {tr0 : List Ev} (hp : env.ptype = .multipart) (hb : env.boundary = some bd)
    (hcl : ∀ es, env.cl (tr0 ++ flat es) = cl (flat es)) {n : Nat} (hF : Is env F .boundCr n done)
    (seen : List Ev) (r : Bytes) (hr : r.length ≤ n) :
    pred env (tr0 ++ flat seen ++ [.multipartBegin]) .initialLf r = res F (tr0 ++ flat seen) (part cl bd seen r) := by
  -- the head of the part
  have hhead : ∀ G, (∀ tr r, r.length ≤ n → pred env tr (mpData (env.cl tr)) r = G tr r) →
      pred env (tr0 ++ flat seen ++ [.multipartBegin]) .initialLf r = res G (tr0 ++ flat seen)
        (say [.multipartBegin] <| the (c! '\n') .crlfSequence
          (fun r => lines (fun r => say [.headersFinished] (done r)) r.length r) r) := by
    intro G hG
    rw [res_say]
    refine is_the (s := .initialLf) (s' := .hdrCr2) (n := r.length) ⟨fun _ => rfl, nofun⟩ (fun _ => rfl) ?_ _ r (Nat.le_refl _)
    intro tr x hx
    refine (is_lines (F := G) (fin := fun r => say [.headersFinished] (done r)) x.length ?_) tr x (Nat.le_refl _)
    intro tr y hy
    rw [res_say, res_done, ← hG _ _ (by omega)]
    have e := pred_eps (env := env) (tr := tr) (s := .hdrEnd) (s1 := mpData (env.cl (tr ++ [.headersFinished])))
      (es := [.headersFinished]) (by simp [norm, hp]) (by
        cases env.cl (tr ++ [.headersFinished]) with
        | none => rfl
        | some v => by_cases h : v = 0 <;> simp [mpData, mpLen', h, norm]) y
    exact e
  rw [hhead (fun tr r => if r.length ≤ n then pred env tr (mpData (env.cl tr)) r else ([], .eos))
    (fun tr r h => by rw [if_pos h])]
  refine res_then fun x hx => ?_
  -- what is left after the head
  have hl : x.length ≤ n := by
    by_contra hn
    have key : ∀ X : Fin, pred env (tr0 ++ flat seen ++ [.multipartBegin]) .initialLf r = ([], X) := by
      intro X
      rw [hhead (fun tr r => if r.length ≤ n then pred env tr (mpData (env.cl tr)) r else ([], X))
        (fun tr r h => by rw [if_pos h]), res, hx]
      simp only [if_neg hn]
    have h1 := key .eos
    rw [key .panic] at h1
    cases h1
  rw [if_pos hl, List.append_assoc, ← flat_join, hcl]
  cases cl (flat (seen ++ _)) with
  | none => exact is_scan hb x.length (hF.mono hl) _ x (Nat.le_refl _)
  | some v => exact is_sized hb hF v _ x hl

theorem is_parts {cl : List Ev → Option Nat} {tr0 : List Ev} (hp : env.ptype = .multipart) (hb : env.boundary = some bd)
    (hcl : ∀ es, env.cl (tr0 ++ flat es) = cl (flat es)) : ∀ (n : Nat) (seen : List Ev) (r : Bytes), r.length ≤ n →
    pred env (tr0 ++ flat seen) .boundCr r = res atEnd (tr0 ++ flat seen) (parts cl bd n seen r)
  | 0, seen, r, hr => by
    have : r = [] := List.eq_nil_of_length_eq_zero (by omega)
    subst this
    rw [Plain.nil (s := .boundCr) ⟨fun _ => rfl, nofun⟩, parts, res_more]
  | n + 1, seen, [], hr => by
    rw [Plain.nil (s := .boundCr) ⟨fun _ => rfl, nofun⟩]; simp [parts, look, res_more]
  | n + 1, seen, b :: r, hr => by
    simp only [List.length_cons] at hr
    rw [Plain.step (s := .boundCr) ⟨fun _ => rfl, nofun⟩]
    simp only [bstep, parts, look, beq_iff_eq]
    by_cases h1 : b = c! '\r'
    · simp only [h1, if_true]
      have hpart : ∀ F, Is env F .boundCr n done → pred env (tr0 ++ flat seen ++ [.multipartBegin]) .initialLf r =
          res F (tr0 ++ flat seen) (part cl bd seen r) := fun F hF => is_part hp hb hcl hF seen r (by omega)
      rw [hpart (fun tr r => pred env tr .boundCr r) (fun tr r _ => by rw [res_done])]
      refine res_then fun x hx => ?_
      have hl := short_of_is (x := r) hpart hx
      rw [List.append_assoc, ← flat_join, is_parts hp hb hcl n _ x hl]
    by_cases h2 : b = c! '-'
    · rw [if_neg h1, if_pos h2, if_neg h1, if_pos h2]
      simp only [List.append_nil]
      refine is_the (s := .mpEnd) (s' := .bodyFin) ⟨fun _ => rfl, nofun⟩ (fun _ => rfl) ?_ _ r (Nat.le_refl _)
      intro tr x _
      rw [res_say, res_done, atEnd]
      cases x <;> simp [pred, norm, flat, flatEv]
    · simp [h1, h2, res_wrong]

theorem is_multipart {cl : List Ev → Option Nat} {tr0 : List Ev} (hp : env.ptype = .multipart)
    (hb : env.boundary = some bd) (hcl : ∀ es, env.cl (tr0 ++ flat es) = cl (flat es)) (r : Bytes) :
    pred env tr0 (.hyphen1 true) r = res atEnd tr0 (multipart cl bd r) := by
  rw [is_dashes (F := fun tr r => pred env tr .boundCr r) hb (fun tr r _ => by rw [res_done]) tr0 r (Nat.le_refl _)]
  refine res_then fun x hx => ?_
  have ht : (dashes bd r).told = [] := by
    have lit : ∀ b r, (literal done b r).told = [] := by
      intro b
      induction b with
      | nil => intro r; rfl
      | cons c b ih =>
        intro r
        cases r with
        | nil => rfl
        | cons a r =>
          simp only [literal]
          split
          · exact ih r
          · rfl
    have the' : ∀ (c : UInt8) (k : Bytes → Tale), (∀ r, (k r).told = []) →
        ∀ r, (the c .multipartBoundary k r).told = [] := by
      intro c k hk r
      cases r with
      | nil => rfl
      | cons a r =>
        simp only [the, look]
        split
        · exact hk r
        · rfl
    exact the' _ _ (the' _ _ (lit bd)) r
  have := is_parts (tr0 := tr0) hp hb hcl x.length [] x (Nat.le_refl _)
  rw [ht]
  exact this

end Verif.Http1
