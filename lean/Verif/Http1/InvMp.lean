import Verif.Http1.Inv
import Verif.Http1.RunsMp
import Verif.Http1.RunsLoose
import Verif.Http1.MpLooseSpec

/-!
# Which multipart bodies the reference machine accepts (helper lemmas)
-/

set_option linter.unusedSimpArgs false
set_option linter.unusedVariables false

namespace Verif.Http1

variable {env : Env} {tr L : List Ev} {s s1 : AS} {m r : Bytes} {bd : Bytes}

/-! ## What is accepted -/

theorem Acc.hyphen1 (h : Acc env L r tr (.hyphen1 true) m) :
    ∃ m', m = b!"--" ++ m' ∧ Acc env L r tr (.bound true 0) m' := by
  obtain ⟨m1, rfl, h1⟩ := h.expect (e := c! '-') (s' := .hyphen2 true) (pe := .multipartBoundary) rfl nofun
    (fun b => by simp [bstep, bExpect])
  obtain ⟨m2, rfl, h2⟩ := h1.expect (e := c! '-') (s' := .bound true 0) (pe := .multipartBoundary) rfl nofun
    (fun b => by simp [bstep, bExpect])
  exact ⟨m2, rfl, h2⟩

theorem Acc.boundTrue (hb : env.boundary = some bd) : ∀ (y x : Bytes) (m : Bytes), x ++ y = bd →
    Acc env L r tr (.bound true x.length) m → ∃ m', m = y ++ m' ∧ Acc env L r tr (.bound true bd.length) m'
  | [], x, m, hx, h => by simp at hx; subst hx; exact ⟨m, rfl, h⟩
  | b :: y, x, m, hx, h => by
    have hi : x.length < bd.length := by rw [← hx]; simp
    obtain ⟨c, m', es, s', rfl, h2, h3⟩ := h.byte (norm_bound hb hi tr) nofun
    have hc : bd[x.length]? = some b := by rw [← hx]; simp
    simp only [bstep, hb, hc, Option.some.injEq] at h2
    split at h2
    · rename_i e
      subst e
      simp only [BRes.next.injEq] at h2
      obtain ⟨rfl, rfl⟩ := h2
      obtain ⟨m2, rfl, h4⟩ := Acc.boundTrue hb y (x ++ [b]) m' (by simp [hx]) (by simpa using h3)
      exact ⟨m2, rfl, h4⟩
    · simp at h2

theorem Acc.boundFalse (hb : env.boundary = some bd) : ∀ (y x : Bytes) (m : Bytes), x ++ y = bd →
    Acc env L r tr (.bound false x.length) m → (∃ m', m = y ++ m' ∧ Acc env L r tr (.bound false bd.length) m') ∨
      ∃ i m', i < bd.length ∧ x ++ m = bd.take i ++ m' ∧ m'.head? ≠ bd[i]? ∧ m'.length ≤ m.length ∧
        Acc env L r (tr ++ md (b!"\r\n--" ++ bd.take i)) .mpByte m'
  | [], x, m, hx, h => by simp at hx; subst hx; exact .inl ⟨m, rfl, h⟩
  | b :: y, x, m, hx, h => by
    have hi : x.length < bd.length := by rw [← hx]; simp
    obtain ⟨c, m', es, s', rfl, h2, h3⟩ := h.byte (norm_bound hb hi tr) nofun
    have hc : bd[x.length]? = some b := by rw [← hx]; simp
    have ht : bd.take x.length = x := by rw [← hx]; simp
    simp only [bstep, hb, hc, Option.some.injEq] at h2
    split at h2
    · rename_i e
      subst e
      simp only [BRes.next.injEq] at h2
      obtain ⟨rfl, rfl⟩ := h2
      rcases Acc.boundFalse hb y (x ++ [b]) m' (by simp [hx]) (by simpa using h3) with ⟨m2, rfl, h4⟩ | ⟨i, m2, h4, h5, h6, h7, h8⟩
      · exact .inl ⟨m2, rfl, h4⟩
      · exact .inr ⟨i, m2, h4, by simpa using h5, h6, by simp; omega, h8⟩
    · rename_i e
      refine .inr ⟨x.length, c :: m', hi, by rw [ht], by simpa [hc] using fun e' => e e'.symm, by simp, ?_⟩
      simp only [Bool.false_eq_true, if_false] at h2
      cases hm : bMpByte c with
      | next fs t =>
        rw [hm] at h2
        simp only [BRes.pre, BRes.next.injEq] at h2
        obtain ⟨rfl, rfl⟩ := h2
        unfold Acc at h3 ⊢
        rw [← h3, pred_next (s := .mpByte) (s1 := .mpByte) (s' := t) (es0 := []) (es := fs) rfl nofun hm]
        simp [md]
      | err _ _ => rw [hm] at h2; simp [BRes.pre] at h2
      | errB => rw [hm] at h2; simp [BRes.pre] at h2
      | panic => rw [hm] at h2; simp [BRes.pre] at h2

/-- Through data that is delimited by the boundary. -/
theorem Acc.scanned (hb : env.boundary = some bd) : ∀ (n : Nat) (m : Bytes) (tr : List Ev), m.length ≤ n →
    Acc env L r tr .mpByte m → ∃ d m', Scanned bd d ∧ m = d ++ delimiter bd ++ m' ∧
      Acc env L r (tr ++ md d) (.bound false bd.length) m' := by
  intro n
  induction n with
  | zero =>
    intro m tr hl h
    obtain ⟨b, m', _, _, h1, _⟩ := h.byte rfl nofun
    subst h1; simp at hl
  | succ n ih =>
    intro m tr hl h
    obtain ⟨b, m1, es, s', rfl, h2, h3⟩ := h.byte rfl nofun
    simp only [bstep, bMpByte, beq_iff_eq] at h2
    split at h2
    on_goal 2 =>
      rename_i hr
      simp only [BRes.next.injEq] at h2
      obtain ⟨rfl, rfl⟩ := h2
      obtain ⟨d, m', h4, rfl, h5⟩ := ih m1 _ (by simp at hl; omega) h3
      exact ⟨b :: d, m', .byte hr h4, by simp, by simpa [md, flatEv] using h5⟩
    rename_i hr
    subst hr
    simp only [BRes.next.injEq] at h2
    obtain ⟨rfl, rfl⟩ := h2
    obtain ⟨b, m2, es, s', rfl, h2, h3⟩ := h3.byte rfl nofun
    simp only [bstep, beq_iff_eq] at h2
    split at h2
    on_goal 2 =>
      rename_i hr
      simp only [BRes.next.injEq] at h2
      obtain ⟨rfl, rfl⟩ := h2
      obtain ⟨d, m', h4, rfl, h5⟩ := ih m2 _ (by simp at hl; omega) h3
      exact ⟨_, m', .cr hr h4, by simp, by simpa [md, flatEv] using h5⟩
    rename_i hr
    subst hr
    simp only [BRes.next.injEq] at h2
    obtain ⟨rfl, rfl⟩ := h2
    obtain ⟨b, m3, es, s', rfl, h2, h3⟩ := h3.byte rfl nofun
    simp only [bstep, beq_iff_eq, Bool.false_eq_true, if_false] at h2
    split at h2
    on_goal 2 =>
      rename_i hr
      simp only [BRes.next.injEq] at h2
      obtain ⟨rfl, rfl⟩ := h2
      obtain ⟨d, m', h4, rfl, h5⟩ := ih m3 _ (by simp at hl; omega) h3
      exact ⟨_, m', .crlf hr h4, by simp, by simpa [md, flatEv] using h5⟩
    rename_i hr
    subst hr
    simp only [BRes.next.injEq] at h2
    obtain ⟨rfl, rfl⟩ := h2
    obtain ⟨b, m4, es, s', rfl, h2, h3⟩ := h3.byte rfl nofun
    simp only [bstep, beq_iff_eq, Bool.false_eq_true, if_false] at h2
    split at h2
    on_goal 2 =>
      rename_i hr
      simp only [BRes.next.injEq] at h2
      obtain ⟨rfl, rfl⟩ := h2
      obtain ⟨d, m', h4, rfl, h5⟩ := ih m4 _ (by simp at hl; omega) h3
      exact ⟨_, m', .hyphen hr h4, by simp, by simpa [md, flatEv] using h5⟩
    rename_i hr
    subst hr
    simp only [BRes.next.injEq] at h2
    obtain ⟨rfl, rfl⟩ := h2
    simp only [List.append_nil] at h3
    rcases Acc.boundFalse hb bd [] m4 rfl h3 with ⟨m', rfl, h4⟩ | ⟨i, m5, h4, h5, h6, h7, h8⟩
    · exact ⟨[], m', .nil, by simp [delimiter], by simpa [md, flatEv] using h4⟩
    · obtain ⟨d, m', h9, rfl, h10⟩ := ih m5 _ (by simp at hl; omega) h8
      have hh : d.head? ≠ bd[i]? := by
        cases d with
        | nil =>
          rw [List.getElem?_eq_getElem h4]
          simp
        | cons a d => simpa using h6
      refine ⟨_, m', .bound h4 hh h9, ?_, by rw [md_append, ← List.append_assoc]; exact h10⟩
      simp only [List.nil_append] at h5
      rw [h5]; simp

/-- Through data of known length. -/
theorem Acc.known (hb : env.boundary = some bd) : ∀ (n : Nat) (m : Bytes) (tr : List Ev), Acc env L r tr (.mpLen n) m →
    ∃ d m', d.length = n ∧ m = d ++ delimiter bd ++ m' ∧ Acc env L r (tr ++ md d) (.bound true bd.length) m' := by
  intro n
  induction n with
  | zero =>
    intro m tr h
    have h : Acc env L r tr .mpLenCr m := by
      unfold Acc at h ⊢; rw [← h, ← pred_mpLen]; rfl
    obtain ⟨m1, rfl, h1⟩ := h.expect (e := c! '\r') (s' := .mpLenLf) (pe := .multipartBoundary) rfl nofun (fun _ => rfl)
    obtain ⟨m2, rfl, h2⟩ := h1.expect (e := c! '\n') (s' := .hyphen1 true) (pe := .multipartBoundary) rfl nofun (fun _ => rfl)
    obtain ⟨m3, rfl, h3⟩ := h2.hyphen1
    obtain ⟨m4, rfl, h4⟩ := Acc.boundTrue hb bd [] m3 rfl h3
    exact ⟨[], m4, rfl, by simp [delimiter], by simpa [md, flatEv] using h4⟩
  | succ n ih =>
    intro m tr h
    obtain ⟨b, m', es, s', rfl, h2, h3⟩ := h.step (es0 := []) (s1 := .mpLen (n + 1)) (by simp [norm, mpLen']) nofun
    simp only [bstep, BRes.next.injEq] at h2
    obtain ⟨rfl, rfl⟩ := h2
    obtain ⟨d, m2, h4, rfl, h5⟩ := ih m' _ h3
    exact ⟨b :: d, m2, by simp [h4], by simp, by simpa [md, flatEv] using h5⟩

/-- All parts, after a boundary. -/
theorem Acc.parts (hb : env.boundary = some bd) (hp : env.ptype = .multipart) : ∀ (n : Nat) (m : Bytes) (t : List Ev) (e : Bool),
    m.length ≤ n → Acc env L r (tr ++ flat t) (.bound e bd.length) m →
    ∃ ps, LooseParts (fun es => env.cl (tr ++ es)) bd t ps ∧ m = ps.flatMap (LoosePart.write bd) ++ b!"--" ++ r ∧
      L = tr ++ flat (t ++ ps.flatMap LoosePart.events ++ [.bodyFinished]) := by
  intro n
  induction n with
  | zero =>
    intro m t e hl h
    obtain ⟨b, m', _, _, h1, _⟩ := h.step (norm_bound_end hb _) nofun
    subst h1; simp at hl
  | succ n ih =>
    intro m t e hl h
    obtain ⟨b, m1, es, s', rfl, h2, h3⟩ := h.step (norm_bound_end hb _) nofun
    simp only [bstep, beq_iff_eq] at h2
    split at h2
    · rename_i hr
      subst hr
      simp only [BRes.next.injEq] at h2
      obtain ⟨rfl, rfl⟩ := h2
      obtain ⟨m2, rfl, h4⟩ := h3.expect (e := c! '\n') (s' := .hdrCr2) rfl nofun (fun _ => rfl)
      obtain ⟨ls, m3, h5, rfl, h6⟩ := Acc.block _ _ _ (Nat.le_refl _) h4
      have e1 : ∀ d, tr ++ flat t ++ [] ++ [.multipartBegin] ++ flat (ls.flatMap Line.events) ++ [.headersFinished] =
          tr ++ flat (t ++ (LoosePart.mk ls d).headEvents) := by
        simp [flat, flatEv, LoosePart.headEvents]
      have hn : norm env (tr ++ flat t ++ [] ++ [.multipartBegin] ++ flat (ls.flatMap Line.events)) .hdrEnd =
          ([.headersFinished], mpData (env.cl (tr ++ flat t ++ [] ++ [.multipartBegin] ++ flat (ls.flatMap Line.events) ++
            [.headersFinished]))) := by
        simp [norm, hp]
      have hid := norm_idem env (tr ++ flat t ++ [] ++ [.multipartBegin] ++ flat (ls.flatMap Line.events)) .hdrEnd
      rw [hn] at hid
      unfold Acc at h6
      rw [pred_eps hn hid] at h6
      change Acc env L r _ _ m3 at h6
      have key : ∃ d m4 e', (∀ n, env.cl (tr ++ flat (t ++ (LoosePart.mk ls d).headEvents)) = some n → d.length = n) ∧
          (env.cl (tr ++ flat (t ++ (LoosePart.mk ls d).headEvents)) = none → Scanned bd d) ∧
          m3 = d ++ delimiter bd ++ m4 ∧
          Acc env L r (tr ++ flat (t ++ (LoosePart.mk ls d).headEvents) ++ md d) (.bound e' bd.length) m4 := by
        rw [e1 []] at h6
        have e2 : ∀ d, (LoosePart.mk ls d).headEvents = (LoosePart.mk ls []).headEvents := fun _ => rfl
        simp only [e2]
        cases hc : env.cl (tr ++ flat (t ++ (LoosePart.mk ls []).headEvents)) with
        | none =>
          rw [hc] at h6
          obtain ⟨d, m4, h7, h8, h9⟩ := Acc.scanned hb _ _ _ (Nat.le_refl _) h6
          exact ⟨d, m4, false, nofun, fun _ => h7, h8, h9⟩
        | some k =>
          rw [hc] at h6
          have h6 : Acc env L r (tr ++ flat (t ++ (LoosePart.mk ls []).headEvents)) (.mpLen k) m3 := by
            unfold Acc at h6 ⊢; rw [← h6, ← pred_mpLen]; rfl
          obtain ⟨d, m4, h7, h8, h9⟩ := Acc.known hb _ _ _ h6
          exact ⟨d, m4, true, fun n hn => by cases hn; exact h7, nofun, h8, h9⟩
      obtain ⟨d, m4, e', h7, h8, rfl, h9⟩ := key
      have e3 : tr ++ flat (t ++ (LoosePart.mk ls d).headEvents) ++ md d = tr ++ flat (t ++ (LoosePart.mk ls d).events) := by
        simp [LoosePart.events, flat, md]
      rw [e3] at h9
      obtain ⟨ps, h10, rfl, rfl⟩ := ih m4 _ e' (by simp [delimiter] at hl; omega) h9
      exact ⟨⟨ls, d⟩ :: ps, ⟨h5, h7, h8, h10⟩, by simp [LoosePart.write], by simp [flat]⟩
    · split at h2
      · rename_i hr
        subst hr
        simp only [BRes.next.injEq] at h2
        obtain ⟨rfl, rfl⟩ := h2
        obtain ⟨m2, rfl, h4⟩ := h3.expect (e := c! '-') (s' := .bodyFin) rfl nofun (fun _ => rfl)
        have h5 : m2 = r ∧ L = tr ++ flat t ++ [.bodyFinished] := by
          unfold Acc at h4
          cases m2 with
          | nil => simp [pred, norm] at h4; exact ⟨h4.2.symm, by simp [← h4.1]⟩
          | cons b m => simp [pred, norm] at h4; exact ⟨h4.2, by simp [← h4.1]⟩
        obtain ⟨rfl, rfl⟩ := h5
        exact ⟨[], trivial, rfl, by simp [flat, flatEv]⟩
      · simp at h2

theorem Acc.multipart (hb : env.boundary = some bd) (hp : env.ptype = .multipart) (h : Acc env L r tr (.hyphen1 true) m) :
    ∃ ps, LooseParts (fun es => env.cl (tr ++ es)) bd [] ps ∧ m = writeLoose bd ps ++ r ∧
      L = tr ++ flat (ps.flatMap LoosePart.events ++ [.bodyFinished]) := by
  obtain ⟨m1, rfl, h1⟩ := h.hyphen1
  obtain ⟨m2, rfl, h2⟩ := Acc.boundTrue hb bd [] m1 rfl h1
  obtain ⟨ps, h3, rfl, rfl⟩ := Acc.parts hb hp _ m2 [] true (Nat.le_refl _) (by simpa [flat] using h2)
  exact ⟨ps, h3, by simp [writeLoose], by simp⟩

/-! ## All of it is accepted -/

theorem runs_boundTake (hb : env.boundary = some bd) (e : Bool) : ∀ i, i ≤ bd.length →
    Runs env (.bound e 0) (bd.take i) [] (.bound e i)
  | 0, _ => by simpa using Runs.refl _
  | i + 1, h => by
    have ih := runs_boundTake hb e i (by omega)
    have hi : i < bd.length := by omega
    have hc : bd[i]? = some bd[i] := List.getElem?_eq_getElem hi
    have := ih.trans (Runs.byte (s' := .bound e (i + 1)) (b := bd[i]) (es := []) (norm_bound hb hi (e := e)) nofun
      (by simp [bstep, hb, hc]))
    rw [take_snoc hc]
    simpa using this

theorem pred_scanned (hb : env.boundary = some bd) (hr : c! '\r' ∉ bd) {d : Bytes} (h : Scanned bd d) (r : Bytes) :
    ∀ tr, pred env tr .mpByte (d ++ delimiter bd ++ r) = pred env (tr ++ md d) (.bound false bd.length) r := by
  have hcr : Runs env .mpByte b!"\r" [] .mpByteLf := Runs.byte (fun _ => rfl) nofun rfl
  have hlf : Runs env .mpByteLf b!"\n" [] (.hyphen1 false) := Runs.byte (fun _ => rfl) nofun rfl
  have hh1 : Runs env (.hyphen1 false) b!"-" [] (.hyphen2 false) := Runs.byte (fun _ => rfl) nofun rfl
  have hh2 : Runs env (.hyphen2 false) b!"-" [] (.bound false 0) := Runs.byte (fun _ => rfl) nofun rfl
  have h2 : Runs env .mpByte b!"\r\n" [] (.hyphen1 false) := hcr.trans hlf
  have h3 : Runs env .mpByte b!"\r\n-" [] (.hyphen2 false) := h2.trans hh1
  have h4 : Runs env .mpByte b!"\r\n--" [] (.bound false 0) := h3.trans hh2
  have go : ∀ {x d : Bytes}, Runs env .mpByte x (md x) .mpByte →
      (∀ tr, pred env tr .mpByte (d ++ delimiter bd ++ r) = pred env (tr ++ md d) (.bound false bd.length) r) →
      ∀ tr, pred env tr .mpByte (x ++ d ++ delimiter bd ++ r) = pred env (tr ++ md (x ++ d)) (.bound false bd.length) r := by
    intro x d hx ih tr
    have := hx tr (d ++ delimiter bd ++ r)
    rw [ih] at this
    rw [md_append, ← List.append_assoc, ← this]
    simp
  induction h with
  | nil =>
    intro tr
    have := (h4.trans (runs_boundTake hb false bd.length (Nat.le_refl _))) tr r
    simpa [delimiter, md, flatEv] using this
  | @byte b d hbr _ ih =>
    exact go (x := [b]) (Runs.byte (fun _ => rfl) nofun (by simp [bstep, bMpByte, hbr, md, flatEv])) ih
  | @cr b d hbr _ ih =>
    have := go (x := b!"\r" ++ [b]) (Runs.eq (hcr.trans (Runs.byte (s' := .mpByte) (b := b) (es := md (b!"\r" ++ [b]))
      (fun _ => rfl) nofun (by simp [bstep, hbr, md, flatEv]))) rfl rfl) ih
    simpa using this
  | @crlf b d hbr _ ih =>
    have := go (x := b!"\r\n" ++ [b]) (Runs.eq (h2.trans (Runs.byte (s' := .mpByte) (b := b) (es := md (b!"\r\n" ++ [b]))
      (fun _ => rfl) nofun (by simp [bstep, hbr, md, flatEv]))) rfl rfl) ih
    simpa using this
  | @hyphen b d hbr _ ih =>
    have := go (x := b!"\r\n-" ++ [b]) (Runs.eq (h3.trans (Runs.byte (s' := .mpByte) (b := b) (es := md (b!"\r\n-" ++ [b]))
      (fun _ => rfl) nofun (by simp [bstep, hbr, md, flatEv]))) rfl rfl) ih
    simpa using this
  | @bound i d hi hd _ ih =>
    intro tr
    have h5 := (h4.trans (runs_boundTake hb false i (by omega))) tr (d ++ delimiter bd ++ r)
    have h6 : ∀ tr, pred env tr (.bound false i) (d ++ delimiter bd ++ r) =
        pred env (tr ++ md (b!"\r\n--" ++ bd.take i)) .mpByte (d ++ delimiter bd ++ r) := by
      intro tr
      obtain ⟨b, m, e, hbm⟩ : ∃ b m, d ++ delimiter bd ++ r = b :: m ∧ bd[i]? ≠ some b := by
        cases d with
        | nil =>
          exact ⟨c! '\r', _, rfl, fun hc => hr (List.mem_of_getElem? hc)⟩
        | cons a d => exact ⟨a, _, rfl, fun hc => hd (by rw [hc]; rfl)⟩
      rw [e]
      have hs : bstep env (.bound false i) b = (bMpByte b).pre (md (b!"\r\n--" ++ bd.take i)) := by
        simp [bstep, hb, hbm, md]
      cases hm : bMpByte b with
      | next fs t =>
        rw [pred_next (s := .mpByte) (s1 := .mpByte) (s' := t) (es0 := []) (es := fs) rfl nofun hm,
          pred_next (s := .bound false i) (s1 := .bound false i) (s' := t) (es0 := [])
            (es := md (b!"\r\n--" ++ bd.take i) ++ fs) (norm_bound hb hi tr) nofun (by rw [hs, hm]; rfl)]
        simp
      | err _ _ => unfold bMpByte at hm; split at hm <;> simp at hm
      | errB => unfold bMpByte at hm; split at hm <;> simp at hm
      | panic => unfold bMpByte at hm; split at hm <;> simp at hm
    rw [h6, ih] at h5
    rw [md_append, ← List.append_assoc]
    simp only [List.append_nil] at h5
    rw [← h5]
    simp

/-- How far a boundary matches. -/
theorem matches_upto (bd : Bytes) : ∀ m : Bytes, bd <+: m ∨ ∃ i d, i < bd.length ∧ m = bd.take i ++ d ∧ d.head? ≠ bd[i]? := by
  induction bd with
  | nil => intro m; exact .inl List.nil_prefix
  | cons a bd ih =>
    intro m
    cases m with
    | nil => exact .inr ⟨0, [], by simp, rfl, by simp⟩
    | cons b m =>
      by_cases hab : a = b
      · subst hab
        rcases ih m with h | ⟨i, d, h1, rfl, h3⟩
        · exact .inl (by simpa using h)
        · exact .inr ⟨i + 1, d, by simpa using h1, by simp, by simpa using h3⟩
      · exact .inr ⟨0, b :: m, by simp, rfl, by simpa using fun h => hab h.symm⟩

/-- Data that is delimited as it should be is found. -/
theorem Delimited.scanned : ∀ (n : Nat) {d : Bytes}, d.length ≤ n → Delimited bd d → Scanned bd d := by
  intro n
  induction n with
  | zero =>
    intro d hl h
    obtain rfl : d = [] := List.length_eq_zero_iff.1 (by omega)
    exact .nil
  | succ n ih =>
    intro d hl h
    have tl : ∀ {x y : Bytes}, d = x ++ y → y.length ≤ n → Scanned bd y := by
      intro x y e hy
      have hs : y <:+ d := ⟨x, e.symm⟩
      exact ih hy ⟨fun h' => h.free (h'.trans hs.isInfix), fun h' => h.cr (h'.trans hs), fun h' => h.crlf (h'.trans hs),
        fun h' => h.hyphen (h'.trans hs)⟩
    have len : ∀ {x y : Bytes}, d = x ++ y → x ≠ [] → y.length ≤ n := by
      intro x y e hx
      have := List.length_pos_iff.2 hx
      rw [e, List.length_append] at hl
      omega
    rcases d with _ | ⟨b, d⟩
    · exact .nil
    by_cases h1 : b = c! '\r'
    · subst h1
      rcases d with _ | ⟨b, d⟩
      · exact absurd List.suffix_rfl h.cr
      by_cases h2 : b = c! '\n'
      · subst h2
        rcases d with _ | ⟨b, d⟩
        · exact absurd List.suffix_rfl h.crlf
        by_cases h3 : b = c! '-'
        · subst h3
          rcases d with _ | ⟨b, d⟩
          · exact absurd List.suffix_rfl h.hyphen
          by_cases h4 : b = c! '-'
          · subst h4
            rcases matches_upto bd d with ⟨y, rfl⟩ | ⟨i, y, h5, rfl, h6⟩
            · exact absurd ⟨[], y, by simp [delimiter]⟩ h.free
            · have e : c! '\r' :: c! '\n' :: c! '-' :: c! '-' :: (bd.take i ++ y) = b!"\r\n--" ++ bd.take i ++ y := by simp
              exact .bound h5 h6 (tl (x := b!"\r\n--" ++ bd.take i) e (len e (by simp)))
          · exact .hyphen h4 (tl (x := b!"\r\n-" ++ [b]) rfl (len (x := b!"\r\n-" ++ [b]) rfl (by simp)))
        · exact .crlf h3 (tl (x := b!"\r\n" ++ [b]) rfl (len (x := b!"\r\n" ++ [b]) rfl (by simp)))
      · exact .cr h2 (tl (x := b!"\r" ++ [b]) rfl (len (x := b!"\r" ++ [b]) rfl (by simp)))
    · exact .byte h1 (tl (x := [b]) rfl (len (x := [b]) rfl (by simp)))

/-- All parts. -/
theorem pred_looseParts (hb : env.boundary = some bd) (hr : c! '\r' ∉ bd) (hp : env.ptype = .multipart) (tr : List Ev) (rest : Bytes) :
    ∀ (ps : List LoosePart) (t : List Ev) (e : Bool), LooseParts (fun es => env.cl (tr ++ es)) bd t ps →
    pred env (tr ++ flat t) (.bound e bd.length) (ps.flatMap (LoosePart.write bd) ++ b!"--" ++ rest) =
      (tr ++ flat (t ++ ps.flatMap LoosePart.events ++ [.bodyFinished]), .finished rest)
  | [], t, e, _ => by
    have h1 : Runs env (.bound e bd.length) b!"--" [] .bodyFin := by
      have := (Runs.byteN (es0 := []) (es := []) (b := c! '-') (s' := .mpEnd) (norm_bound_end hb (e := e)) nofun rfl).trans
        (Runs.byte (s := .mpEnd) (s' := .bodyFin) (b := c! '-') (es := []) (fun _ => rfl) nofun rfl)
      simpa using this
    have := h1.finish (es' := [.bodyFinished]) (fun _ => rfl) (tr ++ flat t) rest
    simpa [flat, flatEv] using this
  | x :: ps, t, e, ⟨h1, h2, h3, h4⟩ => by
    have hh : Runs env (.bound e bd.length) (b!"\r\n" ++ (x.lines.flatMap Line.write ++ b!"\r\n"))
        ([] ++ [.multipartBegin] ++ [] ++ flat (x.lines.flatMap Line.events)) .hdrEnd := by
      have := ((Runs.byteN (es0 := []) (es := [.multipartBegin]) (b := c! '\r') (s' := .initialLf) (norm_bound_end hb (e := e)) nofun rfl).trans
        (Runs.byte (s := .initialLf) (s' := .hdrCr2) (b := c! '\n') (es := []) (fun _ => rfl) nofun rfl)).trans
        (runs_lines_end (env := env) x.lines h1)
      exact this
    have e1 : tr ++ flat t ++ ([] ++ [.multipartBegin] ++ [] ++ flat (x.lines.flatMap Line.events)) ++ [.headersFinished] =
        tr ++ flat (t ++ x.headEvents) := by simp [flat, flatEv, LoosePart.headEvents]
    have e3 : tr ++ flat (t ++ x.headEvents) ++ md x.data = tr ++ flat (t ++ x.events) := by
      simp [LoosePart.events, flat, md]
    have hn : norm env (tr ++ flat t ++ ([] ++ [.multipartBegin] ++ [] ++ flat (x.lines.flatMap Line.events))) .hdrEnd =
        ([.headersFinished], mpData (env.cl (tr ++ flat (t ++ x.headEvents)))) := by
      rw [← e1]; simp [norm, hp]
    have hid := norm_idem env (tr ++ flat t ++ ([] ++ [.multipartBegin] ++ [] ++ flat (x.lines.flatMap Line.events))) .hdrEnd
    rw [hn] at hid
    have e2 : (x :: ps).flatMap (LoosePart.write bd) ++ b!"--" ++ rest =
        b!"\r\n" ++ (x.lines.flatMap Line.write ++ b!"\r\n") ++
          (x.data ++ delimiter bd ++ (ps.flatMap (LoosePart.write bd) ++ b!"--" ++ rest)) := by
      simp only [List.flatMap_cons, LoosePart.write, List.append_assoc]
    rw [e2, hh, pred_eps hn hid, e1]
    have ih := fun e => pred_looseParts hb hr hp tr rest ps (t ++ x.events) e h4
    have e4 : tr ++ flat (t ++ (x :: ps).flatMap LoosePart.events ++ [.bodyFinished]) =
        tr ++ flat (t ++ x.events ++ ps.flatMap LoosePart.events ++ [.bodyFinished]) := by simp
    rw [e4]
    cases hc : env.cl (tr ++ flat (t ++ x.headEvents)) with
    | none =>
      show pred env _ .mpByte _ = _
      rw [pred_scanned hb hr (h3 hc), e3, ih]
    | some n =>
      obtain rfl := h2 n hc
      show pred env _ (mpLen' x.data.length) _ = _
      rw [pred_mpLen, runs_known hb x.data, e3, ih]

theorem pred_loose_mp (hb : env.boundary = some bd) (hr : c! '\r' ∉ bd) (hp : env.ptype = .multipart) (tr : List Ev) (rest : Bytes)
    (ps : List LoosePart) (h : LooseParts (fun es => env.cl (tr ++ es)) bd [] ps) :
    pred env tr (.hyphen1 true) (writeLoose bd ps ++ rest) =
      (tr ++ flat (ps.flatMap LoosePart.events ++ [.bodyFinished]), .finished rest) := by
  have := runs_open hb true tr (ps.flatMap (LoosePart.write bd) ++ b!"--" ++ rest)
  have h2 := pred_looseParts hb hr hp tr rest ps [] true h
  simp only [flat, List.flatMap_nil, List.append_nil, List.nil_append] at this h2
  rw [h2] at this
  simp only [flat]
  rw [← this]
  simp [writeLoose]

end Verif.Http1
