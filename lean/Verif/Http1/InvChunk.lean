import Verif.Http1.RunsLoose
import Verif.Http1.RunsChunk

/-!
# What the reference machine has read when it finishes a chunked body (helper lemmas)
-/

set_option linter.unusedSimpArgs false
set_option linter.unusedVariables false

namespace Verif.Http1

variable {env : Env} {tr L : List Ev} {s s1 : AS} {m r : Bytes} {v : Nat}

/-! ## Extensions -/

theorem bExtQuot_inv {b : UInt8} {es : List Ev} {s' : AS} (h : bExtQuot v b = .next es s') :
    (QuotedByte b ∧ b ≠ 255 ∧ es = xv [b] ∧ s' = .extQuot v) ∨ (b = c! '"' ∧ es = [] ∧ s' = .extVal v) ∨
    (b = c! '\\' ∧ es = [] ∧ s' = .extEsc v) := by
  unfold bExtQuot at h
  split at h
  · simp at h
  · rename_i t ht
    split at h
    · rename_i h1
      simp only [BRes.next.injEq] at h
      subst h1
      exact .inl ⟨(quoted_spec' ht).1, (quoted_spec' ht).2, h.1.symm, h.2.symm⟩
    · split at h
      · rename_i h1
        simp only [BRes.next.injEq] at h
        exact .inr (.inl ⟨eq_of_beq h1, h.1.symm, h.2.symm⟩)
      · split at h
        · rename_i h1
          simp only [BRes.next.injEq] at h
          exact .inr (.inr ⟨eq_of_beq h1, h.1.symm, h.2.symm⟩)
        · simp at h

/-- How an extension ends. -/
def ExtEnd (v : Nat) (last : Bool) (t : UInt8) (s : AS) : Prop :=
  (last = true ∧ t = c! '\r' ∧ s = .extsFin v) ∨ (last = false ∧ t = c! ';' ∧ s = .extStrip v)

theorem bExtVal_inv {b : UInt8} {es : List Ev} {s' : AS} (h : bExtVal v b = .next es s') :
    (FieldByte b ∧ b ≠ 255 ∧ b ≠ c! ';' ∧ es = xv [b] ∧ s' = .extVal v) ∨
    (b = c! '"' ∧ es = [] ∧ s' = .extQuot v) ∨
    ∃ last, ExtEnd v last b s' ∧ es = [.chunkExtensionFinished] := by
  unfold bExtVal at h
  split at h
  · simp at h
  · rename_i t ht
    split at h
    · rename_i h1
      simp only [BRes.next.injEq] at h
      simp only [Bool.and_eq_true, bne_iff_ne] at h1
      obtain ⟨rfl, h1⟩ := h1
      exact .inl ⟨(field_spec' ht).1, (field_spec' ht).2, h1, h.1.symm, h.2.symm⟩
    · split at h
      · rename_i h1
        simp only [BRes.next.injEq] at h
        exact .inr (.inr ⟨true, .inl ⟨rfl, eq_of_beq h1, h.2.symm⟩, h.1.symm⟩)
      · split at h
        · rename_i h1
          simp only [BRes.next.injEq] at h
          exact .inr (.inr ⟨false, .inr ⟨rfl, eq_of_beq h1, h.2.symm⟩, h.1.symm⟩)
        · split at h
          · rename_i h1
            simp only [BRes.next.injEq] at h
            exact .inr (.inl ⟨eq_of_beq h1, h.1.symm, h.2.symm⟩)
          · simp at h

theorem bExtName_inv {b : UInt8} {es : List Ev} {s' : AS} (h : bExtName v b = .next es s') :
    (TokenByte b ∧ es = [.chunkExtensionName [if UpperByte b then b + 32 else b]] ∧ s' = .extName v) ∨
    (b = c! '=' ∧ es = [] ∧ s' = .extVStrip v) ∨
    ∃ last, ExtEnd v last b s' ∧ es = [.chunkExtensionFinished] := by
  by_cases ht : TokenByte b
  · rw [bExtName_token ht] at h
    simp only [BRes.next.injEq] at h
    exact .inl ⟨ht, h.1.symm, h.2.symm⟩
  · unfold bExtName at h
    split at h
    · simp at h
    · rename_i t hx
      have hu : isUpper b = false := by
        cases hb : isUpper b
        · rfl
        · exact absurd (upper_token hb) ht
      have : t = false := by
        cases t
        · rfl
        · exact absurd (token_spec' hx) ht
      subst this
      simp only [hu, Bool.false_eq_true, if_false] at h
      split at h
      · rename_i h1
        simp only [BRes.next.injEq] at h
        exact .inr (.inl ⟨eq_of_beq h1, h.1.symm, h.2.symm⟩)
      · split at h
        · rename_i h1
          simp only [BRes.next.injEq] at h
          exact .inr (.inr ⟨true, .inl ⟨rfl, eq_of_beq h1, h.2.symm⟩, h.1.symm⟩)
        · split at h
          · rename_i h1
            simp only [BRes.next.injEq] at h
            exact .inr (.inr ⟨false, .inr ⟨rfl, eq_of_beq h1, h.2.symm⟩, h.1.symm⟩)
          · simp at h

theorem Acc.extQuoted : ∀ (n : Nat) (m : Bytes) (tr : List Ev), m.length ≤ n → Acc env L r tr (.extQuot v) m →
    ∃ q w m', ExtQuoted q w ∧ m = q ++ c! '"' :: m' ∧ Acc env L r (tr ++ xv w) (.extVal v) m' := by
  intro n
  induction n with
  | zero =>
    intro m tr hl h
    obtain ⟨b, m', _, _, h1, _⟩ := h.byte rfl nofun
    subst h1; simp at hl
  | succ n ih =>
    intro m tr hl h
    obtain ⟨b, m', es, s', rfl, h2, h3⟩ := h.byte rfl nofun
    rcases bExtQuot_inv h2 with ⟨q1, q2, rfl, rfl⟩ | ⟨rfl, rfl, rfl⟩ | ⟨rfl, rfl, rfl⟩
    · obtain ⟨q, w, m2, h4, rfl, h6⟩ := ih m' _ (by simp at hl; omega) h3
      exact ⟨b :: q, b :: w, m2, .byte q1 q2 h4, by simp, by simpa [xv] using h6⟩
    · exact ⟨[], [], m', .nil, rfl, by simpa [xv] using h3⟩
    · obtain ⟨b2, m2, es2, s2, rfl, h5, h6⟩ := h3.byte rfl nofun
      simp only [bstep] at h5
      split at h5
      · rename_i he
        simp only [BRes.next.injEq] at h5
        obtain ⟨rfl, rfl⟩ := h5
        obtain ⟨q, w, m3, h7, rfl, h8⟩ := ih m2 _ (by simp at hl; omega) h6
        exact ⟨c! '\\' :: b2 :: q, b2 :: w, m3, .esc (escapable_spec' he).1 (escapable_spec' he).2 h7, by simp,
          by simpa [xv] using h8⟩
      · simp at h5

theorem Acc.extText : ∀ (n : Nat) (m : Bytes) (tr : List Ev), m.length ≤ n → Acc env L r tr (.extVal v) m →
    ∃ x w last t s' m', ExtText x w ∧ ExtEnd v last t s' ∧ m = x ++ t :: m' ∧
      Acc env L r (tr ++ xv w ++ [.chunkExtensionFinished]) s' m' := by
  intro n
  induction n with
  | zero =>
    intro m tr hl h
    obtain ⟨b, m', _, _, h1, _⟩ := h.byte rfl nofun
    subst h1; simp at hl
  | succ n ih =>
    intro m tr hl h
    obtain ⟨b, m', es, s', rfl, h2, h3⟩ := h.byte rfl nofun
    rcases bExtVal_inv h2 with ⟨q1, q2, q3, rfl, rfl⟩ | ⟨rfl, rfl, rfl⟩ | ⟨last, q1, rfl⟩
    · obtain ⟨x, w, last, t, s2, m2, h4, h5, rfl, h6⟩ := ih m' _ (by simp at hl; omega) h3
      exact ⟨b :: x, b :: w, last, t, s2, m2, .byte q1 q2 q3 h4, h5, by simp, by simpa [xv] using h6⟩
    · obtain ⟨q, w, m2, h4, rfl, h5⟩ := Acc.extQuoted _ m' _ (Nat.le_refl _) h3
      obtain ⟨x, w2, last, t, s2, m3, h6, h7, rfl, h8⟩ := ih m2 _ (by simp at hl; omega) h5
      exact ⟨c! '"' :: q ++ c! '"' :: x, w ++ w2, last, t, s2, m3, .quoted h4 h6, h7, by simp,
        by simpa [xv] using h8⟩
    · exact ⟨[], [], last, b, s', m', .nil, q1, rfl, by simpa [xv] using h3⟩

theorem Acc.strip {s : AS} {item : UInt8 → BRes} {e : UInt8 → PErr} (hn : ∀ tr, norm env tr s = ([], s))
    (hf : s ≠ .fin) (hs : ∀ b, bstep env s b = bStrip s item e b) (h : Acc env L r tr s m)
    {t : AS} (htn : ∀ tr, norm env tr t = ([], t)) (htf : t ≠ .fin) (ht : ∀ b, bstep env t b = item b) :
    ∃ bl b m', (∀ a ∈ bl, Blank a) ∧ VisibleByte b ∧ m = bl ++ b :: m' ∧ Acc env L r tr t (b :: m') := by
  obtain ⟨bl, b, m2, es, s', rfl, h3, ⟨h4, h5⟩, h6, h7⟩ := Acc.loop hn hf
    (fun b => []) (P := Blank)
    (Q := fun b es s' => isVisible7bit b = true ∧ item b = .next es s')
    (by
      intro b es s' hb
      rw [hs, bStrip] at hb
      split at hb
      · rename_i hx
        simp only [BRes.next.injEq] at hb
        exact .inl ⟨blank_spec' hx, hb.1.symm, hb.2.symm⟩
      · split at hb
        · rename_i hx; exact .inr ⟨hx, hb⟩
        · simp at hb) m tr h
  refine ⟨bl, b, m2, h3, visible_spec' h4, rfl, ?_⟩
  unfold Acc at h7 ⊢
  rw [show bl.flatMap (fun _ => ([] : List Ev)) = [] by simp] at h7
  rw [← h7, pred_next (s := t) (s1 := t) (s' := s') (es0 := []) (es := es) (htn _) htf ((ht b).trans h5)]

/-- Through one extension, after the semicolon. -/
theorem Acc.extension (h : Acc env L r tr (.extStrip v) m) :
    ∃ (x : Extension) (last : Bool) (t : UInt8) (s' : AS) (m' : Bytes), x.Loose last ∧ ExtEnd v last t s' ∧
      m = x.write.drop 1 ++ t :: m' ∧ Acc env L r (tr ++ flat x.events) s' m' := by
  obtain ⟨bl, b, m1, h1, h2, rfl, h3⟩ := Acc.strip (s := .extStrip v) (item := bExtName v) (e := .chunkExtensionName) (t := .extName v) (fun _ => rfl) nofun (fun _ => rfl) h
    (fun _ => rfl) nofun (fun _ => rfl)
  obtain ⟨n, b', m2, es, s', e, h4, hq, -, h5⟩ := Acc.loop (s := .extName v) (fun _ => rfl) nofun
    (fun b => [.chunkExtensionName [if UpperByte b then b + 32 else b]]) (P := TokenByte)
    (Q := fun b es s' => (b = c! '=' ∧ es = [] ∧ s' = .extVStrip v) ∨
      ∃ last, ExtEnd v last b s' ∧ es = [.chunkExtensionFinished]) (fun b es s' hb => bExtName_inv hb) _ _ h3
  have e2 : (n.flatMap fun b => [Ev.chunkExtensionName [if UpperByte b then b + 32 else b]]) =
      flatEv (.chunkExtensionName (Verif.lower n)) := by
    rw [flatEv, Verif.lower, List.map_map, List.map_eq_flatMap]; rfl
  rw [e2] at h5
  rcases hq with ⟨rfl, rfl, rfl⟩ | ⟨last, hq, rfl⟩
  · obtain ⟨bl2, b2, m3, h6, h7, rfl, h8⟩ := Acc.strip (s := .extVStrip v) (item := bExtVal v) (e := .chunkExtensionValue) (t := .extVal v) (fun _ => rfl) nofun (fun _ => rfl) h5
      (fun _ => rfl) nofun (fun _ => rfl)
    obtain ⟨x, w, last, t, s2, m4, h9, h10, e3, h11⟩ := Acc.extText _ _ _ (Nat.le_refl _) h8
    refine ⟨⟨bl, n, some ⟨bl2, x, w⟩⟩, last, t, s2, m4, ⟨h1, h4, by simp, ?_⟩, h10, ?_, ?_⟩
    · rintro _ ⟨⟩
      refine ⟨h6, h9, ?_⟩
      cases x with
      | nil =>
        refine .inl ⟨rfl, ?_⟩
        simp only [List.nil_append, List.cons.injEq] at e3
        rcases h10 with ⟨rfl, rfl, rfl⟩ | ⟨rfl, rfl, rfl⟩
        · exact absurd e3.1 (visible_of h7).2.2.2
        · rfl
      | cons a x =>
        simp only [List.cons_append, List.cons.injEq] at e3
        exact .inr ⟨a, x, rfl, e3.1 ▸ h7⟩
    · rw [e, e3]; simp [Extension.write]
    · simpa [Extension.events, flat, flatEv, xv] using h11
  · refine ⟨⟨bl, n, none⟩, last, b', s', m2, ⟨h1, h4, ?_, by simp⟩, hq, ?_, ?_⟩
    · rintro - rfl rfl
      simp only [List.nil_append, List.cons.injEq] at e
      rcases hq with ⟨-, hq, -⟩ | ⟨hq, -⟩
      · exact absurd (e.1.trans hq) (visible_of h2).2.2.2
      · simp at hq
    · rw [e]; simp [Extension.write]
    · simpa [Extension.events, flat, flatEv] using h5

/-- Through all extensions, after the first semicolon. -/
theorem Acc.extensions : ∀ (n : Nat) (m : Bytes) (tr : List Ev), m.length ≤ n → Acc env L r tr (.extStrip v) m →
    ∃ (x : Extension) (l : List Extension) (m' : Bytes), looseExtensions (x :: l) ∧
      m = ((x :: l).flatMap Extension.write).drop 1 ++ c! '\r' :: m' ∧
      Acc env L r (tr ++ flat ((x :: l).flatMap Extension.events)) (.extsFin v) m' := by
  intro n
  induction n with
  | zero =>
    intro m tr hl h
    obtain ⟨b, m', _, _, h1, _⟩ := h.byte rfl nofun
    subst h1; simp at hl
  | succ n ih =>
    intro m tr hl h
    obtain ⟨x, last, t, s', m', h1, h2, rfl, h3⟩ := h.extension
    rcases h2 with ⟨rfl, rfl, rfl⟩ | ⟨rfl, rfl, rfl⟩
    · exact ⟨x, [], m', h1, by simp, by simpa using h3⟩
    · obtain ⟨y, l, m2, h4, rfl, h5⟩ := ih m' _ (by simp at hl; omega) h3
      refine ⟨x, y :: l, m2, ⟨h1, h4⟩, ?_, by simpa [flat] using h5⟩
      rw [List.flatMap_cons, List.flatMap_cons, List.flatMap_cons, write_cons x, write_cons y]
      simp

/-! ## Sizes and data -/

theorem Acc.digits : ∀ (m : Bytes) (tr : List Ev) (k : Nat) (ds : Bytes) (v : Nat), HexVal ds v → ds.length + k = 8 →
    Acc env L r tr (sizeNext k v) m →
    ∃ ds' n t m' es s', HexVal (ds ++ ds') n ∧ (ds ++ ds').length ≤ 8 ∧ m = ds' ++ t :: m' ∧
      bSizeEnd n t = .next es s' ∧ Acc env L r (tr ++ es) s' m' := by
  intro m
  induction m with
  | nil =>
    intro tr k ds v _ _ h
    obtain ⟨_, _, _, _, h1, _⟩ := h.byte (sizeNext_norm _) sizeNext_ne
    simp at h1
  | cons b m ih =>
    intro tr k ds v hd hk h
    obtain ⟨b', m', es, s', h1, h2, h3⟩ := h.byte (sizeNext_norm _) sizeNext_ne
    simp only [List.cons.injEq] at h1
    obtain ⟨rfl, rfl⟩ := h1
    by_cases hz : k = 0
    · subst hz
      exact ⟨[], v, b, m, es, s', by simpa using hd, by simp; omega, rfl, by simpa [sizeNext, bstep] using h2, h3⟩
    · rw [sizeNext, if_neg hz] at h2
      simp only [bstep] at h2
      split at h2
      · rename_i hx
        simp only [BRes.next.injEq] at h2
        obtain ⟨rfl, rfl⟩ := h2
        rw [List.append_nil] at h3
        have hd' : HexVal (ds ++ [b]) (v * 16 + (hexToByte b).toNat) := by
          rw [Nat.mul_comm]; exact .snoc hd (hexDigit_spec hx)
        obtain ⟨ds', n, t, m2, es, s', h4, h5, rfl, h6, h7⟩ := ih tr (k - 1) (ds ++ [b]) _ hd' (by simp; omega) h3
        exact ⟨b :: ds', n, t, m2, es, s', by simpa using h4, by simpa using h5, by simp, h6, h7⟩
      · exact ⟨[], v, b, m, es, s', by simpa using hd, by simp; omega, rfl, h2, h3⟩

theorem hexVal_zero : HexVal b!"0" 0 := HexVal.snoc (ds := []) (v := 0) (b := c! '0') (n := 0) .nil (.inl (by decide))

theorem hexVal_zero_eq {n : Nat} (h : HexVal b!"0" n) : n = 0 := by
  generalize hd : b!"0" = ds at h
  cases h with
  | nil => simp at hd
  | @snoc ds v b n h1 h2 =>
    cases ds with
    | nil =>
      simp only [List.nil_append, List.cons.injEq, and_true] at hd
      subst hd
      have e1 := h1.nil_eq
      have e2 := (hexDigit_of h2).2.1
      have e3 : (hexToByte (c! '0')).toNat = 0 := by decide
      omega
    | cons a ds => simp at hd

/-- Through the digits of a size and the byte after them. -/
theorem Acc.size (h : Acc env L r tr .size1 m) :
    ∃ ds n t m' es s', HexVal ds n ∧ (ds = b!"0" ∨ ∃ b t, ds = b :: t ∧ b ≠ c! '0') ∧ ds.length ≤ 8 ∧
      m = ds ++ t :: m' ∧ bSizeEnd n t = .next es s' ∧ Acc env L r (tr ++ [.chunkBegin] ++ es) s' m' := by
  obtain ⟨b, m', es, s', rfl, h2, h3⟩ := h.byte rfl nofun
  simp only [bstep] at h2
  split at h2
  · rename_i hb
    obtain rfl := eq_of_beq hb
    simp only [BRes.next.injEq] at h2
    obtain ⟨rfl, rfl⟩ := h2
    obtain ⟨t, m2, es, s', rfl, h4, h5⟩ := h3.byte rfl nofun
    exact ⟨b!"0", 0, t, m2, es, s', hexVal_zero, .inl rfl, by decide, rfl, h4, h5⟩
  · rename_i hb
    split at h2
    · rename_i hx
      simp only [BRes.next.injEq] at h2
      obtain ⟨rfl, rfl⟩ := h2
      have hd : HexVal [b] (hexToByte b).toNat := by
        have := HexVal.snoc .nil (hexDigit_spec hx)
        simpa using this
      obtain ⟨ds, n, t, m2, es, s', h4, h5, rfl, h6, h7⟩ := Acc.digits m' _ 7 [b] _ hd (by simp) (by
        rw [sizeNext, if_neg (by decide)]; exact h3)
      exact ⟨b :: ds, n, t, m2, es, s', h4, .inr ⟨b, ds, rfl, by simpa using hb⟩, h5, by simp, h6, h7⟩
    · simp at h2

/-- Through the data of a chunk. -/
theorem Acc.data : ∀ (n : Nat) (m : Bytes) (tr : List Ev), Acc env L r tr (.data n) m →
    ∃ d m', d.length = n ∧ m = d ++ b!"\r\n" ++ m' ∧ Acc env L r (tr ++ flatEv (.chunkData d)) .size1 m' := by
  intro n
  induction n with
  | zero =>
    intro m tr h
    have h' : Acc env L r tr .dataCr m := by
      unfold Acc at h ⊢
      rw [← h]
      cases m <;> simp [pred, norm]
    obtain ⟨m1, rfl, h1⟩ := h'.expect (e := c! '\r') rfl nofun (fun _ => rfl)
    obtain ⟨m2, rfl, h2⟩ := h1.expect (e := c! '\n') rfl nofun (fun _ => rfl)
    exact ⟨[], m2, rfl, rfl, by simpa [flatEv] using h2⟩
  | succ n ih =>
    intro m tr h
    obtain ⟨b, m', es, s', rfl, h2, h3⟩ := h.byte rfl nofun
    simp only [bstep, BRes.next.injEq, Nat.add_sub_cancel] at h2
    obtain ⟨rfl, rfl⟩ := h2
    obtain ⟨d, m2, h4, rfl, h5⟩ := ih m' _ h3
    exact ⟨b :: d, m2, by simp [h4], by simp, by simpa [flatEv] using h5⟩

/-- From the end of the extensions through the data. -/
theorem Acc.chunkRest (h : Acc env L r tr (.extsFin v) m) :
    ∃ d m', d.length = v ∧ m = b!"\n" ++ d ++ b!"\r\n" ++ m' ∧
      Acc env L r (tr ++ [.chunkExtensionsFinished] ++ flatEv (.chunkData d)) .size1 m' := by
  obtain ⟨b, m1, es, s1, rfl, h1, h2⟩ := h.step (s1 := .sizeLf v) rfl nofun
  simp only [bstep, bExpect] at h1
  split at h1
  · rename_i hb
    simp only [BRes.next.injEq] at h1
    obtain ⟨rfl, rfl⟩ := h1
    obtain rfl := eq_of_beq hb
    obtain ⟨d, m2, h3, rfl, h4⟩ := Acc.data _ _ _ h2
    exact ⟨d, m2, h3, by simp, by simpa using h4⟩
  · simp at h1

/-- Through a chunked body. -/
theorem Acc.body : ∀ (n : Nat) (m : Bytes) (tr : List Ev), m.length ≤ n → Acc env L r tr .size1 m →
    ∃ (x : LooseBody) (m' : Bytes), x.OK ∧ m = x.write ++ m' ∧
      Acc env L r (tr ++ flat (x.chunks.flatMap Chunk.events ++ [.chunkBegin, .chunkLength 0] ++
        x.trailer.flatMap Line.events)) .hdrEnd m' := by
  intro n
  induction n with
  | zero =>
    intro m tr hl h
    obtain ⟨b, m', _, _, h1, _⟩ := h.byte rfl nofun
    subst h1; simp at hl
  | succ n ih =>
    intro m tr hl h
    obtain ⟨ds, v, t, m1, es, s', h1, h2, h3, rfl, h4, h5⟩ := h.size
    have more : ∀ (exts : List Extension) (d : Bytes) (m2 : Bytes), d.length = v → looseExtensions exts →
        ((∃ b t, ds = b :: t ∧ b ≠ c! '0') ∨ (ds = b!"0" ∧ exts ≠ [])) →
        ds ++ t :: m1 = ds ++ exts.flatMap Extension.write ++ b!"\r\n" ++ d ++ b!"\r\n" ++ m2 →
        Acc env L r (tr ++ flat ([.chunkBegin, .chunkLength v] ++ exts.flatMap Extension.events ++
          [.chunkExtensionsFinished, .chunkData d])) .size1 m2 →
        ∃ (x : LooseBody) (m' : Bytes), x.OK ∧ ds ++ t :: m1 = x.write ++ m' ∧
          Acc env L r (tr ++ flat (x.chunks.flatMap Chunk.events ++ [.chunkBegin, .chunkLength 0] ++
            x.trailer.flatMap Line.events)) .hdrEnd m' := by
      intro exts d m2 hd he hf e hA
      have hlen : m2.length ≤ n := by
        have := congrArg List.length e
        simp only [List.length_append, List.length_cons] at this hl
        simp at this
        omega
      obtain ⟨x, m3, h6, rfl, h7⟩ := ih m2 _ hlen hA
      refine ⟨⟨⟨ds, exts, d⟩ :: x.chunks, x.trailer⟩, m3, ⟨?_, h6.trailer⟩, ?_, ?_⟩
      · intro y hy
        rcases List.mem_cons.1 hy with rfl | hy
        · exact ⟨by simpa [hd] using h1, hf, h3, he⟩
        · exact h6.chunks y hy
      · rw [e]; simp [LooseBody.write, Chunk.write]
      · simpa [Chunk.events, flat, flatEv, hd] using h7
    unfold bSizeEnd at h4
    split at h4
    · rename_i hb
      obtain rfl := eq_of_beq hb
      simp only [BRes.next.injEq] at h4
      obtain ⟨rfl, rfl⟩ := h4
      by_cases hv : v = 0
      · subst hv
        rw [if_pos rfl] at h5
        have hz : ds = b!"0" := h2.resolve_right fun hx => h1.pos hx rfl
        subst hz
        obtain ⟨m2, rfl, h6⟩ := Acc.expect (e := c! '\n') h5 rfl nofun (fun _ => rfl)
        obtain ⟨ls, m3, h7, rfl, h8⟩ := Acc.block _ _ _ (Nat.le_refl _) h6
        exact ⟨⟨[], ls⟩, m3, ⟨by simp, h7⟩, by simp [LooseBody.write], by simpa [flat, flatEv] using h8⟩
      · rw [if_neg hv] at h5
        obtain ⟨d, m2, h6, rfl, h7⟩ := h5.chunkRest
        refine more [] d m2 h6 trivial (.inl (h2.resolve_left ?_)) (by simp) (by simpa [flat, flatEv] using h7)
        rintro rfl
        exact hv (hexVal_zero_eq h1)
    · split at h4
      · rename_i hb
        obtain rfl := eq_of_beq hb
        simp only [BRes.next.injEq] at h4
        obtain ⟨rfl, rfl⟩ := h4
        obtain ⟨x, l, m2, h6, rfl, h7⟩ := Acc.extensions _ _ _ (Nat.le_refl _) h5
        obtain ⟨d, m3, h8, rfl, h9⟩ := h7.chunkRest
        refine more (x :: l) d m3 h8 h6 (h2.symm.imp id fun hz => ⟨hz, by simp⟩) ?_ (by simpa [flat, flatEv] using h9)
        rw [List.flatMap_cons, write_cons x]; simp
      · simp at h4

/-- What a finished chunked body consists of. -/
theorem Acc.chunked (hp : env.ptype = .chunked) (h : Acc env L r tr .size1 m) :
    ∃ x : LooseBody, x.OK ∧ m = x.write ++ r ∧ L = tr ++ flat x.events := by
  obtain ⟨x, m', h1, rfl, h2⟩ := Acc.body _ _ _ (Nat.le_refl _) h
  have hn : ∀ tr, norm env tr .hdrEnd = ([.headersFinished, .bodyFinished], .fin) := by intro tr; simp [norm, hp]
  unfold Acc at h2
  cases m' with
  | nil =>
    simp [pred, hn] at h2
    refine ⟨x, h1, by rw [h2.2], by rw [← h2.1]; simp [LooseBody.events, flat, flatEv]⟩
  | cons b m =>
    simp [pred, hn] at h2
    refine ⟨x, h1, by rw [h2.2], by rw [← h2.1]; simp [LooseBody.events, flat, flatEv]⟩

/-! ## The other way round -/

theorem runs_extName' {n : Bytes} {v : Nat} (h : ∀ b ∈ n, TokenByte b) :
    Runs env (.extName v) n (flatEv (.chunkExtensionName (Verif.lower n))) (.extName v) := by
  have h1 : Runs env (.extName v) n (n.flatMap fun b => [.chunkExtensionName [if UpperByte b then b + 32 else b]])
      (.extName v) :=
    Runs.loop (s := .extName v) (ev := fun b => [.chunkExtensionName [if UpperByte b then b + 32 else b]]) (fun _ => rfl) nofun
      fun a ha => bExtName_token (h a ha)
  have h2 : n.flatMap (fun b => [Ev.chunkExtensionName [if UpperByte b then b + 32 else b]]) =
      flatEv (.chunkExtensionName (Verif.lower n)) := by
    rw [flatEv, Verif.lower, List.map_map, List.map_eq_flatMap]; rfl
  rwa [h2] at h1

/-- The first visible byte ends the blanks. -/
theorem Runs.strip {s t : AS} {item : UInt8 → BRes} {e : UInt8 → PErr} (hn : ∀ tr, norm env tr s = ([], s))
    (hf : s ≠ .fin) (hs : ∀ b, bstep env s b = bStrip s item e b)
    (htn : ∀ tr, norm env tr t = ([], t)) (htf : t ≠ .fin) (ht : ∀ b, bstep env t b = item b)
    {x : Bytes} {es : List Ev} {s' : AS} (h : Runs env t x es s') (hx : ∃ b w, x = b :: w ∧ VisibleByte b) :
    Runs env s x es s' := by
  obtain ⟨b, w, rfl, hb⟩ := hx
  intro tr r
  rw [← h]
  obtain ⟨h1, h2, h3, h4⟩ := visible_of hb
  simp only [List.cons_append, pred, hn, htn, if_neg hf, if_neg htf, hs, ht, bStrip, beq_iff_eq, h2, h3, h1,
    Bool.or_eq_true, or_self, if_false, if_true]

/-- Through one extension and the byte after it. -/
theorem runs_loose {x : Extension} {last : Bool} {t : UInt8} {s' : AS} (h : x.Loose last) (he : ExtEnd v last t s') :
    Runs env (.extStrip v) (x.write.drop 1 ++ [t]) (flat x.events) s' := by
  obtain ⟨bl, n, val⟩ := x
  have hend : ∀ s, s = .extName v ∨ s = .extVal v → Runs env s [t] [.chunkExtensionFinished] s' := by
    intro s hs
    rcases he with ⟨-, rfl, rfl⟩ | ⟨-, rfl, rfl⟩
    · exact ext_cr hs
    · exact ext_semi hs
  have hvis : last = false → VisibleByte t := by
    intro hl
    rcases he with ⟨rfl, -⟩ | ⟨-, rfl, -⟩
    · simp at hl
    · decide
  have hn : ∀ b ∈ n, VisibleByte b := fun b hb => visible_spec' (token_of (h.name b hb)).2.1
  cases val with
  | none =>
    refine Runs.eq ((runs_extBlanks h.blanks).trans (Runs.strip (s := .extStrip v) (item := bExtName v) (e := .chunkExtensionName) (t := .extName v) (fun _ => rfl) nofun (fun _ => rfl)
      (fun _ => rfl) nofun (fun _ => rfl) ((runs_extName' h.name).trans (hend _ (.inl rfl))) ?_)) ?_ ?_
    · cases n with
      | nil =>
        have : last = false := by
          cases hl : last with
          | false => rfl
          | true => exact absurd rfl (h.none rfl hl)
        exact ⟨t, [], rfl, hvis this⟩
      | cons a n => exact ⟨a, n ++ [t], rfl, hn a (by simp)⟩
    · simp [Extension.write]
    · simp [flat, flatEv, Extension.events]
  | some w =>
    obtain ⟨h1, h2, h3⟩ := h.value w rfl
    have hv : Runs env (.extVStrip v) (w.text ++ [t]) (xv w.meaning ++ [.chunkExtensionFinished]) s' := by
      refine Runs.strip (s := .extVStrip v) (item := bExtVal v) (e := .chunkExtensionValue) (t := .extVal v) (fun _ => rfl) nofun (fun _ => rfl) (fun _ => rfl) nofun (fun _ => rfl)
        ((runs_extText h2).trans (hend _ (.inr rfl))) ?_
      rcases h3 with ⟨e, hl⟩ | ⟨b, z, e, hb⟩
      · exact ⟨t, [], by rw [e]; rfl, hvis hl⟩
      · exact ⟨b, z ++ [t], by rw [e]; rfl, hb⟩
    have heq : Runs env (.extName v) b!"=" [] (.extVStrip v) := Runs.byte (fun _ => rfl) nofun (by rfl)
    refine Runs.eq ((runs_extBlanks h.blanks).trans (Runs.strip (s := .extStrip v) (item := bExtName v) (e := .chunkExtensionName) (t := .extName v) (fun _ => rfl) nofun (fun _ => rfl)
      (fun _ => rfl) nofun (fun _ => rfl) (((runs_extName' h.name).trans heq).trans ((runs_extVBlanks h1).trans hv)) ?_)) ?_ ?_
    · cases n with
      | nil => exact ⟨c! '=', _, rfl, by decide⟩
      | cons a n => exact ⟨a, _, rfl, hn a (by simp)⟩
    · simp [Extension.write]
    · simp [flat, flatEv, xv, Extension.events]

theorem runs_looses {v : Nat} : ∀ (x : Extension) (l : List Extension), looseExtensions (x :: l) →
    Runs env (.extStrip v) (((x :: l).flatMap Extension.write).drop 1 ++ b!"\r")
      (flat ((x :: l).flatMap Extension.events)) (.extsFin v)
  | x, [], h => by
    refine Runs.eq (runs_loose (t := c! '\r') h (.inl ⟨rfl, rfl, rfl⟩)) ?_ ?_
    · rw [List.flatMap_cons, write_cons x]; simp
    · simp [flat]
  | x, y :: l, h => by
    refine Runs.eq ((runs_loose (t := c! ';') h.1 (.inr ⟨rfl, rfl, rfl⟩)).trans (runs_looses y l h.2)) ?_ ?_
    · rw [List.flatMap_cons, List.flatMap_cons, List.flatMap_cons, write_cons x, write_cons y]; simp
    · simp [flat]

theorem runs_loose_size {x : Chunk} (h : x.Loose) :
    ∃ s, Runs env .size1 x.size [.chunkBegin] s ∧ (∀ tr, norm env tr s = ([], s)) ∧ s ≠ .fin ∧
      (∀ b, isHex b = false → bstep env s b = bSizeEnd x.data.length b) := by
  rcases h.first with h1 | ⟨h1, -⟩
  · refine ⟨_, runs_size h.size h1 h.short, sizeNext_norm, sizeNext_ne, fun b hb => ?_⟩
    rw [sizeNext]
    split
    · rfl
    · simp [bstep, hb]
  · have h2 := h.size
    rw [h1] at h2 ⊢
    have h3 : x.data.length = 0 := hexVal_zero_eq h2
    exact ⟨.sizeEnd 0, Runs.byte (fun _ => rfl) nofun (by rfl), fun _ => rfl, nofun, fun b _ => by rw [h3]; rfl⟩

theorem runs_loose_chunk {x : Chunk} (h : x.Loose) : Runs env .size1 x.write (flat x.events) .size1 := by
  obtain ⟨s, h0, hn, hf, hb⟩ := runs_loose_size (env := env) h
  have h1 : Runs env s (x.extensions.flatMap Extension.write ++ b!"\r")
      ([.chunkLength x.data.length] ++ flat (x.extensions.flatMap Extension.events)) (.extsFin x.data.length) := by
    cases he : x.extensions with
    | nil =>
      have hpos : x.data.length ≠ 0 := by
        rcases h.first with h1 | ⟨_, h1⟩
        · exact h.size.pos h1
        · exact absurd he h1
      refine Runs.byte hn hf ?_
      rw [hb _ (by decide)]
      simp [bSizeEnd, hpos, flat]
    | cons y l =>
      have h2 : Runs env s b!";" [.chunkLength x.data.length] (.extStrip x.data.length) :=
        Runs.byte hn hf (by rw [hb _ (by decide)]; rfl)
      refine Runs.eq (h2.trans (runs_looses y l (by rw [← he]; exact h.extensions))) ?_ rfl
      rw [List.flatMap_cons, write_cons y]; simp
  have h2 : Runs env (.extsFin x.data.length) b!"\n" [.chunkExtensionsFinished] (.data x.data.length) :=
    Runs.byteN (es := []) (es0 := [.chunkExtensionsFinished]) (s1 := .sizeLf x.data.length) (fun _ => rfl) nofun (by rfl)
  have h3 : Runs env (.data 0) b!"\r\n" [] .size1 :=
    Runs.cons (b := c! '\r') (y := b!"\n") (es := []) (fs := [])
      (Runs.byteN (es := []) (es0 := []) (s1 := .dataCr) (s' := .dataLf) (fun _ => rfl) nofun (by rfl))
      (Runs.byte (es := []) (fun _ => rfl) nofun (by rfl))
  refine Runs.eq ((((h0.trans h1).trans h2).trans runs_data).trans h3) ?_ ?_
  · simp [Chunk.write]
  · simp [Chunk.events, flat, flatEv]

theorem runs_loose_body {x : LooseBody} (h : x.OK) : Runs env .size1 x.write
    (flat (x.chunks.flatMap Chunk.events ++ [.chunkBegin, .chunkLength 0] ++ x.trailer.flatMap Line.events)) .hdrEnd := by
  have h1 : ∀ l : List Chunk, (∀ y ∈ l, y.Loose) →
      Runs env .size1 (l.flatMap Chunk.write) (flat (l.flatMap Chunk.events)) .size1 := by
    intro l
    induction l with
    | nil => intro _; exact .refl _
    | cons y l ih =>
      intro hl
      exact Runs.eq ((runs_loose_chunk (hl y (by simp))).trans (ih fun z hz => hl z (by simp [hz]))) (by simp)
        (by simp [flat])
  exact Runs.eq (((h1 x.chunks h.chunks).trans runs_last).trans (runs_lines_end x.trailer h.trailer))
    (by simp [LooseBody.write]) (by simp [flat, flatEv])

end Verif.Http1
