import Verif.Http1.Runs
import Verif.Http1.ChunkSpec

/-!
# Runs of the reference machine over chunked bodies (helper lemmas)
-/

set_option linter.unusedSimpArgs false
set_option linter.unusedVariables false

namespace Verif.Http1

variable {env : Env} {fut : Bytes} {K : List Ev × Fin} {h : Handler} {c : Cfg}

theorem blank_of {b : UInt8} (h : Blank b) : b = c! ' ' ∨ b = c! '\t' := by
  have key : ∀ b : UInt8, Blank b → b = c! ' ' ∨ b = c! '\t' := by
    apply Util.forall_u8
    decide +kernel
  exact key b h

theorem hexDigit_of {b : UInt8} {n : Nat} (h : Util.HexDigit b n) : isHex b = true ∧ (hexToByte b).toNat = n ∧ n < 16 := by
  have hn : n < 16 := by
    rcases h with h | h <;> · have := (List.getElem?_eq_some_iff.1 h).1; exact this
  have key : ∀ b : UInt8, ∀ n < 16, Util.HexDigit b n → isHex b = true ∧ (hexToByte b).toNat = n := by
    apply Util.forall_u8
    decide +kernel
  obtain ⟨h1, h2⟩ := key b n hn h
  exact ⟨h1, h2, hn⟩

theorem hexDigit_spec {b : UInt8} (h : isHex b = true) : Util.HexDigit b (hexToByte b).toNat := by
  have key : ∀ b : UInt8, isHex b = true → Util.HexDigit b (hexToByte b).toNat := by
    apply Util.forall_u8
    decide +kernel
  exact key b h

theorem hex_not_end {b : UInt8} (h : isHex b = true) : b ≠ c! '\r' ∧ b ≠ c! ';' := by
  have key : ∀ b : UInt8, isHex b = true → b ≠ c! '\r' ∧ b ≠ c! ';' := by
    apply Util.forall_u8
    decide +kernel
  exact key b h

theorem HexVal.digits {ds : Bytes} {n : Nat} (h : HexVal ds n) : ∀ b ∈ ds, isHex b = true := by
  induction h with
  | nil => simp
  | snoc _ hb ih =>
    intro b' hb'
    rcases List.mem_append.1 hb' with h | h
    · exact ih _ h
    · simp only [List.mem_singleton] at h; subst h; exact (hexDigit_of hb).1

theorem HexVal.lt {ds : Bytes} {n : Nat} (h : HexVal ds n) : n < 16 ^ ds.length := by
  induction h with
  | nil => simp
  | snoc _ hb ih =>
    have := (hexDigit_of hb).2.2
    rw [List.length_append, List.length_singleton, Nat.pow_succ]
    omega

theorem HexVal.nil_eq {v : Nat} (h : HexVal [] v) : v = 0 := by
  have := h.lt
  simpa using this

theorem HexVal.pos {ds : Bytes} {n : Nat} (h : HexVal ds n) : (∃ b t, ds = b :: t ∧ b ≠ c! '0') → n ≠ 0 := by
  induction h with
  | nil => rintro ⟨b, t, h, _⟩; simp at h
  | @snoc ds v b n hd hb ih =>
    rintro ⟨b', t, he, hb'⟩
    cases ds with
    | nil =>
      simp only [List.nil_append, List.cons.injEq] at he
      have : n ≠ 0 := by
        rintro rfl
        rcases hb with h | h <;> simp at h <;> exact hb' (he.1 ▸ h.symm)
      omega
    | cons a ds =>
      simp only [List.cons_append, List.cons.injEq] at he
      have := ih ⟨a, ds, rfl, he.1 ▸ hb'⟩
      omega

theorem sizeNext_norm {k v : Nat} (tr : List Ev) : norm env tr (sizeNext k v) = ([], sizeNext k v) := by
  unfold sizeNext; split <;> rfl

theorem sizeNext_ne {k v : Nat} : sizeNext k v ≠ .fin := by
  unfold sizeNext; split <;> nofun

/-- The digits of a size. -/
theorem runs_size {ds : Bytes} {n : Nat} (h : HexVal ds n) : (∃ b t, ds = b :: t ∧ b ≠ c! '0') →
    ds.length ≤ 8 → Runs env .size1 ds [.chunkBegin] (sizeNext (8 - ds.length) n) := by
  induction h with
  | nil => rintro ⟨b, t, h, _⟩; simp at h
  | @snoc ds v b n hd hb ih =>
    rintro ⟨b', t, he, hb'⟩ hl
    obtain ⟨h1, h2, h3⟩ := hexDigit_of hb
    cases ds with
    | nil =>
      simp only [List.nil_append, List.cons.injEq] at he
      obtain rfl := hd.nil_eq
      refine Runs.byte (fun _ => rfl) nofun ?_
      have : b ≠ c! '0' := he.1 ▸ hb'
      simp [bstep, this, h1, sizeNext, h2]
    | cons a ds =>
      simp only [List.cons_append, List.cons.injEq] at he
      rw [List.length_append, List.length_singleton] at hl
      have ih := ih ⟨a, ds, rfl, he.1 ▸ hb'⟩ (by omega)
      refine Runs.eq (ih.trans (Runs.byte (es := []) sizeNext_norm sizeNext_ne ?_)) rfl (by simp)
      have e : sizeNext (8 - (a :: ds).length) v = .size (8 - (a :: ds).length) v := by
        rw [sizeNext, if_neg (by omega)]
      rw [e]
      simp only [bstep, h1, if_true, h2, BRes.next.injEq, true_and]
      rw [List.length_append, List.length_singleton, Nat.sub_sub, Nat.mul_comm v]

/-! ## Extensions -/

/-- The value of an extension, reported byte by byte. -/
def xv (v : Bytes) : List Ev := v.map fun b => .chunkExtensionValue [b]

theorem runs_extQuoted {q m : Bytes} {v : Nat} (h : ExtQuoted q m) : Runs env (.extQuot v) q (xv m) (.extQuot v) := by
  induction h with
  | nil => exact .refl _
  | byte h1 h2 _ ih =>
    refine Runs.eq (Runs.cons (Runs.byte (s' := .extQuot v) (es := xv [_]) (fun _ => rfl) nofun ?_) ih) rfl rfl
    simp [bstep, xv, bExtQuot, quoted_of h1 h2]
  | esc h1 h2 _ ih =>
    refine Runs.eq (Runs.cons (Runs.byte (s' := .extEsc v) (b := c! '\\') (fun _ => rfl) nofun (es := []) (by rfl))
      (Runs.cons (Runs.byte (s' := .extQuot v) (es := xv [_]) (fun _ => rfl) nofun ?_) ih)) rfl rfl
    simp [bstep, xv, escapable_of h1 h2]

theorem runs_extText {x m : Bytes} {v : Nat} (h : ExtText x m) : Runs env (.extVal v) x (xv m) (.extVal v) := by
  induction h with
  | nil => exact .refl _
  | byte h1 h2 h3 _ ih =>
    refine Runs.eq (Runs.cons (Runs.byte (s' := .extVal v) (es := xv [_]) (fun _ => rfl) nofun ?_) ih) rfl rfl
    simp [bstep, xv, bExtVal, field_of h1 h2, h3]
  | quoted h1 _ ih =>
    refine Runs.eq (Runs.cons (Runs.byte (s' := .extQuot v) (b := c! '"') (fun _ => rfl) nofun (es := []) (by rfl))
      ((runs_extQuoted h1).trans (Runs.cons (Runs.byte (s' := .extVal v) (b := c! '"') (fun _ => rfl) nofun (es := [])
        (by rfl)) ih))) (by simp) (by simp [xv])

theorem runs_extBlanks {x : Bytes} {v : Nat} (h : ∀ b ∈ x, Blank b) : Runs env (.extStrip v) x [] (.extStrip v) := by
  refine Runs.eq (Runs.loop (s := .extStrip v) (ev := fun _ => []) (fun _ => rfl) nofun (x := x) ?_) rfl (by simp)
  intro b hb
  rcases blank_of (h b hb) with rfl | rfl <;> rfl

theorem runs_extVBlanks {x : Bytes} {v : Nat} (h : ∀ b ∈ x, Blank b) : Runs env (.extVStrip v) x [] (.extVStrip v) := by
  refine Runs.eq (Runs.loop (s := .extVStrip v) (ev := fun _ => []) (fun _ => rfl) nofun (x := x) ?_) rfl (by simp)
  intro b hb
  rcases blank_of (h b hb) with rfl | rfl <;> rfl

theorem bExtName_token {b : UInt8} {v : Nat} (h : TokenByte b) :
    bExtName v b = .next [.chunkExtensionName [if UpperByte b then b + 32 else b]] (.extName v) := by
  have h1 := (token_of h).1
  by_cases hu : UpperByte b
  · simp [bExtName, h1, upper_of hu, hu]
  · have : isUpper b = false := by
      cases e : isUpper b with
      | false => rfl
      | true => exact absurd (upper_spec e).1 hu
    simp [bExtName, h1, this, hu]

theorem runs_extName {n : Bytes} {v : Nat} (hn : n ≠ []) (h : ∀ b ∈ n, TokenByte b) :
    Runs env (.extStrip v) n (flatEv (.chunkExtensionName (Verif.lower n))) (.extName v) := by
  obtain ⟨b, m, rfl⟩ := List.exists_cons_of_ne_nil hn
  have h1 : Runs env (.extName v) (b :: m) ((b :: m).flatMap fun b => [.chunkExtensionName [if UpperByte b then b + 32 else b]])
      (.extName v) :=
    Runs.loop (s := .extName v) (ev := fun b => [.chunkExtensionName [if UpperByte b then b + 32 else b]]) (fun _ => rfl) nofun
      fun a ha => bExtName_token (h a ha)
  have h2 : (b :: m).flatMap (fun b => [Ev.chunkExtensionName [if UpperByte b then b + 32 else b]]) =
      flatEv (.chunkExtensionName (Verif.lower (b :: m))) := by
    rw [flatEv, Verif.lower, List.map_map, List.map_eq_flatMap]; rfl
  rw [h2] at h1
  intro tr r
  rw [← h1]
  obtain ⟨_, h3, _, h4, h5⟩ := token_of (h b (by simp))
  simp [pred, norm, bstep, bStrip, h3, h4, h5]

theorem runs_extValue {x m : Bytes} {v : Nat} (h : ExtText x m) (hf : ∃ b w, x = b :: w ∧ VisibleByte b) :
    Runs env (.extVStrip v) x (xv m) (.extVal v) := by
  obtain ⟨b, w, rfl, hb⟩ := hf
  intro tr r
  rw [← runs_extText h]
  obtain ⟨h1, h2, h3, h4⟩ := visible_of hb
  simp [pred, norm, bstep, bStrip, h1, h2, h3]

/-- The state after an extension, and what was emitted there. -/
theorem runs_extension {x : Extension} {v : Nat} (h : x.OK) :
    ∃ s es, x.events = es ++ [.chunkExtensionFinished] ∧
    Runs env (.extStrip v) (x.write.drop 1) (flat es) s ∧ (s = .extName v ∨ s = .extVal v) := by
  obtain ⟨bl, n, val⟩ := x
  cases val with
  | none =>
    refine ⟨.extName v, [.chunkExtensionName (Verif.lower n)], by simp [Extension.events], ?_, .inl rfl⟩
    refine Runs.eq ((runs_extBlanks h.blanks).trans (runs_extName h.name.1 h.name.2)) ?_ ?_
    · simp [Extension.write]
    · simp [flat]
  | some w =>
    obtain ⟨h1, h2, h3⟩ := h.value w rfl
    refine ⟨.extVal v, [.chunkExtensionName (Verif.lower n), .chunkExtensionValue w.meaning],
      by simp [Extension.events], ?_, .inr rfl⟩
    refine Runs.eq ((((runs_extBlanks h.blanks).trans (runs_extName h.name.1 h.name.2)).trans
      (Runs.byte (s' := .extVStrip v) (b := c! '=') (es := []) (fun _ => rfl) nofun (by rfl))).trans
      ((runs_extVBlanks h1).trans (runs_extValue h2 h3))) ?_ ?_
    · simp [Extension.write]
    · simp [flat, flatEv, xv]

theorem ext_cr {s : AS} {v : Nat} (hs : s = .extName v ∨ s = .extVal v) :
    Runs env s b!"\r" [.chunkExtensionFinished] (.extsFin v) := by
  rcases hs with rfl | rfl <;> exact Runs.byte (fun _ => rfl) nofun (by rfl)

theorem ext_semi {s : AS} {v : Nat} (hs : s = .extName v ∨ s = .extVal v) :
    Runs env s b!";" [.chunkExtensionFinished] (.extStrip v) := by
  rcases hs with rfl | rfl <;> exact Runs.byte (fun _ => rfl) nofun (by rfl)

theorem write_cons (x : Extension) : x.write = c! ';' :: x.write.drop 1 := by
  simp [Extension.write]

theorem runs_extensions {v : Nat} : ∀ (x : Extension) (l : List Extension), (∀ y ∈ x :: l, y.OK) →
    Runs env (.extStrip v) ((x :: l).flatMap Extension.write |>.drop 1 |>.append b!"\r")
      (flat ((x :: l).flatMap Extension.events)) (.extsFin v)
  | x, [], h => by
    obtain ⟨s, es, e1, h1, hs⟩ := runs_extension (env := env) (v := v) (h x (by simp))
    refine Runs.eq (h1.trans (ext_cr hs)) ?_ ?_
    · rw [List.flatMap_cons, write_cons x]; simp
    · simp [flat, e1, flatEv]
  | x, y :: l, h => by
    obtain ⟨s, es, e1, h1, hs⟩ := runs_extension (env := env) (v := v) (h x (by simp))
    refine Runs.eq ((h1.trans (ext_semi hs)).trans (runs_extensions y l fun z hz => h z (by simp_all))) ?_ ?_
    · rw [List.flatMap_cons, List.flatMap_cons, List.flatMap_cons, write_cons x, write_cons y]; simp
    · simp [flat, e1, flatEv]

/-! ## Chunks -/

theorem runs_data {d : Bytes} : Runs env (.data d.length) d (flatEv (.chunkData d)) (.data 0) := by
  induction d with
  | nil => exact .refl _
  | cons b d ih =>
    refine Runs.eq (Runs.cons (Runs.byte (s' := .data d.length) (es := [.chunkData [b]]) (fun _ => ?_) nofun ?_) ih) rfl ?_
    · rfl
    · simp [bstep]
    · simp [flatEv]

theorem runs_chunk {x : Chunk} (h : x.OK) : Runs env .size1 x.write (flat x.events) .size1 := by
  have h0 := runs_size (env := env) h.size h.first h.short
  have hpos : x.data.length ≠ 0 := h.size.pos h.first
  have h1 : Runs env (sizeNext (8 - x.size.length) x.data.length) (x.extensions.flatMap Extension.write ++ b!"\r")
      ([.chunkLength x.data.length] ++ flat (x.extensions.flatMap Extension.events)) (.extsFin x.data.length) := by
    cases he : x.extensions with
    | nil =>
      refine Runs.byte sizeNext_norm sizeNext_ne ?_
      rw [sizeNext]
      split
      · show bSizeEnd _ _ = _
        simp [bSizeEnd, hpos, flat]
      · rw [bstep, if_neg (by decide)]
        simp [bSizeEnd, hpos, flat]
    | cons y l =>
      have h2 : Runs env (sizeNext (8 - x.size.length) x.data.length) b!";" [.chunkLength x.data.length]
          (.extStrip x.data.length) := by
        refine Runs.byte sizeNext_norm sizeNext_ne ?_
        rw [sizeNext]
        split
        · rfl
        · rfl
      refine Runs.eq (h2.trans (runs_extensions y l fun z hz => h.extensions z (by rw [he]; exact hz))) ?_ rfl
      rw [List.flatMap_cons, write_cons y]; simp
  have h2 : Runs env (.extsFin x.data.length) b!"\n" [.chunkExtensionsFinished] (.data x.data.length) :=
    Runs.byteN (es := []) (es0 := [.chunkExtensionsFinished]) (s1 := .sizeLf x.data.length) (fun _ => rfl) nofun (by rfl)
  have h3 : Runs env (.data 0) b!"\r\n" [] .size1 :=
    Runs.cons (b := c! '\r') (y := b!"\n") (es := []) (fs := [])
      (Runs.byteN (es := []) (es0 := []) (s1 := .dataCr) (s' := .dataLf) (fun _ => rfl) nofun (by rfl))
      (Runs.byte (es := []) (fun _ => rfl) nofun (by rfl))
  refine Runs.eq ((((h0.trans h1).trans h2).trans runs_data).trans h3) ?_ ?_
  · simp [Chunk.write]
  · simp [Chunk.events, flat, flatEv]

theorem runs_chunks : ∀ l : List Chunk, (∀ x ∈ l, x.OK) →
    Runs env .size1 (l.flatMap Chunk.write) (flat (l.flatMap Chunk.events)) .size1
  | [], _ => .refl _
  | x :: l, h => Runs.eq ((runs_chunk (h x (by simp))).trans (runs_chunks l fun y hy => h y (by simp [hy])))
      (by simp) (by simp [flat])

theorem runs_last : Runs env .size1 b!"0\r\n" [.chunkBegin, .chunkLength 0] .hdrCr2 := by
  intro tr r
  simp [pred, norm, bstep, bSizeEnd, bExpect]

theorem runs_body {x : ChunkedBody} (h : x.OK) : Runs env .size1 x.write
    (flat (x.chunks.flatMap Chunk.events ++ [.chunkBegin, .chunkLength 0] ++ x.trailers.flatMap Header.events)) .hdrEnd :=
  Runs.eq (((runs_chunks x.chunks h.chunks).trans runs_last).trans (runs_block x.trailers h.trailers))
    (by simp [ChunkedBody.write]) (by simp [flat, flatEv])

end Verif.Http1
