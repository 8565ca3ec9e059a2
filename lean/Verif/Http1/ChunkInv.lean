import Verif.Http1.RunsChunk

/-!
# Invariants of chunked bodies (helper lemmas)
-/

set_option linter.unusedSimpArgs false
set_option linter.unusedVariables false

namespace Verif.Http1

variable {env : Env} {fut : Bytes} {K : List Ev × Fin} {h : Handler} {c : Cfg}

/-! ## An automaton over the callbacks -/

/-- Where in a body the callbacks are: inside, directly after a length of zero, in the trailers. -/
inductive ZPos
  | body | zero | trailer
deriving DecidableEq

instance (e : Ev) : Decidable (TrailerEv e) := by cases e <;> simp only [TrailerEv] <;> infer_instance
instance (e : Ev) : Decidable (ExtensionEv e) := by cases e <;> simp only [ExtensionEv] <;> infer_instance

/-- The automaton: position, and how much data is still to come. -/
def zstep (z : ZPos × Nat) (e : Ev) : Option (ZPos × Nat) :=
  match z.1 with
  | .body =>
    match e with
    | .chunkLength n => if z.2 = 0 then some (if n = 0 then .zero else .body, n) else none
    | .chunkData d => if d.length ≤ z.2 then some (.body, z.2 - d.length) else none
    | .chunkBegin => if z.2 = 0 then some z else none
    | _ => if TrailerEv e then none else some z
  | .zero =>
    if z.2 = 0 then
      if ExtensionEv e then some (.body, 0) else if TrailerEv e then some (.trailer, 0) else none
    else none
  | .trailer => if z.2 = 0 ∧ TrailerEv e then some z else none

/-- `zstep` for one callback after the other. -/
def zrun (z : ZPos × Nat) : List Ev → Option (ZPos × Nat)
  | [] => some z
  | e :: l => (zstep z e).bind fun z => zrun z l

theorem zrun_append (z : ZPos × Nat) (l m : List Ev) : zrun z (l ++ m) = (zrun z l).bind fun z => zrun z m := by
  induction l generalizing z with
  | nil => simp [zrun]
  | cons e l ih =>
    simp only [List.cons_append, zrun]
    cases zstep z e with
    | none => rfl
    | some z => simp [ih]

theorem zrun_some {z z2 : ZPos × Nat} {l m : List Ev} (h : zrun z (l ++ m) = some z2) :
    ∃ z1, zrun z l = some z1 ∧ zrun z1 m = some z2 := by
  rw [zrun_append] at h
  exact Option.bind_eq_some_iff.1 h

/-- The callback tells the length of a chunk. -/
def isLength : Ev → Bool
  | .chunkLength _ => true
  | _ => false

theorem dataBytes_append (l m : List Ev) : dataBytes (l ++ m) = dataBytes l + dataBytes m := by
  induction l with
  | nil => simp [dataBytes]
  | cons e l ih => cases e <;> simp [dataBytes, ih, Nat.add_assoc]

theorem dataBytes_flatEv (e : Ev) : dataBytes (flatEv e) = dataBytes [e] := by
  cases e
  case chunkData d => simp only [flatEv, dataBytes]; induction d with
    | nil => rfl
    | cons b d ih => simp [dataBytes, ih] ; omega
  all_goals first
    | rfl
    | (rename_i d; simp only [flatEv, dataBytes]; induction d with
        | nil => rfl
        | cons b d ih => simpa [dataBytes] using ih)

theorem dataBytes_flat (l : List Ev) : dataBytes (flat l) = dataBytes l := by
  induction l with
  | nil => rfl
  | cons e l ih =>
    show dataBytes (flatEv e ++ flat l) = dataBytes ([e] ++ l)
    rw [dataBytes_append, dataBytes_append, ih, dataBytes_flatEv]

theorem zstep_data {z z' : ZPos × Nat} {e : Ev} (h : zstep z e = some z') (he : isLength e = false) :
    dataBytes [e] + z'.2 = z.2 := by
  obtain ⟨z, r⟩ := z
  cases z <;> cases e <;> simp only [zstep, isLength] at h he <;> (try contradiction) <;>
    simp [dataBytes, TrailerEv, ExtensionEv] at h ⊢ <;> (try obtain ⟨h1, rfl⟩ := h) <;> (try subst h) <;>
    (try (obtain ⟨h1, rfl⟩ := h1)) <;> simp_all <;> (try omega)

theorem zrun_data {z z' : ZPos × Nat} {l : List Ev} (h : zrun z l = some z') (hl : ∀ e ∈ l, isLength e = false) :
    dataBytes l + z'.2 = z.2 := by
  induction l generalizing z with
  | nil => simp [zrun] at h; simp [dataBytes, h]
  | cons e l ih =>
    simp only [zrun] at h
    obtain ⟨z1, h1, h2⟩ := Option.bind_eq_some_iff.1 h
    have := ih h2 fun e' he' => hl e' (by simp [he'])
    have h3 := zstep_data h1 (hl e (by simp))
    rw [show e :: l = [e] ++ l from rfl, dataBytes_append]
    omega

theorem zrun_trailer {r : Nat} {z : ZPos × Nat} : ∀ {l : List Ev}, zrun (.trailer, r) l = some z →
    z = (.trailer, r) ∧ ∀ e ∈ l, TrailerEv e
  | [], h => by simp [zrun] at h; simp [h]
  | e :: l, h => by
    simp only [zrun] at h
    obtain ⟨z1, h1, h2⟩ := Option.bind_eq_some_iff.1 h
    simp only [zstep] at h1
    split at h1
    · rename_i h3
      cases h1
      obtain ⟨h4, h5⟩ := zrun_trailer h2
      exact ⟨h4, by simpa using ⟨h3.2, h5⟩⟩
    · simp at h1

/-- After a length of zero. -/
theorem zrun_zero {r : Nat} {z : ZPos × Nat} {l : List Ev} (h : zrun (.zero, r) l = some z) :
    (∃ e, l.head? = some e ∧ ExtensionEv e) ∨ ∀ e ∈ l, TrailerEv e := by
  cases l with
  | nil => simp
  | cons e l =>
    simp only [zrun] at h
    obtain ⟨z1, h1, h2⟩ := Option.bind_eq_some_iff.1 h
    simp only [zstep] at h1
    split at h1
    · split at h1
      · exact .inl ⟨e, rfl, by assumption⟩
      · split at h1
        · cases h1
          exact .inr (by simpa using ⟨by assumption, (zrun_trailer h2).2⟩)
        · simp at h1
    · simp at h1

theorem zstep_length {z z' : ZPos × Nat} {n : Nat} (h : zstep z (.chunkLength n) = some z') :
    z = (.body, 0) ∧ z' = (if n = 0 then .zero else .body, n) := by
  obtain ⟨z, r⟩ := z
  cases z <;> simp [zstep, TrailerEv, ExtensionEv] at h ⊢
  exact ⟨h.1, h.2.symm⟩

/-- Reaching the trailers. -/
theorem zrun_last {z : ZPos × Nat} {r : Nat} {l : List Ev} (h : zrun z l = some (.trailer, r)) :
    z.1 = .trailer ∨ (z.1 = .zero ∧ ∀ e ∈ l, TrailerEv e) ∨ ∃ a b, l = a ++ .chunkLength 0 :: b ∧ ∀ e ∈ b, TrailerEv e := by
  induction l generalizing z with
  | nil => simp [zrun] at h; simp [h]
  | cons e l ih =>
    simp only [zrun] at h
    obtain ⟨z1, h1, h2⟩ := Option.bind_eq_some_iff.1 h
    rcases ih h2 with h3 | ⟨h3, h4⟩ | ⟨a, b, rfl, h4⟩
    · obtain ⟨z, m⟩ := z
      cases z
      case trailer => simp
      case body =>
        exfalso
        cases e <;> simp [zstep, TrailerEv] at h1 <;> (try obtain ⟨_, rfl⟩ := h1) <;> (try subst h1) <;>
          simp at h3
        split at h3 <;> simp at h3
      case zero =>
        refine .inr (.inl ⟨rfl, ?_⟩)
        simp only [zstep] at h1
        split at h1
        · split at h1
          · cases h1; simp at h3
          · split at h1
            · cases h1
              exact by simpa using ⟨by assumption, (zrun_trailer h2).2⟩
            · simp at h1
        · simp at h1
    · obtain ⟨z, m⟩ := z
      cases z
      case trailer => simp
      case body =>
        refine .inr (.inr ⟨[], l, ?_, h4⟩)
        cases e <;> simp [zstep, TrailerEv] at h1 <;> (try obtain ⟨_, rfl⟩ := h1) <;> (try subst h1) <;>
          simp at h3
        simp [h3]
      case zero =>
        simp only [zstep] at h1
        split at h1
        · split at h1
          · cases h1; simp at h3
          · split at h1
            · cases h1; simp at h3
            · simp at h1
        · simp at h1
    · exact .inr (.inr ⟨e :: a, b, rfl, h4⟩)

/-! ## States of chunked bodies -/

/-- What the automaton may look like in a state; `none`: no such state in a chunked body. -/
def zok : AS → ZPos × Nat → Prop
  | .hdrCheck, z | .hdrFirst, z | .hdrName, z | .hdrStrip, z | .hdrVal, z | .hdrQuot, z | .hdrEsc, z
  | .hdrCr1, z | .hdrLf1, z | .hdrCr2, z | .hdrLf2, z | .hdrEnd, z => z = (.zero, 0) ∨ z = (.trailer, 0)
  | .size1, z | .size _ _, z | .sizeEnd _, z | .dataCr, z | .dataLf, z => z = (.body, 0)
  | .extStrip v, z | .extName v, z | .extVStrip v, z | .extVal v, z | .extQuot v, z | .extEsc v, z
  | .extFin v, z | .extsFin v, z => z = (.body, v) ∨ v = 0 ∧ z = (.zero, 0)
  | .sizeLf v, z | .data v, z => z = (.body, v)
  | .bodyFin, z | .fin, z => z = (.trailer, 0)
  | _, _ => False

/-- Can a chunk size start after these bytes? -/
def LineStart (x : Bytes) : Prop := x = [] ∨ b!"\r\n" <:+ x

/-- The digits read so far. -/
def SizeAt (x : Bytes) (v k : Nat) : Prop :=
  ∃ y ds, x = y ++ ds ∧ LineStart y ∧ HexVal ds v ∧ ds ≠ [] ∧ ds.length + k ≤ 8

/-- What the bytes read look like in a state. -/
def CLocal : AS → Bytes → Prop
  | .size1, x => LineStart x
  | .size k v, x => SizeAt x v k ∧ 0 < k
  | .sizeEnd v, x => SizeAt x v 0
  | .dataLf, x => b!"\r" <:+ x
  | _, _ => True

/-- The invariant: the callbacks add up, each length stands in the bytes, and the state fits them. -/
structure ChunkJ (x : Bytes) (tr : List Ev) (s : AS) : Prop where
  run : ∃ z, zrun (.body, 0) tr = some z ∧ zok s z
  size : ∀ n, .chunkLength n ∈ tr → SizeIn x n
  loc : CLocal s x

theorem SizeIn.mono {x : Bytes} {n : Nat} (h : SizeIn x n) (y : Bytes) : SizeIn (x ++ y) n := by
  obtain ⟨p, ds, t, post, rfl, h1⟩ := h
  exact ⟨p, ds, t, post ++ y, by simp, h1⟩

theorem ChunkJ.go {x : Bytes} {tr es : List Ev} {s s' : AS} {b : UInt8} (h : ChunkJ x tr s)
    (hz : ∀ z, zok s z → ∃ z', zrun z es = some z' ∧ zok s' z')
    (he : ∀ n, .chunkLength n ∈ es → SizeIn (x ++ [b]) n) (hl : CLocal s' (x ++ [b])) :
    ChunkJ (x ++ [b]) (tr ++ es) s' := by
  obtain ⟨z, h1, h2⟩ := h.run
  obtain ⟨z', h3, h4⟩ := hz z h2
  refine ⟨⟨z', by rw [zrun_append, h1]; exact h3, h4⟩, fun n hm => ?_, hl⟩
  rcases List.mem_append.1 hm with hm | hm
  · exact (h.size _ hm).mono _
  · exact he n hm

theorem ChunkJ.trailer {x : Bytes} {tr es : List Ev} {s s' : AS} {b : UInt8} (h : ChunkJ x tr s)
    (hs : ∀ z, zok s z → z = (.zero, 0) ∨ z = (.trailer, 0))
    (hs' : ∀ z, z = (.zero, 0) ∨ z = (.trailer, 0) → zok s' z)
    (he : es = [] ∨ ∃ e, es = [e] ∧ TrailerEv e ∧ ¬ ExtensionEv e) (hl : CLocal s' (x ++ [b])) :
    ChunkJ (x ++ [b]) (tr ++ es) s' := by
  refine h.go (fun z hz => ?_) ?_ hl
  · rcases he with rfl | ⟨e, rfl, h1, h2⟩
    · exact ⟨z, rfl, hs' z (hs z hz)⟩
    · refine ⟨(.trailer, 0), ?_, hs' _ (.inr rfl)⟩
      rcases hs z hz with rfl | rfl <;> simp [zrun, zstep, h1, h2]
  · intro n hn
    rcases he with rfl | ⟨e, rfl, h1, h2⟩
    · simp at hn
    · simp at hn; subst hn; simp [TrailerEv] at h1

theorem ChunkJ.ext {x : Bytes} {tr es : List Ev} {s s' : AS} {b : UInt8} {v : Nat} (h : ChunkJ x tr s)
    (hs : ∀ z, zok s z → z = (.body, v) ∨ v = 0 ∧ z = (.zero, 0))
    (hs' : ∀ z, z = (.body, v) ∨ v = 0 ∧ z = (.zero, 0) → zok s' z)
    (he : es = [] ∨ ∃ e, es = [e] ∧ ExtensionEv e) (hl : CLocal s' (x ++ [b])) :
    ChunkJ (x ++ [b]) (tr ++ es) s' := by
  refine h.go (fun z hz => ?_) ?_ hl
  · rcases he with rfl | ⟨e, rfl, h1⟩
    · exact ⟨z, rfl, hs' z (hs z hz)⟩
    · refine ⟨(.body, v), ?_, hs' _ (.inl rfl)⟩
      rcases hs z hz with rfl | ⟨rfl, rfl⟩
      · cases e <;> simp [ExtensionEv] at h1 <;> simp [zrun, zstep, TrailerEv]
      · simp [zrun, zstep, h1]
  · intro n hn
    rcases he with rfl | ⟨e, rfl, h1⟩
    · simp at hn
    · simp at hn; subst hn; simp [ExtensionEv] at h1

theorem SizeAt.in {x : Bytes} {v k : Nat} {b : UInt8} (h : SizeAt x v k) (hb : b = c! '\r' ∨ b = c! ';') :
    SizeIn (x ++ [b]) v := by
  obtain ⟨y, ds, rfl, h1, h2, h3, h4⟩ := h
  exact ⟨y, ds, b, [], by simp, h1, h2, h3, by omega, hb⟩

theorem sizeEnd_step {x : Bytes} {tr es : List Ev} {s s' : AS} {b : UInt8} {v k : Nat} (h : ChunkJ x tr s)
    (hs : ∀ z, zok s z → z = (.body, 0)) (hx : SizeAt x v k) (hb : bSizeEnd v b = .next es s') :
    ChunkJ (x ++ [b]) (tr ++ es) s' := by
  unfold bSizeEnd at hb
  split at hb
  · rename_i h1; simp at h1
    simp only [BRes.next.injEq] at hb
    obtain ⟨rfl, rfl⟩ := hb
    refine h.go (fun z hz => ?_) (by simp only [List.mem_singleton, Ev.chunkLength.injEq]; rintro n rfl; exact hx.in (.inl h1)) ?_
    · obtain rfl := hs z hz
      by_cases hv : v = 0 <;> simp [zrun, zstep, hv, zok]
    · split <;> trivial
  · split at hb
    · rename_i h1; simp at h1
      simp only [BRes.next.injEq] at hb
      obtain ⟨rfl, rfl⟩ := hb
      refine h.go (fun z hz => ?_) (by simp only [List.mem_singleton, Ev.chunkLength.injEq]; rintro n rfl; exact hx.in (.inr h1)) trivial
      obtain rfl := hs z hz
      by_cases hv : v = 0 <;> simp [zrun, zstep, hv, zok]
    · cases hb

/-! ## Every step keeps the invariant -/

theorem hdrName_res {b : UInt8} {es : List Ev} {s' : AS} (h : bHdrName b = .next es s') :
    (∃ d, es = [.headerName d] ∧ s' = .hdrName) ∨ (es = [] ∧ s' = .hdrStrip) := by
  unfold bHdrName at h
  split at h
  · cases h
  · split at h
    · cases h; exact .inl ⟨_, rfl, rfl⟩
    · split at h
      · cases h; exact .inl ⟨_, rfl, rfl⟩
      · split at h <;> cases h
        exact .inr ⟨rfl, rfl⟩

theorem hdrFirst_res {b : UInt8} {es : List Ev} {s' : AS} (h : bHdrFirst b = .next es s') :
    (∃ d, es = [.headerName d] ∧ s' = .hdrName) ∨ (es = [] ∧ s' = .hdrStrip) := by
  unfold bHdrFirst at h
  split at h
  · exact hdrName_res h
  · cases h

theorem hdrCheck_res {b : UInt8} {es : List Ev} {s' : AS} (h : bHdrCheck b = .next es s') :
    (∃ d, es = [.headerName d] ∧ s' = .hdrName) ∨ (es = [] ∧ (s' = .hdrStrip ∨ s' = .hdrVal)) := by
  unfold bHdrCheck at h
  split at h
  · cases h; exact .inr ⟨rfl, .inr rfl⟩
  · rcases hdrFirst_res h with h | ⟨h1, h2⟩
    · exact .inl h
    · exact .inr ⟨h1, .inl h2⟩

theorem hdrVal_res {b : UInt8} {es : List Ev} {s' : AS} (h : bHdrVal b = .next es s') :
    (∃ d, es = [.headerValue d] ∧ (s' = .hdrVal ∨ s' = .hdrQuot)) ∨ (es = [] ∧ s' = .hdrLf1) := by
  unfold bHdrVal at h
  split at h
  · cases h
  · split at h
    · cases h; exact .inl ⟨_, rfl, .inl rfl⟩
    · split at h
      · cases h; exact .inr ⟨rfl, rfl⟩
      · split at h <;> cases h
        exact .inl ⟨_, rfl, .inr rfl⟩

theorem hdrQuot_res {b : UInt8} {es : List Ev} {s' : AS} (h : bHdrQuot b = .next es s') :
    ∃ d, es = [.headerValue d] ∧ (s' = .hdrVal ∨ s' = .hdrQuot ∨ s' = .hdrEsc) := by
  unfold bHdrQuot at h
  split at h
  · cases h
  · split at h
    · cases h; exact ⟨_, rfl, by simp⟩
    · split at h
      · cases h; exact ⟨_, rfl, by simp⟩
      · split at h <;> cases h
        exact ⟨_, rfl, by simp⟩

theorem extName_res {v : Nat} {b : UInt8} {es : List Ev} {s' : AS} (h : bExtName v b = .next es s') :
    (es = [] ∨ ∃ e, es = [e] ∧ ExtensionEv e) ∧
    (s' = .extName v ∨ s' = .extVStrip v ∨ s' = .extsFin v ∨ s' = .extStrip v) := by
  unfold bExtName at h
  split at h
  · cases h
  · repeat' split at h
    all_goals cases h
    all_goals simp [ExtensionEv]

theorem extVal_res {v : Nat} {b : UInt8} {es : List Ev} {s' : AS} (h : bExtVal v b = .next es s') :
    (es = [] ∨ ∃ e, es = [e] ∧ ExtensionEv e) ∧
    (s' = .extVal v ∨ s' = .extQuot v ∨ s' = .extsFin v ∨ s' = .extStrip v) := by
  unfold bExtVal at h
  split at h
  · cases h
  · repeat' split at h
    all_goals cases h
    all_goals simp [ExtensionEv]

theorem extQuot_res {v : Nat} {b : UInt8} {es : List Ev} {s' : AS} (h : bExtQuot v b = .next es s') :
    (es = [] ∨ ∃ e, es = [e] ∧ ExtensionEv e) ∧
    (s' = .extVal v ∨ s' = .extQuot v ∨ s' = .extEsc v) := by
  unfold bExtQuot at h
  split at h
  · cases h
  · repeat' split at h
    all_goals cases h
    all_goals simp [ExtensionEv]

theorem strip_res {s : AS} {item : UInt8 → BRes} {e : UInt8 → PErr} {b : UInt8} {es : List Ev} {s' : AS}
    (h : bStrip s item e b = .next es s') : (es = [] ∧ s' = s) ∨ item b = .next es s' := by
  unfold bStrip at h
  split at h
  · cases h; exact .inl ⟨rfl, rfl⟩
  · split at h
    · exact .inr h
    · cases h

theorem expect_res {x b : UInt8} {s s' : AS} {e : UInt8 → PErr} {es : List Ev} (h : bExpect x s e b = .next es s') :
    b = x ∧ es = [] ∧ s' = s := by
  unfold bExpect at h
  split at h
  · rename_i h1; cases h; exact ⟨by simpa using h1, rfl, rfl⟩
  · cases h

theorem SizeAt.snoc {x : Bytes} {v k : Nat} {b : UInt8} (h : SizeAt x v k) (hk : 0 < k) (hb : isHex b = true) :
    SizeAt (x ++ [b]) (v * 16 + (hexToByte b).toNat) (k - 1) := by
  obtain ⟨y, ds, rfl, h1, h2, h3, h4⟩ := h
  refine ⟨y, ds ++ [b], by simp, h1, ?_, by simp, by simp; omega⟩
  rw [Nat.mul_comm v]
  exact h2.snoc (hexDigit_spec hb)

theorem chunk_step {x : Bytes} {tr es : List Ev} {s s' : AS} {b : UInt8} (hn : norm env tr s = ([], s))
    (h : ChunkJ x tr s) (hs : bstep env s b = .next es s') : ChunkJ (x ++ [b]) (tr ++ es) s' := by
  obtain ⟨z, -, hz⟩ := h.run
  have hL := h.loc
  cases s <;> simp only [zok] at hz <;> simp only [bstep] at hs <;> simp only [CLocal] at hL
  case hdrCheck =>
    rcases hdrCheck_res hs with ⟨d, rfl, rfl⟩ | ⟨rfl, rfl | rfl⟩ <;>
      exact h.trailer (fun _ h => h) (fun _ h => h) (by simp [TrailerEv, ExtensionEv]) trivial
  case hdrFirst =>
    rcases hdrFirst_res hs with ⟨d, rfl, rfl⟩ | ⟨rfl, rfl⟩ <;>
      exact h.trailer (fun _ h => h) (fun _ h => h) (by simp [TrailerEv, ExtensionEv]) trivial
  case hdrName =>
    rcases hdrName_res hs with ⟨d, rfl, rfl⟩ | ⟨rfl, rfl⟩ <;>
      exact h.trailer (fun _ h => h) (fun _ h => h) (by simp [TrailerEv, ExtensionEv]) trivial
  case hdrStrip =>
    rcases strip_res hs with ⟨rfl, rfl⟩ | hs
    · exact h.trailer (fun _ h => h) (fun _ h => h) (by simp [TrailerEv, ExtensionEv]) trivial
    · rcases hdrVal_res hs with ⟨d, rfl, rfl | rfl⟩ | ⟨rfl, rfl⟩ <;>
        exact h.trailer (fun _ h => h) (fun _ h => h) (by simp [TrailerEv, ExtensionEv]) trivial
  case hdrVal =>
    rcases hdrVal_res hs with ⟨d, rfl, rfl | rfl⟩ | ⟨rfl, rfl⟩ <;>
      exact h.trailer (fun _ h => h) (fun _ h => h) (by simp [TrailerEv, ExtensionEv]) trivial
  case hdrQuot =>
    obtain ⟨d, rfl, rfl | rfl | rfl⟩ := hdrQuot_res hs <;>
      exact h.trailer (fun _ h => h) (fun _ h => h) (by simp [TrailerEv, ExtensionEv]) trivial
  case hdrEsc =>
    split at hs <;> cases hs
    exact h.trailer (fun _ h => h) (fun _ h => h) (by simp [TrailerEv, ExtensionEv]) trivial
  case hdrCr1 =>
    obtain ⟨rfl, rfl, rfl⟩ := expect_res hs
    exact h.trailer (fun _ h => h) (fun _ h => h) (by simp [TrailerEv, ExtensionEv]) trivial
  case hdrLf1 =>
    obtain ⟨rfl, rfl, rfl⟩ := expect_res hs
    exact h.trailer (fun _ h => h) (fun _ h => h) (by simp [TrailerEv, ExtensionEv]) trivial
  case hdrCr2 =>
    split at hs
    · cases hs; exact h.trailer (fun _ h => h) (fun _ h => h) (by simp [TrailerEv, ExtensionEv]) trivial
    · rcases hdrCheck_res hs with ⟨d, rfl, rfl⟩ | ⟨rfl, rfl | rfl⟩ <;>
        exact h.trailer (fun _ h => h) (fun _ h => h) (by simp [TrailerEv, ExtensionEv]) trivial
  case hdrLf2 =>
    obtain ⟨rfl, rfl, rfl⟩ := expect_res hs
    exact h.trailer (fun _ h => h) (fun _ h => h) (by simp [TrailerEv, ExtensionEv]) trivial
  case size1 =>
    split at hs
    · rename_i hb; simp at hb; subst hb; cases hs
      refine h.go (fun z hz => ⟨z, ?_, hz⟩) (by simp) ⟨x, b!"0", rfl, hL, HexVal.snoc (n := 0) .nil (by decide), by simp, by simp⟩
      cases hz; rfl
    · split at hs <;> cases hs
      rename_i hb
      refine h.go (fun z hz => ⟨z, ?_, hz⟩) (by simp) ⟨⟨x, [b], rfl, hL, ?_, by simp, by simp⟩, by omega⟩
      · cases hz; rfl
      · have := HexVal.snoc .nil (hexDigit_spec hb)
        simpa using this
  case size k v =>
    split at hs
    · rename_i hb
      cases hs
      have hn := hL.1.snoc hL.2 hb
      refine h.go (fun z hz => ⟨z, by simp [zrun], ?_⟩) (by simp) ?_
      · rw [sizeNext]; split <;> exact hz
      · rw [sizeNext]
        split
        · rename_i hk; rw [hk] at hn; exact hn
        · exact ⟨hn, by omega⟩
    · exact sizeEnd_step h (fun _ h => h) hL.1 hs
  case sizeEnd v => exact sizeEnd_step h (fun _ h => h) hL hs
  case sizeLf v =>
    obtain ⟨rfl, rfl, rfl⟩ := expect_res hs
    exact h.go (fun z hz => ⟨z, by simp [zrun], hz⟩) (by simp) trivial
  case extStrip v =>
    rcases strip_res hs with ⟨rfl, rfl⟩ | hs
    · exact h.ext (v := v) (fun _ h => h) (fun _ h => h) (.inl rfl) trivial
    · obtain ⟨he, rfl | rfl | rfl | rfl⟩ := extName_res hs <;>
        exact h.ext (v := v) (fun _ h => h) (fun _ h => h) he trivial
  case extName v =>
    obtain ⟨he, rfl | rfl | rfl | rfl⟩ := extName_res hs <;>
      exact h.ext (v := v) (fun _ h => h) (fun _ h => h) he trivial
  case extVStrip v =>
    rcases strip_res hs with ⟨rfl, rfl⟩ | hs
    · exact h.ext (v := v) (fun _ h => h) (fun _ h => h) (.inl rfl) trivial
    · obtain ⟨he, rfl | rfl | rfl | rfl⟩ := extVal_res hs <;>
        exact h.ext (v := v) (fun _ h => h) (fun _ h => h) he trivial
  case extVal v =>
    obtain ⟨he, rfl | rfl | rfl | rfl⟩ := extVal_res hs <;>
      exact h.ext (v := v) (fun _ h => h) (fun _ h => h) he trivial
  case extQuot v =>
    obtain ⟨he, rfl | rfl | rfl⟩ := extQuot_res hs <;>
      exact h.ext (v := v) (fun _ h => h) (fun _ h => h) he trivial
  case extEsc v =>
    split at hs <;> cases hs
    exact h.ext (v := v) (fun _ h => h) (fun _ h => h) (by simp [ExtensionEv]) trivial
  case extFin v =>
    cases hs
    refine h.ext (v := v) (fun _ h => h) (fun z hz => ?_) (by simp [ExtensionEv]) ?_
    · split <;> exact hz
    · split <;> trivial
  case data v =>
    cases hs
    have hv : v ≠ 0 := by
      rintro rfl
      simp [norm] at hn
    refine h.go (fun z hz => ⟨(.body, v - 1), ?_, rfl⟩) (by simp) trivial
    cases hz
    simp [zrun, zstep]
    omega
  case dataCr =>
    obtain ⟨rfl, rfl, rfl⟩ := expect_res hs
    exact h.go (fun z hz => ⟨z, by simp [zrun], hz⟩) (by simp) (List.suffix_append _ _)
  case dataLf =>
    obtain ⟨rfl, rfl, rfl⟩ := expect_res hs
    refine h.go (fun z hz => ⟨z, by simp [zrun], hz⟩) (by simp) (.inr ?_)
    obtain ⟨y, rfl⟩ := hL
    exact ⟨y, by simp⟩
  all_goals cases hs

theorem ChunkJ.silent {x : Bytes} {tr es : List Ev} {s s' : AS} (h : ChunkJ x tr s)
    (hz : ∀ z, zok s z → ∃ z', zrun z es = some z' ∧ zok s' z')
    (he : ∀ n, .chunkLength n ∉ es) (hl : CLocal s' x) : ChunkJ x (tr ++ es) s' := by
  obtain ⟨z, h1, h2⟩ := h.run
  obtain ⟨z', h3, h4⟩ := hz z h2
  refine ⟨⟨z', by rw [zrun_append, h1]; exact h3, h4⟩, fun n hm => ?_, hl⟩
  rcases List.mem_append.1 hm with hm | hm
  · exact h.size _ hm
  · exact absurd hm (he n)

theorem chunk_norm (hp : env.ptype = .chunked) {x : Bytes} {tr : List Ev} {s : AS} (h : ChunkJ x tr s) :
    ChunkJ x (tr ++ (norm env tr s).1) (norm env tr s).2 := by
  obtain ⟨z, -, hz⟩ := h.run
  have hL := h.loc
  cases s <;> simp only [zok] at hz <;> (try exact h.silent (es := []) (fun z hz => ⟨z, rfl, hz⟩) (by simp) hL)
  case hdrEnd =>
    simp only [norm, hp]
    refine h.silent (fun z hz => ?_) (by simp) trivial
    rcases hz with rfl | rfl <;> exact ⟨(.trailer, 0), by simp [zrun, zstep, TrailerEv, ExtensionEv], rfl⟩
  case extsFin v =>
    refine h.silent (fun z hz => ?_) (by simp [norm]) trivial
    rcases hz with rfl | ⟨rfl, rfl⟩
    · exact ⟨(.body, v), by simp [norm, zrun, zstep, TrailerEv, ExtensionEv], rfl⟩
    · exact ⟨(.body, 0), by simp [norm, zrun, zstep, TrailerEv, ExtensionEv], rfl⟩
  case data v =>
    simp only [norm]
    refine h.silent (fun z hz => ⟨z, by simp [zrun], ?_⟩) (by simp) ?_
    · split
      · rename_i hv; subst hv; exact hz
      · exact hz
    · split <;> trivial
  case bodyFin =>
    refine h.silent (fun z hz => ?_) (by simp [norm]) trivial
    cases hz; exact ⟨(.trailer, 0), by simp [norm, zrun, zstep, TrailerEv, ExtensionEv], rfl⟩

theorem keeps_chunk (hp : env.ptype = .chunked) : KeepsJ env ChunkJ :=
  ⟨fun _ _ _ h => chunk_norm hp h, fun _ _ _ _ _ _ hn h hs => chunk_step hn h hs⟩

theorem chunkJ_start : ChunkJ [] [] .size1 :=
  ⟨⟨_, rfl, rfl⟩, by simp, .inl rfl⟩

theorem chunk_err {tr es : List Ev} {s : AS} {b : UInt8} {e : PErr} {x : Bytes} (h : ChunkJ x tr s)
    (hs : bstep env s b = .err es e) : es = [] := by
  obtain ⟨z, -, hz⟩ := h.run
  cases s <;> simp only [zok] at hz <;>
    simp only [bstep, bHdrCheck, bHdrFirst, bHdrName, bStrip, bHdrVal, bHdrQuot, bExpect, bSizeEnd, bExtName, bExtVal,
      bExtQuot] at hs <;>
    (repeat' split at hs) <;> cases hs <;> rfl

/-- The whole run. -/
theorem chunk_run (hp : env.ptype = .chunked) (m : Bytes) :
    let K := pred env [] .size1 m
    (∃ z, zrun (.body, 0) K.1 = some z ∧ ∀ r, K.2 = .finished r → z = (.trailer, 0)) ∧
    ∀ n, .chunkLength n ∈ K.1 → SizeIn m n := by
  intro K
  have H := pred_run (keeps_chunk hp) m [] [] .size1 chunkJ_start
  revert H
  show RunEnd env ChunkJ [] m K → _
  generalize K = K
  obtain ⟨tr, f⟩ := K
  have done : ∀ {y r s}, m = y ++ r → ChunkJ ([] ++ y) tr s → (∃ z, zrun (.body, 0) tr = some z ∧ zok s z) ∧
      ∀ n, .chunkLength n ∈ tr → SizeIn m n := by
    rintro y r s rfl h
    exact ⟨h.run, fun n hn => (h.size n hn).mono _⟩
  cases f <;> simp only [RunEnd]
  · rintro ⟨s, -, h⟩
    obtain ⟨⟨z, h1, _⟩, h2⟩ := done (r := []) (by simp) h
    exact ⟨⟨z, h1, by simp⟩, h2⟩
  · rintro ⟨y, h0, h⟩
    obtain ⟨⟨z, h1, h3⟩, h2⟩ := done h0 h
    exact ⟨⟨z, h1, fun _ _ => h3⟩, h2⟩
  · rintro ⟨y, b, tr', es, s, h0, rfl, h, -, hs⟩
    obtain rfl := chunk_err h hs
    rw [List.append_nil] at done ⊢
    obtain ⟨⟨z, h1, h3⟩, h2⟩ := done h0 h
    exact ⟨⟨z, h1, by simp⟩, h2⟩
  · rintro ⟨y, r, s, h0, h, -⟩
    obtain ⟨⟨z, h1, h3⟩, h2⟩ := done h0 h
    exact ⟨⟨z, h1, by simp⟩, h2⟩
  · rintro ⟨y, b, r, s, h0, h, -⟩
    obtain ⟨⟨z, h1, h3⟩, h2⟩ := done h0 h
    exact ⟨⟨z, h1, by simp⟩, h2⟩


theorem flatEv_length (e : Ev) (hl : isLength e = false) : ∀ e' ∈ flatEv e, isLength e' = false := by
  cases e <;> simp [flatEv, isLength] at hl ⊢

theorem flat_length {l : List Ev} (h : ∀ e ∈ l, isLength e = false) : ∀ e ∈ flat l, isLength e = false := by
  intro e he
  obtain ⟨e', h1, h2⟩ := List.mem_flatMap.1 he
  exact flatEv_length e' (h e' h1) e h2

theorem complete_err {I : World → Bytes → Prop} {o : Outcome} {tr : List Ev} {r : Bytes} {e : PErr}
    (H : DriveSim I K o) (hc : o.complete) (hK : K = (tr, .err e r)) :
    o.last = .err e ∧ o.rest = r ∧ ∃ d, isData d = true ∧ flat o.world.log ++ flatEv d = tr := by
  obtain ⟨la, wo, re⟩ := o
  subst hK
  cases la <;> simp only [Outcome.complete] at hc <;> simp only [DriveSim] at H
  · have := H.2 hc; simp at this
  · simp at H
  · rcases H with ⟨d, hd, H⟩ | ⟨H, _⟩
    · simp only [Prod.mk.injEq, Fin.err.injEq] at H; obtain ⟨rfl, rfl, rfl⟩ := H; exact ⟨rfl, rfl, d, hd, rfl⟩
    · simp at H
  · simp at H

end Verif.Http1
