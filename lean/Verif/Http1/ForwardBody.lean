import Verif.Http1.Forward
import Verif.Http1.RunsChunk
import Verif.Http1.InvChunk
import Verif.Http1.UrlLoose

/-!
# Helper lemmas: bodies that are passed on
-/

namespace Verif.Http1

theorem fb_cons (k : Last) (e : Ev) (l : List Ev) : forwardBodyFrom k (e :: l) = passBody k e ++ forwardBodyFrom e.last l := rfl

/-! ## Pieces -/

/-- A token in pieces. -/
theorem fb_token {K : Bytes → Ev} {g : Bytes → Bytes} {k : Last} (hg : ∀ b d, g (b :: d) = g [b] ++ g d) (hn : g [] = [])
    (hk : ∀ d, (K d).last = k) (hp : ∀ d, passBody k (K d) = g d) (j : Last)
    (hs : ∀ b d, passBody j (K (b :: d)) = passBody j (K [b]) ++ g d) (r : List Ev) {d : Bytes} (hd : d ≠ []) :
    forwardBodyFrom j (d.map (fun b => K [b]) ++ r) = passBody j (K d) ++ forwardBodyFrom k r := by
  have hr : ∀ d : Bytes, forwardBodyFrom k (d.map (fun b => K [b]) ++ r) = g d ++ forwardBodyFrom k r := by
    intro d
    induction d with
    | nil => rw [hn]; rfl
    | cons b d ih => rw [List.map_cons, List.cons_append, fb_cons, hp, hk, ih, hg b d, List.append_assoc]
  cases d with
  | nil => exact absurd rfl hd
  | cons b d => rw [List.map_cons, List.cons_append, fb_cons, hk, hr, hs b d, List.append_assoc]

/-- What is written does not depend on the pieces. -/
theorem fb_piece (j : Last) (e : Ev) (r : List Ev) (he : flatEv e ≠ []) :
    forwardBodyFrom j (flatEv e ++ r) = passBody j e ++ forwardBodyFrom e.last r := by
  have hne : ∀ {d : Bytes} {f : UInt8 → Ev}, d.map f ≠ [] → d ≠ [] := by rintro d f h rfl; exact h rfl
  have hid : ∀ (b : UInt8) (d : Bytes), b :: d = [b] ++ d := fun _ _ => rfl
  have hfm : ∀ (g : UInt8 → Bytes) (b : UInt8) (d : Bytes), (b :: d).flatMap g = [b].flatMap g ++ d.flatMap g := by simp
  cases e with
  | headerName d =>
    exact fb_token (K := .headerName) hid rfl (fun _ => rfl) (fun _ => rfl) j
      (fun b d => by cases j <;> rfl) r (hne he)
  | headerValue d =>
    exact fb_token (K := .headerValue) hid rfl (fun _ => rfl) (fun _ => rfl) j
      (fun b d => by cases j <;> rfl) r (hne he)
  | chunkData d => exact fb_token (K := .chunkData) hid rfl (fun _ => rfl) (fun _ => rfl) j (fun b d => rfl) r (hne he)
  | chunkExtensionName d =>
    exact fb_token (K := .chunkExtensionName) hid rfl (fun _ => rfl) (fun _ => rfl) j
      (fun b d => by simp only [passBody]; split_ifs <;> simp) r (hne he)
  | chunkExtensionValue d =>
    exact fb_token (K := .chunkExtensionValue) (hfm quoteByte) rfl (fun _ => rfl) (fun _ => rfl) j
      (fun b d => by simp [passBody]) r (hne he)
  | urlEncodedName d =>
    exact fb_token (K := .urlEncodedName) (hfm escapeByte) rfl (fun _ => rfl) (fun _ => rfl) j
      (fun b d => by simp [passBody]) r (hne he)
  | urlEncodedValue d =>
    exact fb_token (K := .urlEncodedValue) (hfm escapeByte) rfl (fun _ => rfl) (fun _ => rfl) j
      (fun b d => by simp [passBody]) r (hne he)
  | method d =>
    exact fb_token (K := .method) (g := fun _ => []) (fun _ _ => rfl) rfl (fun _ => rfl) (fun _ => rfl) j (fun _ _ => rfl) r (hne he)
  | url d =>
    exact fb_token (K := .url) (g := fun _ => []) (fun _ _ => rfl) rfl (fun _ => rfl) (fun _ => rfl) j (fun _ _ => rfl) r (hne he)
  | status d =>
    exact fb_token (K := .status) (g := fun _ => []) (fun _ _ => rfl) rfl (fun _ => rfl) (fun _ => rfl) j (fun _ _ => rfl) r (hne he)
  | multipartData d =>
    exact fb_token (K := .multipartData) (g := fun _ => []) (fun _ _ => rfl) rfl (fun _ => rfl) (fun _ => rfl) j (fun _ _ => rfl) r (hne he)
  | _ => rfl

theorem fb_flat : ∀ (j : Last) (l : List Ev), (∀ e ∈ l, flatEv e ≠ []) → forwardBodyFrom j (flat l) = forwardBodyFrom j l
  | _, [], _ => rfl
  | j, e :: l, h => by
    rw [flat, List.flatMap_cons, fb_piece j e _ (h e (by simp)), fb_cons,
      show List.flatMap flatEv l = flat l from rfl, fb_flat _ l fun x hx => h x (by simp [hx])]

/-! ## Trailers -/

/-- Outside of chunks, header fields are written as in a head. -/
theorem fb_trailer : ∀ (k : Last) (l : List Ev), (∀ e ∈ l, TrailerEv e) → k ≠ .chunkLength → k ≠ .fieldBegin →
    forwardBodyFrom k l = forwardFrom k l
  | _, [], _, _, _ => rfl
  | k, e :: l, h, h1, h2 => by
    have he := h e (by simp)
    have ih := fun k => fb_trailer k l fun x hx => h x (by simp [hx])
    rw [fb_cons, forwardFrom_append]
    cases e <;> first | exact False.elim he | skip
    all_goals
      rw [ih _ (by simp [Ev.last]) (by simp [Ev.last])]
      simp [passBody, pass, h1, h2]

theorem fb_size {e : Ev} {l : List Ev} (he : e ≠ .bodyFinished) (h : ∀ x ∈ e :: l, TrailerEv x) :
    forwardBodyFrom .chunkLength (e :: l) = b!"\r\n" ++ forwardFrom .other (e :: l) := by
  have h0 := h e (by simp)
  have ih := fun k => fb_trailer k l fun x hx => h x (by simp [hx])
  rw [fb_cons, forwardFrom_append]
  cases e <;> first | exact False.elim h0 | skip
  case bodyFinished => exact absurd rfl he
  all_goals
    rw [ih _ (by simp [Ev.last]) (by simp [Ev.last])]
    simp [passBody, pass]

theorem fw_end : ∀ (k : Last) (l : List Ev), forwardFrom k (l ++ [.bodyFinished]) = forwardFrom k l
  | _, [] => rfl
  | k, e :: l => by rw [List.cons_append, forwardFrom_append, forwardFrom_append, fw_end _ l]

theorem trailer_flat (ls : List Line) : ∀ e ∈ flat (ls.flatMap Line.events), TrailerEv e ∧ e ≠ .bodyFinished := by
  intro e he
  obtain ⟨a, ha, hb⟩ := List.mem_flatMap.1 he
  obtain ⟨y, -, hy⟩ := List.mem_flatMap.1 ha
  cases y <;> simp only [Line.events, List.mem_cons, List.not_mem_nil, or_false] at hy
  · rcases hy with rfl | rfl <;> obtain ⟨b, -, rfl⟩ := List.mem_map.1 hb <;> exact ⟨trivial, nofun⟩
  · subst hy; obtain ⟨b, -, rfl⟩ := List.mem_map.1 hb; exact ⟨trivial, nofun⟩

theorem fb_trailers {ls : List Line} (h : ∀ y ∈ ls, y.OK) :
    forwardBodyFrom .chunkLength (flat (ls.flatMap Line.events) ++ [.headersFinished, .bodyFinished]) =
      b!"\r\n" ++ (tidy ls).flatMap Line.write ++ b!"\r\n" := by
  have ht := trailer_flat ls
  rw [List.append_assoc, ← fw_other h, ← fw_end, List.append_assoc]
  cases hl : flat (ls.flatMap Line.events) with
  | nil => rfl
  | cons e l =>
    rw [hl] at ht
    refine fb_size (ht e (by simp)).2 fun x hx => ?_
    have hx : x ∈ (e :: l) ++ [.headersFinished, .bodyFinished] := hx
    rcases List.mem_append.1 hx with hx | hx
    · exact (ht x hx).1
    · simp only [List.mem_cons, List.not_mem_nil, or_false] at hx
      rcases hx with rfl | rfl <;> trivial

/-! ## Numbers -/

theorem hexChar_digit : ∀ n < 16, Util.HexDigit (hexChar n) n ∧ (n ≠ 0 → hexChar n ≠ c! '0') := by decide +kernel

theorem hexNumber_val (n : Nat) : HexVal (hexNumber n) n ∧ (n ≠ 0 → ∃ b t, hexNumber n = b :: t ∧ b ≠ c! '0') := by
  induction n using Nat.strongRecOn with
  | ind n ih =>
    rw [hexNumber]
    by_cases h : n < 16
    · rw [if_pos h]
      obtain ⟨h1, h2⟩ := hexChar_digit n h
      refine ⟨?_, fun hn => ⟨_, _, rfl, h2 hn⟩⟩
      have := HexVal.snoc .nil h1
      simpa using this
    · rw [if_neg h]
      obtain ⟨h1, h2⟩ := ih (n / 16) (by omega)
      obtain ⟨b, t, h3, h4⟩ := h2 (by omega)
      refine ⟨?_, fun _ => ⟨b, t ++ [_], by rw [h3]; rfl, h4⟩⟩
      have := HexVal.snoc h1 (hexChar_digit (n % 16) (by omega)).1
      rwa [Nat.div_add_mod] at this

theorem hexNumber_short : ∀ (k n : Nat), n < 16 ^ (k + 1) → (hexNumber n).length ≤ k + 1
  | 0, n, h => by rw [hexNumber, if_pos (by simpa using h)]; simp
  | k + 1, n, h => by
    rw [hexNumber]
    split_ifs
    · simp
    · have := hexNumber_short k (n / 16) (by
        rw [Nat.div_lt_iff_lt_mul (by decide)]
        simpa [Nat.pow_succ] using h)
      simp only [List.length_append, List.length_cons, List.length_nil]; omega

/-! ## Extensions -/

/-- The meaning of the value. -/
def Extension.meaning (x : Extension) : Bytes :=
  match x.value with
  | none => []
  | some v => v.meaning

/-- The extension that is written. -/
def Extension.tidy (x : Extension) : Extension :=
  ⟨[], Verif.lower x.name, if x.meaning = [] ∧ x.name ≠ [] then none
    else some ⟨[], c! '"' :: x.meaning.flatMap quoteByte ++ c! '"' :: [], x.meaning⟩⟩

/-- Bytes that occur in values. -/
def ValueByte (b : UInt8) : Prop := (FieldByte b ∧ b ≠ 255) ∨ b = c! '"'

theorem escaped_value : ∀ b : UInt8, 0x20 ≤ b → b ≤ 0x7A → ValueByte b := by
  unfold ValueByte
  exact Util.forall_u8 (by decide +kernel)

theorem ExtQuoted.bytes {q m : Bytes} (h : ExtQuoted q m) : ∀ b ∈ m, ValueByte b := by
  induction h with
  | nil => nofun
  | byte h1 h2 _ ih =>
    intro b hb
    rcases List.mem_cons.1 hb with rfl | hb
    · exact .inl ⟨h1.1, h2⟩
    · exact ih b hb
  | @esc a _ _ h1 h2 _ ih =>
    intro b hb
    rcases List.mem_cons.1 hb with rfl | hb
    · exact escaped_value _ h1 h2
    · exact ih b hb

theorem ExtText.bytes {x m : Bytes} (h : ExtText x m) : ∀ b ∈ m, ValueByte b := by
  induction h with
  | nil => nofun
  | byte h1 h2 _ _ ih =>
    intro b hb
    rcases List.mem_cons.1 hb with rfl | hb
    · exact .inl ⟨h1, h2⟩
    · exact ih b hb
  | quoted hq _ ih =>
    intro b hb
    rcases List.mem_append.1 hb with hb | hb
    · exact hq.bytes b hb
    · exact ih b hb

theorem quote_ok : ∀ {m : Bytes}, (∀ b ∈ m, ValueByte b) → ExtQuoted (m.flatMap quoteByte) m
  | [], _ => .nil
  | b :: m, h => by
    have ih := quote_ok (m := m) fun x hx => h x (by simp [hx])
    rw [List.flatMap_cons, quoteByte]
    split_ifs with hb
    · rcases hb with rfl | rfl <;> exact .esc (by decide) (by decide) ih
    · rw [not_or] at hb
      rcases h b (by simp) with h1 | h1
      · exact .byte ⟨h1.1, hb.2⟩ h1.2 ih
      · exact absurd h1 hb.1

theorem Extension.tidy_ok {x : Extension} {last : Bool} (h : x.Loose last) : x.tidy.Loose true := by
  have hm : ∀ b ∈ x.meaning, ValueByte b := by
    cases hv : x.value with
    | none => rw [meaning, hv]; nofun
    | some v => rw [meaning, hv]; exact (h.value v hv).2.1.bytes
  refine ⟨nofun, lower_token h.name, ?_, ?_⟩
  · intro h1 _
    show Verif.lower x.name ≠ []
    by_cases h2 : x.meaning = [] ∧ x.name ≠ []
    · simpa [Verif.lower] using h2.2
    · rw [tidy] at h1; simp only [if_neg h2] at h1; exact absurd h1 nofun
  · intro v h1
    rw [tidy] at h1
    simp only at h1
    split_ifs at h1 with h2
    cases h1
    refine ⟨nofun, ?_, .inr ⟨_, _, rfl, by decide⟩⟩
    have := ExtText.quoted (quote_ok hm) .nil
    simpa using this

theorem Extension.Loose.weaken {x : Extension} (h : x.Loose true) : x.Loose false := by
  refine ⟨h.blanks, h.name, nofun, fun v hv => ?_⟩
  obtain ⟨h1, h2, h3⟩ := h.value v hv
  exact ⟨h1, h2, .inr (h3.resolve_left (by simp))⟩

theorem looseExtensions_mem : ∀ {l : List Extension}, looseExtensions l → ∀ x ∈ l, ∃ b, x.Loose b
  | [], _, _, hx => absurd hx (by simp)
  | [y], h, x, hx => by rw [List.mem_singleton] at hx; subst hx; exact ⟨_, h⟩
  | y :: z :: l, h, x, hx => by
    rcases List.mem_cons.1 hx with rfl | hx
    · exact ⟨_, h.1⟩
    · exact looseExtensions_mem h.2 x hx

theorem looseExtensions_of : ∀ {l : List Extension}, (∀ x ∈ l, x.Loose true) → looseExtensions l
  | [], _ => trivial
  | [y], h => h y (by simp)
  | y :: z :: l, h => ⟨(h y (by simp)).weaken, looseExtensions_of fun x hx => h x (by simp [hx])⟩

theorem Extension.tidy_means (x : Extension) : flat x.tidy.events = flat x.events := by
  obtain ⟨bl, n, v⟩ := x
  rw [Extension.events, Extension.events, flat_app, flat_app, flat_app, flat_app]
  congr 1
  congr 1
  · show flat [.chunkExtensionName (Verif.lower (Verif.lower n))] = _
    rw [lower_lower]
  · by_cases h : (Extension.mk bl n v).meaning = [] ∧ n ≠ []
    · rw [show (Extension.mk bl n v).tidy.value = none from if_pos h]
      cases v with
      | none => rfl
      | some v =>
        have h : v.meaning = [] := h.1
        show [] = flat [.chunkExtensionValue v.meaning]
        rw [h]; rfl
    · rw [show (Extension.mk bl n v).tidy.value = some _ from if_neg h]
      cases v <;> rfl

/-- What is written for an extension. -/
theorem fb_extension (x : Extension) (r : List Ev) {j : Last} (h1 : j ≠ .extensionName) (h2 : j ≠ .extensionValue) :
    forwardBodyFrom j (flat x.events ++ r) = x.tidy.write ++ forwardBodyFrom .other r := by
  obtain ⟨bl, n, v⟩ := x
  have hv : ∀ (w : Bytes), forwardBodyFrom j (flat [.chunkExtensionName (Verif.lower n)] ++ (flat [.chunkExtensionValue w] ++
      (flat [.chunkExtensionFinished] ++ r))) =
      (b!";" ++ Verif.lower n ++ if w = [] ∧ n ≠ [] then [] else b!"=" ++ (c! '"' :: w.flatMap quoteByte ++ c! '"' :: [])) ++
        forwardBodyFrom .other r := by
    intro w
    have e1 : ∀ e : Ev, flat [e] = flatEv e := fun e => by simp [flat]
    rw [e1, e1, e1]
    by_cases hn : n = []
    · subst hn
      show forwardBodyFrom j (flatEv (.chunkExtensionValue w) ++ _) = _
      by_cases hw : w = []
      · subst hw
        show (if j = .extensionValue then b!"\"" else if j = .extensionName then [] else b!";=\"\"") ++ _ = _
        rw [if_neg h2, if_neg h1]
        rfl
      · rw [fb_piece _ _ _ (by simpa [flatEv] using hw), fb_piece _ _ _ (by simp [flatEv])]
        show ((if j = .extensionValue then [] else if j = .extensionName then b!"=\"" else b!";=\"") ++ w.flatMap quoteByte) ++
          (b!"\"" ++ forwardBodyFrom .other r) = _
        rw [if_neg h2, if_neg h1]
        simp [hw, Verif.lower]
    · rw [fb_piece _ _ _ (by simpa [flatEv, Verif.lower] using hn)]
      show (if j = .extensionName then Verif.lower n else b!";" ++ Verif.lower n) ++ forwardBodyFrom .extensionName _ = _
      rw [if_neg h1]
      by_cases hw : w = []
      · subst hw
        show _ ++ ([] ++ forwardBodyFrom .other r) = _
        simp [hn]
      · rw [fb_piece _ _ _ (by simpa [flatEv] using hw), fb_piece _ _ _ (by simp [flatEv])]
        show _ ++ ((b!"=\"" ++ w.flatMap quoteByte) ++ (b!"\"" ++ forwardBodyFrom .other r)) = _
        simp [hw]
  have hw : (Extension.mk bl n v).tidy.write = b!";" ++ Verif.lower n ++
      if (Extension.mk bl n v).meaning = [] ∧ n ≠ [] then [] else b!"=" ++ (c! '"' :: (Extension.mk bl n v).meaning.flatMap quoteByte ++ c! '"' :: []) := by
    simp only [Extension.tidy, Extension.write]
    split_ifs <;> simp
  rw [hw, Extension.events, flat_app, flat_app]
  cases v with
  | none => have := hv []; simpa [flat, flatEv, Extension.meaning] using this
  | some v =>
    have := hv v.meaning
    rw [List.append_assoc, List.append_assoc]
    exact this

theorem fb_extensions : ∀ (l : List Extension) (r : List Ev) {j : Last}, j ≠ .extensionName → j ≠ .extensionValue →
    forwardBodyFrom j (flat (l.flatMap Extension.events) ++ .chunkExtensionsFinished :: r) =
      (l.map Extension.tidy).flatMap Extension.write ++ b!"\r\n" ++ forwardBodyFrom .other r
  | [], r, j, _, _ => rfl
  | x :: l, r, j, h1, h2 => by
    rw [List.flatMap_cons, flat_app, List.append_assoc, fb_extension x _ h1 h2, fb_extensions l r (j := .other) nofun nofun]
    simp

/-! ## Chunks -/

/-- The chunk that is written. -/
def Chunk.tidy (x : Chunk) : Chunk := ⟨hexNumber x.data.length, x.extensions.map Extension.tidy, x.data⟩

theorem Chunk.tidy_ok {x : Chunk} (h : x.Loose) : x.tidy.Loose := by
  obtain ⟨h1, h2⟩ := hexNumber_val x.data.length
  refine ⟨h1, ?_, ?_, looseExtensions_of ?_⟩
  · by_cases hn : x.data.length = 0
    · refine .inr ⟨?_, ?_⟩
      · show hexNumber x.data.length = _
        rw [hn, hexNumber]; rfl
      · rcases h.first with h3 | h3
        · exact absurd hn (h.size.pos h3)
        · simpa [tidy] using h3.2
    · exact .inl (h2 hn)
  · refine hexNumber_short 7 _ (Nat.lt_of_lt_of_le h.size.lt (Nat.pow_le_pow_right (by decide) h.short))
  · intro y hy
    obtain ⟨x', hx, rfl⟩ := List.mem_map.1 hy
    obtain ⟨b, hb⟩ := looseExtensions_mem h.extensions x' hx
    exact Extension.tidy_ok hb

theorem Chunk.tidy_means (x : Chunk) : flat x.tidy.events = flat x.events := by
  have : flat ((x.extensions.map Extension.tidy).flatMap Extension.events) = flat (x.extensions.flatMap Extension.events) := by
    induction x.extensions with
    | nil => rfl
    | cons y l ih => rw [List.map_cons, List.flatMap_cons, List.flatMap_cons, flat_app, flat_app, ih, Extension.tidy_means]
  rw [Chunk.events, Chunk.events, flat_app, flat_app, flat_app, flat_app]
  show _ ++ flat ((x.extensions.map Extension.tidy).flatMap Extension.events) ++ _ = _
  rw [this]
  rfl

theorem fb_chunk (x : Chunk) (r : List Ev) (j : Last) :
    forwardBodyFrom j (flat x.events ++ r) = (if j = .none then [] else b!"\r\n") ++ x.tidy.size ++
      x.tidy.extensions.flatMap Extension.write ++ b!"\r\n" ++ x.data ++ forwardBodyFrom .other r := by
  rw [Chunk.events, flat_app, flat_app, List.append_assoc, List.append_assoc]
  show (if j = .none then [] else b!"\r\n") ++ (hexNumber x.data.length ++ forwardBodyFrom .chunkLength
    (flat (x.extensions.flatMap Extension.events) ++ .chunkExtensionsFinished :: (flatEv (.chunkData x.data) ++ [] ++ r))) = _
  rw [fb_extensions _ _ (j := .chunkLength) nofun nofun, List.append_nil]
  have hd : forwardBodyFrom .other (flatEv (.chunkData x.data) ++ r) = x.data ++ forwardBodyFrom .other r := by
    by_cases hd : x.data = []
    · rw [hd]; rfl
    · rw [fb_piece _ _ _ (by simpa [flatEv] using hd)]; rfl
  rw [hd]
  simp [Chunk.tidy]

theorem fb_chunks {r : List Ev} {F : Bytes} (hr : ∀ j, forwardBodyFrom j r = (if j = .none then [] else b!"\r\n") ++ F) :
    ∀ (l : List Chunk) (j : Last), forwardBodyFrom j (flat (l.flatMap Chunk.events) ++ r) =
      (if j = .none then [] else b!"\r\n") ++ (l.map Chunk.tidy).flatMap Chunk.write ++ F
  | [], j => by rw [List.map_nil, List.flatMap_nil, List.flatMap_nil, List.append_nil]; exact hr j
  | x :: l, j => by
    rw [List.flatMap_cons, flat_app, List.append_assoc, fb_chunk, fb_chunks hr l, if_neg (show Last.other ≠ .none by nofun)]
    simp [Chunk.write, Chunk.tidy]

/-- The body that is written. -/
def LooseBody.tidy (x : LooseBody) : LooseBody := ⟨x.chunks.map Chunk.tidy, Http1.tidy x.trailer⟩

theorem LooseBody.tidy_ok {x : LooseBody} (h : x.OK) : x.tidy.OK := by
  refine ⟨fun y hy => ?_, Http1.tidy_ok _ h.trailer⟩
  obtain ⟨z, hz, rfl⟩ := List.mem_map.1 hy
  exact Chunk.tidy_ok (h.chunks z hz)

theorem LooseBody.tidy_means (x : LooseBody) : flat x.tidy.events = flat x.events := by
  have : flat ((x.chunks.map Chunk.tidy).flatMap Chunk.events) = flat (x.chunks.flatMap Chunk.events) := by
    induction x.chunks with
    | nil => rfl
    | cons y l ih => rw [List.map_cons, List.flatMap_cons, List.flatMap_cons, flat_app, flat_app, ih, Chunk.tidy_means]
  simp only [LooseBody.events, flat_app, LooseBody.tidy, this, Http1.tidy_means]

/-- What is written for a chunked body is a chunked body. -/
theorem LooseBody.forward {x : LooseBody} (h : x.OK) : forwardBody (flat x.events) = x.tidy.write := by
  rw [LooseBody.events, flat_app, flat_app, flat_app, List.append_assoc, List.append_assoc, forwardBody]
  rw [fb_chunks (F := b!"0\r\n" ++ (Http1.tidy x.trailer).flatMap Line.write ++ b!"\r\n")]
  · simp [LooseBody.write, LooseBody.tidy]
  · intro j
    have := fb_trailers h.trailer
    show (if j = .none then [] else b!"\r\n") ++ (hexNumber 0 ++ forwardBodyFrom .chunkLength
      (flat (x.trailer.flatMap Line.events) ++ [.headersFinished, .bodyFinished])) = _
    rw [this, hexNumber]
    simp
    rfl

/-! ## URL-encoded bodies -/

/-- The meaning of the value. -/
def Pair.valueMeaning (x : Pair) : Bytes :=
  match x.value with
  | none => []
  | some v => v.2

/-- The field that is written. -/
def Pair.tidy (x : Pair) : Pair :=
  ⟨x.nameMeaning.flatMap escapeByte, x.nameMeaning, if x.valueMeaning = [] ∧ x.nameMeaning ≠ [] then none
    else some (x.valueMeaning.flatMap escapeByte, x.valueMeaning)⟩

theorem escapeByte_cases : ∀ b : UInt8, (escapeByte b = [b] ∧ Util.Literal b ∧ b ∉ b!"=&;") ∨
    (escapeByte b = [c! '%', hexChar (b.toNat / 16), hexChar (b.toNat % 16)] ∧ hexChar (b.toNat / 16) ∉ b!"=&;" ∧
      hexChar (b.toNat % 16) ∉ b!"=&;") :=
  Util.forall_u8 (by decide +kernel)

theorem escape_ok : ∀ d : Bytes, Util.Decodes (d.flatMap escapeByte) d ∧ ∀ b ∈ d.flatMap escapeByte, b ∉ b!"=&;"
  | [] => ⟨.nil, nofun⟩
  | b :: d => by
    obtain ⟨h1, h2⟩ := escape_ok d
    rw [List.flatMap_cons]
    rcases escapeByte_cases b with ⟨h3, h4, h5⟩ | ⟨h3, h4, h5⟩
    · rw [h3]
      refine ⟨.literal h4 h1, fun c hc => ?_⟩
      rcases List.mem_cons.1 hc with rfl | hc
      · exact h5
      · exact h2 c hc
    · rw [h3]
      constructor
      · have hb := b.toNat_lt
        have := Util.Decodes.escape (hexChar_digit (b.toNat / 16) (by omega)).1 (hexChar_digit (b.toNat % 16) (by omega)).1 h1
        rw [Nat.div_add_mod, UInt8.ofNat_toNat] at this
        exact this
      · intro c hc
        simp only [List.cons_append, List.nil_append, List.mem_cons] at hc
        rcases hc with rfl | rfl | rfl | hc
        · decide
        · exact h4
        · exact h5
        · exact h2 c hc

theorem Pair.tidy_ok (x : Pair) : x.tidy.Loose := by
  refine ⟨escape_ok _, fun v hv => ?_⟩
  rw [tidy] at hv
  simp only at hv
  split_ifs at hv
  cases hv
  obtain ⟨h1, h2⟩ := escape_ok x.valueMeaning
  exact ⟨h1, fun b hb hm => h2 b hb (by simp only [List.mem_cons] at hm ⊢; exact .inr hm)⟩

theorem Pair.tidy_means (x : Pair) : flat x.tidy.events = flat x.events := by
  obtain ⟨n, nm, v⟩ := x
  rw [Pair.events, Pair.events, flat_app, flat_app]
  congr 1
  by_cases h : (Pair.mk n nm v).valueMeaning = [] ∧ nm ≠ []
  · rw [show (Pair.mk n nm v).tidy.value = none from if_pos h]
    cases v with
    | none => rfl
    | some v =>
      have h : v.2 = [] := h.1
      show [] = flat [.urlEncodedValue v.2]
      rw [h]; rfl
  · rw [show (Pair.mk n nm v).tidy.value = some _ from if_neg h]
    cases v <;> rfl

/-- The bytes of a tidy field. -/
theorem Pair.tidy_write (x : Pair) : x.tidy.write ≠ [] := by
  simp only [write, tidy]
  split_ifs with h
  · have := h.2
    obtain ⟨b, t, ht⟩ := List.exists_cons_of_ne_nil this
    rw [ht, List.flatMap_cons]
    rcases escapeByte_cases b with ⟨h3, -⟩ | ⟨h3, -⟩ <;> rw [h3] <;> simp
  · simp

/-- A body with these fields. -/
def ofPairs : List Pair → LooseUrl
  | [] => ⟨[], ⟨[], [], none⟩, []⟩
  | [x] => ⟨[], x, []⟩
  | x :: y :: l => ⟨(x, c! '&') :: (ofPairs (y :: l)).fields, (ofPairs (y :: l)).last, []⟩

theorem ofPairs_cut : ∀ l, (ofPairs l).cut = []
  | [] | [_] | _ :: _ :: _ => rfl

theorem ofPairs_ok : ∀ {l : List Pair}, (∀ x ∈ l, x.Loose) → (ofPairs l).OK
  | [], _ => ⟨nofun, ⟨⟨.nil, nofun⟩, nofun⟩, .inl rfl⟩
  | [x], h => ⟨nofun, h x (by simp), .inl rfl⟩
  | x :: y :: l, h => by
    have ih := ofPairs_ok (l := y :: l) fun z hz => h z (by simp [hz])
    refine ⟨fun z hz => ?_, ih.last, .inl rfl⟩
    rcases List.mem_cons.1 hz with rfl | hz
    · exact ⟨h x (by simp), .inl rfl⟩
    · exact ih.fields z hz

theorem ofPairs_write (x : Pair) (l : List Pair) :
    (ofPairs (x :: l)).write = x.write ++ if l = [] then [] else b!"&" ++ (ofPairs l).write := by
  cases l with
  | nil => simp [ofPairs, LooseUrl.write]
  | cons y l => simp [ofPairs, LooseUrl.write, ofPairs_cut]

theorem ofPairs_all : ∀ {l : List Pair}, l ≠ [] → (ofPairs l).allEvents = l.flatMap Pair.events
  | [], h => absurd rfl h
  | [x], _ => by simp [ofPairs, LooseUrl.allEvents]
  | x :: y :: l, _ => by
    have ih := ofPairs_all (l := y :: l) (by simp)
    simp only [ofPairs, LooseUrl.allEvents, List.flatMap_cons, List.append_assoc] at ih ⊢
    rw [ih]

theorem ofPairs_last : ∀ {l : List Pair}, l ≠ [] → (ofPairs l).last ∈ l
  | [], h => absurd rfl h
  | [x], _ => by simp [ofPairs]
  | x :: y :: l, _ => List.mem_cons_of_mem _ (ofPairs_last (l := y :: l) (by simp))

theorem ofPairs_events {l : List Pair} (h : ∀ x ∈ l, x.write ≠ []) : (ofPairs l).events = l.flatMap Pair.events := by
  by_cases hl : l = []
  · subst hl; rfl
  · rw [LooseUrl.events, if_neg (by rw [ofPairs_cut, List.append_nil]; exact h _ (ofPairs_last hl)), ofPairs_all hl]

/-- The fields that are reported. -/
def LooseUrl.toldPairs (x : LooseUrl) : List Pair :=
  x.fields.map Prod.fst ++ if x.last.write ++ x.cut = [] then [] else [x.last]

theorem LooseUrl.told_events (x : LooseUrl) : x.events = x.toldPairs.flatMap Pair.events := by
  simp only [events, toldPairs, allEvents]
  split_ifs <;> simp [List.flatMap_map]

/-- The body that is written. -/
def LooseUrl.tidy (x : LooseUrl) : LooseUrl := ofPairs (x.toldPairs.map Pair.tidy)

theorem LooseUrl.tidy_ok (x : LooseUrl) : x.tidy.OK := by
  refine ofPairs_ok fun y hy => ?_
  obtain ⟨z, -, rfl⟩ := List.mem_map.1 hy
  exact z.tidy_ok

theorem LooseUrl.tidy_means (x : LooseUrl) : flat x.tidy.events = flat x.events := by
  rw [LooseUrl.tidy, ofPairs_events, x.told_events]
  · induction x.toldPairs with
    | nil => rfl
    | cons y l ih => rw [List.map_cons, List.flatMap_cons, List.flatMap_cons, flat_app, flat_app, ih, Pair.tidy_means]
  · intro y hy
    obtain ⟨z, -, rfl⟩ := List.mem_map.1 hy
    exact z.tidy_write

theorem fb_pairs : ∀ (l : List Pair) (j : Last),
    forwardBodyFrom j (flat (l.flatMap Pair.events) ++ [.bodyFinished]) = (if j = .fieldBegin then b!"=" else []) ++
      if l = [] then [] else (if j = .none then [] else b!"&") ++ (ofPairs (l.map Pair.tidy)).write
  | [], j => by simp [flat, forwardBodyFrom, passBody]
  | x :: l, j => by
    have ih := fb_pairs l
    have hv : ∀ w, forwardBodyFrom j (flat [.urlEncodedBegin, .urlEncodedName x.nameMeaning] ++ (flat [.urlEncodedValue w] ++
        (flat (l.flatMap Pair.events) ++ [.bodyFinished]))) =
        (if j = .fieldBegin then b!"=" else []) ++ ((if j = .none then [] else b!"&") ++
          (x.nameMeaning.flatMap escapeByte ++ ((if w = [] ∧ x.nameMeaning ≠ [] then [] else b!"=" ++ w.flatMap escapeByte) ++
          if l = [] then [] else b!"&" ++ (ofPairs (l.map Pair.tidy)).write))) := by
      intro w
      have e1 : ∀ e : Ev, flat [e] = flatEv e := fun e => by simp [flat]
      rw [flat_cons, e1, e1]
      show ((if j = .fieldBegin then b!"=" else []) ++ (if j = .none then [] else b!"&")) ++ forwardBodyFrom .fieldBegin
        (flatEv (.urlEncodedName x.nameMeaning) ++ (flatEv (.urlEncodedValue w) ++ _)) = _
      rw [List.append_assoc]
      congr 1
      congr 1
      by_cases hn : x.nameMeaning = []
      · rw [hn]
        show forwardBodyFrom .fieldBegin (flatEv (.urlEncodedValue w) ++ _) = _
        by_cases hw : w = []
        · subst hw
          show forwardBodyFrom .fieldBegin (flat (l.flatMap Pair.events) ++ [.bodyFinished]) = _
          rw [ih]
          simp
        · rw [fb_piece _ _ _ (by simpa [flatEv] using hw)]
          show (b!"=" ++ w.flatMap escapeByte) ++ forwardBodyFrom .fieldValue _ = _
          rw [ih]
          simp
      · rw [fb_piece _ _ _ (by simpa [flatEv] using hn)]
        show x.nameMeaning.flatMap escapeByte ++ forwardBodyFrom .other _ = _
        congr 1
        by_cases hw : w = []
        · subst hw
          show forwardBodyFrom .other (flat (l.flatMap Pair.events) ++ [.bodyFinished]) = _
          rw [ih]
          simp [hn]
        · rw [fb_piece _ _ _ (by simpa [flatEv] using hw)]
          show (b!"=" ++ w.flatMap escapeByte) ++ forwardBodyFrom .fieldValue _ = _
          rw [ih]
          simp [hw]
    have e2 : (ofPairs ((x :: l).map Pair.tidy)).write =
        x.tidy.write ++ if l = [] then [] else b!"&" ++ (ofPairs (l.map Pair.tidy)).write := by
      rw [List.map_cons, ofPairs_write]
      by_cases hl : l = [] <;> simp [hl]
    rw [if_neg (List.cons_ne_nil x l), e2, List.flatMap_cons, flat_app, Pair.events, flat_app]
    have hw : x.tidy.write = x.nameMeaning.flatMap escapeByte ++
        if x.valueMeaning = [] ∧ x.nameMeaning ≠ [] then [] else b!"=" ++ x.valueMeaning.flatMap escapeByte := by
      simp only [Pair.tidy, Pair.write]
      split_ifs <;> simp
    rw [hw]
    have hx := hv x.valueMeaning
    cases hxv : x.value with
    | none =>
      rw [Pair.valueMeaning, hxv] at hx ⊢
      simpa only [List.append_assoc, flat, List.flatMap_nil, List.flatMap_cons, flatEv, List.map_nil, List.append_nil, List.nil_append] using hx
    | some v =>
      rw [Pair.valueMeaning, hxv] at hx ⊢
      simpa only [List.append_assoc] using hx

/-- What is written for a URL-encoded body is one. -/
theorem LooseUrl.forward (x : LooseUrl) : forwardBody (flat (x.events ++ [.bodyFinished])) = x.tidy.write := by
  rw [flat_app, x.told_events, forwardBody]
  show forwardBodyFrom .none (flat (x.toldPairs.flatMap Pair.events) ++ [.bodyFinished]) = _
  rw [fb_pairs, LooseUrl.tidy]
  by_cases h : x.toldPairs = []
  · rw [h]; rfl
  · simp [h]

end Verif.Http1
