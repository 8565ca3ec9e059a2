import Verif.Http1.Runs
import Verif.Http1.Call
import Verif.Http1.UrlSpec

/-!
# URL-encoded bodies (helper lemmas)
-/

set_option linter.unusedSimpArgs false
set_option linter.unusedVariables false

namespace Verif.Http1

variable {env : Env} {fut : Bytes} {K : List Ev × Fin} {h : Handler} {c : Cfg}

/-! ## Runs of the reference machine -/

theorem hexD_of {b : UInt8} {n : Nat} (h : Util.HexDigit b n) : hexDigit b = some (UInt8.ofNat n) := by
  have hn := Util.hexDigit_lt h
  have key : ∀ b : UInt8, ∀ n < 16, Util.HexDigit b n → hexDigit b = some (UInt8.ofNat n) := by
    apply Util.forall_u8
    decide +kernel
  exact key b n hn h

theorem hexD_none {b : UInt8} (h : ∀ n, ¬ Util.HexDigit b n) : hexDigit b = none := by
  have key : ∀ b : UInt8, (∀ n < 16, ¬ Util.HexDigit b n) → hexDigit b = none := by
    apply Util.forall_u8
    decide +kernel
  exact key b fun n _ => h n

theorem hex_join {m n : Nat} (hm : m < 16) (hn : n < 16) :
    (UInt8.ofNat m <<< 4) ||| UInt8.ofNat n = UInt8.ofNat (16 * m + n) := by
  have key : ∀ m < 16, ∀ n < 16, (UInt8.ofNat m <<< 4) ||| UInt8.ofNat n = UInt8.ofNat (16 * m + n) := by
    decide +kernel
  exact key m hm n hn

theorem literal_of {b : UInt8} (h : Util.Literal b) : isVisible7bit b = true ∧ b ≠ c! '%' ∧ b ≠ c! '+' := by
  have key : ∀ b : UInt8, Util.Literal b → isVisible7bit b = true ∧ b ≠ c! '%' ∧ b ≠ c! '+' := by
    apply Util.forall_u8
    decide +kernel
  exact key b h

theorem Runs.eps {s s1 : AS} {es : List Ev} (hn : ∀ tr, norm env tr s = (es, s1))
    (hn1 : ∀ tr, norm env tr s1 = ([], s1)) : Runs env s [] es s1 :=
  fun tr r => by simpa using pred_eps (hn tr) (hn1 _) r

theorem runs_uName {x m : Bytes} (h : Util.Decodes x m) : (∀ b ∈ x, b ∉ b!"=&;") →
    Runs env .uName x (flatEv (.urlEncodedName m)) .uName := by
  induction h with
  | nil => exact fun _ => .refl _
  | @literal b x s hb _ ih =>
    intro hx
    obtain ⟨h1, h2, h3⟩ := literal_of hb
    have h4 : b ∉ ([61, 38, 59] : Bytes) := hx b (by simp)
    simp only [List.mem_cons, List.not_mem_nil, or_false, not_or] at h4
    refine Runs.eq (Runs.cons (Runs.byte (s' := .uName) (es := [.urlEncodedName [b]]) (fun _ => rfl) nofun ?_)
      (ih fun a ha => hx a (by simp [ha]))) rfl rfl
    simp [bstep, bUName, h1, h2, h3, h4]
  | @plus x s _ ih =>
    intro hx
    refine Runs.eq (Runs.cons (b := c! '+') (Runs.byte (s' := .uNamePlus) (es := []) (fun _ => rfl) nofun (by rfl))
      ((Runs.eps (es := [.urlEncodedName b!" "]) (s1 := .uName) (fun _ => rfl) (fun _ => rfl)).trans
      (ih fun a ha => hx a (by simp [ha])))) rfl rfl
  | @escape a b m n x s h1 h2 _ ih =>
    intro hx
    refine Runs.eq (Runs.cons (b := c! '%') (Runs.byte (s' := .uNameH1) (es := []) (fun _ => rfl) nofun (by rfl))
      (Runs.cons (Runs.byte (s' := .uNameH2 (UInt8.ofNat m <<< 4)) (es := []) (fun _ => rfl) nofun ?_)
      (Runs.cons (Runs.byte (s' := .uName) (es := [.urlEncodedName [UInt8.ofNat (16 * m + n)]]) (fun _ => rfl) nofun ?_)
      (ih fun a ha => hx a (by simp [ha]))))) rfl rfl
    · simp [bstep, hexD_of h1]
    · simp [bstep, hexD_of h2, hex_join (Util.hexDigit_lt h1) (Util.hexDigit_lt h2)]

theorem runs_uVal {x m : Bytes} (h : Util.Decodes x m) : (∀ b ∈ x, b ∉ b!"&;") →
    Runs env .uVal x (flatEv (.urlEncodedValue m)) .uVal := by
  induction h with
  | nil => exact fun _ => .refl _
  | @literal b x s hb _ ih =>
    intro hx
    obtain ⟨h1, h2, h3⟩ := literal_of hb
    have h4 : b ∉ ([38, 59] : Bytes) := hx b (by simp)
    simp only [List.mem_cons, List.not_mem_nil, or_false, not_or] at h4
    refine Runs.eq (Runs.cons (Runs.byte (s' := .uVal) (es := [.urlEncodedValue [b]]) (fun _ => rfl) nofun ?_)
      (ih fun a ha => hx a (by simp [ha]))) rfl rfl
    simp [bstep, bUVal, h1, h2, h3, h4]
  | @plus x s _ ih =>
    intro hx
    refine Runs.eq (Runs.cons (b := c! '+') (Runs.byte (s' := .uValPlus) (es := []) (fun _ => rfl) nofun (by rfl))
      ((Runs.eps (es := [.urlEncodedValue b!" "]) (s1 := .uVal) (fun _ => rfl) (fun _ => rfl)).trans
      (ih fun a ha => hx a (by simp [ha])))) rfl rfl
  | @escape a b m n x s h1 h2 _ ih =>
    intro hx
    refine Runs.eq (Runs.cons (b := c! '%') (Runs.byte (s' := .uValH1) (es := []) (fun _ => rfl) nofun (by rfl))
      (Runs.cons (Runs.byte (s' := .uValH2 (UInt8.ofNat m <<< 4)) (es := []) (fun _ => rfl) nofun ?_)
      (Runs.cons (Runs.byte (s' := .uVal) (es := [.urlEncodedValue [UInt8.ofNat (16 * m + n)]]) (fun _ => rfl) nofun ?_)
      (ih fun a ha => hx a (by simp [ha]))))) rfl rfl
    · simp [bstep, hexD_of h1]
    · simp [bstep, hexD_of h2, hex_join (Util.hexDigit_lt h1) (Util.hexDigit_lt h2)]

/-- The first byte of a field is read as a byte of the name, after `urlEncodedBegin`. -/
theorem uFirst_eq (tr : List Ev) (b : UInt8) (r : Bytes) :
    pred env tr .uFirst (b :: r) = pred env (tr ++ [.urlEncodedBegin]) .uName (b :: r) := by
  have h1 : bUName b ≠ .errB ∧ bUName b ≠ .panic := by
    unfold bUName
    constructor <;> (repeat' split) <;> nofun
  simp only [pred, norm, bstep]
  cases e : bUName b <;> simp_all [BRes.pre]

/-- After a field. -/
def UOpen (x : Pair) : AS := if x.value = none then .uName else .uVal

theorem runs_pair {x : Pair} (h : x.OK) : Runs env .uFirst x.write (flat x.events) (UOpen x) := by
  obtain ⟨n, nm, v⟩ := x
  have h1 := runs_uName (env := env) h.name.1 h.name.2
  have hx : (Pair.mk n nm v).write ≠ [] := by
    rcases h.some with h | h
    · simp [Pair.write]; exact fun e => absurd e h
    · cases v with
      | none => simp at h
      | some v => simp [Pair.write]
  have h2 : Runs env .uName (Pair.mk n nm v).write (flat (Pair.mk n nm v).events).tail (UOpen ⟨n, nm, v⟩) := by
    cases v with
    | none => exact Runs.eq h1 (by simp [Pair.write]) (by simp [Pair.events, flat, flatEv])
    | some v =>
      obtain ⟨h3, h4⟩ := h.value v rfl
      exact Runs.eq ((h1.trans (Runs.byte (s' := .uVal) (b := c! '=') (es := []) (fun _ => rfl) nofun (by rfl))).trans
        (runs_uVal h3 h4)) (by simp [Pair.write]) (by simp [Pair.events, flat, flatEv])
  intro tr r
  obtain ⟨b, t, e⟩ := List.exists_cons_of_ne_nil hx
  have h3 := h2 (tr ++ [.urlEncodedBegin]) r
  rw [e] at h3 ⊢
  rw [List.cons_append, uFirst_eq, ← List.cons_append, h3]
  simp [Pair.events, flat, flatEv]

theorem UOpen_norm (x : Pair) (tr : List Ev) : norm env tr (UOpen x) = ([], UOpen x) := by
  unfold UOpen; split <;> rfl

theorem UOpen_ne (x : Pair) : UOpen x ≠ .fin := by
  unfold UOpen; split <;> nofun

theorem runs_sep {x : Pair} {b : UInt8} (hb : b = c! '&' ∨ b = c! ';') : Runs env (UOpen x) [b] [] .uFirst := by
  refine Runs.byte (UOpen_norm x) (UOpen_ne x) ?_
  unfold UOpen
  rcases hb with rfl | rfl <;> split <;> rfl

/-- The last field. -/
def lastPair (x : Pair) (l : List (UInt8 × Pair)) : Pair := ((l.map Prod.snd).getLast?).getD x

theorem runs_more : ∀ (l : List (UInt8 × Pair)) (x : Pair), (∀ y ∈ l, (y.1 = c! '&' ∨ y.1 = c! ';') ∧ y.2.OK) →
    Runs env (UOpen x) (l.flatMap fun y => y.1 :: y.2.write) (flat (l.flatMap fun y => y.2.events))
      (UOpen (lastPair x l))
  | [], x, _ => .refl _
  | y :: l, x, hl => by
    obtain ⟨h1, h2⟩ := hl y (by simp)
    have e : lastPair x (y :: l) = lastPair y.2 l := by
      simp only [lastPair, List.map_cons, List.getLast?_cons]
      rfl
    rw [e]
    exact Runs.eq (((runs_sep h1).trans (runs_pair h2)).trans (runs_more l y.2 fun z hz => hl z (by simp [hz])))
      (by simp) (by simp [flat])

theorem runs_urlBody {x : UrlBody} (h : x.OK) : Runs env .uFirst x.write (flat x.events) (UOpen x.last) :=
  Runs.eq ((runs_pair h.first).trans (runs_more x.more x.first h.more)) (by simp [UrlBody.write])
    (by simp [UrlBody.events, flat])

theorem pred_cut {x : Pair} {y : Bytes} (hy : CutEscape y) (tr : List Ev) :
    pred env tr (UOpen x) y = (tr, .eos) := by
  unfold UOpen
  rcases hy with rfl | ⟨a, m, ha, rfl⟩ <;> split <;> simp [pred, norm, bstep, bUName, bUVal]
  all_goals simp [hexD_of ha]

theorem pred_bad {x : Pair} {y : Bytes} {b : UInt8} (hy : BadEscape y b) (tr : List Ev) (r : Bytes) :
    pred env tr (UOpen x) (y ++ r) =
      (tr, .err (if x.value = none then .urlEncodedName b else .urlEncodedValue b) r) := by
  obtain ⟨hb, hy⟩ := hy
  have hb := hexD_none hb
  unfold UOpen
  rcases hy with rfl | ⟨a, m, ha, rfl⟩
  · split <;> simp [pred, norm, bstep, bUName, bUVal, hb]
  · have ha := hexD_of ha
    split <;> simp [pred, norm, bstep, bUName, bUVal, hb, ha]

theorem pred_uOpen (x : Pair) (tr : List Ev) : pred env tr (UOpen x) [] = (tr, .eos) := by
  unfold UOpen
  split <;> simp [pred, norm]

/-! ## Lengths -/

/-- What one call does with the declared length. -/
def LenOK (w : World) (s : Bytes) : Res × World → Prop
  | (.ok (.callback n), w') => n ≤ s.length ∧ n ≤ w.p.length ∧ w'.p.ptype = .urlEncoded ∧ UrlSt w'.p.fn ∧
      (w'.p.length + n = w.p.length ∨ w'.p.fn = .finished)
  | (.ok (.eos n), w') => n ≤ s.length ∧ n < w.p.length ∧ w'.p.ptype = .urlEncoded ∧ UrlSt w'.p.fn ∧
      w'.p.length + n = w.p.length
  | (.ok (.finished n), _) => n ≤ s.length ∧ n ≤ w.p.length
  | (.err _, w') => w'.p.byteCount - w.p.byteCount ≤ s.length ∧ w'.p.byteCount - w.p.byteCount ≤ w.p.length
  | _ => True

theorem len_call {w : World} {s : Bytes} (hp : w.p.ptype = .urlEncoded) (hu : UrlSt w.p.fn) :
    LenOK w s (resume h w s) := by
  obtain ⟨st, hst⟩ : ∃ st, s.take w.p.length = st := ⟨_, rfl⟩
  have hL : (if w.p.length < s.length then s.take w.p.length else s) = st := by
    rw [← hst]
    split
    · rfl
    · rw [List.take_of_length_le (by omega)]
  have hstl : st.length = min w.p.length s.length := by rw [← hst, List.length_take]
  have h1 := parse_new_ok h w.p st w.log
  have h3 := outU_parse (h := h) (fuel st.length) ⟨w.p, Ctx.new st, w.log⟩ hu
  rw [resume_url hp hL]
  have hfuel : 2 ≤ fuel st.length := by simp only [fuel]; omega
  revert h1 h3
  generalize parse h (fuel st.length) ⟨w.p, Ctx.new st, w.log⟩ = rc
  obtain ⟨r, c'⟩ := rc
  intro h1 h3
  have hle : RunExt ⟨w.p, Ctx.new st, w.log⟩ c' → c'.ctx.idx ≤ st.length := by
    intro hr
    have hst : c'.ctx.stream = st := hr.stream
    rw [← hst]; exact hr.ok.idx_le
  cases r with
  | ok su =>
    obtain ⟨hus, hl⟩ := h3 su c' rfl
    simp only at hl
    cases su with
    | callback n =>
      obtain ⟨hr, rfl⟩ := h1
      have := hle hr
      simp only [urlPost]
      rw [if_neg (by omega)]
      refine ⟨by omega, by omega, hr.ptype.trans hp, hus, .inl ?_⟩
      show c'.p.length - c'.ctx.idx + c'.ctx.idx = w.p.length
      omega
    | eos n =>
      obtain ⟨hr, rfl, hn⟩ := h1
      have hst' : c'.ctx.stream = st := hr.stream
      rw [hst'] at hn
      simp only [urlPost]
      rw [if_neg (by omega)]
      split
      · rw [parse_bodyFinished hfuel rfl]
        by_cases hret : h.ret (c'.log ++ [.bodyFinished]) = true
        · simp only [if_pos hret]
          exact ⟨show c'.ctx.idx ≤ s.length by omega, show c'.ctx.idx ≤ w.p.length by omega⟩
        · simp only [if_neg hret]
          exact ⟨show c'.ctx.idx ≤ s.length by omega, show c'.ctx.idx ≤ w.p.length by omega, hr.ptype.trans hp,
            trivial, .inr rfl⟩
      · refine ⟨by omega, by omega, hr.ptype.trans hp, hus, ?_⟩
        show c'.p.length - c'.ctx.idx + c'.ctx.idx = w.p.length
        omega
    | finished n =>
      obtain ⟨hr, rfl, hf, hs⟩ := h1
      have := hle hr
      exact ⟨by omega, by omega⟩
  | err e =>
    obtain ⟨hr, hf, hs⟩ := h1
    have := hr.byteCount
    have := hle hr
    refine ⟨?_, ?_⟩ <;> simp only [urlPost] at * <;> omega
  | panic => trivial
  | ub => trivial
  | diverge => trivial

/-- What a run does with the declared length. -/
theorem len_drive : ∀ (ks : List Nat) (last : End) (w : World) (m : Bytes) (L : Nat), w.p.ptype = .urlEncoded →
    UrlSt w.p.fn → (w.p.fn ≠ .finished → w.p.length = L) → (last = .eos → 0 < L) →
    ∃ k ≤ L, k ≤ m.length ∧ (drive h last ks w m).rest = m.drop k ∧ ((drive h last ks w m).last = .eos → k < L)
  | [], last, w, m, L, _, _, _, hl => ⟨0, by omega, by omega, by simp [drive], by simpa [drive] using hl⟩
  | k :: ks, last, w, m, L, hp, hu, hL, hl => by
    by_cases hf : w.p.fn = .finished
    · refine ⟨0, by omega, by omega, ?_⟩
      simp only [drive]
      rw [resume_finished hf]
      simp
    have hL := hL hf
    have H := len_call (h := h) (s := m.take k) hp hu
    simp only [drive]
    revert H
    generalize resume h w (m.take k) = rw'
    obtain ⟨r, w'⟩ := rw'
    have go : ∀ (last : End) (n : Nat), n ≤ (m.take k).length → n ≤ w.p.length → w'.p.ptype = .urlEncoded → UrlSt w'.p.fn →
        (w'.p.length + n = w.p.length ∨ w'.p.fn = .finished) → (last = .eos → n < w.p.length) →
        ∃ k ≤ L, k ≤ m.length ∧ (drive h last ks w' (m.drop n)).rest = m.drop k ∧
          ((drive h last ks w' (m.drop n)).last = .eos → k < L) := by
      intro last n h1 h2 h3 h4 h5 h6
      obtain ⟨j, g1, g2, g3, g4⟩ := len_drive ks last w' (m.drop n) (L - n) h3 h4
        (by rcases h5 with h5 | h5 <;> intro h7
            · omega
            · exact absurd h5 h7)
        (fun e => by have := h6 e; omega)
      rw [List.length_take] at h1
      rw [List.length_drop] at g2
      refine ⟨n + j, by omega, by omega, ?_, fun e => ?_⟩
      · rw [g3, List.drop_drop]
      · have := g4 e; omega
    cases r with
    | ok su =>
      cases su with
      | callback n => rintro ⟨h1, h2, h3, h4, h5⟩; exact go .callback n h1 h2 h3 h4 h5 nofun
      | eos n => rintro ⟨h1, h2, h3, h4, h5⟩; exact go .eos n h1 (by omega) h3 h4 (.inl h5) fun _ => h2
      | finished n =>
        rintro ⟨h1, h2⟩
        rw [List.length_take] at h1
        exact ⟨n, by omega, by omega, rfl, nofun⟩
    | err e =>
      rintro ⟨h1, h2⟩
      rw [List.length_take] at h1
      exact ⟨_, by omega, by omega, rfl, nofun⟩
    | panic => exact fun _ => ⟨0, by omega, by omega, rfl, nofun⟩
    | ub => exact fun _ => ⟨0, by omega, by omega, rfl, nofun⟩
    | diverge => exact fun _ => ⟨0, by omega, by omega, rfl, nofun⟩

/-! ## The machine itself never finishes -/

/-- A state of the URL-encoded mode. -/
def AS.url : AS → Bool
  | .uFirst | .uName | .uNameH1 | .uNameH2 _ | .uNamePlus | .uVal | .uValH1 | .uValH2 _ | .uValPlus => true
  | _ => false

theorem keeps_url : KeepsJ env fun _ _ s => s.url = true := by
  refine ⟨fun _ tr s hs => ?_, fun _ tr s b es s' _ hs hb => ?_⟩
  · cases s <;> simp only [AS.url] at hs <;> first | rfl | cases hs
  · cases s <;> simp only [AS.url] at hs <;> (try cases hs) <;> simp only [bstep, bUName, bUVal, BRes.pre] at hb <;>
      (repeat' split at hb) <;> cases hb <;> try rfl
    all_goals
      rename_i e
      (repeat' split at e) <;> cases e <;> rfl

theorem url_bstep {s : AS} {b : UInt8} {tr : List Ev} (hs : s.url = true) (hn : norm env tr s = ([], s)) :
    bstep env s b ≠ .panic ∧ bstep env s b ≠ .errB := by
  cases s <;> simp only [AS.url] at hs <;> (try cases hs) <;> (try (simp [norm] at hn; done)) <;>
    simp only [bstep, bUName, bUVal] <;> constructor <;> (repeat' split) <;> simp [BRes.pre]

theorem url_pred : ∀ (m : Bytes) (tr : List Ev) (s : AS), s.url = true →
    (pred env tr s m).2 ≠ .panic ∧ (∀ r, (pred env tr s m).2 ≠ .errB r) ∧ ∀ r, (pred env tr s m).2 ≠ .finished r
  | m, tr, s, hs => by
    have hn := norm_idem env tr s
    have hu : (norm env tr s).2.url = true := (keeps_url (env := env)).norm [] tr s hs
    have hf : (norm env tr s).2 ≠ .fin := by
      intro e; rw [e] at hu; simp [AS.url] at hu
    cases m with
    | nil => simp [pred, hf]
    | cons b m =>
      obtain ⟨h1, h2⟩ := url_bstep (b := b) hu hn
      simp only [pred, if_neg hf]
      cases e : bstep env (norm env tr s).2 b with
      | next es s' => exact url_pred m _ s' ((keeps_url (env := env)).step [] _ _ b es s' hn hu e)
      | err es e => simp
      | errB => exact absurd e h2
      | panic => exact absurd e h1

theorem url_not_finished (m : Bytes) (tr : List Ev) (r : Bytes) : (pred env tr .uFirst m).2 ≠ .finished r :=
  (url_pred m tr .uFirst rfl).2.2 r

end Verif.Http1
