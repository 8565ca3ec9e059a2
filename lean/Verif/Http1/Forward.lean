import Verif.Http1.ForwardSpec
import Verif.Http1.LooseSpec
import Verif.Util.ByteLemmas
import Mathlib.Tactic.SplitIfs

/-!
# Helper lemmas: heads that are passed on
-/

namespace Verif.Http1

theorem forwardFrom_append (k : Last) (e : Ev) (l : List Ev) : forwardFrom k (e :: l) = pass k e ++ forwardFrom e.last l := rfl

/-! ## Pieces -/

/-- The rest of a token. -/
theorem fw_rest {K : Bytes → Ev} {k : Last} (hk : ∀ d, (K d).last = k) (hp : ∀ d, pass k (K d) = d) (r : List Ev) :
    ∀ d : Bytes, forwardFrom k (d.map (fun b => K [b]) ++ r) = d ++ forwardFrom k r
  | [] => rfl
  | b :: d => by
    rw [List.map_cons, List.cons_append, forwardFrom_append, hp, hk, fw_rest hk hp r d]; rfl

/-- A token in pieces. -/
theorem fw_token {K : Bytes → Ev} {k : Last} (hk : ∀ d, (K d).last = k) (hp : ∀ d, pass k (K d) = d) (j : Last)
    (hs : ∀ b d, pass j (K (b :: d)) = pass j (K [b]) ++ d) (r : List Ev) {d : Bytes} (hd : d ≠ []) :
    forwardFrom j (d.map (fun b => K [b]) ++ r) = pass j (K d) ++ forwardFrom k r := by
  cases d with
  | nil => exact absurd rfl hd
  | cons b d =>
    rw [List.map_cons, List.cons_append, forwardFrom_append, hk, fw_rest hk hp, hs b d, List.append_assoc]

/-- What is written does not depend on the pieces. -/
theorem fw_piece (j : Last) (e : Ev) (r : List Ev) (he : flatEv e ≠ []) :
    forwardFrom j (flatEv e ++ r) = pass j e ++ forwardFrom e.last r := by
  cases e with
  | method d =>
    have hd : d ≠ [] := by rintro rfl; exact he rfl
    cases d with
    | nil => exact absurd rfl hd
    | cons b d =>
      rw [flatEv, List.map_cons, List.cons_append, forwardFrom_append]
      show [b] ++ forwardFrom .other _ = _
      rw [fw_rest (K := .method) (fun _ => rfl) (fun _ => rfl)]
      rfl
  | url d =>
    have hd : d ≠ [] := by rintro rfl; exact he rfl
    exact fw_token (K := .url) (fun _ => rfl) (fun _ => rfl) j (fun b d => by simp only [pass]; split_ifs <;> rfl) r hd
  | status d =>
    have hd : d ≠ [] := by rintro rfl; exact he rfl
    exact fw_token (K := .status) (fun _ => rfl) (fun _ => rfl) j (fun b d => by simp only [pass]; split_ifs <;> rfl) r hd
  | headerName d =>
    have hd : d ≠ [] := by rintro rfl; exact he rfl
    exact fw_token (K := .headerName) (fun _ => rfl) (fun _ => rfl) j (fun b d => by simp only [pass]; split_ifs <;> rfl) r hd
  | headerValue d =>
    have hd : d ≠ [] := by rintro rfl; exact he rfl
    exact fw_token (K := .headerValue) (fun _ => rfl) (fun _ => rfl) j (fun b d => by simp only [pass]; split_ifs <;> rfl) r hd
  | chunkData d | chunkExtensionName d | chunkExtensionValue d | multipartData d | urlEncodedName d | urlEncodedValue d =>
    have hd : d ≠ [] := by rintro rfl; exact he rfl
    clear he
    obtain ⟨b, d, rfl⟩ := List.exists_cons_of_ne_nil hd
    rw [flatEv, List.map_cons, List.cons_append, forwardFrom_append]
    simp only [Ev.last, pass, List.nil_append]
    induction d with
    | nil => rfl
    | cons c d ih => exact ih (by simp)
  | _ => rfl

theorem fw_flat : ∀ (j : Last) (l : List Ev), (∀ e ∈ l, flatEv e ≠ []) → forwardFrom j (flat l) = forwardFrom j l
  | _, [], _ => rfl
  | j, e :: l, h => by
    rw [flat, List.flatMap_cons, fw_piece j e _ (h e (by simp)), forwardFrom_append,
      show List.flatMap flatEv l = flat l from rfl, fw_flat _ l fun x hx => h x (by simp [hx])]

/-! ## Numbers -/

theorem shortNumber_digits : ∀ n < 1000, Digits (shortNumber n) n := by unfold Digits; decide +kernel
theorem threeDigits_digits : ∀ n < 1000, (threeDigits n).length = 3 ∧ Digits (threeDigits n) n := by unfold Digits; decide +kernel

theorem digits_lt {s : Bytes} {n : Nat} (h : Digits s n) : decVal s < 1000 := by
  obtain ⟨h1, h2, h3, -⟩ := h
  have hd : ∀ b ∈ s, b.toNat - 48 ≤ 9 := by
    intro b hb
    have := (h3 b hb).2
    have : b.toNat ≤ 57 := this
    omega
  match s, h1, h2, hd with
  | [a], _, _, hd =>
    have := hd a (by simp)
    simp only [decVal, List.foldl_cons, List.foldl_nil]; omega
  | [a, b], _, _, hd =>
    have := hd a (by simp)
    have := hd b (by simp)
    simp only [decVal, List.foldl_cons, List.foldl_nil]; omega
  | [a, b, c], _, _, hd =>
    have := hd a (by simp)
    have := hd b (by simp)
    have := hd c (by simp)
    simp only [decVal, List.foldl_cons, List.foldl_nil]; omega
  | _ :: _ :: _ :: _ :: _, _, h2, _ => simp at h2

/-! ## Lines -/

/-- More of the value before, and the header fields after it. -/
def absorb : List Line → Bytes × List Line
  | [] => ([], [])
  | .fold _ v :: ls => (v ++ (absorb ls).1, (absorb ls).2)
  | .field n _ v :: ls =>
    if n = [] then (v ++ (absorb ls).1, (absorb ls).2)
    else ([], .field (Verif.lower n) b!" " (v ++ (absorb ls).1) :: (absorb ls).2)

/-- The lines that are written. -/
def tidy (ls : List Line) : List Line :=
  (if (absorb ls).1 = [] then [] else [.fold (c! ' ') (absorb ls).1]) ++ (absorb ls).2

theorem FieldText.append {a b : Bytes} (h1 : FieldText a) (h2 : FieldText b) : FieldText (a ++ b) := by
  induction h1 with
  | nil => exact h2
  | byte hb hc _ ih => exact .byte hb hc ih
  | quoted hq _ ih =>
    have := FieldText.quoted hq ih
    simpa using this

theorem lower_token {n : Bytes} (h : ∀ b ∈ n, TokenByte b) : ∀ b ∈ Verif.lower n, TokenByte b := by
  have key : ∀ b : UInt8, TokenByte b → ∀ c ∈ Verif.lower [b], TokenByte c := by
    refine Util.forall_u8 ?_
    unfold TokenByte; decide +kernel
  intro b hb
  unfold Verif.lower at hb
  obtain ⟨a, ha, rfl⟩ := List.mem_map.1 hb
  exact key a (h a ha) _ (by simp [Verif.lower])

theorem lower_lower (n : Bytes) : Verif.lower (Verif.lower n) = Verif.lower n := by
  have key : ∀ b : UInt8, Verif.lower (Verif.lower [b]) = Verif.lower [b] := Util.forall_u8 (by decide +kernel)
  unfold Verif.lower at key ⊢
  rw [List.map_map]
  refine List.map_congr_left fun b _ => ?_
  have := key b
  simpa using this

theorem absorb_ok : ∀ (ls : List Line), (∀ y ∈ ls, y.OK) → FieldText (absorb ls).1 ∧ ∀ y ∈ (absorb ls).2, y.OK
  | [], _ => ⟨.nil, nofun⟩
  | .fold _ v :: ls, h => by
    obtain ⟨h1, h2⟩ := absorb_ok ls fun y hy => h y (by simp [hy])
    exact ⟨(h _ List.mem_cons_self).2.append h1, h2⟩
  | .field n bl v :: ls, h => by
    obtain ⟨h1, h2⟩ := absorb_ok ls fun y hy => h y (by simp [hy])
    obtain ⟨g1, g2, g3, b, w, rfl, g4⟩ := h _ List.mem_cons_self
    rw [absorb]
    split_ifs with hn
    · exact ⟨g3.append h1, h2⟩
    · refine ⟨.nil, fun y hy => ?_⟩
      rcases List.mem_cons.1 hy with rfl | hy
      · exact ⟨lower_token g1, by decide, g3.append h1, b, _, rfl, g4⟩
      · exact h2 y hy

theorem tidy_ok (ls : List Line) (h : ∀ y ∈ ls, y.OK) : ∀ y ∈ tidy ls, y.OK := by
  obtain ⟨h1, h2⟩ := absorb_ok ls h
  intro y hy
  rcases List.mem_append.1 hy with hy | hy
  · split_ifs at hy
    · cases hy
    · rw [List.mem_singleton] at hy
      subst hy
      exact ⟨.inl rfl, h1⟩
  · exact h2 y hy

theorem flat_cons (e : Ev) (l : List Ev) : flat (e :: l) = flatEv e ++ flat l := rfl
theorem flat_app (a b : List Ev) : flat (a ++ b) = flat a ++ flat b := by simp [flat]

theorem absorb_means : ∀ ls : List Line,
    flat (ls.flatMap Line.events) = flatEv (.headerValue (absorb ls).1) ++ flat ((absorb ls).2.flatMap Line.events)
  | [] => rfl
  | .fold _ v :: ls => by
    rw [List.flatMap_cons, flat_app, absorb_means ls, absorb]
    simp [Line.events, flat, flatEv]
  | .field n bl v :: ls => by
    rw [List.flatMap_cons, flat_app, absorb_means ls, absorb]
    split_ifs with hn
    · subst hn
      simp [Line.events, flat, flatEv, Verif.lower]
    · simp [Line.events, flat, flatEv, lower_lower]

theorem tidy_means (ls : List Line) : flat ((tidy ls).flatMap Line.events) = flat (ls.flatMap Line.events) := by
  rw [absorb_means ls, tidy, List.flatMap_append, flat_app]
  congr 1
  split_ifs with h
  · rw [h]; rfl
  · simp [Line.events, flat]

theorem fw_value {ls : List Line} (h : ∀ y ∈ ls, y.OK) :
    forwardFrom .value (flat (ls.flatMap Line.events) ++ [.headersFinished]) =
      (absorb ls).1 ++ b!"\r\n" ++ (absorb ls).2.flatMap Line.write ++ b!"\r\n" := by
  have hv : ∀ (v : Bytes) (r : List Ev), forwardFrom .value (flatEv (.headerValue v) ++ r) = v ++ forwardFrom .value r :=
    fun v r => fw_rest (K := .headerValue) (fun _ => rfl) (fun _ => rfl) r v
  induction ls with
  | nil => rfl
  | cons y ls ih =>
    have ih := ih fun y hy => h y (by simp [hy])
    cases y with
    | fold b v =>
      rw [List.flatMap_cons, flat_app, absorb, Line.events, flat_cons, List.append_assoc, List.append_assoc, hv]
      show v ++ forwardFrom .value (flat (ls.flatMap Line.events) ++ [.headersFinished]) = _
      rw [ih]
      simp only [List.append_assoc]
    | field n bl v =>
      obtain ⟨-, -, -, b, w, hw, -⟩ := h _ List.mem_cons_self
      rw [List.flatMap_cons, flat_app, absorb, Line.events, flat_cons, flat_cons, List.append_assoc, List.append_assoc, List.append_assoc]
      show forwardFrom .value (flatEv (.headerName (Verif.lower n)) ++ (flatEv (.headerValue v) ++
        (flat (ls.flatMap Line.events) ++ [.headersFinished]))) = _
      by_cases hn : n = []
      · subst hn
        rw [if_pos rfl]
        show forwardFrom .value (flatEv (.headerValue v) ++ _) = _
        rw [hv, ih]
        simp only [List.append_assoc]
      · rw [if_neg hn, fw_piece, fw_piece]
        · show (b!"\r\n" ++ Verif.lower n) ++ ((b!": " ++ v) ++ forwardFrom .value _) = _
          rw [ih]
          simp [Line.write]
        · subst hw; simp [flatEv]
        · simpa [flatEv, Verif.lower] using hn

theorem fw_other {ls : List Line} (h : ∀ y ∈ ls, y.OK) :
    forwardFrom .other (flat (ls.flatMap Line.events) ++ [.headersFinished]) = (tidy ls).flatMap Line.write ++ b!"\r\n" := by
  induction ls with
  | nil => rfl
  | cons y ls ih =>
    have h' : ∀ y ∈ ls, y.OK := fun y hy => h y (by simp [hy])
    have ih := ih h'
    have hval := fw_value h'
    have hv : ∀ v : Bytes, forwardFrom .other (flatEv (.headerValue v) ++
        (flat (ls.flatMap Line.events) ++ [.headersFinished])) =
        ((if v ++ (absorb ls).1 = [] then [] else [Line.fold (c! ' ') (v ++ (absorb ls).1)]) ++ (absorb ls).2).flatMap
          Line.write ++ b!"\r\n" := by
      intro v
      by_cases hv : v = []
      · subst hv
        exact ih
      · rw [fw_piece _ _ _ (by simpa [flatEv] using hv), if_neg (by simp [hv])]
        show (b!" " ++ v) ++ forwardFrom .value _ = _
        rw [hval]
        simp [Line.write]
    cases y with
    | fold b v =>
      rw [List.flatMap_cons, flat_app, Line.events, flat_cons, List.append_assoc, List.append_assoc, tidy, absorb]
      exact hv v
    | field n bl v =>
      obtain ⟨-, -, -, b, w, hw, -⟩ := h _ List.mem_cons_self
      rw [List.flatMap_cons, flat_app, Line.events, flat_cons, flat_cons, List.append_assoc, List.append_assoc, List.append_assoc, tidy, absorb]
      show forwardFrom .other (flatEv (.headerName (Verif.lower n)) ++ (flatEv (.headerValue v) ++
        (flat (ls.flatMap Line.events) ++ [.headersFinished]))) = _
      by_cases hn : n = []
      · subst hn
        rw [if_pos rfl]
        exact hv v
      · rw [if_neg hn, fw_piece, fw_piece]
        · show Verif.lower n ++ ((b!": " ++ v) ++ forwardFrom .value _) = _
          rw [hval]
          simp [Line.write]
        · subst hw; simp [flatEv]
        · simpa [flatEv, Verif.lower] using hn

/-! ## Heads -/

/-- The start line that is written. -/
def StartLine.tidy : StartLine → StartLine
  | .request m u ma mi => .request m u (shortNumber (decVal ma)) (shortNumber (decVal mi))
  | .response ma mi c re => .response (shortNumber (decVal ma)) (shortNumber (decVal mi)) (threeDigits (decVal c)) re

/-- The head that is written. -/
def Head.tidy (x : Head) : Head := ⟨x.start.tidy, Http1.tidy x.lines⟩

theorem StartLine.tidy_ok {x : StartLine} (h : x.OK) : x.tidy.OK ∧ x.tidy.events = x.events := by
  have hd : ∀ {s : Bytes}, (∃ n, Digits s n) → Digits (shortNumber (decVal s)) (decVal s) :=
    fun ⟨_, h⟩ => shortNumber_digits _ (digits_lt h)
  cases x with
  | request m u ma mi =>
    obtain ⟨h1, h2, h3, h4⟩ := h
    refine ⟨⟨h1, h2, ⟨_, hd h3⟩, ⟨_, hd h4⟩⟩, ?_⟩
    simp only [tidy, events, (hd h3).2.2.2, (hd h4).2.2.2]
  | response ma mi c re =>
    obtain ⟨h1, h2, ⟨-, n, h3⟩, h4⟩ := h
    obtain ⟨h5, h6⟩ := threeDigits_digits _ (digits_lt h3)
    refine ⟨⟨⟨_, hd h1⟩, ⟨_, hd h2⟩, ⟨h5, _, h6⟩, h4⟩, ?_⟩
    simp only [tidy, events, (hd h1).2.2.2, (hd h2).2.2.2, h6.2.2.2]

theorem Head.tidy_ok {x : Head} (h : x.OK) : x.tidy.OK :=
  ⟨(StartLine.tidy_ok h.start).1, Http1.tidy_ok _ h.lines⟩

theorem Head.tidy_means {x : Head} (h : x.OK) : flat x.tidy.events = flat x.events := by
  rw [Head.events, Head.events, flat_app, flat_app, flat_app, flat_app]
  show flat x.start.tidy.events ++ flat ((Http1.tidy x.lines).flatMap Line.events) ++ _ = _
  rw [(StartLine.tidy_ok h.start).2, Http1.tidy_means]

/-- What is written for a head is a head. -/
theorem Head.forward {x : Head} (h : x.OK) : Http1.forward (flat x.events) = x.tidy.write := by
  rw [Head.events, flat_app, flat_app, Http1.forward, List.append_assoc]
  obtain ⟨st, ls⟩ := x
  have hl := fw_other h.lines
  cases st with
  | request m u ma mi =>
    obtain ⟨⟨⟨h1, -⟩, ⟨h2, -⟩, -⟩, -⟩ := h
    simp only [StartLine.events, flat_cons, List.append_assoc]
    rw [fw_piece _ _ _ (by simpa [flatEv] using h1), fw_piece _ _ _ (by simpa [flatEv] using h2), fw_piece _ _ _ (by simp [flatEv]),
      fw_piece _ _ _ (by simp [flatEv])]
    simp only at hl
    show m ++ ((b!" " ++ u) ++ ((b!" " ++ b!"HTTP/" ++ shortNumber _ ++ b!"." ++ shortNumber _) ++ (b!"\r\n" ++
      forwardFrom .other (flat (ls.flatMap Line.events) ++ [.headersFinished])))) = _
    rw [hl]
    simp [Head.write, Head.tidy, StartLine.tidy, StartLine.write]
  | response ma mi c re =>
    obtain ⟨⟨-, -, -, h1, -⟩, -⟩ := h
    simp only [StartLine.events, flat_cons, List.append_assoc]
    rw [fw_piece _ _ _ (by simp [flatEv]), fw_piece _ _ _ (by simp [flatEv]), fw_piece _ _ _ (by simpa [flatEv] using h1), fw_piece _ _ _ (by simp [flatEv])]
    simp only at hl
    show (b!"HTTP/" ++ shortNumber _ ++ b!"." ++ shortNumber _) ++ ((b!" " ++ threeDigits _) ++ ((b!" " ++ re) ++ (b!"\r\n" ++
      forwardFrom .other (flat (ls.flatMap Line.events) ++ [.headersFinished])))) = _
    rw [hl]
    simp [Head.write, Head.tidy, StartLine.tidy, StartLine.write]

end Verif.Http1
