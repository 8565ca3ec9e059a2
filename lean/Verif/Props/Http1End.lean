import Verif.Http1.End
import Verif.Props.Http1ShortHeads
import Verif.Props.Http1Earliest

/-!
# A head ends at its first empty line

C101. `afterEmptyLine` and `crlfOnly` are defined in `Verif.Http1.EndSpec`, `Begins` in `Verif.Http1.DetectSpec` (a parser at
the start of a head; a parser made with `new` that gets a blank or no bytes at first is left out, it fails at once).
-/

namespace Verif.Http1

/-! ## Helper lemmas -/

theorem lead_iff {b : UInt8} : lead b = true ↔ b ∈ b!" \t\r\n" := by unfold lead; exact decide_eq_true_iff

theorem dropWhile_lead {bl m : Bytes} (h : ∀ b ∈ bl, b ∈ b!" \t\r\n") : (bl ++ m).dropWhile lead = m.dropWhile lead := by
  induction bl with
  | nil => rfl
  | cons b bl ih =>
    rw [List.cons_append, List.dropWhile_cons, if_pos (lead_iff.2 (h b (by simp)))]
    exact ih fun c hc => h c (by simp [hc])

theorem dropWhile_more (z : Bytes) : ∀ m : Bytes, m.dropWhile lead = [] ∨ (m ++ z).dropWhile lead = m.dropWhile lead ++ z
  | [] => .inl rfl
  | b :: m => by
    rw [List.cons_append, List.dropWhile_cons, List.dropWhile_cons]
    by_cases h : lead b = true
    · rw [if_pos h, if_pos h]; exact dropWhile_more z m
    · rw [if_neg h, if_neg h]; exact .inr rfl

theorem dropWhile_nil : ∀ {m : Bytes}, m.dropWhile lead = [] → ∀ c ∈ m, lead c = true
  | b :: m, h, c, hc => by
    rw [List.dropWhile_cons] at h
    by_cases hb : lead b = true
    · rw [if_pos hb] at h
      rcases List.mem_cons.1 hc with rfl | hc
      · exact hb
      · exact dropWhile_nil h c hc
    · rw [if_neg hb] at h; cases h

/-- A head after blanks. -/
theorem fin_head {tr : List Ev} {msg r : Bytes} (h : (pred headEnv tr .stripDetect msg).2 = .finished r) :
    ∃ x : Head, x.OK ∧ msg.dropWhile lead = x.write ++ r := by
  have h' : pred headEnv tr .stripDetect msg = ((pred headEnv tr .stripDetect msg).1, .finished r) := by rw [← h]
  obtain ⟨bl, m, h1, h2, h3⟩ := strip_inv (env := headEnv) msg tr h'
  obtain ⟨x, h4, h5, -⟩ := h3.head rfl
  refine ⟨x, h4, ?_⟩
  obtain ⟨b, t, h6, h7⟩ := Head.starts h4
  rw [h2, h5, dropWhile_lead h1, h6, List.cons_append, List.dropWhile_cons, if_neg (by rw [h7]; nofun)]

/-- Bytes after which the parser wants more have no empty line. -/
theorem eos_none {tr : List Ev} {msg : Bytes} (h : (pred headEnv tr .stripDetect msg).2 = .eos) :
    afterEmptyLine (msg.dropWhile lead) = none := by
  obtain ⟨z, L, hz⟩ := pred_viable (env := headEnv) (by decide) msg tr .stripDetect rfl h
  have hne : z ≠ [] := by
    rintro rfl
    rw [List.append_nil] at hz
    rw [hz] at h; cases h
  obtain ⟨x, h1, h2⟩ := fin_head (congrArg Prod.snd hz)
  rcases dropWhile_more z msg with h3 | h3
  · rw [h3]; rfl
  · rw [h3] at h2
    cases he : afterEmptyLine (msg.dropWhile lead) with
    | none => rfl
    | some r =>
      have := after_more z _ _ he
      rw [h2, Head.after h1] at this
      have := congrArg List.length (Option.some.inj this)
      simp only [List.length_nil, List.length_append] at this
      cases z with
      | nil => exact absurd rfl hne
      | cons b z => simp only [List.length_cons] at this; omega

/-- Where the empty line is, when there is none in a beginning. -/
theorem skip_beyond {y w r : Bytes} {b : UInt8} (h1 : afterEmptyLine (y.dropWhile lead) = none)
    (h2 : afterEmptyLine ((y ++ b :: w).dropWhile lead) = some r) : r.length ≤ w.length := by
  rcases dropWhile_more (b :: w) y with h3 | h3
  · have h4 : (y ++ b :: w).dropWhile lead = (b :: w).dropWhile lead := by
      refine dropWhile_lead fun c hc => lead_iff.1 ?_
      exact dropWhile_nil h3 c hc
    rw [h4] at h2
    have := after_lt h2
    have := (List.dropWhile_suffix (l := b :: w) lead).length_le
    simp only [List.length_cons] at this
    omega
  · rw [h3] at h2
    exact after_beyond _ _ _ _ h1 h2

/-- How the reference machine ends. -/
theorem begins_end (h : Handler) {p : Parser} {l : List Ev} {msg : Bytes} {ks : List Nat} (hp : Begins p msg ks)
    (hc : (drive h .idle ks ⟨p, l⟩ msg).complete) :
    let o := drive h .idle ks ⟨p, l⟩ msg
    (o.last = .eos → (pred headEnv (flat l) .stripDetect msg).2 = .eos) ∧
    (∀ e, o.last = .err e → (pred headEnv (flat l) .stripDetect msg).2 = .err e o.rest ∨
      ∃ bl w, (∀ b ∈ bl, b ∈ b!" \t\r\n") ∧ w <+: b!"HTTP" ∧ msg = bl ++ w ++ c! ' ' :: o.rest) := by
  intro o
  have k := begins_exact h hp hc
  have hEos : ∀ {K}, DriveSim (fun _ _ => True) K o → o.last = .eos → K.2 = .eos := by
    intro K H he
    unfold DriveSim at H
    unfold Outcome.complete at hc
    rw [show (drive h .idle ks ⟨p, l⟩ msg).last = .eos from he] at hc
    rw [he] at H
    exact congrArg Prod.snd (H.2 hc)
  by_cases hs : Short msg ks
  · have H := k.1 hs
    obtain ⟨bl, w, b, r, h1, h2, h3, h4, h5⟩ := short_pred hs.1 (flat l)
    by_cases hb : b = c! ' '
    · rw [h4 hb] at H
      refine ⟨fun he => absurd (hEos H he) nofun, fun e he => .inr ⟨bl, w, h2, h3.like, ?_⟩⟩
      rcases H.error he with ⟨L, hL⟩ | ⟨_, -, hL⟩
      · have := congrArg Prod.snd hL
        simp only [Fin.err.injEq] at this
        rw [h1, hb, this.2]
      · cases hL
    · obtain ⟨t, f, h6, h7, h8⟩ := h5 hb
      rw [h8] at H
      rw [h7]
      refine ⟨fun he => (hEos H he : f = .eos), fun e he => .inl ?_⟩
      rcases H.error he with ⟨L, hL⟩ | ⟨r, -, hL⟩
      · exact congrArg Prod.snd hL
      · exact absurd hL (h6 r)
  · have H := k.2 hs
    refine ⟨fun he => hEos H he, fun e he => .inl ?_⟩
    rcases H.error he with ⟨L, hL⟩ | ⟨_, -, hL⟩
    · exact congrArg Prod.snd hL
    · exact absurd hL (plain_not_errB (by decide) _ _ _ rfl _)

/-! ## C101 -/

/-- **C101.** Leading blanks aside: an accepted head ends at the first empty line; when the parser wants more bytes, there was
no empty line; and when it rejects a head, it does so without having read beyond the first empty line. In every
slicing, for every handler. -/
theorem C101_first_empty_line (h : Handler) (p : Parser) (l : List Ev) (msg : Bytes) (ks : List Nat) (hp : Begins p msg ks)
    (hc : (drive h .idle ks ⟨p, l⟩ msg).complete) :
    let o := drive h .idle ks ⟨p, l⟩ msg
    let after := afterEmptyLine (msg.dropWhile lead)
    (o.last = .finished → after = some o.rest) ∧ (o.last = .eos → after = none) ∧
    (∀ e r, o.last = .err e → after = some r → r.length ≤ o.rest.length) := by
  intro o after
  obtain ⟨h1, h2⟩ := begins_end h hp hc
  refine ⟨fun hf => ?_, fun he => eos_none (h1 he), fun e r he ha => ?_⟩
  · obtain ⟨x, h3, h4⟩ := fin_head (begins_fin h hp hf)
    exact (congrArg afterEmptyLine h4).trans (Head.after h3 _)
  · rcases h2 e he with h3 | ⟨bl, w, h3, h4, h5⟩
    · obtain ⟨y, b, h4, -, h5, -⟩ := pred_blame (env := headEnv) (by decide) msg (flat l) .stripDetect
        (pred headEnv (flat l) .stripDetect msg).1 e _ rfl (by rw [← h3])
      refine skip_beyond (y := y) (b := b) (eos_none h5) ?_
      rw [← h4]; exact ha
    · refine skip_beyond (y := bl ++ w) (b := c! ' ') ?_ (by rw [← h5]; exact ha)
      rw [dropWhile_lead h3]
      have hw : Unbroken (w.dropWhile lead) := by
        intro b hb
        have := h4.subset ((List.dropWhile_suffix lead).subset hb)
        clear hb; revert b; decide
      rw [← List.append_nil (w.dropWhile lead), after_line _ hw]
      rfl

/-- **C101**, line ends: within an accepted head CR and LF only occur as line ends CR LF, so that it does not matter whether
somebody else takes a bare CR or LF for a line end. -/
theorem C101_line_ends (h : Handler) (p : Parser) (l : List Ev) (msg : Bytes) (ks : List Nat) (hp : Begins p msg ks)
    (hf : (drive h .idle ks ⟨p, l⟩ msg).last = .finished) :
    ∃ m, msg.dropWhile lead = m ++ (drive h .idle ks ⟨p, l⟩ msg).rest ∧ crlfOnly m = true := by
  obtain ⟨x, h3, h4⟩ := fin_head (begins_fin h hp hf)
  exact ⟨_, h4, Head.only h3⟩

/-- A head with another one after it; a head that is cut off within its empty line; and one with a bare LF, which is rejected
there. -/
example : let m := b!"\r\nGET / HTTP/1.1\r\nA: b\r\n\r\nGET /x HTTP/1.1\r\n\r\n"
    let p := (Parser.new).init .head
    let o := fun m => drive pauses .idle (List.replicate 200 3) ⟨p, []⟩ m
    Begins p m (List.replicate 200 3) ∧ (o m).last = .finished ∧ (o m).rest = b!"GET /x HTTP/1.1\r\n\r\n" ∧
    afterEmptyLine (m.dropWhile lead) = some b!"GET /x HTTP/1.1\r\n\r\n" ∧
    (o (m.take 25)).last = .eos ∧ (o (m.take 25)).complete ∧ afterEmptyLine ((m.take 25).dropWhile lead) = none ∧
    (o b!"GET / HTTP/1.1\r\nA: b\nC: d\r\n\r\n").last = .err (.headerValue 10) := by
  refine ⟨.inl ⟨_, rfl⟩, by decide +kernel, by decide +kernel, by decide +kernel, by decide +kernel, ?_, by decide +kernel,
    by decide +kernel⟩
  decide +kernel

end Verif.Http1
