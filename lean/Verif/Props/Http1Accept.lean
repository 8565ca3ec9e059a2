import Verif.Http1.RunsLoose
import Verif.Props.Http1RoundTrip

/-!
# Only heads are accepted

C50 (what is accepted is a head and means what was reported), C51 (a head that is cut off is neither
finished nor rejected). The grammar of what is accepted is in `Verif.Http1.LooseSpec`.
-/

namespace Verif.Http1

theorem pred_head {x : Head} (h : x.OK) (tr : List Ev) (r : Bytes) :
    pred headEnv tr .detect1 (x.write ++ r) = (tr ++ flat x.events, .finished r) := by
  obtain ⟨st, ls⟩ := x
  obtain ⟨h0, hl⟩ := h
  have hb := runs_lines_end (env := headEnv) ls hl
  cases st with
  | request m u ma mi =>
    obtain ⟨⟨hn, hm⟩, hu, ⟨n, hma⟩, n', hmi⟩ := h0
    obtain ⟨b, m, rfl⟩ := List.exists_cons_of_ne_nil hn
    have e1 : decVal ma = n := hma.2.2.2
    have e2 : decVal mi = n' := hmi.2.2.2
    have H := ((((runs_url hu).trans (runs_version hma hmi false)).trans runs_initial).trans hb).finish
      (es' := [.headersFinished]) (fun _ => rfl)
    have e : Head.write ⟨.request (b :: m) u ma mi, ls⟩ ++ r = (b :: m) ++ c! ' ' :: (u ++ b!" HTTP/" ++
        (ma ++ b!"." ++ mi ++ [stopByte false]) ++ b!"\n" ++ (ls.flatMap Line.write ++ b!"\r\n") ++ r) := by
      simp [Head.write, StartLine.write, stopByte]
    rw [e, pred_detect1_word b m tr _ (fun a ha => upper_of (hm a ha))
      (.inr ⟨by simp; omega, not_http fun a ha => hm a (by simp [ha])⟩), H]
    simp [Head.events, StartLine.events, flat, flatEv, e1, e2]
  | response ma mi c re =>
    obtain ⟨⟨n, hma⟩, ⟨n', hmi⟩, ⟨hcl, n2, hc⟩, hre⟩ := h0
    have e1 : decVal ma = n := hma.2.2.2
    have e2 : decVal mi = n' := hmi.2.2.2
    have e3 : decVal c = n2 := hc.2.2.2
    have h0 : Runs headEnv .detect1 b!"HTTP/" [] (.maj1 true) := by
      intro tr r
      simp [pred, norm, bstep, bDetect1, bDet]
    have H := (((((h0.trans (runs_version hma hmi true)).trans (runs_code hc hcl)).trans (runs_reason hre)).trans
      runs_initial).trans hb).finish (es' := [.headersFinished]) (fun _ => rfl) tr r
    have e : Head.write ⟨.response ma mi c re, ls⟩ ++ r = b!"HTTP/" ++ (ma ++ b!"." ++ mi ++ [stopByte true]) ++
        (c ++ b!" ") ++ (re ++ b!"\r") ++ b!"\n" ++ (ls.flatMap Line.write ++ b!"\r\n") ++ r := by
      simp [Head.write, StartLine.write, stopByte]
    rw [e, H]
    simp [Head.events, StartLine.events, flat, flatEv, e1, e2, e3]

theorem blank_iff {b : UInt8} : isBlank b = true ↔ b ∈ b!" \t\r\n" := by
  have key : ∀ b : UInt8, isBlank b = true ↔ b ∈ b!" \t\r\n" := by
    apply Util.forall_u8
    decide +kernel
  exact key b

theorem new_ne_init (q : Parser) : Parser.new ≠ q.init .head := by
  intro h
  have : (Parser.new).fn = St.stripDetect := congrArg Parser.fn h
  exact absurd this (by decide)

/-- What a parser that is ready predicts, in terms of blanks and a head. -/
theorem Ready.blanks {p : Parser} {msg : Bytes} {k : Nat} (h : Ready p msg k) (l : List Ev) {bl m : Bytes}
    (hb : ∀ b ∈ bl, b ∈ b!" \t\r\n") (hn : p = .new → bl = []) (hm : msg = bl ++ m)
    (hf : ∀ b t, m = b :: t → isBlank b = false) (hne : m ≠ []) :
    startK headEnv ⟨p, l⟩ msg = pred headEnv (flat l) .detect1 m := by
  subst hm
  rcases h with ⟨⟨q, rfl⟩, h⟩ | ⟨rfl, h⟩
  · show pred headEnv (flat l) .stripDetect _ = _
    rw [pred_loop (env := headEnv) (s := .stripDetect) (ev := fun _ => []) (fun _ => rfl) nofun bl (flat l) m
      (fun b hb' => by simp [bstep, blank_iff.2 (hb b hb')]), show bl.flatMap (fun _ => ([] : List Ev)) = [] by simp,
      List.append_nil]
    obtain ⟨b, t, rfl⟩ := List.exists_cons_of_ne_nil hne
    exact strip_eq (hf b t rfl)
  · rw [hn rfl]; rfl

theorem Head.first {x : Head} (h : x.OK) : ∃ b t, x.write = b :: t ∧ isBlank b = false := by
  obtain ⟨st, ls⟩ := x
  obtain ⟨h0, hl⟩ := h
  cases st with
  | request m u ma mi =>
    obtain ⟨⟨hn, hm⟩, -⟩ := h0
    obtain ⟨b, m, rfl⟩ := List.exists_cons_of_ne_nil hn
    exact ⟨b, _, by simp [Head.write, StartLine.write]; rfl, upper_not_blank (hm b (by simp))⟩
  | response ma mi c re => exact ⟨c! 'H', _, by simp [Head.write, StartLine.write]; rfl, by decide⟩

theorem strip_inv {env : Env} {L : List Ev} {r : Bytes} : ∀ (m : Bytes) (tr : List Ev),
    Acc env L r tr .stripDetect m →
    ∃ bl m', (∀ b ∈ bl, b ∈ b!" \t\r\n") ∧ m = bl ++ m' ∧ Acc env L r tr .detect1 m'
  | [], tr, h => by simp [Acc, pred, norm] at h
  | b :: m, tr, h => by
    by_cases hb : isBlank b = true
    · have h1 : Acc env L r tr .stripDetect m := by
        simp only [Acc, pred, norm, bstep, hb] at h ⊢
        simpa using h
      obtain ⟨bl, m', h2, rfl, h3⟩ := strip_inv m tr h1
      refine ⟨b :: bl, m', ?_, rfl, h3⟩
      intro x hx
      rcases List.mem_cons.1 hx with rfl | hx
      · exact blank_iff.1 hb
      · exact h2 x hx
    · refine ⟨[], b :: m, by simp, rfl, ?_⟩
      unfold Acc at h ⊢
      rw [← h, strip_eq (by simpa using hb)]

theorem DriveSim.fin {I : World → Bytes → Prop} {K : List Ev × Fin} {o : Outcome} (H : DriveSim I K o)
    (hc : o.last = .finished) : K = (flat o.world.log, .finished o.rest) := by
  unfold DriveSim at H
  rw [hc] at H
  exact H

/-! ## C50 -/

/-- **C50 (partial).** When a run over a head ends with `Finished`, the bytes that were read are blanks
and a head of the grammar, and the callbacks are what this head means. Missing: the grammar has two
forms that are not HTTP, header fields with an empty name and folded lines before the first header
field, see `C50_fails`; and methods that start with `H` when fewer than nine bytes are passed first (part
of `Ready`, see C18). -/
theorem C50_only_heads_accepted_partial (h : Handler) (p : Parser) (l : List Ev) (msg : Bytes)
    (k : Nat) (ks : List Nat) (hr : Ready p msg k)
    (hc : (drive h .idle (k :: ks) ⟨p, l⟩ msg).last = .finished) :
    let o := drive h .idle (k :: ks) ⟨p, l⟩ msg
    ∃ (bl : Bytes) (x : Head), (∀ b ∈ bl, b ∈ b!" \t\r\n") ∧ (p = .new → bl = []) ∧ x.OK ∧
      msg = bl ++ x.write ++ o.rest ∧ flat o.world.log = flat (l ++ x.events) := by
  intro o
  have hK := (run_sim bdOK_none (clOK_of (by decide)) (h := h) k ks (hr.start l)).fin hc
  rcases hr with ⟨⟨q, rfl⟩, hd⟩ | ⟨rfl, hd⟩
  · obtain ⟨bl, m, h1, h2, h3⟩ := strip_inv (env := headEnv) msg (flat l) hK
    obtain ⟨x, h4, h5, h6⟩ := h3.head rfl
    exact ⟨bl, x, h1, fun e => absurd e.symm (new_ne_init q), h4, by rw [h2, h5, List.append_assoc],
      by rw [h6]; simp [flat]⟩
  · obtain ⟨x, h4, h5, h6⟩ := Acc.head (env := headEnv) rfl (m := msg) (tr := flat l) hK
    exact ⟨[], x, by simp, fun _ => rfl, h4, h5, by rw [h6]; simp [flat]⟩

/-- Every head of the grammar is accepted: the grammar is exact. -/
theorem C50_all_heads_accepted (h : Handler) (p : Parser) (l : List Ev) (bl : Bytes) (x : Head) (rest : Bytes)
    (hb : ∀ b ∈ bl, b ∈ b!" \t\r\n") (hn : p = .new → bl = []) (hx : x.OK)
    (k : Nat) (ks : List Nat) (hr : Ready p (bl ++ x.write ++ rest) k)
    (hc : (drive h .idle (k :: ks) ⟨p, l⟩ (bl ++ x.write ++ rest)).complete) :
    let o := drive h .idle (k :: ks) ⟨p, l⟩ (bl ++ x.write ++ rest)
    o.last = .finished ∧ o.rest = rest ∧ flat o.world.log = flat (l ++ x.events) := by
  intro o
  have H := run_sim bdOK_none (clOK_of (by decide)) (h := h) k ks (hr.start l)
  obtain ⟨b, t, e, hb'⟩ := Head.first hx
  have hK := (hr.blanks l (m := x.write ++ rest) hb hn (by simp)
    (by rw [e]; rintro _ _ ⟨⟩; exact hb') (by rw [e]; simp)).trans (pred_head hx (flat l) rest)
  obtain ⟨h1, h2, h3⟩ := complete_fin H hc hK
  exact ⟨h1, h3, by rw [h2]; simp [flat]⟩

/-- A request with a folded line. -/
def exHead1 : Head :=
  ⟨.request b!"GET" b!"/" b!"1" b!"1", [.field b!"A" b!" " b!"b", .fold (c! ' ') b!"c"]⟩

theorem exHead1_ok : exHead1.OK where
  start := ⟨by decide, by decide, ⟨1, by unfold Digits; decide⟩, 1, by unfold Digits; decide⟩
  lines := by
    intro y hy
    simp only [exHead1, List.mem_cons, List.not_mem_nil, or_false] at hy
    rcases hy with rfl | rfl
    · exact ⟨by decide, by decide, .byte (by decide) (by decide) .nil, _, _, rfl, by decide⟩
    · exact ⟨by decide, .byte (by decide) (by decide) .nil⟩

example : exHead1.write = b!"GET / HTTP/1.1\r\nA: b\r\n c\r\n\r\n" ∧
    exHead1.events = [.method b!"GET", .url b!"/", .version 1 1, .initialFinished, .headerName b!"a",
      .headerValue b!"b", .headerValue b!"c", .headersFinished] ∧
    (drive goOn .idle [4, 9, 100] ⟨.new, []⟩ (exHead1.write ++ b!"body")).last = .finished ∧
    (drive pauses .idle (4 :: List.replicate 60 9) ⟨Parser.new.init .head, []⟩
      (b!"\r\n" ++ exHead1.write ++ b!"body")).last = .finished := by decide +kernel

example : Ready .new (exHead1.write ++ b!"body") 4 := .inr ⟨rfl, by decide +kernel, .inr (.inl (by decide +kernel))⟩

example : Ready (Parser.new.init .head) (b!"\r\n" ++ exHead1.write ++ b!"body") 4 :=
  .inl ⟨⟨_, rfl⟩, .inr (.inl (by decide +kernel))⟩

/-- The full C50 fails: a header field with an empty name is accepted, and so is a folded line that
continues nothing. -/
theorem C50_fails :
    (drive goOn .idle [100] ⟨.new, []⟩ b!"GET / HTTP/1.1\r\n: x\r\n\r\n").last = .finished ∧
    (drive goOn .idle [100] ⟨.new, []⟩ b!"GET / HTTP/1.1\r\n x\r\n\r\n").last = .finished := by decide +kernel

/-! ## C51 -/

/-- **C51 (partial).** A head that is cut off before its last byte is neither finished nor rejected: every
complete run ends with `Eos`, and the callbacks are a beginning of what the whole head means. Missing:
methods that start with `H` when fewer than nine bytes are passed first (part of `Ready`, see C18), and
the heads that C25 and C26 miss. -/
theorem C51_cut_off_heads_partial (h : Handler) (p : Parser) (l : List Ev) (bl : Bytes) (x : Head) (y z : Bytes)
    (hb : ∀ b ∈ bl, b ∈ b!" \t\r\n") (hn : p = .new → bl = []) (hx : x.OK) (hy : x.write = y ++ z) (hz : z ≠ [])
    (k : Nat) (ks : List Nat) (hr : Ready p (bl ++ y) k)
    (hc : (drive h .idle (k :: ks) ⟨p, l⟩ (bl ++ y)).complete) :
    let o := drive h .idle (k :: ks) ⟨p, l⟩ (bl ++ y)
    o.last = .eos ∧ flat o.world.log <+: flat (l ++ x.events) := by
  intro o
  have H := run_sim bdOK_none (clOK_of (by decide)) (h := h) k ks (hr.start l)
  have hp := pred_head hx (flat l) []
  rw [List.append_nil, hy] at hp
  obtain ⟨L', h1, h2⟩ := pred_cutoff hz hp
  have hK : startK headEnv ⟨p, l⟩ (bl ++ y) = (L', .eos) := by
    cases y with
    | nil =>
      have e : L' = flat l := by simpa [pred, norm] using (congrArg Prod.fst h1).symm
      subst e
      rcases hr with ⟨⟨q, rfl⟩, hd⟩ | ⟨rfl, hd⟩
      · show pred headEnv (flat l) .stripDetect _ = _
        rw [pred_loop (env := headEnv) (s := .stripDetect) (ev := fun _ => []) (fun _ => rfl) nofun bl (flat l) []
          (fun b hb' => by simp [bstep, blank_iff.2 (hb b hb')]),
          show bl.flatMap (fun _ => ([] : List Ev)) = [] by simp, List.append_nil]
        simp [pred, norm]
      · rw [hn rfl]; exact h1
    | cons b y =>
      obtain ⟨b', t, e, hb'⟩ := Head.first hx
      rw [hy] at e
      simp only [List.cons_append, List.cons.injEq] at e
      refine (hr.blanks l (m := b :: y) hb hn rfl ?_ (by simp)).trans h1
      rintro _ _ ⟨⟩
      rw [e.1]; exact hb'
  obtain ⟨h3, h4, -⟩ := complete_eos H hc hK
  exact ⟨h3, by rw [h4]; simpa [flat] using h2⟩

/-- A request cut off in its first header field. -/
example : exHead1.write = b!"GET / HTTP/1.1\r\nA" ++ b!": b\r\n c\r\n\r\n" ∧
    (drive pauses .idle (List.replicate 20 3) ⟨.new, []⟩ b!"GET / HTTP/1.1\r\nA").complete ∧
    (drive pauses .idle (List.replicate 20 3) ⟨.new, []⟩ b!"GET / HTTP/1.1\r\nA").last = .eos := by decide +kernel

example : Ready .new b!"GET / HTTP/1.1\r\nA" 3 := .inr ⟨rfl, by decide +kernel, .inr (.inl (by decide +kernel))⟩

end Verif.Http1
