import Verif.Http1.Lengths
import Verif.Http1.MpInv
import Verif.Props.Http1Slicing

/-!
# Multipart bodies

C36 (round trip) and C37 (data is conserved). How bodies are written, and what conservation means, is in
`Verif.Http1.MpSpec`.
-/

namespace Verif.Http1

theorem abs_multipart (q : Parser) (bd : Bytes) : abs ((q.init .multipart).setBoundary bd) = .hyphen1 true := by
  show AS.hyphen1 (((setLower14 _ 1).bitData >>> 4 &&& 0x3FFF) != 0) = _
  exact congrArg (fun v => AS.hyphen1 (v != 0)) (getLower14_setLower14 _ (v := 1) (by decide))

/-- The environment of multipart bodies. -/
abbrev mpEnv (cl : List Ev → Option Nat) (bd : Bytes) : Env := ⟨.multipart, some bd, cl⟩

theorem mpEnv_ok {cl : List Ev → Option Nat} {bd : Bytes} (hb : bd.length < 16384) (hb' : c! '\r' ∉ bd) :
    BdOK (mpEnv cl bd) := by
  intro b hb2; cases hb2; exact ⟨hb, hb'⟩

theorem multipart_sim (h : Handler) (q : Parser) (l : List Ev) (bd : Bytes)
    (hb : bd.length < 16384) (hb' : c! '\r' ∉ bd) (k : Nat) (ks : List Nat) (msg : Bytes) :
    let o := drive h .idle (k :: ks) ⟨(q.init .multipart).setBoundary bd, l⟩ msg
    ∃ cl cl' : List Ev → Option Nat, Tells h l o.world.log cl ∧ (∀ es, cl es = cl' (flat l ++ es)) ∧
      (∀ l, ∃ p, flat p = flat l ∧ cl' (flat l) = h.contentLength p) ∧
      DriveSim (Inv (mpEnv cl' bd) (pred (mpEnv cl' bd) (flat l) (.hyphen1 true) msg))
        (pred (mpEnv cl' bd) (flat l) (.hyphen1 true) msg) o := by
  intro o
  obtain ⟨cl, cl', h1, h2, h3, e⟩ := exists_telling h (k :: ks) ⟨(q.init .multipart).setBoundary bd, l⟩ msg
  refine ⟨cl, cl', h1, h2, fun l => ?_, ?_⟩
  · obtain ⟨p, h4, h5⟩ := h3 (flat l)
    exact ⟨p, h4.trans (flat_flat l), h5⟩
  · show DriveSim _ _ (drive h .idle (k :: ks) _ msg)
    rw [← e]
    have H := start_multipart (q := q) (l := l) (bd := bd) (cl := cl') (s := msg.take k) (fut := msg.drop k)
    rw [List.take_append_drop, startK, abs_multipart] at H
    exact run_sim (mpEnv_ok hb hb') (fun _ _ => rfl) k ks H

/-! ## C36 -/

/-- **C36 (partial).** Every complete run over a multipart body written with a boundary, whatever follows it, ends
with `Finished` directly after the closing boundary, with exactly the callbacks that the parts mean. The handler
tells the length of the data of a part, which may then be any bytes; or it does not know it, and then the delimiter
does not occur in the data. Missing: data without known length that ends with CR, CRLF or CRLF and a hyphen
(`C36_line_end_before_boundary` shows that this fails); boundaries with CR or of 2^14 bytes and more; header
values outside `Header.OK`. -/
theorem C36_multipart_round_trip_partial (h : Handler) (q : Parser) (l : List Ev) (bd : Bytes)
    (hb : bd.length < 16384) (hb' : c! '\r' ∉ bd) (ps : List Part) (hp : PartsOK h.contentLength bd l ps)
    (rest : Bytes) (k : Nat) (ks : List Nat)
    (ho : (drive h .idle (k :: ks) ⟨(q.init .multipart).setBoundary bd, l⟩ (writeParts bd ps ++ rest)).complete) :
    let o := drive h .idle (k :: ks) ⟨(q.init .multipart).setBoundary bd, l⟩ (writeParts bd ps ++ rest)
    o.last = .finished ∧ o.rest = rest ∧ flat o.world.log = flat (l ++ ps.flatMap Part.events ++ [.bodyFinished]) := by
  intro o
  obtain ⟨cl, cl', -, -, hcl, H⟩ := multipart_sim h q l bd hb hb' k ks (writeParts bd ps ++ rest)
  obtain ⟨h1, h2, h3⟩ := complete_fin H ho (pred_body rfl hb' rfl hcl rest ps l hp)
  exact ⟨h1, h3, h2⟩

/-- Complete runs exist for every schedule of non-empty slices that is long enough: `C21_runs_complete`. -/
example (h : Handler) (hc : SameLengths h h) (q : Parser) (l : List Ev) (bd : Bytes) (hb : bd.length < 16384)
    (hb' : c! '\r' ∉ bd) (ps : List Part) (rest : Bytes) : ∃ k ks,
    (drive h .idle (k :: ks) ⟨(q.init .multipart).setBoundary bd, l⟩ (writeParts bd ps ++ rest)).complete := by
  obtain ⟨N, hN⟩ := C21_runs_complete h hc q l bd hb hb' (writeParts bd ps ++ rest)
  exact ⟨1, List.replicate N 1, hN _ _ (by simp +contextual) (by simp)⟩

/-- A handler that learns the length of the data from a header field. -/
def tells : Handler :=
  ⟨fun _ => true, fun l => if flatEv (.headerValue b!"12") <:+: flat l then some 12 else none⟩

/-- A part delimited by the boundary, with bytes that look like a boundary; a part of known length, which contains the
boundary and ends with CR; and another one, without header fields, which contains the closing boundary. -/
def exParts : List Part :=
  [⟨[⟨b!"A", b!" ", b!"b", []⟩], b!"x\r\n--Xy\r\n-\n"⟩, ⟨[⟨b!"Content-Length", b!" ", b!"12", []⟩], b!"\r\n--XyZ\r\n\r\n\r"⟩,
    ⟨[], b!"\r\n--XyZ--mor"⟩]

theorem tells_same : SameLengths tells tells := by
  intro l l' e
  show (if _ <:+: flat l then _ else _) = if _ <:+: flat l' then _ else _
  rw [e]

example : PartsOK tells.contentLength b!"XyZ" [] exParts := by
  have hd : ∀ y ∈ [b!"b", b!"12"], FieldText y := by
    intro y hy
    simp only [List.mem_cons, List.not_mem_nil, or_false] at hy
    rcases hy with rfl | rfl
    · exact .byte (by decide) (by decide) .nil
    · exact .byte (by decide) (by decide) (.byte (by decide) (by decide) .nil)
  have same : ∀ {l : List Ev} {x : Part}, ((∀ n, tells.contentLength l = some n → x.data.length = n) ∧
      (tells.contentLength l = none → Delimited b!"XyZ" x.data)) → ∀ l', flat l' = flat l →
      (∀ n, tells.contentLength l' = some n → x.data.length = n) ∧
        (tells.contentLength l' = none → Delimited b!"XyZ" x.data) := by
    intro l x h l' e
    rw [tells_same l' l e]
    exact h
  refine ⟨?_, same ⟨by decide +kernel, fun _ => ⟨by decide, by decide, by decide, by decide⟩⟩, ?_,
    same ⟨by decide +kernel, fun h => absurd h (by decide +kernel)⟩, by simp,
    same ⟨by decide +kernel, fun h => absurd h (by decide +kernel)⟩, trivial⟩
  · intro y hy
    simp only [List.mem_singleton] at hy
    subst hy
    exact ⟨by decide, by decide, hd _ (by simp), ⟨_, _, rfl, by decide⟩, by simp⟩
  · intro y hy
    simp only [List.mem_singleton] at hy
    subst hy
    exact ⟨by decide, by decide, hd _ (by simp), ⟨_, _, rfl, by decide⟩, by simp⟩

example : writeParts b!"XyZ" exParts = b!"--XyZ\r\nA: b\r\n\r\nx\r\n--Xy\r\n-\n\r\n--XyZ\r\n" ++
      b!"Content-Length: 12\r\n\r\n\r\n--XyZ\r\n\r\n\r\r\n--XyZ\r\n\r\n\r\n--XyZ--mor\r\n--XyZ--" ∧
    flat (drive tells .idle [1000] ⟨(Parser.new.init .multipart).setBoundary b!"XyZ", []⟩
      (writeParts b!"XyZ" exParts ++ b!"rest")).world.log = flat (exParts.flatMap Part.events ++ [.bodyFinished]) := by
  decide +kernel

/-- The quirk: CR at the end of the data hides the boundary from the parser, which reads on. -/
theorem C36_line_end_before_boundary :
    let ps : List Part := [⟨[], b!"data\r"⟩, ⟨[], b!"more"⟩]
    let o := drive goOn .idle [1000] ⟨(Parser.new.init .multipart).setBoundary b!"XyZ", []⟩ (writeParts b!"XyZ" ps)
    ¬ delimiter b!"XyZ" <:+: b!"data\r" ∧ o.complete ∧ o.last = .finished ∧
    o.world.log.filter (· == .multipartBegin) = [.multipartBegin] ∧
    flat o.world.log ≠ flat (ps.flatMap Part.events ++ [.bodyFinished]) := by decide +kernel

/-! ## C37 -/

/-- **C37 (partial).** Missing: boundaries with CR or of 2^14 bytes or more; for these it is neither proved nor
refuted. In every run over any bytes, the data passed to the handler is conserved: what the handler got
is a beginning of what it should get for some part `x` of the body; and when a run is complete, it is exactly what
it should get for all bytes (`Eos`), for the bytes before the rest (`Finished`), or for the bytes before the
offending one (an error; the data of a last callback `d` may be missing). In a boundary, the parser need not have
read up to the offending byte. `Conserved` says what the handler should
get, given the content lengths `cl` that it told. -/
theorem C37_data_conserved_partial (h : Handler) (q : Parser) (l : List Ev) (bd : Bytes)
    (hb : bd.length < 16384) (hb' : c! '\r' ∉ bd) (msg : Bytes) (k : Nat) (ks : List Nat) :
    let o := drive h .idle (k :: ks) ⟨(q.init .multipart).setBoundary bd, l⟩ msg
    ∃ cl, Tells h l o.world.log cl ∧
    let C := Conserved cl bd
    (∃ x es, x <+: msg ∧ C x es ∧ flat o.world.log <+: flat l ++ es) ∧
    (o.last = .eos → o.complete → ∃ es, flat o.world.log = flat l ++ es ∧ C msg es) ∧
    (o.last = .finished → ∃ x es, msg = x ++ o.rest ∧ flat o.world.log = flat l ++ es ++ [.bodyFinished] ∧
      C x (es ++ [.bodyFinished])) ∧
    (∀ e, o.last = .err e → (∃ x es b d, msg = x ++ b :: o.rest ∧ isData d = true ∧
      flat o.world.log ++ flatEv d = flat l ++ es ∧ C x es) ∨
      ((∃ b, e = .multipartBoundary b) ∧ ∃ x es b z, msg = x ++ b :: z ∧ z <:+ o.rest ∧ flat o.world.log = flat l ++ es ∧
        C x es)) := by
  intro o
  obtain ⟨cl, cl', hT, hcl, -, H⟩ := multipart_sim h q l bd hb hb' k ks msg
  refine ⟨cl, hT, ?_⟩
  intro C
  obtain rfl : cl = fun es => cl' (flat l ++ es) := funext hcl
  obtain ⟨x, es, h1, h2, h3⟩ := mp_run (env := mpEnv cl' bd) (bd := bd) rfl rfl (flat l) msg
  revert H h1 h3
  generalize pred (mpEnv cl' bd) (flat l) (.hyphen1 true) msg = K
  intro H h1 h3
  have hx : x <+: msg := by
    revert h3
    cases K.2 <;> simp only
    · rintro rfl; exact List.prefix_rfl
    · rintro ⟨rfl, -⟩; exact List.prefix_append _ _
    · rintro ⟨b, rfl⟩; exact List.prefix_append _ _
    · rintro ⟨b, rfl⟩; exact List.prefix_append _ _
    · exact id
  refine ⟨⟨x, es, hx, h2, h1 ▸ H.prefix⟩, ?_, ?_, ?_⟩
  · intro e1 e2
    change DriveSim _ _ o at H
    obtain ⟨la, wo, re⟩ := o
    cases e1
    simp only [DriveSim] at H
    have e3 := H.2 e2
    subst e3
    exact ⟨es, h1, h3 ▸ h2⟩
  · intro e1
    change DriveSim _ _ o at H
    obtain ⟨la, wo, re⟩ := o
    cases e1
    simp only [DriveSim] at H
    subst H
    obtain ⟨h3, es', rfl⟩ := h3
    exact ⟨x, es', h3, by simpa using h1, h2⟩
  · intro e e1
    change DriveSim _ _ o at H
    obtain ⟨la, wo, re⟩ := o
    cases e1
    simp only [DriveSim] at H
    rcases H with ⟨d, hd, rfl⟩ | ⟨⟨r, hr, rfl⟩, H⟩
    · obtain ⟨b, h3⟩ := h3
      exact .inl ⟨x, es, b, d, h3, hd, h1, h2⟩
    · obtain ⟨b, h3⟩ := h3
      exact .inr ⟨H, x, es, b, r, h3, hr, h1, h2⟩

/-- The data of a part, cut in pieces, when the input ends within a possible delimiter. -/
example :
    let msg := b!"--XyZ\r\nA: b\r\n\r\nda\r\n--Xta\r\n--Xy"
    let o := drive goOn .idle [20, 5, 100] ⟨(Parser.new.init .multipart).setBoundary b!"XyZ", []⟩ msg
    o.last = .eos ∧ o.complete ∧ o.world.log = [.multipartBegin, .headerName b!"a", .headerValue b!"b", .headersFinished,
      .multipartData b!"da", .multipartData b!"\r\n--", .multipartData b!"Xta"] := by decide +kernel

/-- What conservation says about it: with the head up to the empty line fixed, only this data is possible. -/
example : Conserved (fun _ => none) b!"XyZ" b!"--XyZ\r\nA: b\r\n\r\nda\r\n--Xta\r\n--Xy"
    (flat [.multipartBegin, .headerName b!"a", .headerValue b!"b", .headersFinished, .multipartData b!"da\r\n--Xta"]) :=
  .data (x := b!"--XyZ") (l := []) (hx := b!"\r\nA: b\r\n\r\n") (he := [.headerName b!"a", .headerValue b!"b"])
    (d := b!"da\r\n--Xta") (t := b!"\r\n--Xy") .first ⟨b!"\r\nA: b\r\n\r", rfl, by decide, by decide, by decide⟩
    (by simp [HeaderEv]) nofun (by decide)

end Verif.Http1
