import Verif.Http1.Runs
import Mathlib.Data.List.Induction
import Verif.Http1.MpSpec

/-!
# Runs of the reference machine over multipart bodies (helper lemmas)
-/

set_option linter.unusedSimpArgs false
set_option linter.unusedVariables false

namespace Verif.Http1

variable {env : Env} {fut : Bytes} {K : List Ev × Fin} {h : Handler} {c : Cfg}

/-- Data, byte by byte. -/
def md (d : Bytes) : List Ev := flatEv (.multipartData d)

theorem md_append (d e : Bytes) : md (d ++ e) = md d ++ md e := by simp [md, flatEv]

/-- What was read of a possible delimiter. -/
inductive ScanAt (bd : Bytes) : AS → Bytes → Prop
  | byte : ScanAt bd .mpByte []
  | cr : ScanAt bd .mpByteLf b!"\r"
  | crlf : ScanAt bd (.hyphen1 false) b!"\r\n"
  | hyphen : ScanAt bd (.hyphen2 false) b!"\r\n-"
  | bound {i : Nat} : i < bd.length → ScanAt bd (.bound false i) (b!"\r\n--" ++ bd.take i)

theorem norm_bound {bd : Bytes} (hb : env.boundary = some bd) {e : Bool} {i : Nat} (hi : i < bd.length) (tr : List Ev) :
    norm env tr (.bound e i) = ([], .bound e i) := by
  simp [norm, hb, Nat.not_le.2 hi]

theorem norm_bound_end {bd : Bytes} (hb : env.boundary = some bd) {e : Bool} (tr : List Ev) :
    norm env tr (.bound e bd.length) = ([], .boundCr) := by
  simp [norm, hb]

theorem take_snoc {bd : Bytes} {i : Nat} {b : UInt8} (h : bd[i]? = some b) : bd.take (i + 1) = bd.take i ++ [b] := by
  rw [List.take_add_one, h]; rfl

theorem scan_step {bd : Bytes} (hb : env.boundary = some bd) {d e t : Bytes} {s : AS} {b : UInt8}
    (hf : ¬ delimiter bd <:+: d ++ [b]) (h1 : Runs env .mpByte d (md e) s) (h2 : d = e ++ t) (h3 : ScanAt bd s t) :
    ∃ e s t, Runs env .mpByte (d ++ [b]) (md e) s ∧ d ++ [b] = e ++ t ∧ ScanAt bd s t := by
  cases h3 with
  | byte =>
    by_cases hc : b = c! '\r'
    · subst hc
      refine ⟨e, .mpByteLf, b!"\r", ?_, by simp [h2], .cr⟩
      have := h1.trans (Runs.byte (s' := .mpByteLf) (b := c! '\r') (es := []) (fun _ => rfl) nofun rfl)
      simpa using this
    · refine ⟨e ++ [b], .mpByte, [], ?_, by simp [h2], .byte⟩
      rw [md_append]
      exact h1.trans (Runs.byte (fun _ => rfl) nofun (by simp [bstep, bMpByte, hc, md, flatEv]))
  | cr =>
    by_cases hc : b = c! '\n'
    · subst hc
      refine ⟨e, .hyphen1 false, b!"\r\n", ?_, by simp [h2], .crlf⟩
      have := h1.trans (Runs.byte (s' := .hyphen1 false) (b := c! '\n') (es := []) (fun _ => rfl) nofun rfl)
      simpa using this
    · refine ⟨e ++ [c! '\r', b], .mpByte, [], ?_, by simp [h2], .byte⟩
      rw [md_append]
      exact h1.trans (Runs.byte (fun _ => rfl) nofun (by simp [bstep, hc, md, flatEv]))
  | crlf =>
    by_cases hc : b = c! '-'
    · subst hc
      refine ⟨e, .hyphen2 false, b!"\r\n-", ?_, by simp [h2], .hyphen⟩
      have := h1.trans (Runs.byte (s' := .hyphen2 false) (b := c! '-') (es := []) (fun _ => rfl) nofun rfl)
      simpa using this
    · refine ⟨e ++ [c! '\r', c! '\n', b], .mpByte, [], ?_, by simp [h2], .byte⟩
      rw [md_append]
      exact h1.trans (Runs.byte (fun _ => rfl) nofun (by simp [bstep, hc, md, flatEv]))
  | hyphen =>
    by_cases hc : b = c! '-'
    · subst hc
      have hl : 0 < bd.length := by
        rcases Nat.eq_zero_or_pos bd.length with h0 | h0
        · refine absurd ⟨e, [], ?_⟩ hf
          rw [List.length_eq_zero_iff.1 h0]
          simp [delimiter, h2]
        · exact h0
      refine ⟨e, .bound false 0, b!"\r\n--" ++ bd.take 0, ?_, by simp [h2], .bound hl⟩
      have := h1.trans (Runs.byte (s' := .bound false 0) (b := c! '-') (es := []) (fun _ => rfl) nofun rfl)
      simpa using this
    · refine ⟨e ++ [c! '\r', c! '\n', c! '-', b], .mpByte, [], ?_, by simp [h2], .byte⟩
      rw [md_append]
      exact h1.trans (Runs.byte (fun _ => rfl) nofun (by simp [bstep, hc, md, flatEv]))
  | @bound i hi =>
    by_cases hc : bd[i]? = some b
    · have hl : i + 1 < bd.length := by
        rcases Nat.lt_or_ge (i + 1) bd.length with h0 | h0
        · exact h0
        · refine absurd ⟨e, [], ?_⟩ hf
          have : bd.take (i + 1) = bd := List.take_of_length_le h0
          rw [take_snoc hc] at this
          simp only [delimiter, List.append_nil, h2, List.append_assoc]
          rw [this]
      refine ⟨e, .bound false (i + 1), b!"\r\n--" ++ bd.take (i + 1), ?_, by rw [take_snoc hc, h2]; simp, .bound hl⟩
      have := h1.trans (Runs.byte (s' := .bound false (i + 1)) (b := b) (es := []) (norm_bound hb hi) nofun
        (by simp [bstep, hb, hc]))
      simpa using this
    · by_cases hr : b = c! '\r'
      · subst hr
        refine ⟨e ++ (b!"\r\n--" ++ bd.take i), .mpByteLf, b!"\r", ?_, by simp [h2], .cr⟩
        rw [md_append]
        exact h1.trans (Runs.byte (norm_bound hb hi) nofun (by simp [bstep, hb, hc, bMpByte, BRes.pre, md]))
      · refine ⟨e ++ (b!"\r\n--" ++ bd.take i) ++ [b], .mpByte, [], ?_, by simp [h2], .byte⟩
        rw [md_append, md_append, List.append_assoc]
        exact h1.trans (Runs.byte (norm_bound hb hi) nofun (by simp [bstep, hb, hc, hr, bMpByte, BRes.pre, md, flatEv]))

theorem scan {bd : Bytes} (hb : env.boundary = some bd) (d : Bytes) (hf : ¬ delimiter bd <:+: d) :
    ∃ e s t, Runs env .mpByte d (md e) s ∧ d = e ++ t ∧ ScanAt bd s t := by
  induction d using List.reverseRecOn with
  | nil => exact ⟨[], _, [], Runs.refl _, rfl, .byte⟩
  | append_singleton d b ih =>
    obtain ⟨e, s, t, h1, h2, h3⟩ := ih fun h => hf (h.trans (List.infix_append' [] d [b]))
    exact scan_step hb hf h1 h2 h3

theorem runs_bound {bd : Bytes} (hb : env.boundary = some bd) (e : Bool) : ∀ (y x : Bytes), x ++ y = bd →
    Runs env (.bound e x.length) y [] (.bound e bd.length)
  | [], x, hx => by simp at hx; subst hx; exact Runs.refl _
  | b :: y, x, hx => by
    have ih := runs_bound hb e y (x ++ [b]) (by simp [hx])
    have hi : x.length < bd.length := by rw [← hx]; simp
    have := (Runs.byte (s' := .bound e (x.length + 1)) (b := b) (es := []) (norm_bound hb hi (e := e)) nofun (by
      have : bd[x.length]? = some b := by rw [← hx]; simp
      simp [bstep, hb, this])).cons (by simpa using ih)
    simpa using this

/-- From the first hyphen to the end of the boundary. -/
theorem runs_open {bd : Bytes} (hb : env.boundary = some bd) (e : Bool) :
    Runs env (.hyphen1 e) (b!"--" ++ bd) [] (.bound e bd.length) :=
  (Runs.byte (s := .hyphen1 e) (s' := .hyphen2 e) (es := []) (fun _ => rfl) nofun rfl).cons
    ((Runs.byte (s := .hyphen2 e) (s' := .bound e 0) (es := []) (fun _ => rfl) nofun rfl).cons (runs_bound hb e bd [] rfl))

/-- Data delimited by the boundary. -/
theorem runs_delimited {bd d : Bytes} (hb : env.boundary = some bd) (hr : c! '\r' ∉ bd) (h : Delimited bd d) :
    Runs env .mpByte (d ++ delimiter bd) (md d) (.bound false bd.length) := by
  obtain ⟨e, s, t, h1, h2, h3⟩ := scan hb d h.free
  have hcr : Runs env .mpByte (d ++ b!"\r") (md d) .mpByteLf := by
    cases h3 with
    | byte =>
      have := h1.trans (Runs.byte (s' := .mpByteLf) (b := c! '\r') (es := []) (fun _ => rfl) nofun rfl)
      simpa [h2] using this
    | cr => exact absurd ⟨e, h2.symm⟩ h.cr
    | crlf => exact absurd ⟨e, h2.symm⟩ h.crlf
    | hyphen => exact absurd ⟨e, h2.symm⟩ h.hyphen
    | @bound i hi =>
      have hc : bd[i]? ≠ some (c! '\r') := fun hc => hr (List.mem_of_getElem? hc)
      have := h1.trans (Runs.byte (s' := .mpByteLf) (b := c! '\r') (es := md (b!"\r\n--" ++ bd.take i))
        (norm_bound hb hi) nofun (by simp [bstep, hb, hc, bMpByte, BRes.pre, md]))
      rw [← md_append, ← h2] at this
      exact this
  have := hcr.trans ((Runs.byte (s := .mpByteLf) (s' := .hyphen1 false) (b := c! '\n') (es := []) (fun _ => rfl) nofun rfl).trans
    (runs_open hb false))
  simpa [delimiter] using this

/-- Data of known length. -/
theorem runs_length (d : Bytes) : Runs env (.mpLen d.length) d (md d) (.mpLen 0) := by
  induction d with
  | nil => exact Runs.refl _
  | cons b d ih =>
    refine (Runs.byteN (es0 := []) (s1 := .mpLen (d.length + 1)) (es := [.multipartData [b]])
      (fun _ => by simp [norm, mpLen']) nofun rfl).cons ih

theorem runs_known {bd : Bytes} (hb : env.boundary = some bd) (d : Bytes) :
    Runs env (.mpLen d.length) (d ++ delimiter bd) (md d) (.bound true bd.length) := by
  have := (runs_length (env := env) d).trans
    ((Runs.byteN (es0 := []) (s1 := .mpLenCr) (s' := .mpLenLf) (b := c! '\r') (es := [])
      (fun _ => by simp [norm, mpLen']) nofun rfl).trans
    ((Runs.byte (s := .mpLenLf) (s' := .hyphen1 true) (b := c! '\n') (es := []) (fun _ => rfl) nofun rfl).trans (runs_open hb true)))
  simpa [delimiter] using this

theorem pred_mpLen (tr : List Ev) (n : Nat) (r : Bytes) : pred env tr (mpLen' n) r = pred env tr (.mpLen n) r := by
  have h1 : norm env tr (.mpLen n) = ([], mpLen' n) := rfl
  have h2 : norm env tr (mpLen' n) = ([], mpLen' n) := by by_cases h : n = 0 <;> simp [mpLen', h, norm]
  have := pred_eps h1 (by simpa using h2) r
  simpa using this.symm

/-- The data of a part, up to the next boundary. -/
theorem pred_part_data {bd d : Bytes} (hb : env.boundary = some bd) (hr : c! '\r' ∉ bd) (hp : env.ptype = .multipart)
    (tr : List Ev) (h1 : ∀ n, env.cl (tr ++ [.headersFinished]) = some n → d.length = n)
    (h2 : env.cl (tr ++ [.headersFinished]) = none → Delimited bd d) (r : Bytes) :
    ∃ e, pred env tr .hdrEnd (d ++ delimiter bd ++ r) = pred env (tr ++ [.headersFinished] ++ md d) (.bound e bd.length) r := by
  have hn : norm env tr .hdrEnd = ([.headersFinished], mpData (env.cl (tr ++ [.headersFinished]))) := by
    simp [norm, hp]
  have hid := norm_idem env tr .hdrEnd
  rw [hn] at hid
  rw [pred_eps hn hid]
  cases hc : env.cl (tr ++ [.headersFinished]) with
  | none => exact ⟨false, runs_delimited hb hr (h2 hc) _ r⟩
  | some n =>
    obtain rfl := h1 n hc
    refine ⟨true, ?_⟩
    show pred env _ (mpLen' d.length) _ = _
    rw [pred_mpLen]
    exact runs_known hb d _ r

theorem runs_part_head {bd : Bytes} (hb : env.boundary = some bd) (e : Bool) {hs : List Header} (h : ∀ y ∈ hs, y.OK) :
    Runs env (.bound e bd.length) (b!"\r\n" ++ hs.flatMap Header.write ++ b!"\r\n")
      (.multipartBegin :: flat (hs.flatMap Header.events)) .hdrEnd := by
  have := (Runs.byteN (es0 := []) (es := [.multipartBegin]) (b := c! '\r') (s' := .initialLf) (norm_bound_end hb (e := e)) nofun rfl).trans
    ((Runs.byte (s := .initialLf) (s' := .hdrCr2) (b := c! '\n') (es := []) (fun _ => rfl) nofun rfl).trans (runs_block (env := env) hs h))
  simpa using this

/-- All parts. -/
theorem pred_parts {bd : Bytes} (hb : env.boundary = some bd) (hr : c! '\r' ∉ bd) (hp : env.ptype = .multipart)
    {cl : List Ev → Option Nat} (hc : ∀ l, ∃ p, flat p = flat l ∧ env.cl (flat l) = cl p) (rest : Bytes) : ∀ (ps : List Part) (l : List Ev) (e : Bool),
    PartsOK cl bd l ps → pred env (flat l) (.bound e bd.length) (ps.flatMap (Part.write bd) ++ b!"--" ++ rest) =
      (flat (l ++ ps.flatMap Part.events ++ [.bodyFinished]), .finished rest)
  | [], l, e, _ => by
    have h1 : Runs env (.bound e bd.length) b!"--" [] .bodyFin := by
      have := (Runs.byteN (es0 := []) (es := []) (b := c! '-') (s' := .mpEnd) (norm_bound_end hb (e := e)) nofun rfl).trans
        (Runs.byte (s := .mpEnd) (s' := .bodyFin) (b := c! '-') (es := []) (fun _ => rfl) nofun rfl)
      simpa using this
    have := h1.finish (es' := [.bodyFinished]) (fun _ => rfl) (flat l) rest
    simpa [flat, flatEv] using this
  | x :: ps, l, e, ⟨h1, h2, h4⟩ => by
    have e1 : flat (l ++ x.headEvents) =
        flat l ++ (.multipartBegin :: flat (x.headers.flatMap Header.events)) ++ [.headersFinished] := by
      simp [flat, flatEv, Part.headEvents]
    obtain ⟨p, hp1, hp2⟩ := hc (l ++ x.headEvents)
    obtain ⟨h2, h3⟩ := h2 p hp1
    rw [← hp2, e1] at h2 h3
    obtain ⟨e', hd⟩ := pred_part_data (d := x.data) hb hr hp
      (flat l ++ (.multipartBegin :: flat (x.headers.flatMap Header.events))) h2 h3
      (ps.flatMap (Part.write bd) ++ b!"--" ++ rest)
    have hh := runs_part_head hb e h1 (flat l) (x.data ++ delimiter bd ++ (ps.flatMap (Part.write bd) ++ b!"--" ++ rest))
    rw [hd] at hh
    have e2 : (x :: ps).flatMap (Part.write bd) ++ b!"--" ++ rest =
        b!"\r\n" ++ x.headers.flatMap Header.write ++ b!"\r\n" ++
          (x.data ++ delimiter bd ++ (ps.flatMap (Part.write bd) ++ b!"--" ++ rest)) := by
      simp only [List.flatMap_cons, Part.write, List.append_assoc]
    have e3 : flat (l ++ x.events) = flat l ++ (.multipartBegin :: flat (x.headers.flatMap Header.events)) ++
        [.headersFinished] ++ md x.data := by
      rw [← e1]; simp [Part.events, flat, md]
    rw [e2, hh, ← e3, pred_parts hb hr hp hc rest ps _ e' h4]
    simp

theorem pred_body {bd : Bytes} (hb : env.boundary = some bd) (hr : c! '\r' ∉ bd) (hp : env.ptype = .multipart)
    {cl : List Ev → Option Nat} (hc : ∀ l, ∃ p, flat p = flat l ∧ env.cl (flat l) = cl p) (rest : Bytes) (ps : List Part) (l : List Ev)
    (h : PartsOK cl bd l ps) : pred env (flat l) (.hyphen1 true) (writeParts bd ps ++ rest) =
      (flat (l ++ ps.flatMap Part.events ++ [.bodyFinished]), .finished rest) := by
  have := runs_open hb true (flat l) (ps.flatMap (Part.write bd) ++ b!"--" ++ rest)
  rw [List.append_nil, pred_parts hb hr hp hc rest ps l true h] at this
  rw [← this]
  simp [writeParts]

end Verif.Http1
