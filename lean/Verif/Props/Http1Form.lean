import Verif.Http1.MultipartProgramRun
import Verif.Props.Http1RoundTrip

/-!
# C87: the program that reads a multipart form

The program of tests/http1_multipart.rs, on every well-formed request with a multipart body.
-/

namespace Verif.Http1

open Util (Fields)

/-- One call for a whole well-formed request head. -/
theorem head_call (x : Request) (hx : x.OK) (rest : Bytes) : ∃ k w,
    resume goOn ⟨.new, []⟩ (x.write ++ rest) = (.ok (.finished k), w) ∧ (x.write ++ rest).drop k = rest ∧
    flat w.log = flat x.events ∧ ∀ e ∈ w.log, flatEv e ≠ [] := by
  have hlen : 9 ≤ (x.write ++ rest).length := by
    have h1 := List.length_pos_iff.2 hx.method.1
    simp only [Request.write, List.length_append]
    simp
    omega
  have hr : Ready .new (x.write ++ rest) (x.write ++ rest).length := by
    refine .inr ⟨rfl, ?_, .inl ?_⟩
    · rw [List.take_length]; intro h; rw [h] at hlen; simp at hlen
    · rw [List.take_length]; exact hlen
  have hu : (drive goOn .idle [(x.write ++ rest).length] ⟨.new, []⟩ (x.write ++ rest)).last ≠ .ub := by
    have H := run_sim bdOK_none (clOK_of (by decide)) (h := goOn) (x.write ++ rest).length [] (hr.start [])
    intro h
    simp only [DriveSim, h] at H
  obtain ⟨h1, h2⟩ := goOn_one (w := ⟨.new, []⟩) .new hu
  obtain ⟨h3, h4, h5⟩ := C25_request_round_trip_partial goOn .new [] x hx rest _ [] hr h2
  rw [← h1] at h3 h4 h5
  have hd := feed_data (h := goOn) 1 ⟨.new, []⟩ (x.write ++ rest) (by simp)
    (by unfold Back; rw [h3]; exact ⟨nofun, nofun, nofun⟩)
  rw [feed] at h3 h4 h5 hd
  rcases hres : resume goOn ⟨.new, []⟩ (x.write ++ rest) with ⟨r, w⟩
  rw [hres] at h3 h4 h5 hd
  rcases r with (k | k | k) | e | _ | _ | _
  · cases h3
  · cases h3
  · exact ⟨k, w, rfl, h4, h5, hd⟩
  all_goals cases h3

theorem parts_count (bd : Bytes) (ps : List Part) : ps.length ≤ (writeParts bd ps).length := by
  have : ps.length ≤ (ps.flatMap (Part.write bd)).length := by
    induction ps with
    | nil => simp
    | cons x ps ih =>
      rw [List.flatMap_cons, List.length_append, List.length_cons]
      have : 1 ≤ (x.write bd).length := by simp [Part.write]
      omega
  simp only [writeParts, List.length_append]
  omega

/-- **C87 (partial).** For every well-formed request whose content type is a field with the item `boundary=bd` (the last
one of this name), and every well-formed body with at least one part, delimited by `bd`, the program does not panic and
stores, part by part, exactly the header fields and the data of each part as written: nothing of one part shows up in
another. Missing: the heads of C25, the fields of C07, the bodies of C36. -/
theorem C87_form_partial (x : Request) (hx : x.OK) (ct : Bytes) (hct : lastText x.headers b!"content-type" = some ct)
    (l : List Util.Item) (hl : Fields false (c! ';') ct l)
    (hl' : ∀ n, l.getLast? = some (n, none) → ∀ b ∈ n.getLast?, b ≠ c! '/' ∧ ¬ UpperByte b)
    (l1 l2 : List Util.Item) (nm bd : Bytes) (hs : l = l1 ++ (nm, some bd) :: l2) (hnm : Verif.lower nm = b!"boundary")
    (hl2 : ∀ i ∈ l2, Verif.lower i.1 ≠ b!"boundary")
    (hb : bd.length < 16384) (hb' : c! '\r' ∉ bd) (ps : List Part) (hps : ps ≠ [])
    (hp : ∀ y ∈ ps, (∀ z ∈ y.headers, z.OK) ∧ Delimited bd y.data) (rest : Bytes) :
    ∃ L, Form.program (x.write ++ (writeParts bd ps ++ rest)) = some L ∧
      List.Forall₂ (fun r y => r.2 = y.data ∧ ∀ n, r.1.get n = lastText y.headers n) L ps := by
  obtain ⟨k, w, h1, h2, h3, h4⟩ := head_call x hx (writeParts bd ps ++ rest)
  have hx2 : ∀ e ∈ x.events, Form.Solid e := by
    intro e he
    simp only [Request.events, List.mem_append, List.mem_cons, List.not_mem_nil, or_false] at he
    rcases he with ((rfl | rfl | rfl | rfl) | he) | rfl
    · exact ⟨nofun, nofun⟩
    · exact ⟨nofun, nofun⟩
    · exact ⟨nofun, nofun⟩
    · exact ⟨nofun, nofun⟩
    · exact Form.solid_of_flat (Doc.headers_data hx.headers e he)
    · exact ⟨nofun, nofun⟩
  have hh : (Form.Collect.new.onAll w.log).headers.get b!"content-type" = some ct := by
    rw [← Form.collect_all_flat _ _ fun e he => Form.solid_of_flat (h4 e he), h3, Form.collect_all_flat _ _ hx2,
      Request.events, List.append_assoc, Form.collect_append]
    obtain ⟨h5, -, -⟩ := Form.collect_headers x.headers Form.Collect.new hx.headers fun _ => ⟨rfl, rfl⟩
    show (Form.Collect.onAll Form.Collect.new _).headers.get _ = _
    rw [h5, Doc.get_store, hct]
    rfl
  obtain ⟨it', hy, -, -⟩ := Util.C07_fields_partial (c! ';') true ct l (by simp only [Blank]; decide) hl
    fun n hn b hb => ⟨(hl' n hn b hb).1, fun _ => (hl' n hn b hb).2⟩
  have hi := Form.items_yields hy (ct.length + 1) (by have := Form.fields_length hl; simp; omega)
  have hbd : Form.boundary (l.map (Util.norm true)) = some bd := by
    subst hs
    rw [List.map_append, List.map_cons]
    unfold Form.boundary
    rw [List.foldl_append, List.foldl_cons]
    have e1 : (Util.norm true (nm, some bd)).1 = b!"boundary" := hnm
    rw [if_pos e1]
    clear hl hl' hy hi
    show List.foldl _ (some bd) (List.map (Util.norm true) l2) = some bd
    induction l2 with
    | nil => rfl
    | cons i l2 ih =>
      rw [List.map_cons, List.foldl_cons]
      have e2 : ¬ (Util.norm true i).1 = b!"boundary" := hl2 i (by simp)
      rw [if_neg e2]
      exact ih fun i hi => hl2 i (by simp [hi])
  have hn := parts_count bd ps
  obtain ⟨L, h5, h6⟩ := Form.entries_read bd hb hb' ps hp rest ps.length 0
    ((x.write ++ (writeParts bd ps ++ rest)).length + 1) .new (by omega) (List.length_pos_iff.2 hps)
    (by simp only [List.length_append]; omega) ⟨rfl, rfl, rfl, rfl⟩
  refine ⟨L, ?_, h6⟩
  unfold Form.program
  rw [h1]
  simp only
  rw [hh]
  simp only
  rw [hi, Option.bind_some, hbd]
  simp only
  rw [h2]
  exact h5

/-- A request with a form of two parts, and its content type. -/
def exForm : Request :=
  { method := b!"POST", url := b!"/", major := b!"1", minor := b!"1",
    headers := [⟨b!"Content-Type", b!" ", b!"multipart/form-data; Boundary=XyZ", []⟩] }

/-- The parts of the example. -/
def exFormParts : List Part := [⟨[⟨b!"A", b!" ", b!"b", []⟩], b!"x\r\n--Xy"⟩, ⟨[], b!"more"⟩]

theorem exForm_ok : exForm.OK where
  method := by decide
  url := by decide
  major := ⟨1, by unfold Digits; decide⟩
  minor := ⟨1, by unfold Digits; decide⟩
  headers := by
    intro y hy
    simp only [exForm, List.mem_singleton] at hy
    subst hy
    refine ⟨⟨by decide, by decide⟩, by decide, ?_, ⟨_, _, rfl, by decide⟩, by simp⟩
    repeat (first | exact .nil | refine .byte (by decide) (by decide) ?_)

example : exForm.OK ∧ lastText exForm.headers b!"content-type" = some b!"multipart/form-data; Boundary=XyZ" ∧
    Fields false (c! ';') b!"multipart/form-data; Boundary=XyZ"
      [(b!"multipart/form-data", none), (b!"Boundary", some b!"XyZ")] ∧
    Verif.lower b!"Boundary" = b!"boundary" ∧
    (∀ y ∈ exFormParts, (∀ z ∈ y.headers, z.OK) ∧ Delimited b!"XyZ" y.data) ∧
    Form.program (exForm.write ++ (writeParts b!"XyZ" exFormParts ++ b!"rest")) =
      some [([(b!"a", b!"b")], b!"x\r\n--Xy"), ([], b!"more")] := by
  refine ⟨exForm_ok, by decide, ?_, by decide, exParts_two, by decide +kernel⟩
  exact .cons (t := b!"multipart/form-data") (s := b!" ") (.name ⟨by decide, by decide⟩) (by simp)
      (by unfold Util.Blanks; decide)
    (.last (.value (w := b!"Boundary") (s := []) (v := b!"XyZ") ⟨by decide, by decide⟩ (by simp [Util.Blanks])
        ⟨by decide, by decide, by decide⟩))

/-- The full C87 fails. With a quoted boundary and a parameter after it the program panics; data that ends with CR
swallows the next part; a header field without a name changes the one before it. -/
theorem C87_fails :
    Form.program (b!"POST / HTTP/1.1\r\nContent-Type: multipart/form-data; " ++ b!"boundary=\"XyZ\"; a=b\r\n\r\n" ++
      writeParts b!"XyZ" [⟨[], b!"data"⟩]) = none ∧
    Form.program (exForm.write ++ writeParts b!"XyZ" [⟨[], b!"data\r"⟩, ⟨[], b!"more"⟩]) =
      some [([], b!"data\r\r\n--XyZ\r\n\r\nmore")] ∧
    Form.program (exForm.write ++ b!"--XyZ\r\nA: b\r\n: c\r\n\r\ndata\r\n--XyZ--") =
      some [([(b!"a", b!"bc")], b!"data")] := by
  refine ⟨?_, ?_, ?_⟩ <;> decide +kernel

end Verif.Http1
