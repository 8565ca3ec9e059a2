import Verif.Http1.AnyParts
import Verif.Http1.AnyShort
import Verif.Props.Http1Form
import Verif.Props.Http1PausesAny

/-!
# C94: the test program that reads a multipart form, on any body
-/

namespace Verif.Http1

open Util (Fields)

theorem loose_parts_count (bd : Bytes) (ps : List LoosePart) : ps.length ≤ (writeLoose bd ps).length := by
  have : ps.length ≤ (ps.flatMap (LoosePart.write bd)).length := by
    induction ps with
    | nil => simp
    | cons x ps ih =>
      rw [List.flatMap_cons, List.length_append, List.length_cons]
      have : 1 ≤ (x.write bd).length := by simp [LoosePart.write]
      omega
  simp only [writeLoose, List.length_append]
  omega

/-- What the program has stored of an accepted head. -/
theorem any_head_collect (x : Head) (hx : x.OK) (rest : Bytes) {k : Nat} {w : World}
    (hr : resume goOn ⟨.new, []⟩ (x.write ++ rest) = (.ok (.finished k), w)) :
    ∀ n, (Form.Collect.new.onAll w.log).headers.get n = lastOf x.fields n := by
  intro n
  have hr' := ready_new (d := x.write ++ rest) (by have := head_length hx; rw [List.length_append]; omega)
  have h1 := drive_one hr
  have hc : (drive goOn .idle [(x.write ++ rest).length] ⟨.new, []⟩ (x.write ++ rest)).complete := by rw [h1]; trivial
  obtain ⟨-, -, h5⟩ := C50_all_heads_accepted goOn .new [] [] x rest (by simp) (fun _ => rfl) hx _ [] hr' hc
  simp only [List.nil_append] at h5
  have hd := drive_data (h := goOn) [(x.write ++ rest).length] .idle ⟨.new, []⟩ (x.write ++ rest) (by simp) (by rw [h1])
  rw [h1] at h5 hd
  simp only at h5 hd
  rw [← Form.collect_all_flat _ _ fun e he => Form.solid_of_flat (hd e he), h5, Head.events, List.append_assoc]
  have fa : ∀ a b : List Ev, flat (a ++ b) = flat a ++ flat b := fun a b => List.flatMap_append
  rw [fa, Form.collect_append]
  have e0 : Form.Collect.new.onAll (flat x.start.events) = .new := by
    rw [Form.collect_all_flat]
    · cases x.start <;> rfl
    · intro e he
      cases h : x.start <;> rw [h] at he <;> simp only [StartLine.events, List.mem_cons, List.not_mem_nil, or_false] at he <;>
        rcases he with rfl | rfl | rfl | rfl <;> exact ⟨nofun, nofun⟩
  rw [e0]
  obtain ⟨h6, -, -⟩ := Form.collect_lines x.lines Form.Collect.new hx.lines fun _ => ⟨rfl, rfl⟩
  rw [h6, Doc.get_put]
  show (lastOf (joined x.lines).2 n).or _ = lastOf (joined x.lines).2 n
  cases lastOf (joined x.lines).2 n <;> rfl

/-- **C94.** For every accepted head whose content type is a field with the item `boundary=bd` (the last one of this name,
shorter than 2^14 bytes and without CR), and any bytes after it: the program panics exactly if these do not begin with an
accepted multipart body. If they do, it has stored, part by part, exactly the data and the header fields of each part,
each name with its last value; folded lines and fields without a name are part of the one before. For a body without
parts it has stored an empty part. -/
theorem C94_form_program (x : Head) (hx : x.OK) (ct : Bytes) (hct : lastOf x.fields b!"content-type" = some ct)
    (l : List Util.Item) (hl : Fields false (c! ';') ct l)
    (hl' : ∀ n, l.getLast? = some (n, none) → ∀ b ∈ n.getLast?, b ≠ c! '/' ∧ ¬ UpperByte b)
    (l1 l2 : List Util.Item) (nm bd : Bytes) (hs : l = l1 ++ (nm, some bd) :: l2) (hnm : Verif.lower nm = b!"boundary")
    (hl2 : ∀ i ∈ l2, Verif.lower i.1 ≠ b!"boundary")
    (hb : bd.length < 16384) (hb' : c! '\r' ∉ bd) (m : Bytes) :
    match Form.program (x.write ++ m) with
    | none => ¬ ∃ ps rest, LooseParts (fun _ => none) bd [] ps ∧ m = writeLoose bd ps ++ rest
    | some L => (∃ ps rest, LooseParts (fun _ => none) bd [] ps ∧ m = writeLoose bd ps ++ rest) ∧
        ∀ ps rest, LooseParts (fun _ => none) bd [] ps → m = writeLoose bd ps ++ rest → List.Forall₂ (fun r y => r.2 = y.data ∧ ∀ n, r.1.get n = lastOf (joined y.lines).2 n) L
          (if ps = [] then [⟨[], []⟩] else ps) := by
  obtain ⟨k, w, h1, h2⟩ := any_head_call x hx m
  have hh := any_head_collect x hx m h1 b!"content-type"
  rw [hct] at hh
  obtain ⟨it', hy, -, -⟩ := Util.C07_fields_partial (c! ';') true ct l (by simp only [Blank]; decide) hl
    fun n hn b hb => ⟨(hl' n hn b hb).1, fun _ => (hl' n hn b hb).2⟩
  have hi := Form.items_yields hy (ct.length + 1) (by have := Form.fields_length hl; simp; omega)
  have hbd : Form.boundary (l.map (Util.norm true)) = some bd := by
    subst hs
    rw [List.map_append, List.map_cons]
    unfold Form.boundary
    rw [List.foldl_append, List.foldl_cons]
    have e1 : (Util.norm true (nm, some bd)).1 = b!"boundary" := hnm
    rw [if_pos e1]
    clear hl hl' hy hi
    show List.foldl _ (some bd) (List.map (Util.norm true) l2) = some bd
    induction l2 with
    | nil => rfl
    | cons i l2 ih =>
      rw [List.map_cons, List.foldl_cons]
      have e2 : ¬ (Util.norm true i).1 = b!"boundary" := hl2 i (by simp)
      rw [if_neg e2]
      exact ih fun i hi => hl2 i (by simp [hi])
  have hprog : Form.program (x.write ++ m) =
      Form.entries ((x.write ++ m).length + 1) ⟨(Parser.new.init .multipart).setBoundary bd, []⟩ m .new := by
    unfold Form.program
    rw [h1]
    simp only
    rw [hh]
    simp only
    rw [hi, Option.bind_some, hbd]
    simp only
    rw [h2]
  rw [hprog]
  have key : ∀ ps rest, LooseParts (fun _ => none) bd [] ps → m = writeLoose bd ps ++ rest →
      ∃ L, Form.entries ((x.write ++ m).length + 1) ⟨(Parser.new.init .multipart).setBoundary bd, []⟩ m .new = some L ∧
        List.Forall₂ Form.AnyReads L (if ps = [] then [⟨[], []⟩] else ps) := by
    rintro ps rest hps rfl
    by_cases h0 : ps = []
    · subst h0
      exact ⟨_, Form.no_part_entries bd hb hb' rest _, by
        rw [if_pos rfl]; exact .cons ⟨rfl, fun _ => rfl⟩ .nil⟩
    · have hn := loose_parts_count bd ps
      obtain ⟨L, h5, h6⟩ := Form.any_part_entries bd hb hb' ps hps rest ps.length 0
        ((x.write ++ (writeLoose bd ps ++ rest)).length + 1) .new (by omega) (List.length_pos_iff.2 h0)
        (by simp only [List.length_append]; omega) ⟨rfl, rfl, rfl, rfl⟩
      exact ⟨L, h5, by rw [if_neg h0]; exact h6⟩
  cases hp : Form.entries ((x.write ++ m).length + 1) ⟨(Parser.new.init .multipart).setBoundary bd, []⟩ m .new with
  | none =>
    rintro ⟨ps, rest, h3, h4⟩
    obtain ⟨L, h5, -⟩ := key ps rest h3 h4
    rw [h5] at hp
    cases hp
  | some L =>
    obtain ⟨n, hn⟩ := Form.entries_finish _ _ _ _ _ hp
    have hf := finish_without (w := ⟨(Parser.new.init .multipart).setBoundary bd, []⟩)
      (show Reach anyBoundary .ready ((Parser.new.init .multipart).setBoundary bd) from .setBoundary (.init .new _) _ trivial) hn
    have hy : Form.handler.yes = goOn := rfl
    rw [hy, feed] at hf
    rcases hr' : resume goOn ⟨(Parser.new.init .multipart).setBoundary bd, []⟩ m with ⟨r, w'⟩
    rw [hr'] at hf
    rcases r with (k' | k' | k') | e | _ | _ | _
    · cases hf
    · cases hf
    · have h3 := drive_one hr'
      obtain ⟨cl, ps, h4, h5, h6, -⟩ := C67_only_multipart_accepted_partial goOn .new [] bd hb hb' m m.length []
        (by unfold mpRun; rw [h3])
      unfold mpRun at h6
      rw [h3] at h6
      obtain rfl : cl = fun _ => none := by
        funext es
        obtain ⟨p, -, h⟩ := h4.2 es
        rw [h]; rfl
      refine ⟨⟨ps, _, h5, h6⟩, fun ps rest h5 h6 => ?_⟩
      obtain ⟨L', h7, h8⟩ := key ps rest h5 h6
      rw [h7] at hp
      cases hp
      exact h8
    all_goals cases hf

/-- **C94.** The program also panics on all other inputs, those without an accepted head that has a content
type. -/
theorem C94_form_head (d : Bytes) (L : List (Doc.Map × Bytes)) (hp : Form.program d = some L) :
    ∃ (x : Head) (m ct : Bytes), x.OK ∧ d = x.write ++ m ∧ lastOf x.fields b!"content-type" = some ct := by
  unfold Form.program at hp
  rcases hr : resume goOn ⟨.new, []⟩ d with ⟨r, w⟩
  rw [hr] at hp
  rcases r with (k | k | k) | e | _ | _ | _
  · cases hp
  · cases hp
  · simp only at hp
    obtain ⟨x, hx, h1⟩ := any_head_of hr
    have h2 := any_head_collect x hx (d.drop k) (by rw [← h1]; exact hr) b!"content-type"
    cases h3 : (Form.Collect.new.onAll w.log).headers.get b!"content-type" with
    | none => rw [h3] at hp; cases hp
    | some ct => exact ⟨x, d.drop k, ct, hx, h1, by rw [← h2, h3]⟩
  all_goals cases hp

/-- A head with folded content type, and parts with lines that belong to no field. -/
def exLooseHead : Head :=
  { start := .request b!"POST" b!"/" b!"1" b!"1",
    lines := [.field b!"Content-Type" b!" " b!"multipart/form-data;", .fold (c! ' ') b!"Boundary=XyZ"] }

theorem exLooseHead_ok : exLooseHead.OK where
  start := ⟨by decide, by decide, ⟨1, by unfold Digits; decide⟩, ⟨1, by unfold Digits; decide⟩⟩
  lines := by
    intro y hy
    simp only [exLooseHead, List.mem_cons, List.not_mem_nil, or_false] at hy
    rcases hy with rfl | rfl
    · refine ⟨by decide, by decide, ?_, ⟨_, _, rfl, by decide⟩⟩
      repeat (first | exact .nil | refine .byte (by decide) (by decide) ?_)
    · refine ⟨.inl rfl, ?_⟩
      repeat (first | exact .nil | refine .byte (by decide) (by decide) ?_)

example : exLooseHead.OK ∧ lastOf exLooseHead.fields b!"content-type" = some b!"multipart/form-data;Boundary=XyZ" ∧
    Fields false (c! ';') b!"multipart/form-data;Boundary=XyZ"
      [(b!"multipart/form-data", none), (b!"Boundary", some b!"XyZ")] ∧
    LooseParts (fun _ => none) b!"XyZ" [] exTwoParts ∧
    Form.program (exLooseHead.write ++ (writeLoose b!"XyZ" exTwoParts ++ b!"rest")) =
      some [([], b!"a\r\r\n-b\r\n--Xy\r\n--X"), ([], b!"z")] ∧
    Form.program (exLooseHead.write ++ b!"--XyZ\r\nA: b\r\n: c\r\n d\r\n\r\ndata\r\n--XyZ--") =
      some [([(b!"a", b!"bcd")], b!"data")] ∧
    Form.program (exLooseHead.write ++ b!"--XyZ--") = some [([], [])] := by
  refine ⟨exLooseHead_ok, by decide, ?_, exTwoParts_ok, by decide +kernel, by decide +kernel, by decide +kernel⟩
  exact .cons (t := b!"multipart/form-data") (s := []) (.name ⟨by decide, by decide⟩) (by simp)
      (by unfold Util.Blanks; decide)
    (.last (.value (w := b!"Boundary") (s := []) (v := b!"XyZ") ⟨by decide, by decide⟩ (by simp [Util.Blanks])
        ⟨by decide, by decide, by decide⟩))

end Verif.Http1
