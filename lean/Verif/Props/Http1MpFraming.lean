import Verif.Http1.MpFraming
import Verif.Props.Http1AcceptMultipart

/-!
# C109: the parts of a multipart body, as seen by others

`partsOf`, `LoosePart.raw` and `LoosePart.Innocent` are defined in `Verif.Http1.MpFramingSpec`.
-/

namespace Verif.Http1

/-! ## Helper lemmas -/

theorem loose_lines {cl : List Ev → Option Nat} {bd : Bytes} : ∀ {t : List Ev} {ps : List LoosePart},
    LooseParts cl bd t ps → ∀ x ∈ ps, ∀ y ∈ x.lines, y.OK
  | _, [], _ => nofun
  | _, z :: _, ⟨h1, _, _, h4⟩ => fun x hx => by
    rcases List.mem_cons.1 hx with rfl | hx
    · exact h1
    · exact loose_lines h4 x hx

/-! ## C109 -/

/-- **C109.** A program that only looks for the delimiter finds in an accepted body the parts that were reported, and the
same end, if and only if no header line, no data and no line of data starts like a delimiter. In every slicing, for
every handler. -/
theorem C109_same_parts_iff (h : Handler) (q : Parser) (l : List Ev) (bd : Bytes)
    (hb : bd.length < 16384) (hb' : c! '\r' ∉ bd) (msg : Bytes) (k : Nat) (ks : List Nat)
    (hc : (mpRun h q l bd (k :: ks) msg).last = .finished) :
    let o := mpRun h q l bd (k :: ks) msg
    ∃ ps : List LoosePart, flat o.world.log = flat (l ++ ps.flatMap LoosePart.events ++ [.bodyFinished]) ∧
      msg = writeLoose bd ps ++ o.rest ∧
      (partsOf bd msg = some (ps.map LoosePart.raw, o.rest) ↔ ∀ x ∈ ps, x.Innocent bd) := by
  intro o
  obtain ⟨cl, ps, -, h2, h3, h4⟩ := C67_only_multipart_accepted_partial h q l bd hb hb' msg k ks hc
  refine ⟨ps, h4, h3, ?_⟩
  rw [h3]
  exact partsOf_iff hb' _ (loose_lines h2)

/-- **C109 (partial).** If no reported name starts with two hyphens, and no reported data starts with two hyphens or
contains the delimiter, then a program that only looks for the delimiter finds the same parts and the same end.
Missing: the other bodies (`C109_fails`). -/
theorem C109_same_parts_partial (h : Handler) (q : Parser) (l : List Ev) (bd : Bytes)
    (hb : bd.length < 16384) (hb' : c! '\r' ∉ bd) (msg : Bytes) (k : Nat) (ks : List Nat)
    (hc : (mpRun h q l bd (k :: ks) msg).last = .finished) :
    let o := mpRun h q l bd (k :: ks) msg
    ∃ ps : List LoosePart, flat o.world.log = flat (l ++ ps.flatMap LoosePart.events ++ [.bodyFinished]) ∧
      ((∀ x ∈ ps, (∀ n bl v, .field n bl v ∈ x.lines → ¬ b!"--" <+: n) ∧ ¬ b!"--" <+: x.data ∧
          ¬ delimiter bd <:+: x.data) →
        partsOf bd msg = some (ps.map LoosePart.raw, o.rest)) := by
  intro o
  obtain ⟨cl, ps, -, h2, h3, h4⟩ := C67_only_multipart_accepted_partial h q l bd hb hb' msg k ks hc
  refine ⟨ps, h4, fun h5 => ?_⟩
  rw [h3]
  exact (partsOf_iff hb' _ (loose_lines h2)).2 fun x hx =>
    innocent_of_names (loose_lines h2 x hx) (h5 x hx).1 (h5 x hx).2.1 (h5 x hx).2.2

/-- Two parts with pieces of delimiters, and bytes after the body: both find the same. -/
example : let m := b!"--XyZ\r\nA: --XyZ\r\n\r\na--XyZ\r\n--XY\r\n--XyZ\r\n\r\n\r\n--XyZ--\r\nx"
    let o := mpRun goOn .new [] b!"XyZ" [3, 100] m
    o.last = .finished ∧ o.rest = b!"\r\nx" ∧
    partsOf b!"XyZ" m = some ([b!"\r\nA: --XyZ\r\n\r\na--XyZ\r\n--XY", b!"\r\n\r\n"], b!"\r\nx") := by decide +kernel

/-- The full claim is false. A header line, data right after the empty line, and data with a line end before the
delimiter are taken for what they are not: others find an end, an end, and a further part. -/
theorem C109_fails :
    (let m := b!"--XyZ\r\n--XyZ--: x\r\n\r\na\r\n--XyZ--"
     let o := mpRun goOn .new [] b!"XyZ" [100] m
     o.last = .finished ∧ o.rest = [] ∧ partsOf b!"XyZ" m = some ([[]], b!": x\r\n\r\na\r\n--XyZ--")) ∧
    (let m := b!"--XyZ\r\n\r\n--XyZ--\r\n--XyZ--"
     let o := mpRun goOn .new [] b!"XyZ" [100] m
     o.last = .finished ∧ o.rest = [] ∧ partsOf b!"XyZ" m = some ([b!"\r\n"], b!"\r\n--XyZ--")) ∧
    (let m := b!"--XyZ\r\n\r\na\r\r\n--XyZ\r\n\r\nb\r\n--XyZ--"
     let o := mpRun goOn .new [] b!"XyZ" [100] m
     o.last = .finished ∧ o.rest = [] ∧ partsOf b!"XyZ" m = some ([b!"\r\n\r\na\r", b!"\r\n\r\nb"], [])) := by
  decide +kernel

end Verif.Http1
