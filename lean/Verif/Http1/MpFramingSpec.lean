import Verif.Http1.MpLooseSpec

/-!
# Specification: the parts of a multipart body as everybody else finds them

Not part of the code: how a program that only looks for the delimiter finds the parts of a multipart body (RFC 2046,
section 5.1.1). Used by C109.
-/

namespace Verif.Http1

/-- The bytes before the first occurrence of `p` and those after it; `none` if there is none. -/
def splitAtFirst (p : Bytes) : Bytes → Option (Bytes × Bytes)
  | [] => none
  | b :: r =>
    if p.isPrefixOf (b :: r) then some ([], (b :: r).drop p.length)
    else (splitAtFirst p r).map fun x => (b :: x.1, x.2)

/-- At most `n` parts after a boundary, and what comes after the body; `none` if it is not all there. -/
def partsAfter (bd : Bytes) : Nat → Bytes → Option (List Bytes × Bytes)
  | 0, _ => none
  | n + 1, x =>
    match x with
    | 45 :: 45 :: r => some ([], r)
    | _ =>
      match splitAtFirst (delimiter bd) x with
      | none => none
      | some (part, r) => (partsAfter bd n r).map fun y => (part :: y.1, y.2)

/-- The parts of a body, each one with its line ends, head and data, and what comes after the body. -/
def partsOf (bd : Bytes) (x : Bytes) : Option (List Bytes × Bytes) :=
  if (b!"--" ++ bd).isPrefixOf x then partsAfter bd x.length (x.drop (b!"--" ++ bd).length) else none

/-- The bytes of a part up to the next delimiter. -/
def LoosePart.raw (x : LoosePart) : Bytes := b!"\r\n" ++ x.lines.flatMap Line.write ++ b!"\r\n" ++ x.data

/-- No line of the head of a part starts like a delimiter, and neither do its data nor a line of its data. -/
structure LoosePart.Innocent (bd : Bytes) (x : LoosePart) : Prop where
  lines : ∀ y ∈ x.lines, ¬ b!"--" ++ bd <+: y.write
  start : ¬ b!"--" ++ bd <+: x.data
  data : ¬ delimiter bd <:+: x.data

end Verif.Http1
