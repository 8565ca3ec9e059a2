import Verif.Bytes

/-!
# Specification: the names and values of a form as everybody else finds them

Not part of the code: the parser for `application/x-www-form-urlencoded` of the WHATWG URL standard (section 5.1), with
the separators as a parameter: the standard has `&`, the HTML 4.01 recommendation asks for `;` as well (B.2.2). Used by
C111.
-/

namespace Verif.Util

/-- The pieces between the separators. -/
def splitBy (sep : UInt8 → Bool) : Bytes → List Bytes
  | [] => [[]]
  | b :: r =>
    if sep b then [] :: splitBy sep r
    else
      match splitBy sep r with
      | [] => [[b]]
      | w :: ws => (b :: w) :: ws

/-- The value of a hexadecimal digit. -/
def formHex (b : UInt8) : Option Nat :=
  if 48 ≤ b ∧ b ≤ 57 then some (b.toNat - 48)
  else if 65 ≤ b ∧ b ≤ 70 then some (b.toNat - 55)
  else if 97 ≤ b ∧ b ≤ 102 then some (b.toNat - 87)
  else none

/-- The byte that two hexadecimal digits at the start stand for. -/
def formEscape : Bytes → Option UInt8
  | h :: l :: _ => (formHex h).bind fun m => (formHex l).map fun n => UInt8.ofNat (16 * m + n)
  | _ => none

/-- `+` is a space, `%` and two hexadecimal digits are a byte, and everything else stands for itself. -/
def formDecode : Bytes → Bytes
  | [] => []
  | b :: r =>
    if b = 43 then 32 :: formDecode r
    else
      match if b = 37 then formEscape r else none with
      | some v => v :: formDecode (r.drop 2)
      | none => b :: formDecode r
termination_by x => x.length
decreasing_by all_goals simp; try omega

/-- The name is what comes before the first `=`, the value what comes after it; without `=` the value is empty. -/
def formPair (w : Bytes) : Bytes × Bytes :=
  (formDecode (w.takeWhile (· != 61)), formDecode ((w.dropWhile (· != 61)).drop 1))

/-- The names and values; empty pieces are skipped. -/
def formPairs (sep : UInt8 → Bool) (x : Bytes) : List (Bytes × Bytes) := ((splitBy sep x).filter (· != [])).map formPair

/-- The separator of the WHATWG standard. -/
def ampersand (b : UInt8) : Bool := b == 38

/-- The separators of the HTML 4.01 recommendation. -/
def ampersandOrSemicolon (b : UInt8) : Bool := b == 38 || b == 59

end Verif.Util
