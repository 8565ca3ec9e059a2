import Verif.Http2.AnySpec

/-!
# Specification: the frames as everybody else finds them

Not part of the code: how a program that only looks at the lengths in the frame headers finds the frames (RFC 7540,
section 4.1), and which lengths suit the types of the frames. `num` is that of `Verif.Http2.AnySpec`. Used by C110.
-/

namespace Verif.Http2

/-- At most `k` frame headers, each one as it is to be reported. -/
def headersIn : Nat → Bytes → List Ev
  | k + 1, a :: b :: c :: t :: f :: i :: j :: k' :: l :: r =>
    .frameFormat (UInt32.ofNat (num [a, b, c])) t f (UInt32.ofNat (num [i, j, k', l] % 2 ^ 31)) ::
      headersIn k (r.drop (num [a, b, c]))
  | _, _ => []

/-- All frame headers. (Frames are not empty, so `m.length` is enough.) -/
def framesIn (m : Bytes) : List Ev := headersIn m.length m

/-- The pad length and the padding of a frame whose payload starts with `r`. -/
def padding (flags : UInt8) (r : Bytes) : Nat := if (flags &&& 0x8) == 0x8 then 1 + (r.headD 0).toNat else 0

/-- The length `n` suits the type: the fields and the padding take no more, and frames that have nothing but fields are
as long as these. A SETTINGS frame has one setting. -/
def Suits (n : Nat) (type flags : UInt8) (r : Bytes) : Prop :=
  if type = 2 then n = 5
  else if type = 3 ∨ type = 8 then n = 4
  else if type = 4 then n = 6
  else if type = 7 then 8 ≤ n
  else if type = 6 ∨ type = 9 then True
  else if type = 1 then padding flags r + (if (flags &&& 0x20) == 0x20 then 5 else 0) ≤ n
  else if type = 5 then padding flags r + 4 ≤ n
  else padding flags r ≤ n

instance (n : Nat) (type flags : UInt8) (r : Bytes) : Decidable (Suits n type flags r) := by
  unfold Suits; infer_instance

/-- The lengths of all of the first `k` frames suit their types. -/
def suitAll : Nat → Bytes → Bool
  | k + 1, a :: b :: c :: t :: f :: _ :: _ :: _ :: _ :: r =>
    decide (Suits (num [a, b, c]) t f r) && suitAll k (r.drop (num [a, b, c]))
  | _, _ => true

/-- The lengths of all frames suit their types. -/
def FramesFit (m : Bytes) : Prop := suitAll m.length m = true

instance (m : Bytes) : Decidable (FramesFit m) := inferInstanceAs (Decidable (suitAll _ _ = true))

end Verif.Http2
