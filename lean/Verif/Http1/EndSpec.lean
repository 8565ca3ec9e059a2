import Verif.Http1.DetectSpec

/-!
# Specification: the end of a head as everybody else finds it

Not part of the code: how a program that only looks for line ends finds out where a head ends. Used by C101.
-/

namespace Verif.Http1

/-- What comes after the first empty line (CR LF CR LF); `none` if there is none. -/
def afterEmptyLine : Bytes → Option Bytes
  | 13 :: 10 :: 13 :: 10 :: r => some r
  | _ :: r => afterEmptyLine r
  | [] => none

/-- CR and LF only occur together, in this order. -/
def crlfOnly : Bytes → Bool
  | 13 :: 10 :: r => crlfOnly r
  | b :: r => b != 13 && b != 10 && crlfOnly r
  | [] => true

end Verif.Http1
