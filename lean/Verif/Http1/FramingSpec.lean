import Verif.Http1.EndSpec
import Verif.Http1.ReadSpec

/-!
# Specification: the end of a chunked body as everybody else finds it

Not part of the code: how a program that only looks at line ends and sizes finds out where a chunked body ends. Used by
C108.
-/

namespace Verif.Http1

/-- The bytes before the first CR LF and those after it; `none` if there is no CR LF. -/
def splitLine : Bytes → Option (Bytes × Bytes)
  | 13 :: 10 :: r => some ([], r)
  | b :: r => (splitLine r).map fun x => (b :: x.1, x.2)
  | [] => none

/-- The number at the start of a line, in hexadecimal digits. -/
def lineSize (line : Bytes) : Nat := Read.hexNum (line.takeWhile fun b => (Read.hex b).isSome)

/-- What comes after at most `n` chunks, the last one of which has a size line as `last` says, and after the empty line
that ends the trailers; `none` if it is not all there. -/
def afterChunks (last : Bytes → Bool) : Nat → Bytes → Option Bytes
  | 0, _ => none
  | n + 1, x =>
    match splitLine x with
    | none => none
    | some (line, r) =>
      if last line then afterEmptyLine (b!"\r\n" ++ r)
      else
        match r.drop (lineSize line) with
        | 13 :: 10 :: r => afterChunks last n r
        | _ => none

/-- What comes after a chunked body. -/
def afterBody (last : Bytes → Bool) (x : Bytes) : Option Bytes := afterChunks last x.length x

/-! Others take a bare LF for a line end, too. -/

/-- The bytes before the first LF and those after it; `none` if there is no LF. -/
def splitLf : Bytes → Option (Bytes × Bytes)
  | [] => none
  | b :: r => if b = 10 then some ([], r) else (splitLf r).map fun x => (b :: x.1, x.2)

/-- A line that ends with LF or CR LF, and what comes after it. -/
def lfLine (x : Bytes) : Option (Bytes × Bytes) :=
  (splitLf x).map fun x => (if x.1.getLast? = some 13 then x.1.dropLast else x.1, x.2)

/-- What comes after the first empty one of at most `n` lines. -/
def lfTrailer : Nat → Bytes → Option Bytes
  | 0, _ => none
  | n + 1, x =>
    match lfLine x with
    | none => none
    | some ([], r) => some r
    | some (_ :: _, r) => lfTrailer n r

/-- As `afterChunks`, with lines that end with LF or CR LF. -/
def lfChunks (last : Bytes → Bool) : Nat → Bytes → Option Bytes
  | 0, _ => none
  | n + 1, x =>
    match lfLine x with
    | none => none
    | some (line, r) =>
      if last line then lfTrailer r.length r
      else
        match lfLine (r.drop (lineSize line)) with
        | some ([], r) => lfChunks last n r
        | _ => none

/-- As `afterBody`, with lines that end with LF or CR LF. -/
def lfBody (last : Bytes → Bool) (x : Bytes) : Option Bytes := lfChunks last x.length x

/-! Which chunk is the last one. -/

/-- The last chunk, as the standard has it (RFC 7230, 4.1): the size is zero. -/
def zeroSize (line : Bytes) : Bool := lineSize line == 0

/-- The last chunk, as the code has it: the size line is `0`, and nothing else. -/
def bareZero (line : Bytes) : Bool := line == b!"0"

end Verif.Http1
