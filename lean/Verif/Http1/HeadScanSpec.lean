import Verif.Http1.FramingSpec
import Verif.Http1.DetectSpec
import Verif.Http1.LooseSpec

/-!
# Heads as others read them

How a program that knows nothing of this parser's states reads a head: it takes the bytes apart at line ends, the first
line at its blanks, and every other line at its first colon. Used by C112.
-/

namespace Verif.Http1

/-- The bytes before the first `c` and those after it. -/
def cutAt (c : UInt8) (x : Bytes) : Bytes × Bytes := (x.takeWhile (· ≠ c), (x.dropWhile (· ≠ c)).drop 1)

/-- The lines before the first empty one of at most `n` lines, and what comes after it. `split` takes off a line. -/
def headLines (split : Bytes → Option (Bytes × Bytes)) : Nat → Bytes → Option (List Bytes × Bytes)
  | 0, _ => none
  | n + 1, x =>
    match split x with
    | none => none
    | some ([], r) => some ([], r)
    | some (b :: s, r) => (headLines split n r).map fun y => ((b :: s) :: y.1, y.2)

/-- `1.1` -/
def scanVersion (v : Bytes) : Ev := .version (decVal (cutAt (c! '.') v).1) (decVal (cutAt (c! '.') v).2)

/-- A first line: that of a response if it starts with `HTTP/`, else that of a request. -/
def scanStart (s : Bytes) : List Ev :=
  if s.take 5 = b!"HTTP/" then
    let x := cutAt (c! ' ') (s.drop 5)
    let y := cutAt (c! ' ') x.2
    [scanVersion x.1, .statusCode (decVal y.1), .status y.2, .initialFinished]
  else
    let x := cutAt (c! ' ') s
    let y := cutAt (c! ' ') x.2
    [.method x.1, .url y.1, scanVersion (y.2.drop 5), .initialFinished]

/-- Another line: a name and a value, or more of the value before it. `val` is what the program does to the end of a
value. -/
def scanLine (val : Bytes → Bytes) : Bytes → List Ev
  | [] => []
  | b :: s =>
    if Blank b then [.headerValue (val s)]
    else
      let x := cutAt (c! ':') (b :: s)
      [.headerName (Verif.lower x.1), .headerValue (val (x.2.dropWhile fun b => decide (Blank b)))]

/-- Blanks at the end of a value are dropped, as the standard says. -/
def trimEnd (v : Bytes) : Bytes := (v.reverse.dropWhile fun b => decide (Blank b)).reverse

/-- The start line, the fields, and what comes after the head. -/
def scanHead (split : Bytes → Option (Bytes × Bytes)) (val : Bytes → Bytes) (msg : Bytes) : Option (List Ev × Bytes) :=
  let m := msg.dropWhile lead
  match headLines split m.length m with
  | some (s :: ls, r) => some (scanStart s ++ ls.flatMap (scanLine val) ++ [.headersFinished], r)
  | _ => none

/-- No line of the head ends with a blank. -/
def NoTrailingBlanks (msg : Bytes) : Prop :=
  let m := msg.dropWhile lead
  ∀ ls r, headLines splitLine m.length m = some (ls, r) → ∀ s ∈ ls, ∀ b, s.getLast? = some b → ¬ Blank b

end Verif.Http1
