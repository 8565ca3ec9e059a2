import Verif.Http1.MessageSpec

/-!
# What a program that reads a head should end up with

The specification for the programs of /repo/examples and /repo/tests: the value that a list of header fields gives to a
name. Written without reference to the programs.
-/

namespace Verif.Http1

/-- The value of a header field: the pieces on its lines, one after the other. -/
def Header.text (y : Header) : Bytes := y.value ++ y.folds.flatMap Prod.snd

/-- The value of the last header field with a name, in lower case. -/
def lastText (ys : List Header) (n : Bytes) : Option Bytes :=
  (ys.reverse.find? fun y => Verif.lower y.name = n).map Header.text

end Verif.Http1
