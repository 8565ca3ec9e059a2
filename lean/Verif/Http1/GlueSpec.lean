import Verif.Http1.UrlLoose

/-!
# The fields of any accepted URL-encoded body, for a program that does not look where fields begin

What the names and values of a body amount to when nothing is known but their order: a name that is followed by another
name goes on in it, and so does a value. Written without reference to the program that reads such bodies.
-/

namespace Verif.Http1

/-- The value of a field; empty if there is none. -/
def Pair.text (x : Pair) : Bytes := x.value.elim [] Prod.snd

/-- The fields of a body. Nothing is reported for an empty last field. -/
def LooseUrl.pairs (x : LooseUrl) : List Pair :=
  x.fields.map Prod.fst ++ if x.last.write ++ x.cut = [] then [] else [x.last]

/-- Names and values in their order, neighbours of the same kind joined: the text that is a value before the first name,
and every name with the value after it. Names at the end, with no value after them, are left out. -/
def glued : List Pair → Bytes × List (Bytes × Bytes)
  | [] => ([], [])
  | p :: ps =>
    let v := p.text ++ (glued ps).1
    if p.nameMeaning = [] then (v, (glued ps).2)
    else if v ≠ [] then ([], (p.nameMeaning, v) :: (glued ps).2)
    else
      match (glued ps).2 with
      | [] => ([], [])
      | f :: fs => ([], (p.nameMeaning ++ f.1, f.2) :: fs)

end Verif.Http1
