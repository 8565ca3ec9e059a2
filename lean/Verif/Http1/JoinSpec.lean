import Verif.Http1.LooseSpec

/-!
# The header fields of any accepted head

What a list of accepted header lines amounts to when it is read field by field: lines without a name belong to the field
before them. Written without reference to the programs that read heads.
-/

namespace Verif.Http1

/-- The lines of a header block, read as fields: the text that belongs to a field before the first line, and the fields,
each with its name in lower case and its whole value. Folded lines and fields with an empty name are part of the field
before them. -/
def joined : List Line → Bytes × List (Bytes × Bytes)
  | [] => ([], [])
  | .fold _ v :: ls => (v ++ (joined ls).1, (joined ls).2)
  | .field n _ v :: ls =>
    if n = [] then (v ++ (joined ls).1, (joined ls).2)
    else ([], (Verif.lower n, v ++ (joined ls).1) :: (joined ls).2)

/-- The fields of a head. What stands before the first field with a name belongs to none. -/
def Head.fields (x : Head) : List (Bytes × Bytes) := (joined x.lines).2

/-- The value of the last field with a name. -/
def lastOf (fs : List (Bytes × Bytes)) (n : Bytes) : Option Bytes := fs.reverse.lookup n

end Verif.Http1
