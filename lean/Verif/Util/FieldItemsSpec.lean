import Verif.Util.FieldSpec

/-!
# The items of a header field as others read them

How a program that follows the usual rules (for instance those for MIME types of the WHATWG) reads a header field: a name
goes up to `=` or the delimiter; a value is a quoted string, after which all bytes up to the next delimiter are ignored,
or goes up to the delimiter. Used by C113.
-/

namespace Verif.Util

/-- The contents of a quoted string, whose opening quote has been read, and what comes after its closing quote. -/
def quotedString : Bytes → Bytes × Bytes
  | [] => ([], [])
  | [b] => if b = c! '"' ∨ b = c! '\\' then ([], []) else ([b], [])
  | b :: a :: r =>
    if b = c! '"' then ([], a :: r)
    else if b = c! '\\' then (a :: (quotedString r).1, (quotedString r).2)
    else (b :: (quotedString (a :: r)).1, (quotedString (a :: r)).2)

/-- What comes after the first `d`. -/
def afterNext (d : UInt8) (x : Bytes) : Bytes := (x.dropWhile (· ≠ d)).drop 1

/-- At most `n` names, as they are written, and values. -/
def rawItems (d : UInt8) : Nat → Bytes → List (Bytes × Bytes)
  | 0, _ => []
  | _ + 1, [] => []
  | n + 1, b :: x =>
    let w := (b :: x).takeWhile fun c => decide (c ≠ c! '=' ∧ c ≠ d)
    match (b :: x).dropWhile fun c => decide (c ≠ c! '=' ∧ c ≠ d) with
    | [] => [(w, [])]
    | c :: r =>
      if c = d then (w, []) :: rawItems d n r
      else
        match r.dropWhile fun c => decide (Blank c) with
        | [] => [(w, [])]
        | a :: v =>
          if a = c! '"' then (w, (quotedString v).1) :: rawItems d n (afterNext d (quotedString v).2)
          else (w, (a :: v).takeWhile (· ≠ d)) :: rawItems d n (afterNext d (a :: v))

/-- The items of a field, without those that are empty. `name` says what the program does to a name. -/
def fieldItems (name : Bytes → Bytes) (d : UInt8) (x : Bytes) : List (Bytes × Bytes) :=
  ((rawItems d x.length x).map fun i => (name i.1, i.2)).filter (· != ([], []))

/-- Blanks of a name are ignored, and it is in lower case if `normalize` is on. -/
def looseName (normalize : Bool) (w : Bytes) : Bytes :=
  let v := w.filter fun b => !decide (Blank b)
  if normalize then lower v else v

/-- Only blanks before a name are ignored. -/
def strictName (normalize : Bool) (w : Bytes) : Bytes :=
  let v := w.dropWhile fun b => decide (Blank b)
  if normalize then lower v else v

/-- The last byte of a field that is not a blank is a slash or, with `normalize`, an upper-case letter. -/
def OpenEnd (normalize : Bool) (x : Bytes) : Prop :=
  ∃ y b s, x = y ++ b :: s ∧ Blanks s ∧ (b = c! '/' ∨ normalize = true ∧ UpperByte b)

end Verif.Util
