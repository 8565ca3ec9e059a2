import Verif.Util.FieldSpec
import Verif.Util.Field

/-!
# What any bytes mean as a header field and as a query

Not part of the code: two readers that take one item after the other from the unread bytes. They say what every call of
`next` returns, which errors are reported in it, and where `next` panics. They describe what the code does, including
what is odd about it; the oddities are pointed out.
-/

namespace Verif.Util

/-- What a call of `next` does: it returns something after reporting some errors, or it panics, or it never ends. -/
inductive Said (E : Type)
  | returns (x : Option Item) (errors : List E)
  | panic
  | diverge
deriving Repr, DecidableEq

/-- What the first `n` calls of `next` do. `errs` are the errors reported so far. -/
def said {ι E : Type} (next : ι → Step ι) (errs : ι → List E) : Nat → ι → List (Said E)
  | 0, _ => []
  | n + 1, it =>
    match next it with
    | .item x it' => .returns (some x) ((errs it').drop (errs it).length) :: said next errs n it'
    | .none it' => .returns none ((errs it').drop (errs it).length) :: said next errs n it'
    | .panic => [.panic]
    | .diverge => [.diverge]

namespace Read

/-- What is read: an item or an error, and the bytes that are left; nothing; or a panic. -/
inductive Got (E : Type)
  | item (x : Item) (rest : Bytes)
  | wrong (e : E) (rest : Bytes)
  | nothing
  | crash
deriving Repr, DecidableEq

/-- What `n` calls do, if `read` reads from the unread bytes. The flag says that nothing was read before. -/
def calls {E : Type} (read : Bool → Bytes → Got E) : Nat → Bool → Bytes → List (Said E)
  | 0, _, _ => []
  | n + 1, first, x =>
    match read first x with
    | .item i r => .returns (some i) [] :: calls read n false r
    | .wrong e r => .returns none [e] :: calls read n false r
    | .nothing => .returns none [] :: calls read n false []
    | .crash => [.panic]

/-! ## Header fields -/

/-- After the closing quote: blanks, one byte that is ignored whatever it is, and the delimiter. -/
def afterQuoted (d : UInt8) (n v r : Bytes) : Got FieldError :=
  match r.dropWhile (fun b => decide (Blank b)) with
  | _ :: b :: r => if b = d then .item (n, some v) r else .wrong (.value b) []
  | _ => .item (n, some v) []

/-- A quoted value; `v` is what was read of it, `p` the byte read last. -/
def quotedValue (d : UInt8) (n : Bytes) : UInt8 → Bytes → Bytes → Got FieldError
  | p, [], _ => .wrong (.value p) []
  | _, b :: r, v =>
    if b = 255 then .crash
    else if b = c! '"' then afterQuoted d n v r
    else if b = c! '\\' then
      match r with
      | [] => .wrong (.name b) []
      | e :: r => quotedValue d n e r (v ++ [e])
    else if FieldByte b then quotedValue d n b r (v ++ [b])
    else .wrong (.value b) []

/-- An unquoted value; `v` is what was read of it. -/
def plainValue (d : UInt8) (n : Bytes) : Bytes → Bytes → Got FieldError
  | [], v => .item (n, some v) []
  | b :: r, v =>
    if b = 255 then .crash
    else if b = d then .item (n, some v) r
    else if FieldByte b then plainValue d n r (v ++ [b])
    else .wrong (.value b) []

/-- What follows the equals sign after the name `n`. -/
def fieldValue (d : UInt8) (n r : Bytes) : Got FieldError :=
  match r.dropWhile (fun b => decide (Blank b)) with
  | [] => .item (n, none) []
  | b :: r => if b = c! '"' then quotedValue d n b r [] else plainValue d n (b :: r) []

/-- An item; `n` is what was read of its name. At the beginning and after a slash or (with normalisation) an upper-case
letter, blanks are skipped, and a field that ends there has no further item. -/
def fieldItem (d : UInt8) (z : Bool) : Bool → Bytes → Bytes → Got FieldError
  | loose, [], n => if loose then .nothing else .item (n, none) []
  | loose, b :: r, n =>
    if loose = true ∧ Blank b then fieldItem d z true r n
    else if b = 255 then .crash
    else if b = c! '=' then fieldValue d n r
    else if b = c! '/' then fieldItem d z true r (n ++ [b])
    else if b = d then .item (n, none) r
    else if z = true ∧ UpperByte b then fieldItem d z true r (n ++ lower [b])
    else if TokenByte b then fieldItem d z false r (n ++ [b])
    else .wrong (.name b) []

/-- What `n` calls of `next` do for the field `x`. -/
def field (d : UInt8) (z : Bool) (n : Nat) (x : Bytes) : List (Said FieldError) :=
  calls (fun _ r => fieldItem d z true r []) n true x

/-! ## Queries -/

/-- The value of a hexadecimal digit. -/
def hexDigit (b : UInt8) : Option Nat := (List.range 16).find? fun n => HexDigit b n

/-- A value; `v` is what was read of it. After an escape with a byte that is no hexadecimal digit, iteration goes on
behind this byte. -/
def queryValue (n : Bytes) : Bytes → Bytes → Got QueryError
  | [], v => .item (n, some v) []
  | b :: r, v =>
    if b = c! '%' then
      match r with
      | [] => .wrong (.value b) []
      | [h] => .wrong (.value h) []
      | h :: l :: r' =>
        match hexDigit h, hexDigit l with
        | none, _ => .wrong (.value h) (l :: r')
        | some _, none => .wrong (.value l) r'
        | some i, some j => queryValue n r' (v ++ [UInt8.ofNat (16 * i + j)])
    else if b = c! '+' then queryValue n r (v ++ b!" ")
    else if b = c! '&' ∨ b = c! ';' then .item (n, some v) r
    else if 0x21 ≤ b ∧ b ≤ 0x7E then queryValue n r (v ++ [b])
    else .wrong (.value b) []
termination_by r => r.length

/-- A name and, after an equals sign, a value; `n` is what was read of the name. Every escape in a name is an error. The
first name of a query may not be empty. -/
def queryName (first : Bool) : Bytes → Bytes → Got QueryError
  | [], n => .item (n, none) []
  | b :: r, n =>
    if b = c! '%' then
      match r with
      | [] => .wrong (.name b) []
      | [h] => .wrong (.name h) []
      | h :: l :: r' =>
        match hexDigit h, hexDigit l with
        | none, _ => .wrong (.name h) (l :: r')
        | some _, none => .wrong (.name l) r'
        | some _, some _ => .wrong (.name l) []
    else if b = c! '+' then queryName false r (n ++ b!" ")
    else if b = c! '=' then if first then .wrong (.name b) [] else queryValue n r []
    else if b = c! '&' ∨ b = c! ';' then if first then .wrong (.name b) [] else .item (n, none) r
    else if 0x21 ≤ b ∧ b ≤ 0x7E then queryName false r (n ++ [b])
    else .wrong (.name b) []

/-- What `n` calls of `next` do for the query `x`. -/
def query (n : Nat) (x : Bytes) : List (Said QueryError) :=
  calls (fun first r => if r = [] then .nothing else queryName first r []) n true x

end Read

end Verif.Util
