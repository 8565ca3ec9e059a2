import Verif.Http1.HeadScanSpec
import Verif.Http1.ConnSpec

/-!
# A connection as others read it

A connection carries heads, some of them with a chunked body or a URL-encoded body of some length. A rule decides from the
start line (without the method) and the header fields of a head which body comes after it. Used by C114.
-/

namespace Verif.Http1

/-- A callback about a method. -/
def isMethod : Ev → Bool
  | .method _ => true
  | _ => false

/-- What a rule looks at: the callbacks of a head, byte by byte, without those of the method. -/
def withoutMethod (l : List Ev) : List Ev := (flat l).dropWhile isMethod

/-- The body after a head. -/
inductive BodyKind
  | none | chunked | length (n : Nat)
deriving DecidableEq, Repr

/-- Other programs: what comes after a body; `none` if it is not all there. -/
def BodyKind.skip : BodyKind → Bytes → Option Bytes
  | .none, r => some r
  | .chunked, r => afterBody bareZero r
  | .length n, r => if n ≤ r.length then some (r.drop n) else Option.none

/-- What the client asks the parser for. -/
def BodyKind.mode : BodyKind → Option Mode
  | .none => Option.none
  | .chunked => some .chunked
  | .length n => some (.form n)

/-- Other programs: they take `n` messages apart by line ends, colons, chunk sizes and lengths. The start lines and fields of their
heads, and what comes after the last message; `none` if it is not all there. -/
def scanConn (rule : List Ev → BodyKind) : Nat → Bytes → Option (List (List Ev) × Bytes)
  | 0, x => some ([], x)
  | n + 1, x =>
    match scanHead splitLine id x with
    | none => none
    | some (es, r) =>
      match (rule (withoutMethod es)).skip r with
      | none => none
      | some r => (scanConn rule n r).map fun y => (es :: y.1, y.2)

/-- A callback with which a head or a body ends. -/
def isEnd (e : Ev) : Bool := e == .headersFinished || e == .bodyFinished

/-- The callbacks of the message that has just ended. -/
def lastMessage (l : List Ev) : List Ev :=
  (l.dropLast.reverse.takeWhile fun e => !isEnd e).reverse ++ l.drop (l.length - 1)

/-- The client of the parser: after a head it asks for the body that the rule tells; after a message it asks for another
head, unless `stop`, which may depend on everything that was reported, tells it not to. -/
def asks (rule : List Ev → BodyKind) (stop : List Ev → Bool) (l : List Ev) : Option Mode :=
  match (if (flat l).getLast? = some .headersFinished then (rule (withoutMethod (lastMessage (flat l)))).mode else none) with
  | some m => some m
  | none => if stop l then none else some .head

/-- `Told es t`: the callbacks `t`, byte by byte, are those of the head `es`, or they lack letters of `HTTP` at the start
of the method (C18). -/
def Told (es t : List Ev) : Prop :=
  flat es = t ∨ ∃ p : Bytes, p <+: b!"HTTP" ∧ flat es = (p.map fun c => .method [c]) ++ t

end Verif.Http1
