import Verif.Http1.ConnSpec
import Verif.Http1.ForwardSpec

/-!
# Specification: a handler that passes a connection on

Not part of the code: a handler that writes down heads and bodies as their callbacks come. It knows what the client has
asked for, and starts afresh when a head or a body has ended. Used by C106.
-/

namespace Verif.Http1

/-- What is written for a callback, as in C102 and C103. -/
def Mode.pass : Mode → Last → Ev → Bytes
  | .head => Http1.pass
  | .multipart bd => passPart bd
  | _ => passBody

/-- The callback with which a head or a body ends. -/
def Mode.ends : Mode → Ev
  | .head => .headersFinished
  | _ => .bodyFinished

/-- What is written for a history: the client asked for `m`, `past` are the callbacks before, and `last` is the last one of
them about this head or body. `next` is what the client asks for next. -/
def forwardConnFrom (next : List Ev → Option Mode) (m : Mode) (past : List Ev) (last : Last) : List Ev → Bytes
  | [] => []
  | e :: l =>
    m.pass last e ++
      if e = m.ends then
        match next (past ++ [e]) with
        | none => []
        | some m' => forwardConnFrom next m' (past ++ [e]) .none l
      else forwardConnFrom next m (past ++ [e]) e.last l

@[inherit_doc forwardConnFrom]
def forwardConn (next : List Ev → Option Mode) (m : Mode) (l : List Ev) : Bytes := forwardConnFrom next m [] .none l

/-- The client asks for heads, and for bodies whose end is in their bytes: chunked ones, and multipart ones with a boundary
of less than 2^14 bytes without CR. -/
def Mode.Marked : Mode → Prop
  | .head | .chunked => True
  | .form _ => False
  | .multipart bd => bd.length < 16384 ∧ c! '\r' ∉ bd

/-- The slices are long enough for methods that start with `H` (C72), or there are none. -/
def Suits (ks : List Nat) (l : List Ev) : Prop := (∀ k ∈ ks, 9 ≤ k) ∨ ∀ d, Ev.method d ∈ l → c! 'H' ∉ d

end Verif.Http1
