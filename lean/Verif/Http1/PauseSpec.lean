import Verif.Http1.Client

/-!
# Reading a message call by call

Part of the specification of C86: how often a handler stops the parser.
-/

namespace Verif.Http1

/-- The number of callbacks in `t` that the handler answers with `false`, when `l` were executed before. -/
def stops (h : Handler) : List Ev → List Ev → Nat
  | _, [] => 0
  | l, e :: t => (if h.ret (l ++ [e]) = false then 1 else 0) + stops h (l ++ [e]) t

/-- The call came back: it did not panic and did not read outside the slice. -/
def Back (o : Outcome) : Prop := o.last ≠ .panic ∧ o.last ≠ .ub ∧ o.last ≠ .diverge

/-- A handler that answers `false` when something begins, except for the first time. -/
def pausesAt (e : Ev) : Handler :=
  ⟨fun l => !(l.getLast? == some e && decide (1 < l.count e)), fun _ => none⟩

end Verif.Http1
