import Verif.Util.Decode

/-!
# Query iteration

Models `src/util/query.rs` and the `submit_*` macros of `src/util/mod.rs`.
-/

namespace Verif.Util

open Ctx

/-- `QueryError`, src/util/query.rs lines 21-27. -/
inductive QueryError
  | name (b : UInt8)
  | value (b : UInt8)
deriving Repr, DecidableEq

/-- An item of either iterator: a name and an optional value (the bytes of the two `String`s).
src/util/field.rs 162, src/util/query.rs 156. -/
abbrev Item := Bytes × Option Bytes

/-- `QueryIterator`, src/util/query.rs lines 112-117. `errs` are the errors passed to the
`on_error` callback so far, in order (the callback itself is not modelled: it cannot influence the
iterator). -/
structure QueryIter where
  ctx : Ctx
  name : Bytes
  value : Bytes
  errs : List QueryError
deriving Repr, DecidableEq

/-- `QueryIterator::new`, src/util/query.rs lines 127-134. -/
def QueryIter.new (query : Bytes) : QueryIter := ⟨Ctx.new query, [], [], []⟩

/-- How a call of `next` ends: with an item or with `None` and the changed iterator, by a panic, or
not at all (fuel of the model; proved impossible). src/util/field.rs 164, src/util/query.rs 158. -/
inductive Step (ι : Type)
  | item (x : Item) (it : ι)
  | none (it : ι)
  | panic
  | diverge
deriving Repr, DecidableEq

/-- `submit_error!`, src/util/mod.rs lines 19-27, and the same statements written out at
src/util/query.rs lines 233-237 and 290-294: skip the rest, report, return `None`. -/
def QueryIter.submitError (it : QueryIter) (mk : UInt8 → QueryError) : Step QueryIter :=
  let c := it.ctx.jump it.ctx.available
  .none { it with ctx := c, errs := it.errs ++ [mk c.byte] }

/-- `submit_name!`, src/util/mod.rs lines 29-41. -/
def QueryIter.submitName (it : QueryIter) : Step QueryIter := .item (it.name, none) it

/-- `submit_name_value!`, src/util/mod.rs lines 60-75. -/
def QueryIter.submitNameValue (it : QueryIter) : Step QueryIter := .item (it.name, some it.value) it

/-- The value loop of `QueryIterator::next`, src/util/query.rs lines 242-297. -/
def valueLoop : Nat → QueryIter → Step QueryIter
  | 0, _ => .diverge
  | n + 1, it =>
    match it.ctx.setMark.collectVisible7bit
        (fun b => b == c! '%' || b == c! '+' || b == c! '&' || b == c! ';') with
    | .eos c =>
      let it := { it with ctx := c }
      QueryIter.submitNameValue
        (if c.sliceLength > 0 then { it with value := it.value ++ c.slice } else it)
    | .brk c =>
      let it := { it with ctx := c }
      let it := if c.sliceLength > 1 then { it with value := it.value ++ c.sliceIgnore } else it
      if c.byte == c! '%' then
        if c.hasBytes 2 then
          match collectHex8 c with
          | .ok v c => valueLoop n { it with ctx := c, value := it.value ++ [v] }
          | .fail c => .none { it with ctx := c, errs := it.errs ++ [.value c.byte] }
          | .panic => .panic
        else if c.hasBytes 1 then
          match c.next with
          | some c => QueryIter.submitError { it with ctx := c } .value
          | none => .panic
        else it.submitError .value
      else if c.byte == c! '+' then valueLoop n { it with value := it.value ++ [c! ' '] }
      else if c.byte == c! '&' || c.byte == c! ';' then it.submitNameValue
      else it.submitError .value
    | .fail _ => .panic
    | .panic => .panic

/-- The field loop of `QueryIterator::next`, src/util/query.rs lines 169-239; leaving it by
`break` goes on with the value loop. -/
def nameLoop : Nat → QueryIter → Step QueryIter
  | 0, _ => .diverge
  | n + 1, it =>
    match it.ctx.setMark.collectVisible7bit
        (fun b => b == c! '%' || b == c! '+' || b == c! '=' || b == c! '&' || b == c! ';') with
    | .eos c =>
      let it := { it with ctx := c }
      QueryIter.submitName
        (if c.sliceLength > 0 then { it with name := it.name ++ c.slice } else it)
    | .brk c =>
      let it := { it with ctx := c }
      let it := if c.sliceLength > 1 then { it with name := it.name ++ c.sliceIgnore } else it
      if c.byte == c! '%' then
        if c.hasBytes 2 then
          match collectHex8 c with
          | .ok v c => QueryIter.submitError { it with ctx := c, name := it.name ++ [v] } .name
          | .fail c => .none { it with ctx := c, errs := it.errs ++ [.name c.byte] }
          | .panic => .panic
        else if c.hasBytes 1 then
          match c.next with
          | some c => QueryIter.submitError { it with ctx := c } .name
          | none => .panic
        else it.submitError .name
      else if c.byte == c! '+' then nameLoop n { it with name := it.name ++ [c! ' '] }
      else if c.byte == c! '=' then
        if c.idx = 1 then it.submitError .name else valueLoop n it
      else if c.idx = 1 then it.submitError .name
      else if c.byte == c! '&' || c.byte == c! ';' then it.submitName
      else it.submitError .name
    | .fail _ => .panic
    | .panic => .panic

/-- `QueryIterator::next`, src/util/query.rs lines 155-300. The outer `loop` (line 167) never comes
round: the value loop is left only by `return`. Every pass of an inner loop but the last reads at
least one byte, so `available + 1` passes are enough. -/
def QueryIter.next (it : QueryIter) : Step QueryIter :=
  if it.ctx.available = 0 then .none it
  else nameLoop (it.ctx.available + 2) { it with name := [], value := [] }

end Verif.Util
