import Verif.Util.Query

/-!
# Header field iteration

Models `src/util/field.rs`.
-/

namespace Verif.Util

open Ctx

/-- `FieldError`, src/util/field.rs lines 21-27. -/
inductive FieldError
  | name (b : UInt8)
  | value (b : UInt8)
deriving Repr, DecidableEq

/-- `FieldIterator`, src/util/field.rs lines 111-118, with the errors reported so far instead of the
callback (as for `QueryIter`). -/
structure FieldIter where
  ctx : Ctx
  delimiter : UInt8
  name : Bytes
  normalize : Bool
  value : Bytes
  errs : List FieldError
deriving Repr, DecidableEq

/-- `FieldIterator::new`, src/util/field.rs lines 136-145. -/
def FieldIter.new (field : Bytes) (delimiter : UInt8) (normalize : Bool) : FieldIter :=
  ⟨Ctx.new field, delimiter, [], normalize, [], []⟩

/-- `submit_error!`, src/util/mod.rs lines 19-27, and the same statements written out at
src/util/field.rs lines 264-268, 300-304 and 321-325. -/
def FieldIter.submitError (it : FieldIter) (mk : UInt8 → FieldError) : Step FieldIter :=
  let c := it.ctx.jump it.ctx.available
  .none { it with ctx := c, errs := it.errs ++ [mk c.byte] }

/-- `submit_name!`, src/util/mod.rs lines 29-41. -/
def FieldIter.submitName (it : FieldIter) : Step FieldIter := .item (it.name, none) it

/-- `submit_name_value!`, src/util/mod.rs lines 60-75. -/
def FieldIter.submitNameValue (it : FieldIter) : Step FieldIter := .item (it.name, some it.value) it

/-- The end of a quoted value, src/util/field.rs lines 229-251, after the closing quote was read. -/
def afterQuote (it : FieldIter) : Step FieldIter :=
  let it := { it with value := it.value ++ it.ctx.sliceIgnore }
  match it.ctx.consumeLinearSpace with
  | .eos c => FieldIter.submitNameValue { it with ctx := c }
  | .brk c =>
    let it := { it with ctx := c }
    if c.available = 0 then it.submitNameValue
    else match c.next with
      | some c =>
        let it := { it with ctx := c }
        if c.byte == it.delimiter then it.submitNameValue else it.submitError .value
      | none => .panic
  | .fail _ => .panic
  | .panic => .panic

/-- The loop over a quoted value, src/util/field.rs lines 218-270. -/
def quotedLoop : Nat → FieldIter → Step FieldIter
  | 0, _ => .diverge
  | n + 1, it =>
    match it.ctx.setMark.collectQuotedField with
    | .eos c => FieldIter.submitError { it with ctx := c } .value
    | .brk c =>
      let it := { it with ctx := c }
      if c.byte == c! '"' then afterQuote it
      else if c.byte == c! '\\' then
        if c.isEos then it.submitError .name
        else
          let it := { it with value := it.value ++ c.sliceIgnore }
          match c.next with
          | some c => quotedLoop n { it with ctx := c, value := it.value ++ [c.byte] }
          | none => .panic
      else it.submitError .value
    | .fail _ => .panic
    | .panic => .panic

/-- An unquoted value, src/util/field.rs lines 271-306. `bs_slice_length!` counts the byte that
stopped the loop, so the branch of lines 292-295 is never taken. -/
def unquoted (it : FieldIter) : Step FieldIter :=
  let d := it.delimiter
  match it.ctx.replay.setMark.collectField (fun b => b == d) with
  | .eos c =>
    let it := { it with ctx := c }
    FieldIter.submitNameValue
      (if c.sliceLength > 0 then { it with value := it.value ++ c.slice } else it)
  | .brk c =>
    let it := { it with ctx := c }
    if c.sliceLength = 0 then it.submitName
    else if c.byte == d then .item (it.name, some c.sliceIgnore) it
    else it.submitError .value
  | .fail _ => .panic
  | .panic => .panic

/-- The part after `=`, src/util/field.rs lines 208-307. -/
def fieldValue (n : Nat) (it : FieldIter) : Step FieldIter :=
  match it.ctx.consumeLinearSpace with
  | .eos c => FieldIter.submitName { it with ctx := c }
  | .brk c =>
    let it := { it with ctx := c }
    if c.byte == c! '"' then quotedLoop n it else unquoted it
  | .fail _ => .panic
  | .panic => .panic

/-- The stop condition of the name loop, src/util/field.rs lines 189-192. -/
def fieldStop (delimiter : UInt8) (normalize : Bool) (b : UInt8) : Bool :=
  b == c! '=' || b == delimiter || b == c! '/' || (normalize && isUpper b)

/-- The outer loop of `FieldIterator::next`, src/util/field.rs lines 172-328. -/
def fieldLoop : Nat → FieldIter → Step FieldIter
  | 0, _ => .diverge
  | n + 1, it =>
    match it.ctx.consumeLinearSpace with
    | .eos c => .none { it with ctx := c }
    | .brk c =>
      match c.replay.setMark.collectTokens (fieldStop it.delimiter it.normalize) with
      | .eos c =>
        let it := { it with ctx := c }
        FieldIter.submitName
          (if c.sliceLength > 0 then { it with name := it.name ++ c.slice } else it)
      | .brk c =>
        let it := { it with ctx := c, name := it.name ++ c.sliceIgnore }
        if c.byte == c! '=' then fieldValue n it
        else if c.byte == c! '/' then fieldLoop n { it with name := it.name ++ [c! '/'] }
        else if c.byte == it.delimiter then it.submitName
        else if isUpper c.byte then fieldLoop n { it with name := it.name ++ [c.byte + 0x20] }
        else it.submitError .name
      | .fail _ => .panic
      | .panic => .panic
    | .fail _ => .panic
    | .panic => .panic

/-- `FieldIterator::next`, src/util/field.rs lines 164-329. Every pass of a loop but the last reads
at least one byte. -/
def FieldIter.next (it : FieldIter) : Step FieldIter :=
  if it.ctx.available = 0 then .none it
  else fieldLoop (it.ctx.available + 2) { it with name := [], value := [] }

end Verif.Util
