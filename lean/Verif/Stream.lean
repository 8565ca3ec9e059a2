import Verif.Bytes

/-!
# Byte streams

`ByteStream` of the external crate `byte-slice` 0.1.11 and the macros of `src/collect.rs`.
The crate's source is not part of /repo; the macros are modelled from their uses (cited below).
-/

namespace Verif

/-- `ByteStream`: the slice, `stream_index`, `mark_index` and `byte` (the last byte read, initially
0). Used in src/http1/parser.rs line 293 and src/util/decode.rs line 104. -/
structure Ctx where
  stream : Bytes
  idx : Nat
  mark : Nat
  byte : UInt8
deriving Repr, DecidableEq

namespace Ctx

/-- `ByteStream::new(slice)`.
Uses: src/http1/parser.rs 293, src/http2/parser.rs 256, src/util/field.rs 138,
src/util/decode.rs 104, src/util/query.rs 134. -/
def new (s : Bytes) : Ctx := ⟨s, 0, 0, 0⟩

/-- `bs_available!`: the number of unread bytes.
Uses: src/util/field.rs 165, 240, 264; src/http2/parser.rs 113. -/
def available (c : Ctx) : Nat := c.stream.length - c.idx

/-- The unread bytes (not a macro; used to describe the loops below).
Model only: src/http1/parser.rs 679 and the other loops walk over these bytes. -/
def rest (c : Ctx) : Bytes := c.stream.drop c.idx

/-- `bs_is_eos!`. Use: src/util/field.rs 254. -/
def isEos (c : Ctx) : Bool := c.available == 0

/-- `bs_has_bytes!(n)`: at least `n` unread bytes.
Uses: src/util/decode.rs 134, 139; src/util/query.rs 197. -/
def hasBytes (c : Ctx) (n : Nat) : Bool := n ≤ c.available

/-- `bs_next!`: read one byte; `none` is the index-out-of-bounds panic.
Uses: src/util/field.rs 244, 260; src/util/decode.rs 140. -/
def next (c : Ctx) : Option Ctx :=
  match c.stream[c.idx]? with
  | some b => some { c with byte := b, idx := c.idx + 1 }
  | none => none

/-- `bs_replay!`: step back one byte. Uses: src/util/field.rs 181, 273; src/http1/parser.rs 439. -/
def replay (c : Ctx) : Ctx := { c with idx := c.idx - 1 }

/-- `bs_jump!(n)` and `bs_collect_length!(n)`: skip `n` bytes.
Uses: src/util/field.rs 264, 300, 321; src/http1/parser.rs 2441, 2458, 2739. -/
def jump (c : Ctx) (n : Nat) : Ctx := { c with idx := c.idx + n }

/-- `bs_mark!`: put the mark at the current index. Uses: src/util/field.rs 183, 219, 274. -/
def setMark (c : Ctx) : Ctx := { c with mark := c.idx }

/-- `bs_slice!`: the bytes from the mark to the index.
Uses: src/util/field.rs 198, 285; src/fsm.rs 34. -/
def slice (c : Ctx) : Bytes := (c.stream.drop c.mark).take (c.idx - c.mark)

/-- `bs_slice_ignore!`: the same without the last byte. Uses: src/util/field.rs 205, 231, 258. -/
def sliceIgnore (c : Ctx) : Bytes := (c.stream.drop c.mark).take (c.idx - 1 - c.mark)

/-- `bs_slice_length!`. Uses: src/util/field.rs 197, 284, 292; src/fsm.rs 33, 62. -/
def sliceLength (c : Ctx) : Nat := c.idx - c.mark

/-- `bs_starts_withN!` (unsafe, unchecked) and `bs_starts_with!`: do the unread bytes start with
`s`? Where the unchecked form can run with fewer than `N` unread bytes the model guards it
explicitly (see `Http1.detect1`). Uses: src/http1/parser.rs 486, 488, 490. -/
def startsWith (c : Ctx) (s : Bytes) : Bool := s.isPrefixOf c.rest

/-- What the body of a collection loop does with the byte just read: continue, break out of the
loop, leave with an error, or panic in a table lookup.
Bodies: src/collect.rs 24-25, 143-144; src/http1/parser.rs 679, 1407. -/
inductive Act | cont | brk | fail | panic
deriving Repr, DecidableEq

/-- How a collection loop ends.
Loops: src/collect.rs 22-225; src/http1/parser.rs 679, 1407, 2811. -/
inductive Collect
  /-- no unread bytes are left: the `on_eos` expression runs -/
  | eos (c : Ctx)
  /-- the loop body executed `break` -/
  | brk (c : Ctx)
  /-- the loop body left with an error -/
  | fail (c : Ctx)
  /-- the loop body panicked -/
  | panic
deriving Repr, DecidableEq

/-- The loop of `bs_collect!`: `loop { if eos { on_eos }; bs_next!; body }`, by recursion on the
unread bytes. Uses: src/http1/parser.rs 679, 1407; src/collect.rs 24. -/
def collectGo (act : UInt8 → Act) : Bytes → Ctx → Collect
  | [], c => .eos c
  | b :: r, c =>
    let c' := { c with byte := b, idx := c.idx + 1 }
    match act b with
    | .cont => collectGo act r c'
    | .brk => .brk c'
    | .fail => .fail c'
    | .panic => .panic

/-- `bs_collect!(context, body, on_eos)` and `bs_collect_until!`.
Uses: src/http1/parser.rs 679, 1407, 2811; src/collect.rs 24. -/
def collect (act : UInt8 → Act) (c : Ctx) : Collect := collectGo act c.rest c

/-- Loop body `if !class(byte) || stop { break; }` for a table class.
src/collect.rs 24-25, 143-144. -/
def classAct (cls : UInt8 → Option Bool) (stop : UInt8 → Bool) (b : UInt8) : Act :=
  match cls b with
  | none => .panic
  | some true => if stop b then .brk else .cont
  | some false => .brk

/-- `collect_field!`, src/collect.rs lines 22-40. -/
def collectField (stop : UInt8 → Bool) (c : Ctx) : Collect := c.collect (classAct isHeaderField stop)

/-- `collect_quoted_field!`, src/collect.rs lines 127-136. -/
def collectQuotedField (c : Ctx) : Collect :=
  c.collect (classAct isQuotedHeaderField fun _ => false)

/-- `collect_tokens!`, src/collect.rs lines 141-159. -/
def collectTokens (stop : UInt8 → Bool) (c : Ctx) : Collect := c.collect (classAct isToken stop)

/-- `collect_visible_7bit!`, src/collect.rs lines 164-182. -/
def collectVisible7bit (stop : UInt8 → Bool) (c : Ctx) : Collect :=
  c.collect fun b => if !isVisible7bit b || stop b then .brk else .cont

/-- The inner loop of `consume_linear_space!` (src/collect.rs lines 193-201):
`loop { available > 0 || on_eos; bs_next!; if not blank { break } }`. -/
def linearSpaceLoop (c : Ctx) : Collect :=
  c.collect fun b => if b == c! ' ' || b == c! '\t' then .cont else .brk

/-- `consume_linear_space!`, src/collect.rs lines 187-207. The unchecked one-byte comparison runs
only after the availability test. -/
def consumeLinearSpace (c : Ctx) : Collect :=
  if c.available = 0 then .eos c
  else if c.startsWith [c! ' '] || c.startsWith [c! '\t'] then c.linearSpaceLoop
  else match c.next with
    | some c => .brk c
    | none => .panic

end Ctx
end Verif
