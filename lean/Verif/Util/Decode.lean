import Verif.Stream

/-!
# URL decoding

Models `src/util/decode.rs` and the macro `collect_hex8!` of `src/collect.rs`.
-/

namespace Verif.Util

open Ctx

/-- `DecodeError`, src/util/decode.rs lines 22-28. -/
inductive DecodeError
  | byte (b : UInt8)
  | hexSequence (b : UInt8)
deriving Repr, DecidableEq

/-- How a call of `decode` ends: `Ok(String)` (the bytes of the string), `Err`, a panic, or not at
all (`diverge`: the fuel of the model ran out; proved impossible in `Verif.Props.Decode`).
src/util/decode.rs 22-28, 97. -/
inductive Decoded
  | ok (s : Bytes)
  | err (e : DecodeError)
  | panic
  | diverge
deriving Repr, DecidableEq

/-- One digit of `collect_hex8!` (src/collect.rs lines 51-59 and 66-74): digit, then `A`-`F`, then
`a`-`f`; `none` is the error branch. The arithmetic is on `u8`. -/
def hexNibble (b : UInt8) : Option UInt8 :=
  if isDigit b then some (b - c! '0')
  else if c! '@' < b && b < c! 'G' then some (b - 0x37)
  else if c! '`' < b && b < c! 'g' then some (b - 0x57)
  else none

/-- How `collect_hex8!` ends: a byte, the error branch (the offending byte is `byte` of the
context), or a panic of `bs_next!`. src/collect.rs 46-78. -/
inductive Hex8
  | ok (v : UInt8) (c : Ctx)
  | fail (c : Ctx)
  | panic
deriving Repr, DecidableEq

/-- `collect_hex8!`, src/collect.rs lines 46-78, and `collect_hex8_iter!`, lines 86-122 (the same
but for the way the error is reported). `(hi << 4) + lo` on `u8`: with `hi, lo < 16` neither the
shift nor the sum overflows. -/
def collectHex8 (c : Ctx) : Hex8 :=
  match c.next with
  | none => .panic
  | some c =>
    match hexNibble c.byte with
    | none => .fail c
    | some hi =>
      match c.next with
      | none => .panic
      | some c =>
        match hexNibble c.byte with
        | none => .fail c
        | some lo => .ok ((hi <<< 4) + lo) c

/-- The loop of `decode`, src/util/decode.rs lines 107-148. `out` is `string`. -/
def decodeLoop : Nat → Ctx → Bytes → Decoded
  | 0, _, _ => .diverge
  | n + 1, c, out =>
    let c := c.setMark
    match c.collectVisible7bit (fun b => b == c! '+' || b == c! '%') with
    | .eos c => .ok (if c.mark < c.idx then out ++ c.slice else out)
    | .brk c =>
      let out := if c.sliceLength > 1 then out ++ c.sliceIgnore else out
      if c.byte == c! '+' then decodeLoop n c (out ++ b!" ")
      else if c.byte == c! '%' then
        if c.hasBytes 2 then
          match collectHex8 c with
          | .ok v c => decodeLoop n c (out ++ [v])
          | .fail c => .err (.hexSequence c.byte)
          | .panic => .panic
        else if c.hasBytes 1 then
          match c.next with
          | some c => .err (.hexSequence c.byte)
          | none => .panic
        else .err (.hexSequence c.byte)
      else .err (.byte c.byte)
    | .fail _ => .panic
    | .panic => .panic

/-- `decode`, src/util/decode.rs lines 97-149. Every pass of the loop but the last reads at least
one byte, so `length + 1` passes are enough. -/
def decode (encoded : Bytes) : Decoded := decodeLoop (encoded.length + 1) (Ctx.new encoded) []

end Verif.Util
