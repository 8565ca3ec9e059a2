/-!
# Byte classes

Models `src/byte.rs` and the byte predicates (`is_digit!`, `is_hex!`, `is_visible_7bit!`) that
`src/collect.rs`, `src/util/*.rs` and `src/http1/parser.rs` take from the external crate
`byte-slice` 0.1.11.
-/

namespace Verif

/-- A slice of bytes (`&[u8]`).
As in src/http1/parser.rs 285-290, src/http2/parser.rs 255. Model only: a list. -/
abbrev Bytes := List UInt8

/-- `b!"text"` is the list of the (ASCII) bytes of the text, expanded at parse time. -/
macro:max "b!" s:str : term => do
  let elems ← s.getString.toList.toArray.mapM fun c =>
    `(($(Lean.quote c.toNat) : UInt8))
  `(([$elems,*] : List UInt8))

/-- `c! 'x'` is the (ASCII) byte of the character, expanded at parse time. -/
macro:max "c!" s:char : term => do
  let n := s.getChar.toNat
  `(($(Lean.quote n) : UInt8))

/-- `HEADER_FIELDS`, src/byte.rs lines 20-91: 255 entries, in order. -/
def HEADER_FIELDS : List Bool := [
  false, false, false, false, false, false, false, false, false, true,
  false, false, false, false, false, false, false, false, false, false,
  false, false, false, false, false, false, false, false, false, false,
  false, false, true, true, false, true, true, true, true, true,
  true, true, true, true, true, true, true, true, true, true,
  true, true, true, true, true, true, true, true, true, true,
  true, true, true, true, true, true, true, true, true, true,
  true, true, true, true, true, true, true, true, true, true,
  true, true, true, true, true, true, true, true, true, true,
  true, true, true, true, true, true, true, true, true, true,
  true, true, true, true, true, true, true, true, true, true,
  true, true, true, true, true, true, true, true, true, true,
  true, true, true, true, true, true, true, false, true, true,
  true, true, true, true, true, true, true, true, true, true,
  true, true, true, true, true, true, true, true, true, true,
  true, true, true, true, true, true, true, true, true, true,
  true, true, true, true, true, true, true, true, true, true,
  true, true, true, true, true, true, true, true, true, true,
  true, true, true, true, true, true, true, true, true, true,
  true, true, true, true, true, true, true, true, true, true,
  true, true, true, true, true, true, true, true, true, true,
  true, true, true, true, true, true, true, true, true, true,
  true, true, true, true, true, true, true, true, true, true,
  true, true, true, true, true, true, true, true, true, true,
  true, true, true, true, true, true, true, true, true, true,
  true, true, true, true, true]

/-- `QUOTED_HEADER_FIELDS`, src/byte.rs lines 94-165: 255 entries, in order. -/
def QUOTED_HEADER_FIELDS : List Bool := [
  false, false, false, false, false, false, false, false, false, true,
  false, false, false, false, false, false, false, false, false, false,
  false, false, false, false, false, false, false, false, false, false,
  false, false, true, true, false, true, true, true, true, true,
  true, true, true, true, true, true, true, true, true, true,
  true, true, true, true, true, true, true, true, true, true,
  true, true, true, true, true, true, true, true, true, true,
  true, true, true, true, true, true, true, true, true, true,
  true, true, true, true, true, true, true, true, true, true,
  true, true, false, true, true, true, true, true, true, true,
  true, true, true, true, true, true, true, true, true, true,
  true, true, true, true, true, true, true, true, true, true,
  true, true, true, true, true, true, true, false, true, true,
  true, true, true, true, true, true, true, true, true, true,
  true, true, true, true, true, true, true, true, true, true,
  true, true, true, true, true, true, true, true, true, true,
  true, true, true, true, true, true, true, true, true, true,
  true, true, true, true, true, true, true, true, true, true,
  true, true, true, true, true, true, true, true, true, true,
  true, true, true, true, true, true, true, true, true, true,
  true, true, true, true, true, true, true, true, true, true,
  true, true, true, true, true, true, true, true, true, true,
  true, true, true, true, true, true, true, true, true, true,
  true, true, true, true, true, true, true, true, true, true,
  true, true, true, true, true, true, true, true, true, true,
  true, true, true, true, true]

/-- `TOKENS`, src/byte.rs lines 168-239: 255 entries, in order. -/
def TOKENS : List Bool := [
  false, false, false, false, false, false, false, false, false, false,
  false, false, false, false, false, false, false, false, false, false,
  false, false, false, false, false, false, false, false, false, false,
  false, false, false, true, false, true, true, true, true, true,
  false, false, true, true, false, true, true, false, true, true,
  true, true, true, true, true, true, true, true, false, false,
  false, false, false, false, false, true, true, true, true, true,
  true, true, true, true, true, true, true, true, true, true,
  true, true, true, true, true, true, true, true, true, true,
  true, false, false, false, true, true, true, true, true, true,
  true, true, true, true, true, true, true, true, true, true,
  true, true, true, true, true, true, true, true, true, true,
  true, true, true, false, true, false, true, false, false, false,
  false, false, false, false, false, false, false, false, false, false,
  false, false, false, false, false, false, false, false, false, false,
  false, false, false, false, false, false, false, false, false, false,
  false, false, false, false, false, false, false, false, false, false,
  false, false, false, false, false, false, false, false, false, false,
  false, false, false, false, false, false, false, false, false, false,
  false, false, false, false, false, false, false, false, false, false,
  false, false, false, false, false, false, false, false, false, false,
  false, false, false, false, false, false, false, false, false, false,
  false, false, false, false, false, false, false, false, false, false,
  false, false, false, false, false, false, false, false, false, false,
  false, false, false, false, false, false, false, false, false, false,
  false, false, false, false, false]

/-- `is_header_field`, src/byte.rs lines 242-245: `HEADER_FIELDS[byte as usize]`;
`none` is the index-out-of-bounds panic. -/
def isHeaderField (b : UInt8) : Option Bool := HEADER_FIELDS[b.toNat]?

/-- `is_quoted_header_field`, src/byte.rs lines 247-253; `none` is the panic. -/
def isQuotedHeaderField (b : UInt8) : Option Bool := QUOTED_HEADER_FIELDS[b.toNat]?

/-- `is_token`, src/byte.rs lines 255-259; `none` is the panic. -/
def isToken (b : UInt8) : Option Bool := TOKENS[b.toNat]?

/-- `is_digit!` of byte-slice, as used in src/collect.rs line 51: `0`..`9`. -/
def isDigit (b : UInt8) : Bool := c! '0' ≤ b && b ≤ c! '9'

/-- `is_hex!` of byte-slice, as used in src/http1/parser.rs line 1913: `0`..`9`, `A`..`F`, `a`..`f`. -/
def isHex (b : UInt8) : Bool :=
  isDigit b || (c! 'A' ≤ b && b ≤ c! 'F') || (c! 'a' ≤ b && b ≤ c! 'f')

/-- `is_visible_7bit!` of byte-slice: 0x21 through 0x7E (src/collect.rs line 161). -/
def isVisible7bit (b : UInt8) : Bool := 0x21 ≤ b && b ≤ 0x7E

/-- The test `byte > 0x40 && byte < 0x5B` for an upper-case letter used throughout
src/http1/parser.rs (e.g. line 547) and src/util/field.rs line 192. -/
def isUpper (b : UInt8) : Bool := 0x40 < b && b < 0x5B

end Verif
