import Verif.Http1.Events

/-!
# A byte-at-a-time reference machine for HTTP/1

The parser works on whole slices with fast paths, marks and pauses. This file describes what it is
supposed to compute without any of these: a machine that reads one byte after the other and emits
single-byte data. It is the yardstick of the simulation in `Verif.Http1.Sim`; the property theorems
in `Verif.Props` mention it only where they say so.
-/

namespace Verif.Http1

/-- What is fixed while a message is parsed: the parser type, the multipart boundary and the
answers of `content_length` as a function of the (flat) history. -/
structure Env where
  ptype : PType
  boundary : Option Bytes
  cl : List Ev → Option Nat

/-- States of the reference machine, with the data that matters in them. `r` tells a response from
a request. -/
inductive AS
  | dead | stripDetect | detect1 | det2 | det3 | det4 | det5 | ldet2 | ldet3 | ldet4 | ldet5
  | method | url1 | url2 | http1 | http2 | http3 | http4 | http5
  | maj1 (r : Bool) | maj2 (r : Bool) (v : Nat) | maj3 (r : Bool) (v : Nat)
  | period (r : Bool) (v : Nat) | min1 (r : Bool) (v : Nat)
  | min2 (r : Bool) (v w : Nat) | min3 (r : Bool) (v w : Nat) | verEnd (r : Bool) (v w : Nat)
  | code1 | code2 (v : Nat) | code3 (v : Nat) | codeSp (v : Nat) | reason1 | reason2
  | initialEnd | initialLf
  | hdrCheck | hdrFirst | hdrName | hdrStrip | hdrVal | hdrQuot | hdrEsc
  | hdrCr1 | hdrLf1 | hdrCr2 | hdrLf2 | hdrEnd
  | size1 | size (k v : Nat) | sizeEnd (v : Nat) | sizeLf (v : Nat)
  | extStrip (v : Nat) | extName (v : Nat) | extVStrip (v : Nat) | extVal (v : Nat)
  | extQuot (v : Nat) | extEsc (v : Nat) | extFin (v : Nat) | extsFin (v : Nat)
  | data (v : Nat) | dataCr | dataLf
  | hyphen1 (exp : Bool) | hyphen2 (exp : Bool) | bound (exp : Bool) (i : Nat) | boundCr | boundLf
  | mpDetect | mpLen (n : Nat) | mpLenCr | mpLenLf | mpByte | mpByteLf | mpEnd
  | uFirst | uName | uNameH1 | uNameH2 (hi : UInt8) | uNamePlus
  | uVal | uValH1 | uValH2 (hi : UInt8) | uValPlus
  | bodyFin | fin
deriving DecidableEq, Repr

/-- Result of reading one byte. `errB` is a mismatch of the initial multipart boundary, whose
reported byte depends on the slicing (src/http1/parser.rs lines 2629-2635). -/
inductive BRes
  | next (es : List Ev) (s : AS)
  | err (es : List Ev) (e : PErr)
  | errB
  | panic
deriving DecidableEq, Repr

/-- Emit `es` first. -/
def BRes.pre (es : List Ev) : BRes → BRes
  | .next es' s => .next (es ++ es') s
  | .err es' e => .err (es ++ es') e
  | .errB => .errB
  | .panic => .panic

/-- The value of a decimal digit. -/
def dec (b : UInt8) : Nat := b.toNat - 48

/-- The byte after the version: SP in a response, CR in a request. -/
def stopByte (r : Bool) : UInt8 := if r then c! ' ' else c! '\r'

/-- A letter in lower case. -/
def lower (b : UInt8) : UInt8 := if isUpper b then b + 0x20 else b

/-- A byte of a method. -/
def bMethod (b : UInt8) : BRes :=
  if isUpper b then .next [.method [b]] .method
  else if b == c! ' ' then .next [] .url1
  else .err [] (.method b)

/-- The first byte of a head. -/
def bDetect1 (b : UInt8) : BRes :=
  if b == c! 'H' then .next [] .det2
  else if isUpper b then .next [.method [b]] .method
  else .err [] (.method b)

/-- Inside `HTTP/`, `buf` already read: a mismatch means that it is a method after all. -/
def bDet (buf : Bytes) (expect : UInt8) (s : AS) (b : UInt8) : BRes :=
  if b == expect then .next [] s else (bMethod b).pre (flatEv (.method buf))

/-- Inside `HTTP/` in the parser's own detection states, which forget what they have read
(src/http1/parser.rs lines 561-670): on a mismatch, the method starts with the current byte. -/
def bLDet (expect : UInt8) (s : AS) (b : UInt8) : BRes :=
  if b == expect then .next [] s
  else if isUpper b then .next [.method [b]] .method
  else .err [] (.method b)

/-- A byte that has to be `expect`. -/
def bExpect (expect : UInt8) (s : AS) (e : UInt8 → PErr) (b : UInt8) : BRes :=
  if b == expect then .next [] s else .err [] (e b)

/-- The byte after a version number (`r`: of a response). -/
def bVerEnd (r : Bool) (v w : Nat) (b : UInt8) : BRes :=
  if b == stopByte r then .next [.version v w] (if r then .code1 else .initialEnd)
  else .err [] (.version b)

/-- A byte of a header name. -/
def bHdrName (b : UInt8) : BRes :=
  match isToken b with
  | none => .panic
  | some t =>
    if isUpper b then .next [.headerName [b + 0x20]] .hdrName
    else if t then .next [.headerName [b]] .hdrName
    else if b == c! ':' then .next [] .hdrStrip
    else .err [] (.headerName b)

/-- The first byte of a header name. -/
def bHdrFirst (b : UInt8) : BRes :=
  if isVisible7bit b then bHdrName b else .err [] (.headerName b)

/-- The first byte of a line after a header value: a blank continues the value. -/
def bHdrCheck (b : UInt8) : BRes :=
  if b == c! ' ' || b == c! '\t' then .next [] .hdrVal else bHdrFirst b

/-- A byte of a header value. -/
def bHdrVal (b : UInt8) : BRes :=
  match isHeaderField b with
  | none => .panic
  | some t =>
    if t then .next [.headerValue [b]] .hdrVal
    else if b == c! '\r' then .next [] .hdrLf1
    else if b == c! '"' then .next [.headerValue [b]] .hdrQuot
    else .err [] (.headerValue b)

/-- A byte of a quoted part of a header value. -/
def bHdrQuot (b : UInt8) : BRes :=
  match isQuotedHeaderField b with
  | none => .panic
  | some t =>
    if t then .next [.headerValue [b]] .hdrQuot
    else if b == c! '"' then .next [.headerValue [b]] .hdrVal
    else if b == c! '\\' then .next [.headerValue [b]] .hdrEsc
    else .err [] (.headerValue b)

/-- The byte after the size of a chunk. -/
def bSizeEnd (v : Nat) (b : UInt8) : BRes :=
  if b == c! '\r' then .next [.chunkLength v] (if v = 0 then .hdrLf1 else .extsFin v)
  else if b == c! ';' then .next [.chunkLength v] (.extStrip v)
  else .err [] (.chunkLength b)

/-- The state after a chunk size with `k` more digits allowed. -/
def sizeNext (k v : Nat) : AS := if k = 0 then .sizeEnd v else .size k v

/-- A byte of the name of a chunk extension. -/
def bExtName (v : Nat) (b : UInt8) : BRes :=
  match isToken b with
  | none => .panic
  | some t =>
    if isUpper b then .next [.chunkExtensionName [b + 0x20]] (.extName v)
    else if t then .next [.chunkExtensionName [b]] (.extName v)
    else if b == c! '=' then .next [] (.extVStrip v)
    else if b == c! '\r' then .next [.chunkExtensionFinished] (.extsFin v)
    else if b == c! ';' then .next [.chunkExtensionFinished] (.extStrip v)
    else .err [] (.chunkExtensionName b)

/-- A byte of the value of a chunk extension. -/
def bExtVal (v : Nat) (b : UInt8) : BRes :=
  match isHeaderField b with
  | none => .panic
  | some t =>
    if t && b != c! ';' then .next [.chunkExtensionValue [b]] (.extVal v)
    else if b == c! '\r' then .next [.chunkExtensionFinished] (.extsFin v)
    else if b == c! ';' then .next [.chunkExtensionFinished] (.extStrip v)
    else if b == c! '"' then .next [] (.extQuot v)
    else .err [] (.chunkExtensionValue b)

/-- A byte of the quoted value of a chunk extension. -/
def bExtQuot (v : Nat) (b : UInt8) : BRes :=
  match isQuotedHeaderField b with
  | none => .panic
  | some t =>
    if t then .next [.chunkExtensionValue [b]] (.extQuot v)
    else if b == c! '"' then .next [] (.extVal v)
    else if b == c! '\\' then .next [] (.extEsc v)
    else .err [] (.chunkExtensionValue b)

/-- A byte of the data of a part. -/
def bMpByte (b : UInt8) : BRes :=
  if b == c! '\r' then .next [] .mpByteLf else .next [.multipartData [b]] .mpByte

/-- A byte of a name of a URL-encoded body. -/
def bUName (b : UInt8) : BRes :=
  if b == c! '%' then .next [] .uNameH1
  else if b == c! '+' then .next [] .uNamePlus
  else if b == c! '=' then .next [] .uVal
  else if b == c! '&' || b == c! ';' then .next [] .uFirst
  else if isVisible7bit b then .next [.urlEncodedName [b]] .uName
  else .err [] (.urlEncodedName b)

/-- A byte of a value of a URL-encoded body. -/
def bUVal (b : UInt8) : BRes :=
  if b == c! '%' then .next [] .uValH1
  else if b == c! '&' || b == c! ';' then .next [] .uFirst
  else if b == c! '+' then .next [] .uValPlus
  else if isVisible7bit b then .next [.urlEncodedValue [b]] .uVal
  else .err [] (.urlEncodedValue b)

/-- A linear white space byte is skipped in state `s`; a visible byte starts the item. -/
def bStrip (s : AS) (item : UInt8 → BRes) (e : UInt8 → PErr) (b : UInt8) : BRes :=
  if b == c! ' ' || b == c! '\t' then .next [] s
  else if isVisible7bit b then item b
  else .err [] (e b)

/-- Read one byte. -/
def bstep (env : Env) (s : AS) (b : UInt8) : BRes :=
  match s with
  | .dead => .err [] .dead
  | .stripDetect => if isBlank b then .next [] .stripDetect else bDetect1 b
  | .detect1 => bDetect1 b
  | .det2 => bDet b!"H" (c! 'T') .det3 b
  | .det3 => bDet b!"HT" (c! 'T') .det4 b
  | .det4 => bDet b!"HTT" (c! 'P') .det5 b
  | .det5 => bDet b!"HTTP" (c! '/') (.maj1 true) b
  | .ldet2 => bLDet (c! 'T') .ldet3 b
  | .ldet3 => bLDet (c! 'T') .ldet4 b
  | .ldet4 => bLDet (c! 'P') .ldet5 b
  | .ldet5 => bLDet (c! '/') (.maj1 true) b
  | .method => bMethod b
  | .url1 => if isVisible7bit b then .next [.url [b]] .url2 else .err [] (.url b)
  | .url2 =>
    if isVisible7bit b then .next [.url [b]] .url2
    else if b == c! ' ' then .next [] .http1 else .err [] (.url b)
  | .http1 => bExpect (c! 'H') .http2 .version b
  | .http2 => bExpect (c! 'T') .http3 .version b
  | .http3 => bExpect (c! 'T') .http4 .version b
  | .http4 => bExpect (c! 'P') .http5 .version b
  | .http5 => bExpect (c! '/') (.maj1 false) .version b
  | .maj1 r => if isDigit b then .next [] (.maj2 r (dec b)) else .err [] (.version b)
  | .maj2 r v =>
    if b == c! '.' then .next [] (.min1 r v)
    else if isDigit b then .next [] (.maj3 r (v * 10 + dec b)) else .err [] (.version b)
  | .maj3 r v =>
    if b == c! '.' then .next [] (.min1 r v)
    else if isDigit b then .next [] (.period r (v * 10 + dec b)) else .err [] (.version b)
  | .period r v => bExpect (c! '.') (.min1 r v) .version b
  | .min1 r v => if isDigit b then .next [] (.min2 r v (dec b)) else .err [] (.version b)
  | .min2 r v w =>
    if isDigit b then .next [] (.min3 r v (w * 10 + dec b)) else bVerEnd r v w b
  | .min3 r v w =>
    if isDigit b then .next [] (.verEnd r v (w * 10 + dec b)) else bVerEnd r v w b
  | .verEnd r v w => bVerEnd r v w b
  | .code1 => if isDigit b then .next [] (.code2 (dec b * 100)) else .err [] (.statusCode b)
  | .code2 v => if isDigit b then .next [] (.code3 (v + dec b * 10)) else .err [] (.statusCode b)
  | .code3 v => if isDigit b then .next [] (.codeSp (v + dec b)) else .err [] (.statusCode b)
  | .codeSp v =>
    if b == c! ' ' then .next [.statusCode v] .reason1 else .err [] (.statusCode b)
  | .reason1 =>
    if isNonControl b then .next [.status [b]] .reason2 else .err [] (.status b)
  | .reason2 =>
    if isNonControl b then .next [.status [b]] .reason2
    else if b == c! '\r' then .next [] .initialEnd else .err [] (.status b)
  | .initialEnd => .panic
  | .initialLf => bExpect (c! '\n') .hdrCr2 .crlfSequence b
  | .hdrCheck => bHdrCheck b
  | .hdrFirst => bHdrFirst b
  | .hdrName => bHdrName b
  | .hdrStrip => bStrip .hdrStrip bHdrVal .headerValue b
  | .hdrVal => bHdrVal b
  | .hdrQuot => bHdrQuot b
  | .hdrEsc =>
    if isEscapable b then .next [.headerValue [b]] .hdrQuot else .err [] (.headerValue b)
  | .hdrCr1 => bExpect (c! '\r') .hdrLf1 .crlfSequence b
  | .hdrLf1 => bExpect (c! '\n') .hdrCr2 .crlfSequence b
  | .hdrCr2 => if b == c! '\r' then .next [] .hdrLf2 else bHdrCheck b
  | .hdrLf2 => bExpect (c! '\n') .hdrEnd .crlfSequence b
  | .hdrEnd => .panic
  | .size1 =>
    if b == c! '0' then .next [.chunkBegin] (.sizeEnd 0)
    else if isHex b then .next [.chunkBegin] (.size 7 (hexToByte b).toNat)
    else .err [] (.chunkLength b)
  | .size k v =>
    if isHex b then .next [] (sizeNext (k - 1) (v * 16 + (hexToByte b).toNat)) else bSizeEnd v b
  | .sizeEnd v => bSizeEnd v b
  | .sizeLf v => bExpect (c! '\n') (.data v) .crlfSequence b
  | .extStrip v => bStrip (.extStrip v) (bExtName v) .chunkExtensionName b
  | .extName v => bExtName v b
  | .extVStrip v => bStrip (.extVStrip v) (bExtVal v) .chunkExtensionValue b
  | .extVal v => bExtVal v b
  | .extQuot v => bExtQuot v b
  | .extEsc v =>
    if isEscapable b then .next [.chunkExtensionValue [b]] (.extQuot v)
    else .err [] (.chunkExtensionValue b)
  | .extFin v =>
    .next [.chunkExtensionFinished] (if b == c! '\r' then .extsFin v else .extStrip v)
  | .extsFin _ => .panic
  | .data v => .next [.chunkData [b]] (.data (v - 1))
  | .dataCr => bExpect (c! '\r') .dataLf .crlfSequence b
  | .dataLf => bExpect (c! '\n') .size1 .crlfSequence b
  | .hyphen1 exp =>
    if b == c! '-' then .next [] (.hyphen2 exp)
    else if exp then .err [] (.multipartBoundary b)
    else .next (flatEv (.multipartData [c! '\r', c! '\n', b])) .mpByte
  | .hyphen2 exp =>
    if b == c! '-' then .next [] (.bound exp 0)
    else if exp then .err [] (.multipartBoundary b)
    else .next (flatEv (.multipartData [c! '\r', c! '\n', c! '-', b])) .mpByte
  | .bound exp i =>
    match env.boundary with
    | none => .panic
    | some bd =>
      if bd[i]? = some b then .next [] (.bound exp (i + 1))
      else if exp then .errB
      else (bMpByte b).pre (flatEv (.multipartData (b!"\r\n--" ++ bd.take i)))
  | .boundCr =>
    if b == c! '\r' then .next [.multipartBegin] .initialLf
    else if b == c! '-' then .next [] .mpEnd
    else .err [] (.multipartBoundary b)
  | .boundLf => bExpect (c! '\n') .hdrCheck .multipartBoundary b
  | .mpDetect => .panic
  | .mpLen n => .next [.multipartData [b]] (.mpLen (n - 1))
  | .mpLenCr => bExpect (c! '\r') .mpLenLf .multipartBoundary b
  | .mpLenLf => bExpect (c! '\n') (.hyphen1 true) .multipartBoundary b
  | .mpByte => bMpByte b
  | .mpByteLf =>
    if b == c! '\n' then .next [] (.hyphen1 false)
    else .next (flatEv (.multipartData [c! '\r', b])) .mpByte
  | .mpEnd => bExpect (c! '-') .bodyFin .multipartBoundary b
  | .uFirst => (bUName b).pre [.urlEncodedBegin]
  | .uName => bUName b
  | .uNameH1 =>
    match hexDigit b with
    | some d => .next [] (.uNameH2 (d <<< 4))
    | none => .err [] (.urlEncodedName b)
  | .uNameH2 hi =>
    match hexDigit b with
    | some d => .next [.urlEncodedName [hi ||| d]] .uName
    | none => .err [] (.urlEncodedName b)
  | .uNamePlus => .panic
  | .uVal => bUVal b
  | .uValH1 =>
    match hexDigit b with
    | some d => .next [] (.uValH2 (d <<< 4))
    | none => .err [] (.urlEncodedValue b)
  | .uValH2 hi =>
    match hexDigit b with
    | some d => .next [.urlEncodedValue [hi ||| d]] .uVal
    | none => .err [] (.urlEncodedValue b)
  | .uValPlus => .panic
  | .bodyFin => .panic
  | .fin => .panic

/-- `mpLen` without the empty case. -/
def mpLen' (n : Nat) : AS := if n = 0 then .mpLenCr else .mpLen n

/-- The state in which part data is read, by the answer of `content_length`. -/
def mpData (cl : Option Nat) : AS :=
  match cl with
  | some n => mpLen' n
  | none => .mpByte

/-- Moves that read no byte: what is emitted, and the state in which the next byte is read. -/
def norm (env : Env) (tr : List Ev) (s : AS) : List Ev × AS :=
  match s with
  | .initialEnd => ([.initialFinished], .initialLf)
  | .hdrEnd =>
    match env.ptype with
    | .chunked => ([.headersFinished, .bodyFinished], .fin)
    | .multipart => ([.headersFinished], mpData (env.cl (tr ++ [.headersFinished])))
    | _ => ([.headersFinished], .fin)
  | .extsFin v => ([.chunkExtensionsFinished], .sizeLf v)
  | .data v => ([], if v = 0 then .dataCr else .data v)
  | .bound exp i =>
    match env.boundary with
    | some bd => ([], if bd.length ≤ i then .boundCr else .bound exp i)
    | none => ([], .bound exp i)
  | .mpDetect => ([], mpData (env.cl tr))
  | .mpLen n => ([], mpLen' n)
  | .uNamePlus => ([.urlEncodedName b!" "], .uName)
  | .uValPlus => ([.urlEncodedValue b!" "], .uVal)
  | .bodyFin => ([.bodyFinished], .fin)
  | s => ([], s)

/-- How the reference machine ends. -/
inductive Fin
  /-- all bytes were read, the message is not complete -/
  | eos
  /-- the message is complete, `rest` was not read -/
  | finished (rest : Bytes)
  /-- an error; `rest` follows the offending byte -/
  | err (e : PErr) (rest : Bytes)
  /-- the initial multipart boundary does not match; `rest` follows the byte that differs -/
  | errB (rest : Bytes)
  | panic
deriving DecidableEq, Repr

/-- Run the reference machine: `tr` was emitted before. -/
def pred (env : Env) (tr : List Ev) (s : AS) : Bytes → List Ev × Fin
  | [] =>
    let n := norm env tr s
    (tr ++ n.1, if n.2 = .fin then .finished [] else .eos)
  | b :: r =>
    let n := norm env tr s
    if n.2 = .fin then (tr ++ n.1, .finished (b :: r))
    else
      match bstep env n.2 b with
      | .next es s' => pred env (tr ++ n.1 ++ es) s' r
      | .err es e => (tr ++ n.1 ++ es, .err e r)
      | .errB => (tr ++ n.1, .errB r)
      | .panic => (tr ++ n.1, .panic)

end Verif.Http1
