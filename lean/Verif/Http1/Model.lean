import Verif.Stream

/-!
# Model of the HTTP/1 parser

`src/fsm.rs` (macros and result types) and `src/http1/parser.rs` (all 97 state functions, the
parser loop and the public functions). Every definition cites the lines it models.

`Out.panic` stands for a Rust panic (index out of bounds, `unwrap` of `None`, arithmetic underflow
with overflow checks), `Out.ub` for an unchecked read outside the slice.
-/

namespace Verif.Http1

/-- `ParserType`, src/http1/parser_type.rs. -/
inductive PType | chunked | head | multipart | urlEncoded
deriving Repr, DecidableEq

/-- `ParserState`, src/http1/parser_state.rs lines 22-341. The same enumeration names the state
functions of src/http1/parser.rs (`state_function`): every state function is the snake-case
spelling of one state. The two fields of the parser are kept separate. -/
inductive St
  | dead
  | stripDetect | detect1 | detect2 | detect3 | detect4 | detect5
  | requestMethod | requestUrl1 | requestUrl2
  | requestHttp1 | requestHttp2 | requestHttp3 | requestHttp4 | requestHttp5
  | requestVersionMajor1 | requestVersionMajor2 | requestVersionMajor3 | requestVersionPeriod
  | requestVersionMinor1 | requestVersionMinor2 | requestVersionMinor3 | requestVersionCr
  | responseVersionMajor1 | responseVersionMajor2 | responseVersionMajor3 | responseVersionPeriod
  | responseVersionMinor1 | responseVersionMinor2 | responseVersionMinor3 | responseVersionSpace
  | responseStatusCode1 | responseStatusCode2 | responseStatusCode3 | responseStatusCodeSpace
  | responseStatus1 | responseStatus2
  | initialEnd | initialLf
  | checkHeaderName | firstHeaderName | upperHeaderName | lowerHeaderName
  | stripHeaderValue | headerValue | headerQuotedValue | headerEscapedValue
  | headerCr1 | headerLf1 | headerCr2 | headerLf2 | headerEnd
  | chunkLength1 | chunkLength2 | chunkLength3 | chunkLength4
  | chunkLength5 | chunkLength6 | chunkLength7 | chunkLength8 | chunkLengthCr | chunkLengthLf
  | stripChunkExtensionName | lowerChunkExtensionName | upperChunkExtensionName
  | stripChunkExtensionValue | chunkExtensionValue | chunkExtensionQuotedValue
  | chunkExtensionEscapedValue | chunkExtensionFinished | chunkExtensionsFinished
  | chunkData | chunkDataCr | chunkDataLf
  | multipartHyphen1 | multipartHyphen2 | multipartBoundary | multipartBoundaryCr
  | multipartBoundaryLf | multipartDetectData
  | multipartDataByLength | multipartDataByLengthCr | multipartDataByLengthLf
  | multipartDataByByte | multipartDataByByteLf | multipartEnd
  | firstUrlEncodedName | urlEncodedName | urlEncodedNameHex1 | urlEncodedNameHex2
  | urlEncodedNamePlus | urlEncodedValue | urlEncodedValueHex1 | urlEncodedValueHex2
  | urlEncodedValuePlus
  | bodyFinished | finished
deriving Repr, DecidableEq

/-- `ParserError`, src/http1/parser_error.rs lines 21-72. -/
inductive PErr
  | chunkExtensionName (b : UInt8) | chunkExtensionValue (b : UInt8) | chunkLength (b : UInt8)
  | crlfSequence (b : UInt8) | dead | headerName (b : UInt8) | headerValue (b : UInt8)
  | chunkLengthOverflow | method (b : UInt8) | multipart (b : UInt8) | multipartBoundary (b : UInt8)
  | status (b : UInt8) | statusCode (b : UInt8) | url (b : UInt8) | urlEncodedName (b : UInt8)
  | urlEncodedValue (b : UInt8) | version (b : UInt8)
deriving Repr, DecidableEq

/-- One execution of a callback of `HttpHandler`, src/http1/http_handler.rs lines 23-290, with its
arguments. (`content_length` is a query, not a notification, and is modelled in `Handler`.) -/
inductive Ev
  | bodyFinished | chunkBegin | chunkData (d : Bytes) | chunkExtensionFinished
  | chunkExtensionName (d : Bytes) | chunkExtensionValue (d : Bytes) | chunkExtensionsFinished
  | chunkLength (n : Nat) | headerName (d : Bytes) | headerValue (d : Bytes) | headersFinished
  | initialFinished | method (d : Bytes) | multipartBegin | multipartData (d : Bytes)
  | status (d : Bytes) | statusCode (n : Nat) | url (d : Bytes) | urlEncodedBegin
  | urlEncodedName (d : Bytes) | urlEncodedValue (d : Bytes) | version (major minor : Nat)
deriving Repr, DecidableEq

/-- A handler (`HttpHandler`, src/http1/http_handler.rs): what the callback just executed returns,
and what `content_length` returns, as arbitrary functions of the whole history of callbacks
(oldest first, the present one last). -/
structure Handler where
  ret : List Ev → Bool
  contentLength : List Ev → Option Nat

/-- `Parser`, src/http1/parser.rs lines 131-153. `fn` is `state_function`. -/
structure Parser where
  bitData : UInt32
  boundary : Option Bytes
  byteCount : Nat
  length : Nat
  ptype : PType
  state : St
  fn : St
deriving Repr, DecidableEq

/-- Everything a state function can read and change: the parser, the stream context and (as ghost
state) the history of callbacks. Arguments of a state function: src/http1/parser.rs 151-152. -/
structure Cfg where
  p : Parser
  ctx : Ctx
  log : List Ev
deriving Repr, DecidableEq

/-- `Success`, src/fsm.rs lines 199-233. -/
inductive Success | callback (n : Nat) | eos (n : Nat) | finished (n : Nat)
deriving Repr, DecidableEq

/-- What a state function returns: `Result<ParserValue, ParserError>` (src/fsm.rs lines 188-195),
or a panic, or an out-of-bounds unchecked read. -/
inductive Out
  | cont (c : Cfg)
  | exit (s : Success) (c : Cfg)
  | err (e : PErr) (c : Cfg)
  | panic
  | ub
deriving Repr, DecidableEq

/-! ## Bit data, src/http1/parser.rs lines 34-126 -/

/-- `get_lower14!`, lines 57-61. -/
def getLower14 (p : Parser) : UInt32 := (p.bitData >>> 4) &&& 0x3FFF

/-- `get_upper14!`, lines 64-68. -/
def getUpper14 (p : Parser) : UInt32 := (p.bitData >>> 18) &&& 0x3FFF

/-- `set_lower14!`, lines 109-116. -/
def setLower14 (p : Parser) (bits : UInt32) : Parser :=
  { p with bitData := (p.bitData &&& ~~~((0x3FFF : UInt32) <<< 4)) ||| (bits <<< 4) }

/-- `set_upper14!`, lines 119-126. -/
def setUpper14 (p : Parser) (bits : UInt32) : Parser :=
  { p with bitData := (p.bitData &&& ~~~((0x3FFF : UInt32) <<< 18)) ||| (bits <<< 18) }

/-- `inc_upper14!`, lines 99-106: the sum is a `usize`, then truncated to `u32`. -/
def incUpper14 (p : Parser) (n : Nat) : Parser :=
  setUpper14 p (UInt32.ofNat ((getUpper14 p).toNat + n))

/-- `hex_to_byte!`, lines 73-86. -/
def hexToByte (b : UInt8) : UInt8 :=
  if b > 0x2F && b < 0x3A then b - c! '0'
  else if b > 0x40 && b < 0x5B then b - 0x37
  else b - 0x57

/-! ## Macros of src/fsm.rs and of byte-slice, on configurations -/

/-- `exit_eos!`, src/fsm.rs lines 111-115. -/
def exitEos (c : Cfg) : Out := .exit (.eos c.ctx.idx) c

/-- `exit_callback!`, src/fsm.rs lines 98-108. -/
def exitCallback (c : Cfg) : Out := .exit (.callback c.ctx.idx) c

/-- `exit_if_eos!`, src/fsm.rs lines 136-140. -/
def exitIfEos (c : Cfg) (k : Out) : Out := if c.ctx.available = 0 then exitEos c else k

/-- `bs_next!(context)` followed by `k`. Uses: src/http1/parser.rs 561-580 and
most other state functions. -/
def next (c : Cfg) (k : Cfg → Out) : Out :=
  match c.ctx.next with
  | some ctx => k { c with ctx := ctx }
  | none => .panic

/-- `bs_replay!(context)` followed by `k`; stepping back from index 0 would underflow.
Use: src/http1/parser.rs 439. -/
def replay (c : Cfg) (k : Cfg → Out) : Out :=
  if c.ctx.idx = 0 then .panic else k { c with ctx := c.ctx.replay }

/-- `bs_jump!(context, n)`. Uses: src/http1/parser.rs 454, 470, 495. -/
def jump (c : Cfg) (n : Nat) : Cfg := { c with ctx := c.ctx.jump n }

/-- `set_state!`, src/fsm.rs lines 150-155. -/
def setState (c : Cfg) (s f : St) : Cfg := { c with p := { c.p with state := s, fn := f } }

/-- `transition!(parser, context)`, src/fsm.rs lines 167-171. -/
def remark (c : Cfg) : Out := .cont { c with ctx := c.ctx.setMark }

/-- `transition!(parser, context, state, state_function)`, src/fsm.rs lines 158-166. -/
def transition (c : Cfg) (s f : St) : Out := remark (setState c s f)

/-- `transition_no_remark!`, src/fsm.rs lines 177-183. -/
def transitionNoRemark (c : Cfg) (s f : St) : Out := .cont (setState c s f)

/-- `callback!` with explicit data, src/fsm.rs lines 24-30, and the equivalent hand-written
`if handler.on_x(..) { k } exit_callback!(..)`. -/
def callbackData (h : Handler) (c : Cfg) (e : Ev) (k : Cfg → Out) : Out :=
  let c := { c with log := c.log ++ [e] }
  if h.ret c.log then k c else exitCallback c

/-- `callback!` on the marked slice, src/fsm.rs lines 32-42. A mark beyond the index would panic in
`bs_slice!`. -/
def callbackSlice (h : Handler) (c : Cfg) (mk : Bytes → Ev) (k : Cfg → Out) : Out :=
  if c.ctx.idx < c.ctx.mark then .panic
  else if c.ctx.sliceLength > 0 then callbackData h c (mk c.ctx.slice) k else k c

/-- `callback_eos_expr!`, src/fsm.rs lines 46-52. -/
def callbackEos (h : Handler) (c : Cfg) (mk : Bytes → Ev) : Out := callbackSlice h c mk exitEos

/-- `callback_ignore_transition!`, src/fsm.rs lines 56-72. -/
def callbackIgnoreTransition (h : Handler) (c : Cfg) (mk : Bytes → Ev) (s f : St) : Out :=
  let c := setState c s f
  if c.ctx.idx < c.ctx.mark then .panic
  else if c.ctx.sliceLength > 1 then callbackData h c (mk c.ctx.sliceIgnore) remark else remark c

/-- `callback_transition!` with explicit data, src/fsm.rs lines 80-86. -/
def callbackTransitionData (h : Handler) (c : Cfg) (e : Ev) (s f : St) : Out :=
  callbackData h (setState c s f) e remark

/-- `callback_transition!` on the marked slice, src/fsm.rs lines 88-94. -/
def callbackTransition (h : Handler) (c : Cfg) (mk : Bytes → Ev) (s f : St) : Out :=
  callbackSlice h (setState c s f) mk remark

/-- Run a collection loop (`bs_collect!` family): `onEos` at the end of the stream, `k` after
`break`. Uses: src/http1/parser.rs 679, 1407, 2811; src/collect.rs 22-225. -/
def collecting (c : Cfg) (r : Ctx.Collect) (onEos k : Cfg → Out) : Out :=
  match r with
  | .eos ctx => onEos { c with ctx := ctx }
  | .brk ctx => k { c with ctx := ctx }
  | .fail _ => .panic
  | .panic => .panic

/-! ## Detection states -/

/-- The blank test of `strip_detect`, src/http1/parser.rs lines 423-424. -/
def isBlank (b : UInt8) : Bool := b == c! '\r' || b == c! '\n' || b == c! '\t' || b == c! ' '

/-- `strip_detect`, src/http1/parser.rs lines 418-447. The first read and the loop body perform the
same test, so both are the one loop `loop { eos?; next; if blank { continue } break }`. -/
def strip_detect (c : Cfg) : Out :=
  collecting c (c.ctx.collect fun b => if isBlank b then .cont else .brk) exitEos fun c =>
  replay c fun c => transition c .detect1 .detect1

/-- Second half of `detect1`, src/http1/parser.rs lines 516-557. -/
def detect1Method (h : Handler) (c : Cfg) : Out :=
  let method (m : Bytes) (n : Nat) :=
    callbackTransitionData h (jump c n) (.method m) .requestUrl1 .requestUrl1
  let slow : Out :=
    exitIfEos c <| next c fun c =>
    if isUpper c.ctx.byte then transitionNoRemark c .requestMethod .requestMethod
    else .err (.method c.ctx.byte) c
  if c.ctx.hasBytes 8 then
    if c.ctx.startsWith b!"GET " then method b!"GET" 4
    else if c.ctx.byte == c! 'P' then
      if c.ctx.startsWith b!"POST " then method b!"POST" 5
      else if c.ctx.startsWith b!"PUT " then method b!"PUT" 4
      else slow
    else if c.ctx.startsWith b!"DELETE " then method b!"DELETE" 7
    else if c.ctx.startsWith b!"CONNECT " then method b!"CONNECT" 8
    else if c.ctx.startsWith b!"OPTIONS " then method b!"OPTIONS" 8
    else if c.ctx.startsWith b!"HEAD " then method b!"HEAD" 5
    else if c.ctx.startsWith b!"TRACE " then method b!"TRACE" 6
    else if c.ctx.startsWith b!"PRI " then method b!"PRI" 4
    else slow
  else slow

/-- `detect1`, src/http1/parser.rs lines 450-558. The first comparison (`bs_starts_with1!`,
line 486) is unchecked: with no unread byte it reads outside the slice. -/
def detect1 (h : Handler) (c : Cfg) : Out :=
  let version (maj min : Nat) :=
    callbackData h (setState (jump c 9) .responseStatusCode1 .responseStatusCode1)
      (.version maj min) remark
  if c.ctx.available = 0 then .ub
  else if c.ctx.startsWith b!"H" then
    if c.ctx.hasBytes 9 then
      if c.ctx.startsWith b!"HTTP/1.1 " then version 1 1
      else if c.ctx.startsWith b!"HTTP/2.0 " then version 2 0
      else if c.ctx.startsWith b!"HTTP/1.0 " then version 1 0
      else if c.ctx.startsWith b!"HTTP/" then
        transition (jump c 5) .responseVersionMajor1 .responseVersionMajor1
      else detect1Method h c
    else transition (jump c 1) .detect2 .detect2
  else detect1Method h c

/-- Common shape of `detect2`..`detect5`: the expected byte, else an upper-case letter.
src/http1/parser.rs 561-670. -/
def detectByte (c : Cfg) (expect : UInt8) (s f : St) : Out :=
  exitIfEos c <| next c fun c =>
  if c.ctx.byte == expect then transition c s f
  else if isUpper c.ctx.byte then transitionNoRemark c .requestMethod .requestMethod
  else .err (.method c.ctx.byte) c

/-- `detect2`, src/http1/parser.rs lines 561-586. -/
def detect2 (c : Cfg) : Out := detectByte c (c! 'T') .detect3 .detect3
/-- `detect3`, src/http1/parser.rs lines 589-614. -/
def detect3 (c : Cfg) : Out := detectByte c (c! 'T') .detect4 .detect4
/-- `detect4`, src/http1/parser.rs lines 617-642. -/
def detect4 (c : Cfg) : Out := detectByte c (c! 'P') .detect5 .detect5
/-- `detect5`, src/http1/parser.rs lines 645-670. -/
def detect5 (c : Cfg) : Out := detectByte c (c! '/') .responseVersionMajor1 .responseVersionMajor1

/-! ## Request states -/

/-- `request_method`, src/http1/parser.rs lines 677-703. -/
def request_method (h : Handler) (c : Cfg) : Out :=
  collecting c (c.ctx.collect fun b => if b < 0x41 || b > 0x5A then .brk else .cont)
    (callbackEos h · .method) fun c =>
  if c.ctx.byte == c! ' ' then
    callbackIgnoreTransition h c .method .requestUrl1 .requestUrl1
  else .err (.method c.ctx.byte) c

/-- `request_url1`, src/http1/parser.rs lines 706-721. -/
def request_url1 (c : Cfg) : Out :=
  exitIfEos c <| next c fun c =>
  if isVisible7bit c.ctx.byte then transitionNoRemark c .requestUrl2 .requestUrl2
  else .err (.url c.ctx.byte) c

/-- `request_url2`, src/http1/parser.rs lines 724-745. -/
def request_url2 (h : Handler) (c : Cfg) : Out :=
  collecting c (c.ctx.collectVisible7bit fun _ => false) (callbackEos h · .url) fun c =>
  if c.ctx.byte == c! ' ' then
    callbackIgnoreTransition h c .url .requestHttp1 .requestHttp1
  else .err (.url c.ctx.byte) c

/-- Common shape "read one byte, which must be `expect`, else a version error".
src/http1/parser.rs 748-862 (`request_http1`..`request_http5`). -/
def expectVersion (c : Cfg) (expect : UInt8) (s f : St) : Out :=
  exitIfEos c <| next c fun c =>
  if c.ctx.byte == expect then transition c s f
  else .err (.version c.ctx.byte) c

/-- `request_http1`, src/http1/parser.rs lines 748-790. -/
def request_http1 (h : Handler) (c : Cfg) : Out :=
  let version (maj min : Nat) :=
    callbackData h (setState (jump c 9) .initialEnd .initialEnd) (.version maj min) remark
  let slow := expectVersion c (c! 'H') .requestHttp2 .requestHttp2
  if c.ctx.hasBytes 9 then
    if c.ctx.startsWith b!"HTTP/1.1\r" then version 1 1
    else if c.ctx.startsWith b!"HTTP/2.0\r" then version 2 0
    else if c.ctx.startsWith b!"HTTP/1.0\r" then version 1 0
    else slow
  else slow

/-- `request_http2`, src/http1/parser.rs lines 793-808. -/
def request_http2 (c : Cfg) : Out := expectVersion c (c! 'T') .requestHttp3 .requestHttp3
/-- `request_http3`, src/http1/parser.rs lines 811-826. -/
def request_http3 (c : Cfg) : Out := expectVersion c (c! 'T') .requestHttp4 .requestHttp4
/-- `request_http4`, src/http1/parser.rs lines 829-844. -/
def request_http4 (c : Cfg) : Out := expectVersion c (c! 'P') .requestHttp5 .requestHttp5
/-- `request_http5`, src/http1/parser.rs lines 847-862. -/
def request_http5 (c : Cfg) : Out :=
  expectVersion c (c! '/') .requestVersionMajor1 .requestVersionMajor1

/-- `(context.byte - b'0') as u32`. Uses: src/http1/parser.rs 874, 901, 928. -/
def digitVal (b : UInt8) : UInt32 := (b - c! '0').toUInt32

/-- Change the parser of a configuration. Assignments to fields of `self`, as in
src/http1/parser.rs 874, 901, 928. -/
def withP (c : Cfg) (f : Parser → Parser) : Cfg := { c with p := f c.p }

/-- First major digit: `request_version_major1` (lines 865-885) and `response_version_major1`
(lines 1064-1084) of src/http1/parser.rs. -/
def versionMajor1 (c : Cfg) (s f : St) : Out :=
  exitIfEos c <| next c fun c =>
  let c := withP c fun p => setUpper14 (setLower14 p 0) 0
  if isDigit c.ctx.byte then
    transition (withP c fun p => setLower14 p (digitVal c.ctx.byte)) s f
  else .err (.version c.ctx.byte) c

/-- Second and third major digit: `request_version_major2/3` (lines 888-939),
`response_version_major2/3` (lines 1087-1138) of src/http1/parser.rs. `mi` is the state after the
period, `s` the state after a digit. -/
def versionMajorN (c : Cfg) (mi mi' s f : St) : Out :=
  exitIfEos c <| next c fun c =>
  if c.ctx.byte == c! '.' then transition c mi mi'
  else if isDigit c.ctx.byte then
    transition (withP c fun p => setLower14 p (getLower14 p * 10 + digitVal c.ctx.byte)) s f
  else .err (.version c.ctx.byte) c

/-- First minor digit: `request_version_minor1` (lines 960-977), `response_version_minor1`
(lines 1159-1176) of src/http1/parser.rs. -/
def versionMinor1 (c : Cfg) (s f : St) : Out :=
  exitIfEos c <| next c fun c =>
  if isDigit c.ctx.byte then
    transition (withP c fun p => setUpper14 p (digitVal c.ctx.byte)) s f
  else .err (.version c.ctx.byte) c

/-- Second and third minor digit: `request_version_minor2/3` (lines 980-1035) and
`response_version_minor2/3` (lines 1179-1234) of src/http1/parser.rs. `stop` is the byte that ends
the version, `e` the state that consumes it. -/
def versionMinorN (c : Cfg) (stop : UInt8) (e e' s f : St) : Out :=
  exitIfEos c <| next c fun c =>
  if c.ctx.byte == stop then replay c fun c => transition c e e'
  else if isDigit c.ctx.byte then
    transition (withP c fun p => setUpper14 p (getUpper14 p * 10 + digitVal c.ctx.byte)) s f
  else .err (.version c.ctx.byte) c

/-- End of version: `request_version_cr` (lines 1038-1057), `response_version_space`
(lines 1237-1260) of src/http1/parser.rs. -/
def versionEnd (h : Handler) (c : Cfg) (stop : UInt8) (s f : St) : Out :=
  exitIfEos c <| next c fun c =>
  if c.ctx.byte == stop then
    callbackData h (setState c s f)
      (.version (getLower14 c.p).toUInt16.toNat (getUpper14 c.p).toUInt16.toNat) remark
  else .err (.version c.ctx.byte) c

/-- `request_version_major1`, src/http1/parser.rs lines 865-885. -/
def request_version_major1 (c : Cfg) : Out :=
  versionMajor1 c .requestVersionMajor2 .requestVersionMajor2
/-- `request_version_major2`, src/http1/parser.rs lines 888-912. -/
def request_version_major2 (c : Cfg) : Out :=
  versionMajorN c .requestVersionMinor1 .requestVersionMinor1 .requestVersionMajor3 .requestVersionMajor3
/-- `request_version_major3`, src/http1/parser.rs lines 915-939. -/
def request_version_major3 (c : Cfg) : Out :=
  versionMajorN c .requestVersionMinor1 .requestVersionMinor1 .requestVersionPeriod .requestVersionPeriod
/-- `request_version_period`, src/http1/parser.rs lines 942-957. -/
def request_version_period (c : Cfg) : Out :=
  expectVersion c (c! '.') .requestVersionMinor1 .requestVersionMinor1
/-- `request_version_minor1`, src/http1/parser.rs lines 960-977. -/
def request_version_minor1 (c : Cfg) : Out :=
  versionMinor1 c .requestVersionMinor2 .requestVersionMinor2
/-- `request_version_minor2`, src/http1/parser.rs lines 980-1006. -/
def request_version_minor2 (c : Cfg) : Out :=
  versionMinorN c (c! '\r') .requestVersionCr .requestVersionCr .requestVersionMinor3 .requestVersionMinor3
/-- `request_version_minor3`, src/http1/parser.rs lines 1009-1035. -/
def request_version_minor3 (c : Cfg) : Out :=
  versionMinorN c (c! '\r') .requestVersionCr .requestVersionCr .requestVersionCr .requestVersionCr
/-- `request_version_cr`, src/http1/parser.rs lines 1038-1057. -/
def request_version_cr (h : Handler) (c : Cfg) : Out :=
  versionEnd h c (c! '\r') .initialEnd .initialEnd

/-! ## Response states -/

/-- `response_version_major1`, src/http1/parser.rs lines 1064-1084. -/
def response_version_major1 (c : Cfg) : Out :=
  versionMajor1 c .responseVersionMajor2 .responseVersionMajor2
/-- `response_version_major2`, src/http1/parser.rs lines 1087-1111. -/
def response_version_major2 (c : Cfg) : Out :=
  versionMajorN c .responseVersionMinor1 .responseVersionMinor1 .responseVersionMajor3 .responseVersionMajor3
/-- `response_version_major3`, src/http1/parser.rs lines 1114-1138. -/
def response_version_major3 (c : Cfg) : Out :=
  versionMajorN c .responseVersionMinor1 .responseVersionMinor1 .responseVersionPeriod .responseVersionPeriod
/-- `response_version_period`, src/http1/parser.rs lines 1141-1156. -/
def response_version_period (c : Cfg) : Out :=
  expectVersion c (c! '.') .responseVersionMinor1 .responseVersionMinor1
/-- `response_version_minor1`, src/http1/parser.rs lines 1159-1176. -/
def response_version_minor1 (c : Cfg) : Out :=
  versionMinor1 c .responseVersionMinor2 .responseVersionMinor2
/-- `response_version_minor2`, src/http1/parser.rs lines 1179-1205. -/
def response_version_minor2 (c : Cfg) : Out :=
  versionMinorN c (c! ' ') .responseVersionSpace .responseVersionSpace .responseVersionMinor3 .responseVersionMinor3
/-- `response_version_minor3`, src/http1/parser.rs lines 1208-1234. -/
def response_version_minor3 (c : Cfg) : Out :=
  versionMinorN c (c! ' ') .responseVersionSpace .responseVersionSpace .responseVersionSpace .responseVersionSpace
/-- `response_version_space`, src/http1/parser.rs lines 1237-1260. -/
def response_version_space (h : Handler) (c : Cfg) : Out :=
  versionEnd h c (c! ' ') .responseStatusCode1 .responseStatusCode1

/-- `response_status_code1`, src/http1/parser.rs lines 1263-1315. -/
def response_status_code1 (c : Cfg) : Out :=
  exitIfEos c <|
  if c.ctx.available > 2 then
    next c fun c =>
    if !isDigit c.ctx.byte then .err (.statusCode c.ctx.byte) c else
    let c := withP c fun p => setLower14 p (digitVal c.ctx.byte * 100)
    next c fun c =>
    if !isDigit c.ctx.byte then .err (.statusCode c.ctx.byte) c else
    let c := withP c fun p => setLower14 p (getLower14 p + digitVal c.ctx.byte * 10)
    next c fun c =>
    if !isDigit c.ctx.byte then .err (.statusCode c.ctx.byte) c else
    let c := withP c fun p => setLower14 p (getLower14 p + digitVal c.ctx.byte)
    transition c .responseStatusCodeSpace .responseStatusCodeSpace
  else
    next c fun c =>
    if isDigit c.ctx.byte then
      transition (withP c fun p => setLower14 p (digitVal c.ctx.byte * 100))
        .responseStatusCode2 .responseStatusCode2
    else .err (.statusCode c.ctx.byte) c

/-- `response_status_code2`, src/http1/parser.rs lines 1318-1335. -/
def response_status_code2 (c : Cfg) : Out :=
  exitIfEos c <| next c fun c =>
  if isDigit c.ctx.byte then
    transition (withP c fun p => setLower14 p (getLower14 p + digitVal c.ctx.byte * 10))
      .responseStatusCode3 .responseStatusCode3
  else .err (.statusCode c.ctx.byte) c

/-- `response_status_code3`, src/http1/parser.rs lines 1338-1355. -/
def response_status_code3 (c : Cfg) : Out :=
  exitIfEos c <| next c fun c =>
  if isDigit c.ctx.byte then
    transition (withP c fun p => setLower14 p (getLower14 p + digitVal c.ctx.byte))
      .responseStatusCodeSpace .responseStatusCodeSpace
  else .err (.statusCode c.ctx.byte) c

/-- `response_status_code_space`, src/http1/parser.rs lines 1358-1381. -/
def response_status_code_space (h : Handler) (c : Cfg) : Out :=
  exitIfEos c <| next c fun c =>
  if c.ctx.byte == c! ' ' then
    callbackData h (setState c .responseStatus1 .responseStatus1)
      (.statusCode (getLower14 c.p).toUInt16.toNat) remark
  else .err (.statusCode c.ctx.byte) c

/-- The non-control test of src/http1/parser.rs lines 1390 and 1411. -/
def isNonControl (b : UInt8) : Bool := b > 0x1F && b != 0x7F

/-- `response_status1`, src/http1/parser.rs lines 1384-1402. -/
def response_status1 (c : Cfg) : Out :=
  exitIfEos c <| next c fun c =>
  if isNonControl c.ctx.byte then
    replay c fun c => transition c .responseStatus2 .responseStatus2
  else .err (.status c.ctx.byte) c

/-- `response_status2`, src/http1/parser.rs lines 1405-1433. The loop body leaves with an error on a
control byte other than CR. -/
def response_status2 (h : Handler) (c : Cfg) : Out :=
  match c.ctx.collect (fun b =>
      if isNonControl b then .cont else if b == c! '\r' then .brk else .fail) with
  | .eos ctx => callbackEos h { c with ctx := ctx } .status
  | .brk ctx => callbackIgnoreTransition h { c with ctx := ctx } .status .initialEnd .initialEnd
  | .fail ctx => .err (.status ctx.byte) { c with ctx := ctx }
  | .panic => .panic

/-! ## Header states -/

/-- `initial_end`, src/http1/parser.rs lines 1440-1449. -/
def initial_end (h : Handler) (c : Cfg) : Out :=
  callbackData h (setState c .initialLf .initialLf) .initialFinished remark

/-- Common shape "read one byte, which must be `expect`, else a CRLF error".
Uses: src/http1/parser.rs 1452-1467, 1810, 1866, 2161, 2471, 2489. -/
def expectCrlf (c : Cfg) (expect : UInt8) (s f : St) : Out :=
  exitIfEos c <| next c fun c =>
  if c.ctx.byte == expect then transition c s f
  else .err (.crlfSequence c.ctx.byte) c

/-- `initial_lf`, src/http1/parser.rs lines 1452-1467. -/
def initial_lf (c : Cfg) : Out := expectCrlf c (c! '\n') .headerCr2 .headerCr2

/-- `check_header_name`, src/http1/parser.rs lines 1470-1493. -/
def check_header_name (c : Cfg) : Out :=
  exitIfEos c <| next c fun c =>
  if c.ctx.byte == c! ' ' || c.ctx.byte == c! '\t' then transition c .headerValue .headerValue
  else replay c fun c => transition c .firstHeaderName .firstHeaderName

/-- The byte-by-byte part of `first_header_name`, src/http1/parser.rs lines 1581-1596. -/
def firstHeaderNameSlow (c : Cfg) : Out :=
  exitIfEos c <| next c fun c =>
  if isVisible7bit c.ctx.byte then
    replay c fun c => transition c .upperHeaderName .upperHeaderName
  else .err (.headerName c.ctx.byte) c

/-- The comparisons of `first_header_name`, src/http1/parser.rs lines 1512-1579, made when at least
24 bytes are available: the name given to the callback and the number of bytes skipped, or `none`
if the code falls through to the byte-by-byte part. -/
def firstHeaderFast (x : Ctx) : Option (Bytes × Nat) :=
  if x.byte == c! 'A' then
    if x.startsWith b!"Accept:" then some (b!"accept", 7)
    else if x.startsWith b!"Accept-Charset:" then some (b!"accept-charset", 15)
    else if x.startsWith b!"Accept-Encoding:" then some (b!"accept-encoding", 16)
    else if x.startsWith b!"Accept-Language:" then some (b!"accept-language", 16)
    else if x.startsWith b!"Authorization:" then some (b!"authorization", 14)
    else none
  else if x.startsWith b!"Host:" then some (b!"host", 5)
  else if x.byte == c! 'U' then
    if x.startsWith b!"User-Agent:" then some (b!"user-agent", 11)
    else if x.startsWith b!"Upgrade:" then some (b!"upgrade", 8)
    else none
  else if x.byte == c! 'C' then
    if x.startsWith b!"Connection:" then some (b!"connection", 11)
    else if x.startsWith b!"Content-Type:" then some (b!"content-type", 13)
    else if x.startsWith b!"Content-Length:" then some (b!"content-length", 15)
    else if x.startsWith b!"Cookie:" then some (b!"cookie", 7)
    else if x.startsWith b!"Cache-Control:" then some (b!"cache-control", 14)
    else if x.startsWith b!"Content-Security-Policy:" then some (b!"content-security-policy", 24)
    else none
  else if x.byte == c! 'L' then
    if x.startsWith b!"Location:" then some (b!"location", 9)
    else if x.startsWith b!"Last-Modified:" then some (b!"last-modified", 14)
    else none
  else if x.startsWith b!"Pragma:" then some (b!"pragma", 7)
  else if x.startsWith b!"Set-Cookie:" then some (b!"set-cookie", 11)
  else if x.startsWith b!"Transfer-Encoding:" then some (b!"transfer-encoding", 18)
  else if x.byte == c! 'X' then
    if x.startsWith b!"X-Powered-By:" then some (b!"x-powered-by", 13)
    else if x.startsWith b!"X-Forwarded-For:" then some (b!"x-forwarded-for", 16)
    else if x.startsWith b!"X-Forwarded-Host:" then some (b!"x-forwarded-host", 17)
    else if x.startsWith b!"X-XSS-Protection:" then some (b!"x-xss-protection", 17)
    else if x.startsWith b!"X-WebKit-CSP:" then some (b!"x-webkit-csp", 13)
    else none
  else if x.startsWith b!"WWW-Authenticate:" then some (b!"www-authenticate", 17)
  else none

/-- `first_header_name`, src/http1/parser.rs lines 1496-1597. -/
def first_header_name (h : Handler) (c : Cfg) : Out :=
  if c.ctx.hasBytes 24 then
    match firstHeaderFast c.ctx with
    | some (name, len) =>
      callbackTransitionData h (jump c len) (.headerName name) .stripHeaderValue .stripHeaderValue
    | none => firstHeaderNameSlow c
  else firstHeaderNameSlow c

/-- `upper_header_name`, src/http1/parser.rs lines 1600-1626. -/
def upper_header_name (h : Handler) (c : Cfg) : Out :=
  exitIfEos c <| next c fun c =>
  if isUpper c.ctx.byte then
    callbackTransitionData h c (.headerName [c.ctx.byte + 0x20]) .lowerHeaderName .lowerHeaderName
  else replay c fun c => transition c .lowerHeaderName .lowerHeaderName

/-- `lower_header_name`, src/http1/parser.rs lines 1629-1665. -/
def lower_header_name (h : Handler) (c : Cfg) : Out :=
  collecting c (c.ctx.collectTokens isUpper) (callbackEos h · .headerName) fun c =>
  if isUpper c.ctx.byte then
    replay c fun c => callbackTransition h c .headerName .upperHeaderName .upperHeaderName
  else if c.ctx.byte == c! ':' then
    callbackIgnoreTransition h c .headerName .stripHeaderValue .stripHeaderValue
  else .err (.headerName c.ctx.byte) c

/-- `strip_header_value`, src/http1/parser.rs lines 1668-1690. -/
def strip_header_value (c : Cfg) : Out :=
  collecting c c.ctx.consumeLinearSpace exitEos fun c =>
  if isVisible7bit c.ctx.byte then
    replay c fun c => transition c .headerValue .headerValue
  else .err (.headerValue c.ctx.byte) c

/-- `header_value`, src/http1/parser.rs lines 1693-1721. -/
def header_value (h : Handler) (c : Cfg) : Out :=
  collecting c (c.ctx.collectField fun _ => false) (callbackEos h · .headerValue) fun c =>
  if c.ctx.byte == c! '\r' then
    callbackIgnoreTransition h c .headerValue .headerLf1 .headerLf1
  else if c.ctx.byte == c! '"' then transitionNoRemark c .headerQuotedValue .headerQuotedValue
  else .err (.headerValue c.ctx.byte) c

/-- `header_quoted_value`, src/http1/parser.rs lines 1724-1750. -/
def header_quoted_value (h : Handler) (c : Cfg) : Out :=
  collecting c c.ctx.collectQuotedField (callbackEos h · .headerValue) fun c =>
  if c.ctx.byte == c! '"' then transitionNoRemark c .headerValue .headerValue
  else if c.ctx.byte == c! '\\' then
    transitionNoRemark c .headerEscapedValue .headerEscapedValue
  else .err (.headerValue c.ctx.byte) c

/-- The escaped byte test of src/http1/parser.rs lines 1764 and 2385. -/
def isEscapable (b : UInt8) : Bool := b > 0x1F && b < 0x7B

/-- `header_escaped_value`, src/http1/parser.rs lines 1753-1776. -/
def header_escaped_value (h : Handler) (c : Cfg) : Out :=
  if c.ctx.available = 0 then callbackEos h c .headerValue
  else next c fun c =>
    if isEscapable c.ctx.byte then
      callbackTransition h c .headerValue .headerQuotedValue .headerQuotedValue
    else .err (.headerValue c.ctx.byte) c

/-- `header_cr1`, src/http1/parser.rs lines 1779-1807 (unreachable in the code). -/
def header_cr1 (c : Cfg) : Out :=
  if c.ctx.hasBytes 2 && c.ctx.startsWith b!"\r\n" then
    transition (jump c 2) .headerCr2 .headerCr2
  else expectCrlf c (c! '\r') .headerLf1 .headerLf1

/-- `header_lf1`, src/http1/parser.rs lines 1810-1825. -/
def header_lf1 (c : Cfg) : Out := expectCrlf c (c! '\n') .headerCr2 .headerCr2

/-- `header_cr2`, src/http1/parser.rs lines 1828-1863. -/
def header_cr2 (c : Cfg) : Out :=
  if c.ctx.hasBytes 2 && c.ctx.startsWith b!"\r\n" then
    transition (jump c 2) .headerEnd .headerEnd
  else
    exitIfEos c <| next c fun c =>
    if c.ctx.byte == c! '\r' then transition c .headerLf2 .headerLf2
    else replay c fun c => transition c .checkHeaderName .checkHeaderName

/-- `header_lf2`, src/http1/parser.rs lines 1866-1881. -/
def header_lf2 (c : Cfg) : Out := expectCrlf c (c! '\n') .headerEnd .headerEnd

/-- `header_end`, src/http1/parser.rs lines 1884-1899. -/
def header_end (h : Handler) (c : Cfg) : Out :=
  let c := match c.p.ptype with
    | .chunked => setState c .bodyFinished .bodyFinished
    | .multipart => setState c .multipartDetectData .multipartDetectData
    | _ => setState c .finished .finished
  callbackData h c .headersFinished remark

/-! ## Chunk states -/

/-- `chunk_length1`, src/http1/parser.rs lines 1906-1926. -/
def chunk_length1 (h : Handler) (c : Cfg) : Out :=
  exitIfEos c <| next c fun c =>
  if c.ctx.byte == c! '0' then
    callbackData h (setState c .chunkLengthCr .chunkLengthCr) .chunkBegin remark
  else if isHex c.ctx.byte then
    let c := withP c fun p => { p with length := (hexToByte c.ctx.byte).toNat }
    callbackData h (setState c .chunkLength2 .chunkLength2) .chunkBegin remark
  else .err (.chunkLength c.ctx.byte) c

/-- `self.length <<= 4; self.length |= hex_to_byte!(byte)`, e.g. src/http1/parser.rs
lines 1935-1936. -/
def pushHex (c : Cfg) : Cfg :=
  withP c fun p => { p with length := (p.length <<< 4) ||| (hexToByte c.ctx.byte).toNat }

/-- Common shape of `chunk_length2`..`chunk_length7`. src/http1/parser.rs 1929-2094. -/
def chunkLengthN (c : Cfg) (s f : St) : Out :=
  exitIfEos c <| next c fun c =>
  if isHex c.ctx.byte then transition (pushHex c) s f
  else replay c fun c => transition c .chunkLengthCr .chunkLengthCr

/-- `chunk_length2`, src/http1/parser.rs lines 1929-1954. -/
def chunk_length2 (c : Cfg) : Out := chunkLengthN c .chunkLength3 .chunkLength3
/-- `chunk_length3`, src/http1/parser.rs lines 1957-1982. -/
def chunk_length3 (c : Cfg) : Out := chunkLengthN c .chunkLength4 .chunkLength4
/-- `chunk_length4`, src/http1/parser.rs lines 1985-2010. -/
def chunk_length4 (c : Cfg) : Out := chunkLengthN c .chunkLength5 .chunkLength5
/-- `chunk_length5`, src/http1/parser.rs lines 2013-2038. -/
def chunk_length5 (c : Cfg) : Out := chunkLengthN c .chunkLength6 .chunkLength6
/-- `chunk_length6`, src/http1/parser.rs lines 2041-2066. -/
def chunk_length6 (c : Cfg) : Out := chunkLengthN c .chunkLength7 .chunkLength7
/-- `chunk_length7`, src/http1/parser.rs lines 2069-2094. -/
def chunk_length7 (c : Cfg) : Out := chunkLengthN c .chunkLength8 .chunkLength8
/-- `chunk_length8`, src/http1/parser.rs lines 2097-2115. -/
def chunk_length8 (c : Cfg) : Out := chunkLengthN c .chunkLengthCr .chunkLengthCr

/-- `chunk_length_cr`, src/http1/parser.rs lines 2118-2158. -/
def chunk_length_cr (h : Handler) (c : Cfg) : Out :=
  exitIfEos c <| next c fun c =>
  if c.ctx.byte == c! '\r' then
    if c.p.length = 0 then
      callbackTransitionData h c (.chunkLength c.p.length) .headerLf1 .headerLf1
    else
      callbackTransitionData h c (.chunkLength c.p.length)
        .chunkExtensionsFinished .chunkExtensionsFinished
  else if c.ctx.byte == c! ';' then
    callbackTransitionData h c (.chunkLength c.p.length)
      .stripChunkExtensionName .stripChunkExtensionName
  else .err (.chunkLength c.ctx.byte) c

/-- `chunk_length_lf`, src/http1/parser.rs lines 2161-2176. -/
def chunk_length_lf (c : Cfg) : Out := expectCrlf c (c! '\n') .chunkData .chunkData

/-- `strip_chunk_extension_name`, src/http1/parser.rs lines 2179-2201. -/
def strip_chunk_extension_name (c : Cfg) : Out :=
  collecting c c.ctx.consumeLinearSpace exitEos fun c =>
  if isVisible7bit c.ctx.byte then
    replay c fun c => transition c .lowerChunkExtensionName .lowerChunkExtensionName
  else .err (.chunkExtensionName c.ctx.byte) c

/-- `lower_chunk_extension_name`, src/http1/parser.rs lines 2204-2252. -/
def lower_chunk_extension_name (h : Handler) (c : Cfg) : Out :=
  collecting c (c.ctx.collectTokens isUpper) (callbackEos h · .chunkExtensionName) fun c =>
  if c.ctx.byte == c! '=' then
    callbackIgnoreTransition h c .chunkExtensionName
      .stripChunkExtensionValue .stripChunkExtensionValue
  else if c.ctx.byte == c! '\r' || c.ctx.byte == c! ';' then
    replay c fun c => callbackTransition h c .chunkExtensionName
      .chunkExtensionFinished .chunkExtensionFinished
  else if isUpper c.ctx.byte then
    replay c fun c => callbackTransition h c .chunkExtensionName
      .upperChunkExtensionName .upperChunkExtensionName
  else .err (.chunkExtensionName c.ctx.byte) c

/-- `upper_chunk_extension_name`, src/http1/parser.rs lines 2255-2280. -/
def upper_chunk_extension_name (h : Handler) (c : Cfg) : Out :=
  exitIfEos c <| next c fun c =>
  if isUpper c.ctx.byte then
    callbackTransitionData h c (.chunkExtensionName [c.ctx.byte + 0x20])
      .lowerChunkExtensionName .lowerChunkExtensionName
  else replay c fun c => transition c .lowerChunkExtensionName .lowerChunkExtensionName

/-- `strip_chunk_extension_value`, src/http1/parser.rs lines 2283-2305. -/
def strip_chunk_extension_value (c : Cfg) : Out :=
  collecting c c.ctx.consumeLinearSpace exitEos fun c =>
  if isVisible7bit c.ctx.byte then
    replay c fun c => transition c .chunkExtensionValue .chunkExtensionValue
  else .err (.chunkExtensionValue c.ctx.byte) c

/-- `chunk_extension_value`, src/http1/parser.rs lines 2308-2343. -/
def chunk_extension_value (h : Handler) (c : Cfg) : Out :=
  collecting c (c.ctx.collectField fun b => b == c! ';')
    (callbackEos h · .chunkExtensionValue) fun c =>
  if c.ctx.byte == c! '\r' || c.ctx.byte == c! ';' then
    replay c fun c => callbackTransition h c .chunkExtensionValue
      .chunkExtensionFinished .chunkExtensionFinished
  else if c.ctx.byte == c! '"' then
    callbackIgnoreTransition h c .chunkExtensionValue
      .chunkExtensionQuotedValue .chunkExtensionQuotedValue
  else .err (.chunkExtensionValue c.ctx.byte) c

/-- `chunk_extension_quoted_value`, src/http1/parser.rs lines 2346-2376. -/
def chunk_extension_quoted_value (h : Handler) (c : Cfg) : Out :=
  collecting c c.ctx.collectQuotedField (callbackEos h · .chunkExtensionValue) fun c =>
  if c.ctx.byte == c! '"' then
    callbackIgnoreTransition h c .chunkExtensionValue .chunkExtensionValue .chunkExtensionValue
  else if c.ctx.byte == c! '\\' then
    callbackIgnoreTransition h c .chunkExtensionValue
      .chunkExtensionEscapedValue .chunkExtensionEscapedValue
  else .err (.chunkExtensionValue c.ctx.byte) c

/-- `chunk_extension_escaped_value`, src/http1/parser.rs lines 2379-2398. -/
def chunk_extension_escaped_value (h : Handler) (c : Cfg) : Out :=
  exitIfEos c <| next c fun c =>
  if isEscapable c.ctx.byte then
    callbackTransitionData h c (.chunkExtensionValue [c.ctx.byte])
      .chunkExtensionQuotedValue .chunkExtensionQuotedValue
  else .err (.chunkExtensionValue c.ctx.byte) c

/-- `chunk_extension_finished`, src/http1/parser.rs lines 2401-2417. -/
def chunk_extension_finished (h : Handler) (c : Cfg) : Out :=
  exitIfEos c <| next c fun c =>
  let c := if c.ctx.byte == c! '\r' then
      setState c .chunkExtensionsFinished .chunkExtensionsFinished
    else setState c .stripChunkExtensionName .stripChunkExtensionName
  callbackData h c .chunkExtensionFinished remark

/-- `chunk_extensions_finished`, src/http1/parser.rs lines 2420-2432. -/
def chunk_extensions_finished (h : Handler) (c : Cfg) : Out :=
  callbackData h (setState c .chunkLengthLf .chunkLengthLf) .chunkExtensionsFinished remark

/-- Collect `self.length` bytes, or all unread bytes: the common body of `chunk_data`
(src/http1/parser.rs lines 2435-2468) and `multipart_data_by_length` (lines 2733-2766). -/
def collectLength (h : Handler) (c : Cfg) (mk : Bytes → Ev) (s f s' f' : St) : Out :=
  exitIfEos c <|
  if c.ctx.available ≥ c.p.length then
    let c := withP (jump c c.p.length) fun p => { p with length := 0 }
    callbackTransition h c mk s f
  else
    let n := c.ctx.available
    let c := jump (withP c fun p => { p with length := p.length - n }) n
    callbackTransition h c mk s' f'

/-- `chunk_data`, src/http1/parser.rs lines 2435-2468. -/
def chunk_data (h : Handler) (c : Cfg) : Out :=
  collectLength h c .chunkData .chunkDataCr .chunkDataCr .chunkData .chunkData

/-- `chunk_data_cr`, src/http1/parser.rs lines 2471-2486. -/
def chunk_data_cr (c : Cfg) : Out := expectCrlf c (c! '\r') .chunkDataLf .chunkDataLf

/-- `chunk_data_lf`, src/http1/parser.rs lines 2489-2504. -/
def chunk_data_lf (c : Cfg) : Out := expectCrlf c (c! '\n') .chunkLength1 .chunkLength1

/-! ## Multipart states -/

/-- `multipart_hyphen1`, src/http1/parser.rs lines 2511-2538. -/
def multipart_hyphen1 (h : Handler) (c : Cfg) : Out :=
  exitIfEos c <| next c fun c =>
  if c.ctx.byte == c! '-' then transition c .multipartHyphen2 .multipartHyphen2
  else if getLower14 c.p == 0 then
    callbackTransitionData h c (.multipartData [c! '\r', c! '\n', c.ctx.byte])
      .multipartDataByByte .multipartDataByByte
  else .err (.multipartBoundary c.ctx.byte) c

/-- `multipart_hyphen2`, src/http1/parser.rs lines 2541-2568. -/
def multipart_hyphen2 (h : Handler) (c : Cfg) : Out :=
  exitIfEos c <| next c fun c =>
  if c.ctx.byte == c! '-' then transition c .multipartBoundary .multipartBoundary
  else if getLower14 c.p == 0 then
    callbackTransitionData h c (.multipartData [c! '\r', c! '\n', c! '-', c.ctx.byte])
      .multipartDataByByte .multipartDataByByte
  else .err (.multipartBoundary c.ctx.byte) c

/-- `multipart_boundary`, src/http1/parser.rs lines 2571-2658. A missing boundary panics
(`unwrap`), as does an index beyond the boundary. -/
def multipart_boundary (h : Handler) (c : Cfg) : Out :=
  exitIfEos c <|
  match c.p.boundary with
  | none => .panic
  | some boundary =>
    let up := (getUpper14 c.p).toNat
    if boundary.length < up then .panic
    else
      let slice :=
        if boundary.length - up ≤ c.ctx.available then boundary.drop up
        else (boundary.drop up).take c.ctx.available
      if c.ctx.startsWith slice then
        let c := jump c slice.length
        if up + slice.length = boundary.length then
          transition (withP c fun p => setUpper14 p 0) .multipartBoundaryCr .multipartBoundaryCr
        else exitEos (withP c fun p => incUpper14 p slice.length)
      else if getLower14 c.p == 0 then
        callbackTransitionData h (withP c fun p => setUpper14 p 0)
          (.multipartData (b!"\r\n--" ++ boundary.take up))
          .multipartDataByByte .multipartDataByByte
      else next c fun c => .err (.multipartBoundary c.ctx.byte) c

/-- `multipart_boundary_cr`, src/http1/parser.rs lines 2661-2684. -/
def multipart_boundary_cr (h : Handler) (c : Cfg) : Out :=
  exitIfEos c <| next c fun c =>
  if c.ctx.byte == c! '\r' then
    callbackData h (setState c .initialLf .initialLf) .multipartBegin remark
  else if c.ctx.byte == c! '-' then transition c .multipartEnd .multipartEnd
  else .err (.multipartBoundary c.ctx.byte) c

/-- Common shape "read one byte, which must be `expect`, else a boundary error".
Uses: src/http1/parser.rs 2687, 2769, 2789, 2858. -/
def expectBoundary (c : Cfg) (expect : UInt8) (s f : St) : Out :=
  exitIfEos c <| next c fun c =>
  if c.ctx.byte == expect then transition c s f
  else .err (.multipartBoundary c.ctx.byte) c

/-- `multipart_boundary_lf`, src/http1/parser.rs lines 2687-2702 (unreachable in the code). -/
def multipart_boundary_lf (c : Cfg) : Out :=
  expectBoundary c (c! '\n') .checkHeaderName .checkHeaderName

/-- `multipart_detect_data`, src/http1/parser.rs lines 2705-2730. -/
def multipart_detect_data (h : Handler) (c : Cfg) : Out :=
  match h.contentLength c.log with
  | some length =>
    transition (withP c fun p => setLower14 { p with length := length } 1)
      .multipartDataByLength .multipartDataByLength
  | none =>
    transition (withP c fun p => setLower14 p 0) .multipartDataByByte .multipartDataByByte

/-- `multipart_data_by_length`, src/http1/parser.rs lines 2733-2766. -/
def multipart_data_by_length (h : Handler) (c : Cfg) : Out :=
  collectLength h c .multipartData .multipartDataByLengthCr .multipartDataByLengthCr
    .multipartDataByLength .multipartDataByLength

/-- `multipart_data_by_length_cr`, src/http1/parser.rs lines 2769-2786. -/
def multipart_data_by_length_cr (c : Cfg) : Out :=
  expectBoundary c (c! '\r') .multipartDataByLengthLf .multipartDataByLengthLf

/-- `multipart_data_by_length_lf`, src/http1/parser.rs lines 2789-2806. -/
def multipart_data_by_length_lf (c : Cfg) : Out :=
  expectBoundary c (c! '\n') .multipartHyphen1 .multipartHyphen1

/-- `multipart_data_by_byte`, src/http1/parser.rs lines 2809-2829. -/
def multipart_data_by_byte (h : Handler) (c : Cfg) : Out :=
  collecting c (c.ctx.collect fun b => if b == c! '\r' then .brk else .cont)
    (callbackEos h · .multipartData) fun c =>
  callbackIgnoreTransition h c .multipartData .multipartDataByByteLf .multipartDataByByteLf

/-- `multipart_data_by_byte_lf`, src/http1/parser.rs lines 2832-2855. -/
def multipart_data_by_byte_lf (h : Handler) (c : Cfg) : Out :=
  exitIfEos c <| next c fun c =>
  if c.ctx.byte == c! '\n' then transition c .multipartHyphen1 .multipartHyphen1
  else callbackTransitionData h c (.multipartData [c! '\r', c.ctx.byte])
    .multipartDataByByte .multipartDataByByte

/-- `multipart_end`, src/http1/parser.rs lines 2858-2873. -/
def multipart_end (c : Cfg) : Out := expectBoundary c (c! '-') .bodyFinished .bodyFinished

/-! ## URL encoded states -/

/-- `first_url_encoded_name`, src/http1/parser.rs lines 2880-2896. -/
def first_url_encoded_name (h : Handler) (c : Cfg) : Out :=
  exitIfEos c <| callbackData h (setState c .urlEncodedName .urlEncodedName) .urlEncodedBegin remark

/-- `url_encoded_name`, src/http1/parser.rs lines 2899-2960. -/
def url_encoded_name (h : Handler) (c : Cfg) : Out :=
  collecting c (c.ctx.collectVisible7bit fun b =>
      b == c! '%' || b == c! '+' || b == c! '=' || b == c! '&' || b == c! ';')
    (callbackEos h · .urlEncodedName) fun c =>
  if c.ctx.byte == c! '%' then
    callbackIgnoreTransition h c .urlEncodedName .urlEncodedNameHex1 .urlEncodedNameHex1
  else if c.ctx.byte == c! '+' then
    callbackIgnoreTransition h c .urlEncodedName .urlEncodedNamePlus .urlEncodedNamePlus
  else if c.ctx.byte == c! '=' then
    callbackIgnoreTransition h c .urlEncodedName .urlEncodedValue .urlEncodedValue
  else if c.ctx.byte == c! '&' || c.ctx.byte == c! ';' then
    callbackIgnoreTransition h c .urlEncodedName .firstUrlEncodedName .firstUrlEncodedName
  else .err (.urlEncodedName c.ctx.byte) c

/-- The hex digit conversion of src/http1/parser.rs lines 2997-3003 (and, shifted, 2970-2976):
`none` is the error branch. -/
def hexDigit (b : UInt8) : Option UInt8 :=
  if isDigit b then some (b - c! '0')
  else if c! '@' < b && b < c! 'G' then some (b - 0x37)
  else if c! '`' < b && b < c! 'g' then some (b - 0x57)
  else none

/-- `url_encoded_name_hex1`, src/http1/parser.rs lines 2963-2987. -/
def url_encoded_name_hex1 (c : Cfg) : Out :=
  exitIfEos c <| next c fun c =>
  match hexDigit c.ctx.byte with
  | some d => transition (withP c fun p => setUpper14 p (d <<< 4).toUInt32)
      .urlEncodedNameHex2 .urlEncodedNameHex2
  | none => .err (.urlEncodedName c.ctx.byte) c

/-- `url_encoded_name_hex2`, src/http1/parser.rs lines 2990-3017. -/
def url_encoded_name_hex2 (h : Handler) (c : Cfg) : Out :=
  exitIfEos c <| next c fun c =>
  match hexDigit c.ctx.byte with
  | some d =>
    let c := withP c fun p => setLower14 p d.toUInt32
    callbackTransitionData h c
      (.urlEncodedName [(getUpper14 c.p ||| getLower14 c.p).toUInt8])
      .urlEncodedName .urlEncodedName
  | none => .err (.urlEncodedName c.ctx.byte) c

/-- `url_encoded_name_plus`, src/http1/parser.rs lines 3020-3031. -/
def url_encoded_name_plus (h : Handler) (c : Cfg) : Out :=
  callbackTransitionData h c (.urlEncodedName b!" ") .urlEncodedName .urlEncodedName

/-- `url_encoded_value`, src/http1/parser.rs lines 3034-3084. -/
def url_encoded_value (h : Handler) (c : Cfg) : Out :=
  collecting c (c.ctx.collectVisible7bit fun b =>
      b == c! '%' || b == c! '+' || b == c! '&' || b == c! ';')
    (callbackEos h · .urlEncodedValue) fun c =>
  if c.ctx.byte == c! '%' then
    callbackIgnoreTransition h c .urlEncodedValue .urlEncodedValueHex1 .urlEncodedValueHex1
  else if c.ctx.byte == c! '&' || c.ctx.byte == c! ';' then
    callbackIgnoreTransition h c .urlEncodedValue .firstUrlEncodedName .firstUrlEncodedName
  else if c.ctx.byte == c! '+' then
    callbackIgnoreTransition h c .urlEncodedValue .urlEncodedValuePlus .urlEncodedValuePlus
  else .err (.urlEncodedValue c.ctx.byte) c

/-- `url_encoded_value_hex1`, src/http1/parser.rs lines 3087-3111. -/
def url_encoded_value_hex1 (c : Cfg) : Out :=
  exitIfEos c <| next c fun c =>
  match hexDigit c.ctx.byte with
  | some d => transition (withP c fun p => setUpper14 p (d <<< 4).toUInt32)
      .urlEncodedValueHex2 .urlEncodedValueHex2
  | none => .err (.urlEncodedValue c.ctx.byte) c

/-- `url_encoded_value_hex2`, src/http1/parser.rs lines 3114-3141. -/
def url_encoded_value_hex2 (h : Handler) (c : Cfg) : Out :=
  exitIfEos c <| next c fun c =>
  match hexDigit c.ctx.byte with
  | some d =>
    let c := withP c fun p => setLower14 p d.toUInt32
    callbackTransitionData h c
      (.urlEncodedValue [(getUpper14 c.p ||| getLower14 c.p).toUInt8])
      .urlEncodedValue .urlEncodedValue
  | none => .err (.urlEncodedValue c.ctx.byte) c

/-- `url_encoded_value_plus`, src/http1/parser.rs lines 3144-3155. -/
def url_encoded_value_plus (h : Handler) (c : Cfg) : Out :=
  callbackTransitionData h c (.urlEncodedValue b!" ") .urlEncodedValue .urlEncodedValue

/-! ## Dead and finished states -/

/-- `dead`, src/http1/parser.rs lines 3162-3165. -/
def dead (c : Cfg) : Out := .err .dead c

/-- `body_finished`, src/http1/parser.rs lines 3168-3177. -/
def body_finished (h : Handler) (c : Cfg) : Out :=
  callbackData h (setState c .finished .finished) .bodyFinished remark

/-- `finished`, src/http1/parser.rs lines 3180-3183. -/
def finished (c : Cfg) : Out := .exit (.finished c.ctx.idx) c

/-- The call `(self.state_function)(self, handler, context)`, src/http1/parser.rs line 218. -/
def step (h : Handler) (c : Cfg) : Out :=
  match c.p.fn with
  | .dead => dead c
  | .stripDetect => strip_detect c
  | .detect1 => detect1 h c
  | .detect2 => detect2 c
  | .detect3 => detect3 c
  | .detect4 => detect4 c
  | .detect5 => detect5 c
  | .requestMethod => request_method h c
  | .requestUrl1 => request_url1 c
  | .requestUrl2 => request_url2 h c
  | .requestHttp1 => request_http1 h c
  | .requestHttp2 => request_http2 c
  | .requestHttp3 => request_http3 c
  | .requestHttp4 => request_http4 c
  | .requestHttp5 => request_http5 c
  | .requestVersionMajor1 => request_version_major1 c
  | .requestVersionMajor2 => request_version_major2 c
  | .requestVersionMajor3 => request_version_major3 c
  | .requestVersionPeriod => request_version_period c
  | .requestVersionMinor1 => request_version_minor1 c
  | .requestVersionMinor2 => request_version_minor2 c
  | .requestVersionMinor3 => request_version_minor3 c
  | .requestVersionCr => request_version_cr h c
  | .responseVersionMajor1 => response_version_major1 c
  | .responseVersionMajor2 => response_version_major2 c
  | .responseVersionMajor3 => response_version_major3 c
  | .responseVersionPeriod => response_version_period c
  | .responseVersionMinor1 => response_version_minor1 c
  | .responseVersionMinor2 => response_version_minor2 c
  | .responseVersionMinor3 => response_version_minor3 c
  | .responseVersionSpace => response_version_space h c
  | .responseStatusCode1 => response_status_code1 c
  | .responseStatusCode2 => response_status_code2 c
  | .responseStatusCode3 => response_status_code3 c
  | .responseStatusCodeSpace => response_status_code_space h c
  | .responseStatus1 => response_status1 c
  | .responseStatus2 => response_status2 h c
  | .initialEnd => initial_end h c
  | .initialLf => initial_lf c
  | .checkHeaderName => check_header_name c
  | .firstHeaderName => first_header_name h c
  | .upperHeaderName => upper_header_name h c
  | .lowerHeaderName => lower_header_name h c
  | .stripHeaderValue => strip_header_value c
  | .headerValue => header_value h c
  | .headerQuotedValue => header_quoted_value h c
  | .headerEscapedValue => header_escaped_value h c
  | .headerCr1 => header_cr1 c
  | .headerLf1 => header_lf1 c
  | .headerCr2 => header_cr2 c
  | .headerLf2 => header_lf2 c
  | .headerEnd => header_end h c
  | .chunkLength1 => chunk_length1 h c
  | .chunkLength2 => chunk_length2 c
  | .chunkLength3 => chunk_length3 c
  | .chunkLength4 => chunk_length4 c
  | .chunkLength5 => chunk_length5 c
  | .chunkLength6 => chunk_length6 c
  | .chunkLength7 => chunk_length7 c
  | .chunkLength8 => chunk_length8 c
  | .chunkLengthCr => chunk_length_cr h c
  | .chunkLengthLf => chunk_length_lf c
  | .stripChunkExtensionName => strip_chunk_extension_name c
  | .lowerChunkExtensionName => lower_chunk_extension_name h c
  | .upperChunkExtensionName => upper_chunk_extension_name h c
  | .stripChunkExtensionValue => strip_chunk_extension_value c
  | .chunkExtensionValue => chunk_extension_value h c
  | .chunkExtensionQuotedValue => chunk_extension_quoted_value h c
  | .chunkExtensionEscapedValue => chunk_extension_escaped_value h c
  | .chunkExtensionFinished => chunk_extension_finished h c
  | .chunkExtensionsFinished => chunk_extensions_finished h c
  | .chunkData => chunk_data h c
  | .chunkDataCr => chunk_data_cr c
  | .chunkDataLf => chunk_data_lf c
  | .multipartHyphen1 => multipart_hyphen1 h c
  | .multipartHyphen2 => multipart_hyphen2 h c
  | .multipartBoundary => multipart_boundary h c
  | .multipartBoundaryCr => multipart_boundary_cr h c
  | .multipartBoundaryLf => multipart_boundary_lf c
  | .multipartDetectData => multipart_detect_data h c
  | .multipartDataByLength => multipart_data_by_length h c
  | .multipartDataByLengthCr => multipart_data_by_length_cr c
  | .multipartDataByLengthLf => multipart_data_by_length_lf c
  | .multipartDataByByte => multipart_data_by_byte h c
  | .multipartDataByByteLf => multipart_data_by_byte_lf h c
  | .multipartEnd => multipart_end c
  | .firstUrlEncodedName => first_url_encoded_name h c
  | .urlEncodedName => url_encoded_name h c
  | .urlEncodedNameHex1 => url_encoded_name_hex1 c
  | .urlEncodedNameHex2 => url_encoded_name_hex2 h c
  | .urlEncodedNamePlus => url_encoded_name_plus h c
  | .urlEncodedValue => url_encoded_value h c
  | .urlEncodedValueHex1 => url_encoded_value_hex1 c
  | .urlEncodedValueHex2 => url_encoded_value_hex2 h c
  | .urlEncodedValuePlus => url_encoded_value_plus h c
  | .bodyFinished => body_finished h c
  | .finished => finished c

/-! ## The parser loop and the public functions -/

/-- Result of `parse`/`resume`: `Result<Success, ParserError>`, or a panic, or undefined behaviour,
or (`diverge`) the fuel of the model's loop is exhausted.
src/http1/parser.rs 215-239, 285-320; src/fsm.rs 199-233. -/
inductive Res
  | ok (s : Success)
  | err (e : PErr)
  | panic
  | ub
  | diverge
deriving Repr, DecidableEq

/-- `Parser::parse`, src/http1/parser.rs lines 215-239: call the state function until it does not
return `Continue`. The first argument bounds the number of calls. -/
def parse (h : Handler) : Nat → Cfg → Res × Cfg
  | 0, c => (.diverge, c)
  | n + 1, c =>
    match step h c with
    | .cont c' => parse h n c'
    | .exit s c' =>
      let p := { c'.p with byteCount := c'.p.byteCount + c'.ctx.idx }
      let p := match s with
        | .finished _ => { p with state := .finished }
        | _ => p
      (.ok s, { c' with p := p })
    | .err e c' =>
      (.err e, { c' with p := { c'.p with
        byteCount := c'.p.byteCount + c'.ctx.idx, state := .dead, fn := .dead } })
    | .panic => (.panic, c)
    | .ub => (.ub, c)

/-- Bound on the number of state function calls for a slice of `n` bytes (model only).
For the loop of src/http1/parser.rs 217-238. -/
def fuel (n : Nat) : Nat := 8 * n + 8

/-- The parser together with the history of callbacks, between two calls.
Parser: src/http1/parser.rs 130-153. -/
structure World where
  p : Parser
  log : List Ev
deriving Repr, DecidableEq

/-- `Parser::resume`, src/http1/parser.rs lines 285-320. -/
def resume (h : Handler) (w : World) (stream : Bytes) : Res × World :=
  match w.p.ptype with
  | .urlEncoded =>
    let stream := if w.p.length < stream.length then stream.take w.p.length else stream
    match parse h (fuel stream.length) ⟨w.p, Ctx.new stream, w.log⟩ with
    | (.ok (.eos n), c) =>
      if c.p.length < n then (.panic, ⟨c.p, c.log⟩)
      else if c.p.length - n = 0 then
        let (r, c) := parse h (fuel stream.length)
          { c with p := { c.p with state := .bodyFinished, fn := .bodyFinished } }
        (r, ⟨c.p, c.log⟩)
      else (.ok (.eos n), ⟨{ c.p with length := c.p.length - n }, c.log⟩)
    | (.ok (.callback n), c) =>
      if c.p.length < n then (.panic, ⟨c.p, c.log⟩)
      else (.ok (.callback n), ⟨{ c.p with length := c.p.length - n }, c.log⟩)
    | (r, c) => (r, ⟨c.p, c.log⟩)
  | _ =>
    let (r, c) := parse h (fuel stream.length) ⟨w.p, Ctx.new stream, w.log⟩
    (r, ⟨c.p, c.log⟩)

/-- `Parser::new`, src/http1/parser.rs lines 157-167. Note `state: StripDetect` but
`state_function: detect1`. -/
def Parser.new : Parser :=
  { bitData := 0, boundary := none, byteCount := 0, length := 0, ptype := .head,
    state := .stripDetect, fn := .detect1 }

/-- `Parser::reset`, src/http1/parser.rs lines 245-271. -/
def Parser.reset (p : Parser) : Parser :=
  let p := { p with bitData := 0, boundary := none, length := 0 }
  match p.ptype with
  | .chunked => { p with state := .chunkLength1, fn := .chunkLength1 }
  | .head => { p with state := .stripDetect, fn := .stripDetect }
  | .multipart => setLower14 { p with state := .multipartHyphen1, fn := .multipartHyphen1 } 1
  | .urlEncoded => { p with state := .firstUrlEncodedName, fn := .firstUrlEncodedName }

/-- `init_chunked`, `init_head`, `init_multipart`, `init_url_encoded`, src/http1/parser.rs
lines 170-195. -/
def Parser.init (p : Parser) (t : PType) : Parser := Parser.reset { p with ptype := t }

/-- `set_boundary`, src/http1/parser.rs lines 323-325. -/
def Parser.setBoundary (p : Parser) (b : Bytes) : Parser := { p with boundary := some b }

/-- `set_length`, src/http1/parser.rs lines 328-330. -/
def Parser.setLength (p : Parser) (n : Nat) : Parser := { p with length := n }

end Verif.Http1
