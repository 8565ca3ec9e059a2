import Verif.Http1.DetectSpec
import Verif.Http1.MessageSpec

/-!
# Specification: what any byte string means to a reader of heads and of bodies

A recursive-descent description: what is told to the handler, and how reading ends. Written without
reference to the parser; it knows no slices, no pauses and no parser states. Used by C74 to C77.
-/

namespace Verif.Http1.Read

/-- How reading ends. -/
inductive Ending
  /-- more bytes are needed -/
  | more
  /-- the message is complete; `rest` follows it -/
  | done (rest : Bytes)
  /-- an error; `rest` follows the byte that is to blame -/
  | wrong (e : PErr) (rest : Bytes)
  /-- the bytes where a multipart boundary is due are different; `rest` follows the first that differs; the slices
  decide which byte up to that one is reported and is the last one read -/
  | boundary (rest : Bytes)
  /-- the program panics -/
  | crash
deriving DecidableEq, Repr

/-- What is told, and how it ends. -/
structure Tale where
  told : List Ev
  ending : Ending
deriving DecidableEq, Repr

/-- Tell `es`, then go on with `t`. -/
def say (es : List Ev) (t : Tale) : Tale := ⟨es ++ t.told, t.ending⟩

/-- Nothing is told, and more bytes are needed. -/
def more : Tale := ⟨[], .more⟩
/-- Nothing is told, and the end is before `r`. -/
def done (r : Bytes) : Tale := ⟨[], .done r⟩
/-- Nothing is told but the error `e`; `r` is left. -/
def wrong (e : PErr) (r : Bytes) : Tale := ⟨[], .wrong e r⟩
/-- Nothing is told, and the parser panics. -/
def crash : Tale := ⟨[], .crash⟩
/-- Nothing is told, and the boundary ends before `r`. -/
def boundary (r : Bytes) : Tale := ⟨[], .boundary r⟩

/-- After the end of `t`, go on with `k`, which knows what was told. -/
def Tale.then (t : Tale) (k : List Ev → Bytes → Tale) : Tale :=
  match t.ending with
  | .done r => say t.told (k t.told r)
  | _ => t

/-- Look at the next byte. -/
def look (r : Bytes) (k : UInt8 → Bytes → Tale) : Tale :=
  match r with
  | [] => more
  | b :: r => k b r

/-- The next byte must be `c`. -/
def the (c : UInt8) (e : UInt8 → PErr) (k : Bytes → Tale) (r : Bytes) : Tale :=
  look r fun b r => if b = c then k r else wrong (e b) r

/-- All bytes up to the first one that is not in the class are a word. -/
def word (p : UInt8 → Prop) [DecidablePred p] (ev : Bytes → Ev) (k : Bytes → Tale) (r : Bytes) : Tale :=
  say [ev (r.takeWhile p)] (k (r.dropWhile p))

/-- The same, but the word must not be empty. -/
def word1 (p : UInt8 → Prop) [DecidablePred p] (ev : Bytes → Ev) (e : UInt8 → PErr) (k : Bytes → Tale)
    (r : Bytes) : Tale :=
  look r fun b s => if p b then word p ev k r else wrong (e b) s

/-- CR LF is next. -/
def crlf (k : Bytes → Tale) : Bytes → Tale := the (c! '\r') .crlfSequence (the (c! '\n') .crlfSequence k)

/-! ## Numbers -/

/-- A decimal digit. -/
def Digit (b : UInt8) : Prop := c! '0' ≤ b ∧ b ≤ c! '9'
instance (b : UInt8) : Decidable (Digit b) := by unfold Digit; infer_instance

/-- One to three digits, then `stop`. -/
def number (e : UInt8 → PErr) (stop : UInt8) (k : Nat → Bytes → Tale) (r : Bytes) : Tale :=
  let ds := (r.take 3).takeWhile Digit
  if ds = [] then look r fun b r => wrong (e b) r else the stop e (k (decVal ds)) (r.drop ds.length)

/-- Exactly three digits, then a space. -/
def code (k : Nat → Bytes → Tale) (r : Bytes) : Tale :=
  let ds := (r.take 3).takeWhile Digit
  if ds.length < 3 then look (r.drop ds.length) fun b r => wrong (.statusCode b) r
  else the (c! ' ') .statusCode (k (decVal ds)) (r.drop 3)

/-! ## Field values -/

/-- In unquoted text, in quoted text, or after a backslash in it. -/
inductive Place
  | plain | quoted | escaped

/-- A field value up to one of the bytes `ends`. If `marks`, quotes and backslashes are told as well. Byte
255 is fatal where the code has no table entry for it. -/
def text (ev : Bytes → Ev) (e : UInt8 → PErr) (ends : Bytes) (marks : Bool) (k : UInt8 → Bytes → Tale) :
    Place → Bytes → Tale
  | _, [] => more
  | .plain, b :: r =>
    if b = 255 then crash
    else if b ∈ ends then k b r
    else if b = c! '"' then say (if marks then [ev [b]] else []) (text ev e ends marks k .quoted r)
    else if FieldByte b then say [ev [b]] (text ev e ends marks k .plain r)
    else wrong (e b) r
  | .quoted, b :: r =>
    if b = 255 then crash
    else if b = c! '"' then say (if marks then [ev [b]] else []) (text ev e ends marks k .plain r)
    else if b = c! '\\' then say (if marks then [ev [b]] else []) (text ev e ends marks k .escaped r)
    else if FieldByte b then say [ev [b]] (text ev e ends marks k .quoted r)
    else wrong (e b) r
  | .escaped, b :: r =>
    if 0x20 ≤ b ∧ b ≤ 0x7A then say [ev [b]] (text ev e ends marks k .quoted r) else wrong (e b) r

/-- Skip blanks; then a visible byte must come. -/
def strip (e : UInt8 → PErr) (k : Bytes → Tale) (r : Bytes) : Tale :=
  look (r.dropWhile Blank) fun b s => if VisibleByte b then k (b :: s) else wrong (e b) s

/-! ## Header fields -/

/-- The value of a header field and the end of its line. -/
def value (k : Bytes → Tale) : Bytes → Tale :=
  text .headerValue .headerValue b!"\r" true (fun _ => the (c! '\n') .crlfSequence k) .plain

/-- Header lines up to the empty line; `fin` follows. A line that starts with a blank continues the value
of the line before it. (`n` is a bound on the number of lines; the number of bytes is enough.) -/
def lines (fin : Bytes → Tale) : Nat → Bytes → Tale
  | 0, _ => more
  | n + 1, r => look r fun b s =>
    if b = c! '\r' then the (c! '\n') .crlfSequence fin s
    else if Blank b then value (lines fin n) s
    else if VisibleByte b then
      word TokenByte (fun w => .headerName (Verif.lower w))
        (fun r => look r fun b s =>
          if b = 255 then crash
          else if b = c! ':' then strip .headerValue (value (lines fin n)) s
          else wrong (.headerName b) s) r
    else wrong (.headerName b) s

/-- The rest of a head after the start line. -/
def headers (r : Bytes) : Tale :=
  lines (fun r => say [.headersFinished] (done r)) r.length r

/-! ## Start lines -/

/-- A version: two numbers with a dot. -/
def version (stop : UInt8) (k : Bytes → Tale) : Bytes → Tale :=
  number .version (c! '.') fun major => number .version stop fun minor r => say [.version major minor] (k r)

/-- The end of the start line. -/
def startEnd (r : Bytes) : Tale := say [.initialFinished] (the (c! '\n') .crlfSequence headers r)

/-- The literal `HTTP/`. -/
def http (k : Bytes → Tale) : Bytes → Tale :=
  the (c! 'H') .version <| the (c! 'T') .version <| the (c! 'T') .version <| the (c! 'P') .version <|
    the (c! '/') .version k

/-- A request: method, URL, version. -/
def request : Bytes → Tale :=
  word1 UpperByte .method .method <| the (c! ' ') .method <|
    word1 VisibleByte .url .url <| the (c! ' ') .url <| http <| version (c! '\r') startEnd

/-- A response after `HTTP/`: version, status code, reason. -/
def response : Bytes → Tale :=
  version (c! ' ') <| code fun n r => say [.statusCode n] <|
    word1 NonControlByte .status .status (the (c! '\r') .status startEnd) r

/-- How many bytes `a` and `b` have in common at the start. -/
def common : Bytes → Bytes → Nat
  | a :: x, b :: y => if a = b then common x y + 1 else 0
  | _, _ => 0

/-- A head whose first byte comes next. If `lossy`, what the method has in common with `HTTP/` is lost. -/
def start (lossy : Bool) (r : Bytes) : Tale :=
  if b!"HTTP/" <+: r then response (r.drop 5)
  else if r <+: b!"HTTP/" then more
  else request (if lossy then r.drop (common r b!"HTTP/") else r)

/-- A head, with blanks before it. -/
def head (lossy : Bool) (r : Bytes) : Tale := start lossy (r.dropWhile lead)

/-! ## Chunked bodies -/

/-- The value of a hexadecimal digit. -/
def hex (b : UInt8) : Option Nat :=
  if c! '0' ≤ b ∧ b ≤ c! '9' then some (b.toNat - 48)
  else if c! 'a' ≤ b ∧ b ≤ c! 'f' then some (b.toNat - 87)
  else if c! 'A' ≤ b ∧ b ≤ c! 'F' then some (b.toNat - 55)
  else none

/-- The value of a hexadecimal number. -/
def hexNum (ds : Bytes) : Nat := ds.foldl (fun v b => 16 * v + (hex b).getD 0) 0

/-- Extensions after a `;`; `k` follows the CR. A name may be empty if `=` or another mark follows. -/
def extensions (k : Bytes → Tale) : Nat → Bytes → Tale
  | 0, _ => more
  | n + 1, r =>
    let stop : UInt8 → Bytes → Tale := fun b s => say [.chunkExtensionFinished] <|
      if b = c! '\r' then k s else extensions k n s
    strip .chunkExtensionName (word TokenByte (fun w => .chunkExtensionName (Verif.lower w)) fun r =>
      look r fun b s =>
        if b = 255 then crash
        else if b = c! '=' then
          strip .chunkExtensionValue
            (text .chunkExtensionValue .chunkExtensionValue b!"\r;" false stop .plain) s
        else if b = c! '\r' ∨ b = c! ';' then stop b s
        else wrong (.chunkExtensionName b) s) r

/-- The trailers after the line of the last chunk. -/
def trailers (r : Bytes) : Tale :=
  lines (fun r => say [.headersFinished, .bodyFinished] (done r)) r.length r

/-- Chunks up to the last one. A size is `0`, or at most eight digits of which the first is not `0`. -/
def chunks : Nat → Bytes → Tale
  | 0, _ => more
  | n + 1, r => look r fun b s =>
    if hex b = none then wrong (.chunkLength b) s
    else
      let ds := if b = c! '0' then [b] else (r.take 8).takeWhile fun b => (hex b).isSome
      let size := hexNum ds
      let data : Bytes → Tale := fun r => say [.chunkExtensionsFinished] <|
        the (c! '\n') .crlfSequence (fun r => say [.chunkData (r.take size)] (crlf (chunks n) (r.drop size))) r
      say [.chunkBegin] <| look (r.drop ds.length) fun b s =>
        if b = c! '\r' then
          say [.chunkLength size] (if size = 0 then the (c! '\n') .crlfSequence trailers s else data s)
        else if b = c! ';' then say [.chunkLength size] (extensions data s.length s)
        else wrong (.chunkLength b) s

/-- A chunked body. -/
def chunked (r : Bytes) : Tale := chunks r.length r

/-! ## URL-encoded bodies -/

/-- What is told of a name or of a value. -/
def formEv (val : Bool) (d : Bytes) : Ev := if val then .urlEncodedValue d else .urlEncodedName d

/-- The error in a name or in a value. -/
def formErr (val : Bool) (b : UInt8) : PErr := if val then .urlEncodedValue b else .urlEncodedName b

/-- The start of a field is told with its first byte. -/
def formBegin (r : Bytes) : List Ev := if r = [] then [] else [.urlEncodedBegin]

/-- Fields, in a name or in a value; `stop` follows the last byte, and `rest` the bytes after it. -/
def fields (stop : Tale) (rest : Bytes) : (val : Bool) → Bytes → Tale
  | _, [] => stop
  | val, b :: r =>
    if b = c! '%' then
      match r with
      | [] => stop
      | [a] => if hex a = none then wrong (formErr val a) rest else stop
      | a :: c :: s =>
        match hex a, hex c with
        | some m, some n => say [formEv val [UInt8.ofNat (16 * m + n)]] (fields stop rest val s)
        | none, _ => wrong (formErr val a) (c :: s ++ rest)
        | some _, none => wrong (formErr val c) (s ++ rest)
    else if b = c! '+' then say [formEv val b!" "] (fields stop rest val r)
    else if b = c! '&' ∨ b = c! ';' then say (formBegin r) (fields stop rest false r)
    else if b = c! '=' ∧ val = false then fields stop rest true r
    else if VisibleByte b then say [formEv val [b]] (fields stop rest val r)
    else wrong (formErr val b) (r ++ rest)

/-- A URL-encoded body of the declared length `n`. -/
def form (n : Nat) (msg : Bytes) : Tale :=
  say (formBegin (msg.take n)) <|
    fields (if n ≤ msg.length then say [.bodyFinished] (done (msg.drop n)) else more) (msg.drop n) false (msg.take n)

/-! ## Multipart bodies -/

/-- The bytes of the boundary are next. -/
def literal (k : Bytes → Tale) : Bytes → Bytes → Tale
  | [], r => k r
  | _ :: _, [] => more
  | c :: bd, b :: r => if b = c then literal k bd r else boundary r

/-- Two hyphens and the boundary. -/
def dashes (bd : Bytes) : Bytes → Tale :=
  the (c! '-') .multipartBoundary <| the (c! '-') .multipartBoundary <| literal done bd

/-- Data of a part up to and with the delimiter, which is a line end, two hyphens and the boundary. After a line end
that does not belong to a delimiter, one more byte is taken for data without being looked at; but when only the
boundary differs, the first byte that differs is looked at. (`n` is a bound; the number of bytes is enough.) -/
def scan (bd : Bytes) : Nat → Bytes → Tale
  | 0, _ => more
  | n + 1, r => look r fun b r =>
    if b ≠ c! '\r' then say [.multipartData [b]] (scan bd n r)
    else look r fun b r =>
      if b ≠ c! '\n' then say [.multipartData [c! '\r', b]] (scan bd n r)
      else look r fun b r =>
        if b ≠ c! '-' then say [.multipartData (b!"\r\n" ++ [b])] (scan bd n r)
        else look r fun b r =>
          if b ≠ c! '-' then say [.multipartData (b!"\r\n-" ++ [b])] (scan bd n r)
          else if bd <+: r then done (r.drop bd.length)
          else if r <+: bd then more
          else say [.multipartData (b!"\r\n--" ++ bd.take (common r bd))] (scan bd n (r.drop (common r bd)))

/-- Data of a part whose length is known, and the delimiter. -/
def sized (bd : Bytes) (n : Nat) (r : Bytes) : Tale :=
  say [.multipartData (r.take n)] <|
    (the (c! '\r') .multipartBoundary <| the (c! '\n') .multipartBoundary <| dashes bd) (r.drop n)

/-- A part after the CR that follows the boundary, with the next delimiter. `cl` is the answer of the handler
to the question for the length of the data, which is asked after the head; `seen` was told before. -/
def part (cl : List Ev → Option Nat) (bd : Bytes) (seen : List Ev) (r : Bytes) : Tale :=
  (say [.multipartBegin] <| the (c! '\n') .crlfSequence
    (fun r => lines (fun r => say [.headersFinished] (done r)) r.length r) r).then fun es r =>
      match cl (flat (seen ++ es)) with
      | some n => sized bd n r
      | none => scan bd r.length r

/-- Parts up to the last delimiter. -/
def parts (cl : List Ev → Option Nat) (bd : Bytes) : Nat → List Ev → Bytes → Tale
  | 0, _, _ => more
  | n + 1, seen, r => look r fun b s =>
    if b = c! '\r' then (part cl bd seen s).then fun es r => parts cl bd n (seen ++ es) r
    else if b = c! '-' then the (c! '-') .multipartBoundary (fun r => say [.bodyFinished] (done r)) s
    else wrong (.multipartBoundary b) s

/-- A multipart body. -/
def multipart (cl : List Ev → Option Nat) (bd : Bytes) (r : Bytes) : Tale :=
  (dashes bd r).then fun _ s => parts cl bd s.length [] s

/-! ## Runs -/

/-- The run `o`, which started after the callbacks `l`, is what the tale says. After an error or a panic, data of
the token in which it occurred may not have been delivered. -/
def Follows (l : List Ev) (t : Tale) (o : Outcome) : Prop :=
  match t.ending with
  | .more => o.last = .eos ∧ o.rest = [] ∧ flat o.world.log = flat l ++ flat t.told
  | .done r => o.last = .finished ∧ o.rest = r ∧ flat o.world.log = flat l ++ flat t.told
  | .wrong e r => o.last = .err e ∧ o.rest = r ∧
      ∃ d, isData d = true ∧ flat o.world.log ++ flatEv d = flat l ++ flat t.told
  | .boundary r => (∃ b, o.last = .err (.multipartBoundary b)) ∧ r <:+ o.rest ∧
      flat o.world.log = flat l ++ flat t.told
  | .crash => o.last = .panic ∧ ∃ d, isData d = true ∧ flat o.world.log ++ flatEv d = flat l ++ flat t.told

end Verif.Http1.Read
