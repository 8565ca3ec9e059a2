import Verif.Http1.Events

/-!
# Specification: a handler that passes a head or a body on

Not part of the code: a handler that writes down a head as its callbacks come. All it remembers is which callback was the
last one. It puts every header field on one line, with one blank after the colon. Used by C102. And one that does the
same with a chunked body or a URL-encoded body: it writes values of chunk extensions in quotes, and escapes every byte of
a URL-encoded field that is neither a digit nor a letter. And one for multipart bodies, with a boundary. Used by C103.
-/

namespace Verif.Http1

/-- Which callback was the last one. -/
inductive Last
  | none
  | url
  | status
  | name
  | value
  | chunkLength
  | extensionName
  | extensionValue
  | fieldBegin
  | fieldValue
  | other
deriving DecidableEq, Repr

/-- The last callback was this one. -/
def Ev.last : Ev → Last
  | .url _ => .url
  | .status _ => .status
  | .headerName _ => .name
  | .headerValue _ => .value
  | .chunkLength _ => .chunkLength
  | .chunkExtensionName _ => .extensionName
  | .chunkExtensionValue _ => .extensionValue
  | .urlEncodedBegin => .fieldBegin
  | .urlEncodedValue _ => .fieldValue
  | _ => .other

/-- The last decimal digit. -/
def lastDigit (n : Nat) : UInt8 := UInt8.ofNat (48 + n % 10)

/-- A number of three digits, and one of at most three digits without leading zeros. -/
def threeDigits (n : Nat) : Bytes := [lastDigit (n / 100), lastDigit (n / 10), lastDigit n]
@[inherit_doc threeDigits]
def shortNumber (n : Nat) : Bytes :=
  if n < 10 then [lastDigit n] else if n < 100 then [lastDigit (n / 10), lastDigit n] else threeDigits n

/-- What is written for a callback. The pieces of a token, and the lines of a folded header value, are written one after
the other. -/
def pass (last : Last) : Ev → Bytes
  | .method d => d
  | .url d => if last = .url then d else b!" " ++ d
  | .version a b => (if last = .none then [] else b!" ") ++ b!"HTTP/" ++ shortNumber a ++ b!"." ++ shortNumber b
  | .statusCode n => b!" " ++ threeDigits n
  | .status d => if last = .status then d else b!" " ++ d
  | .initialFinished => b!"\r\n"
  | .headerName d => if last = .value then b!"\r\n" ++ d else d
  | .headerValue d => if last = .value then d else if last = .name then b!": " ++ d else b!" " ++ d
  | .headersFinished => if last = .value then b!"\r\n\r\n" else b!"\r\n"
  | _ => []

/-- What is written for a history. -/
def forwardFrom (last : Last) : List Ev → Bytes
  | [] => []
  | e :: l => pass last e ++ forwardFrom e.last l

@[inherit_doc forwardFrom]
def forward (l : List Ev) : Bytes := forwardFrom .none l

/-! ## Bodies -/

/-- A hexadecimal digit. -/
def hexChar (n : Nat) : UInt8 := UInt8.ofNat (if n < 10 then 48 + n else 87 + n)

/-- A number in hexadecimal digits, without leading zeros. -/
def hexNumber (n : Nat) : Bytes := if n < 16 then [hexChar n] else hexNumber (n / 16) ++ [hexChar (n % 16)]
termination_by n

/-- A byte inside a quoted string. -/
def quoteByte (b : UInt8) : Bytes := if b = c! '"' ∨ b = c! '\\' then [c! '\\', b] else [b]

/-- A byte of a URL-encoded field. -/
def escapeByte (b : UInt8) : Bytes :=
  if (c! '0' ≤ b ∧ b ≤ c! '9') ∨ (c! 'A' ≤ b ∧ b ≤ c! 'Z') ∨ (c! 'a' ≤ b ∧ b ≤ c! 'z') then [b]
  else [c! '%', hexChar (b.toNat / 16), hexChar (b.toNat % 16)]

/-- What is written for a callback about a body. An extension without a name and a field without a byte are written with
an equals sign. -/
def passBody (last : Last) : Ev → Bytes
  | .chunkBegin => if last = .none then [] else b!"\r\n"
  | .chunkLength n => hexNumber n
  | .chunkExtensionName d => if last = .extensionName then d else b!";" ++ d
  | .chunkExtensionValue d =>
    (if last = .extensionValue then [] else if last = .extensionName then b!"=\"" else b!";=\"") ++ d.flatMap quoteByte
  | .chunkExtensionFinished =>
    if last = .extensionValue then b!"\"" else if last = .extensionName then [] else b!";=\"\""
  | .chunkExtensionsFinished => b!"\r\n"
  | .chunkData d => d
  | .headerName d => (if last = .chunkLength then b!"\r\n" else []) ++ pass last (.headerName d)
  | .headerValue d => (if last = .chunkLength then b!"\r\n" else []) ++ pass last (.headerValue d)
  | .headersFinished => (if last = .chunkLength then b!"\r\n" else []) ++ pass last .headersFinished
  | .urlEncodedBegin => (if last = .fieldBegin then b!"=" else []) ++ (if last = .none then [] else b!"&")
  | .urlEncodedName d => d.flatMap escapeByte
  | .urlEncodedValue d => (if last = .fieldValue then [] else b!"=") ++ d.flatMap escapeByte
  | .bodyFinished => if last = .fieldBegin then b!"=" else []
  | _ => []

/-- What is written for a history. -/
def forwardBodyFrom (last : Last) : List Ev → Bytes
  | [] => []
  | e :: l => passBody last e ++ forwardBodyFrom e.last l

@[inherit_doc forwardBodyFrom]
def forwardBody (l : List Ev) : Bytes := forwardBodyFrom .none l

/-- What is written for a callback about a multipart body with the boundary `bd`. -/
def passPart (bd : Bytes) (last : Last) : Ev → Bytes
  | .multipartBegin => (if last = .none then [] else b!"\r\n") ++ b!"--" ++ bd ++ b!"\r\n"
  | .headerName d => pass last (.headerName d)
  | .headerValue d => pass last (.headerValue d)
  | .headersFinished => pass last .headersFinished
  | .multipartData d => d
  | .bodyFinished => (if last = .none then [] else b!"\r\n") ++ b!"--" ++ bd ++ b!"--"
  | _ => []

/-- What is written for a history. -/
def forwardPartsFrom (bd : Bytes) (last : Last) : List Ev → Bytes
  | [] => []
  | e :: l => passPart bd last e ++ forwardPartsFrom bd e.last l

@[inherit_doc forwardPartsFrom]
def forwardParts (bd : Bytes) (l : List Ev) : Bytes := forwardPartsFrom bd .none l

end Verif.Http1
