import Verif.Http1.MessageSpec

/-!
# Specification of multipart bodies

How a peer writes a multipart body, and which callbacks it stands for; and what it means that the data of a
multipart body is conserved. Written without reference to the parser. Restrictions that come from the parser
and not from multipart are marked.
-/

namespace Verif.Http1

/-- What separates data from the boundary `bd` that follows it. -/
def delimiter (bd : Bytes) : Bytes := b!"\r\n--" ++ bd

/-! ## Writing -/

/-- A part: its header fields and its data. -/
structure Part where
  headers : List Header
  data : Bytes
deriving DecidableEq, Repr

/-- The callbacks before the data of a part. -/
def Part.headEvents (x : Part) : List Ev :=
  .multipartBegin :: x.headers.flatMap Header.events ++ [.headersFinished]

/-- What a part means. -/
def Part.events (x : Part) : List Ev := x.headEvents ++ [.multipartData x.data]

/-- The bytes from one boundary to the next. -/
def Part.write (bd : Bytes) (x : Part) : Bytes :=
  b!"\r\n" ++ x.headers.flatMap Header.write ++ b!"\r\n" ++ x.data ++ delimiter bd

/-- The bytes of a body. -/
def writeParts (bd : Bytes) (ps : List Part) : Bytes :=
  b!"--" ++ bd ++ ps.flatMap (Part.write bd) ++ b!"--"

/-- The boundary marks the end of the data: the delimiter does not occur in it. Restriction of the parser: the
data does not end with a piece of line end. -/
structure Delimited (bd data : Bytes) : Prop where
  free : ¬ delimiter bd <:+: data
  cr : ¬ b!"\r" <:+ data
  crlf : ¬ b!"\r\n" <:+ data
  hyphen : ¬ b!"\r\n-" <:+ data

/-- Well-formed parts, after the callbacks `l`. `cl` is what the handler answers, after the head of a part, when
it is asked for the content length: it is the length of the data, or (when it is not known) the boundary
marks the end of the data. This is demanded however the data before was cut into callbacks (`l'`). -/
def PartsOK (cl : List Ev → Option Nat) (bd : Bytes) : List Ev → List Part → Prop
  | _, [] => True
  | l, x :: ps =>
    (∀ y ∈ x.headers, y.OK) ∧
    (∀ l', flat l' = flat (l ++ x.headEvents) →
      (∀ n, cl l' = some n → x.data.length = n) ∧ (cl l' = none → Delimited bd x.data)) ∧
    PartsOK cl bd (l ++ x.events) ps

/-! ## Conservation -/

/-- Callbacks about header fields. -/
def HeaderEv : Ev → Prop
  | .headerName _ | .headerValue _ => True
  | _ => False

/-- The bytes of the head of a part, from the end of the boundary up to the first empty line. -/
def PartHead (x : Bytes) : Prop :=
  ∃ y, x = y ++ b!"\n" ∧ b!"\r\n\r\n" <:+ x ∧ b!"\r\n" <+: x ∧ ¬ b!"\r\n\r\n" <:+: y

/-- `Upto cl bd x l`: the bytes `x` end with a boundary; up to it, the callbacks (byte by byte) are `l`: for
every part one `multipartBegin`, callbacks about header fields, `headersFinished`, and the bytes between the empty
line and the next delimiter, which are as many as the handler has told (if it knew). -/
inductive Upto (cl : List Ev → Option Nat) (bd : Bytes) : Bytes → List Ev → Prop
  | first : Upto cl bd (b!"--" ++ bd) []
  | part {x l hx he d} : Upto cl bd x l → PartHead hx → (∀ e ∈ he, HeaderEv e) →
      (∀ n, cl (l ++ .multipartBegin :: he ++ [.headersFinished]) = some n → d.length = n) →
      Upto cl bd (x ++ hx ++ d ++ delimiter bd)
        (l ++ .multipartBegin :: he ++ [.headersFinished] ++ flatEv (.multipartData d))

/-- `Conserved cl bd x l`: after the bytes `x`, the callbacks (byte by byte) are `l`. Between parts, and in the
head of a part, there is no data. In the data, all bytes after the empty line were passed to the handler,
except for a (possibly empty) beginning of the delimiter. -/
inductive Conserved (cl : List Ev → Option Nat) (bd : Bytes) : Bytes → List Ev → Prop
  | start {x} : x <+: b!"--" ++ bd → Conserved cl bd x []
  | boundary {x l t} : Upto cl bd x l → t <+: b!"-" → Conserved cl bd (x ++ t) l
  | head {x l hx he} : Upto cl bd x l → b!"\r" <+: hx → ¬ b!"\r\n\r\n" <:+: hx → (∀ e ∈ he, HeaderEv e) →
      Conserved cl bd (x ++ hx) (l ++ .multipartBegin :: he)
  | data {x l hx he d t} : Upto cl bd x l → PartHead hx → (∀ e ∈ he, HeaderEv e) →
      (∀ n, cl (l ++ .multipartBegin :: he ++ [.headersFinished]) = some n → d.length ≤ n ∧ (t ≠ [] → d.length = n)) →
      t <+: delimiter bd →
      Conserved cl bd (x ++ hx ++ d ++ t)
        (l ++ .multipartBegin :: he ++ [.headersFinished] ++ flatEv (.multipartData d))
  | done {x l} : Upto cl bd x l → Conserved cl bd (x ++ b!"--") (l ++ [.bodyFinished])

end Verif.Http1
