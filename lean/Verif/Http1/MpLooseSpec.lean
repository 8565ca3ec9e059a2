import Verif.Http1.LooseSpec
import Verif.Http1.MpSpec

/-!
# Specification of the multipart bodies that are accepted

The grammar of what the parser accepts, without reference to the parser. It differs from what a peer writes
(`Verif.Http1.MpSpec`) in the header lines (see `Verif.Http1.LooseSpec`) and in the data of parts whose length is not
known: the search for the delimiter skips a byte after a line end that turned out not to be part of a delimiter.
-/

namespace Verif.Http1

/-- Data in which the search for the delimiter finds nothing, and which it leaves so that a delimiter that follows is
found. The data is read in pieces: a byte that is not CR; CR and a byte that is not LF; a line end and a byte
that is not a hyphen; a line end, a hyphen and a byte that is not a hyphen; a line end, two hyphens and a proper
beginning of the boundary that does not continue. Only after a piece of the last kind is the byte that
did not match looked at again. -/
inductive Scanned (bd : Bytes) : Bytes → Prop
  | nil : Scanned bd []
  | byte {b d} : b ≠ c! '\r' → Scanned bd d → Scanned bd (b :: d)
  | cr {b d} : b ≠ c! '\n' → Scanned bd d → Scanned bd (b!"\r" ++ b :: d)
  | crlf {b d} : b ≠ c! '-' → Scanned bd d → Scanned bd (b!"\r\n" ++ b :: d)
  | hyphen {b d} : b ≠ c! '-' → Scanned bd d → Scanned bd (b!"\r\n-" ++ b :: d)
  | bound {i d} : i < bd.length → d.head? ≠ bd[i]? → Scanned bd d → Scanned bd (b!"\r\n--" ++ bd.take i ++ d)

/-- A part: its header lines and its data. -/
structure LoosePart where
  lines : List Line
  data : Bytes
deriving DecidableEq, Repr

/-- The callbacks before the data of a part. -/
def LoosePart.headEvents (x : LoosePart) : List Ev :=
  .multipartBegin :: x.lines.flatMap Line.events ++ [.headersFinished]

/-- What a part means. -/
def LoosePart.events (x : LoosePart) : List Ev := x.headEvents ++ [.multipartData x.data]

/-- The bytes from one boundary to the next. -/
def LoosePart.write (bd : Bytes) (x : LoosePart) : Bytes :=
  b!"\r\n" ++ x.lines.flatMap Line.write ++ b!"\r\n" ++ x.data ++ delimiter bd

/-- The bytes of a body. -/
def writeLoose (bd : Bytes) (ps : List LoosePart) : Bytes :=
  b!"--" ++ bd ++ ps.flatMap (LoosePart.write bd) ++ b!"--"

/-- Parts that are accepted after the callbacks `t` of the parts before. `cl` is the content length that the handler
tells after the head of a part, given the callbacks byte by byte. -/
def LooseParts (cl : List Ev → Option Nat) (bd : Bytes) : List Ev → List LoosePart → Prop
  | _, [] => True
  | t, x :: ps =>
    (∀ y ∈ x.lines, y.OK) ∧
    (∀ n, cl (flat (t ++ x.headEvents)) = some n → x.data.length = n) ∧
    (cl (flat (t ++ x.headEvents)) = none → Scanned bd x.data) ∧
    LooseParts cl bd (t ++ x.events) ps

end Verif.Http1
