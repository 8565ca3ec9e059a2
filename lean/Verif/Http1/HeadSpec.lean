import Verif.ByteSpec
import Verif.Http1.Events

/-!
# Specification of heads

What the callbacks of a head may carry, in which order they come and what numbers mean. Written
without reference to the parser; the property theorems use it.
-/

namespace Verif.Http1

/-- A visible 7-bit byte. -/
def VisibleByte (b : UInt8) : Prop := 0x21 ≤ b ∧ b ≤ 0x7E

/-- Neither an ASCII control byte nor DEL. -/
def NonControlByte (b : UInt8) : Prop := 0x20 ≤ b ∧ b ≠ 0x7F

instance (b : UInt8) : Decidable (VisibleByte b) := by unfold VisibleByte; infer_instance
instance (b : UInt8) : Decidable (NonControlByte b) := by unfold NonControlByte; infer_instance

/-- Names are lower-case tokens. -/
def LowerName : Ev → Prop
  | .headerName d => ∀ b ∈ d, TokenByte b ∧ ¬ UpperByte b
  | .chunkExtensionName d => ∀ b ∈ d, TokenByte b ∧ ¬ UpperByte b
  | _ => True

/-- The data of a head carries no control bytes, except TAB in header values. -/
def CleanData : Ev → Prop
  | .method d => ∀ b ∈ d, UpperByte b
  | .url d => ∀ b ∈ d, VisibleByte b
  | .status d => ∀ b ∈ d, NonControlByte b
  | .headerValue d => ∀ b ∈ d, NonControlByte b ∨ b = 9
  | _ => True

/-! ## Order -/

/-- How far a head has got: nothing yet; in the method, the URL; after the version of a request; after
the version of a response, its status code, in its reason; after the start line; in a header name or
value; after the head. -/
inductive Phase
  | start | method | url | reqVersion | resVersion | code | status | initial | name | value | done
deriving DecidableEq, Repr

/-- Which callback may follow in which phase. -/
def Phase.next : Phase → Ev → Option Phase
  | .start, .method _ => some .method
  | .method, .method _ => some .method
  | .method, .url _ => some .url
  | .url, .url _ => some .url
  | .url, .version _ _ => some .reqVersion
  | .reqVersion, .initialFinished => some .initial
  | .start, .version _ _ => some .resVersion
  | .resVersion, .statusCode _ => some .code
  | .code, .status _ => some .status
  | .status, .status _ => some .status
  | .status, .initialFinished => some .initial
  | .initial, .headerName _ => some .name
  | .initial, .headerValue _ => some .value
  | .name, .headerName _ => some .name
  | .name, .headerValue _ => some .value
  | .value, .headerValue _ => some .value
  | .value, .headerName _ => some .name
  | .initial, .headersFinished => some .done
  | .value, .headersFinished => some .done
  | _, _ => none

/-- The phase after a history, `none` when some callback came out of order. -/
def phase (l : List Ev) : Option Phase := l.foldlM Phase.next .start

/-! ## Numbers -/

/-- The value of a string of decimal digits. -/
def decVal (ds : Bytes) : Nat := ds.foldl (fun v b => v * 10 + (b.toNat - 48)) 0

/-- `ds` are between one and three decimal digits with value `n`. -/
def Digits (ds : Bytes) (n : Nat) : Prop :=
  1 ≤ ds.length ∧ ds.length ≤ 3 ∧ (∀ b ∈ ds, c! '0' ≤ b ∧ b ≤ c! '9') ∧ decVal ds = n

/-- The bytes of a request up to its version: blanks, method, URL, `HTTP/`. -/
def RequestStart (x : Bytes) : Prop :=
  ∃ bl m u : Bytes, (∀ b ∈ bl, b ∈ b!" \t\r\n") ∧ (∀ b ∈ m, UpperByte b) ∧ (∀ b ∈ u, VisibleByte b) ∧
    x = bl ++ m ++ b!" " ++ u ++ b!" HTTP/"

/-- The bytes of a response up to its version: blanks, `HTTP/`. -/
def ResponseStart (x : Bytes) : Prop := ∃ bl : Bytes, (∀ b ∈ bl, b ∈ b!" \t\r\n") ∧ x = bl ++ b!"HTTP/"

/-- The start line of `msg` contains the version `a.b`. -/
def VersionIn (msg : Bytes) (a b : Nat) : Prop :=
  ∃ x da db post, Digits da a ∧ Digits db b ∧
    (RequestStart x ∧ msg = x ++ da ++ b!"." ++ db ++ b!"\r" ++ post ∨
     ResponseStart x ∧ msg = x ++ da ++ b!"." ++ db ++ b!" " ++ post)

/-- The start line of `msg` contains the status code `v`. -/
def StatusIn (msg : Bytes) (v : Nat) : Prop :=
  ∃ x da db ds post a b, ResponseStart x ∧ Digits da a ∧ Digits db b ∧ Digits ds v ∧ ds.length = 3 ∧
    msg = x ++ da ++ b!"." ++ db ++ b!" " ++ ds ++ b!" " ++ post

end Verif.Http1
