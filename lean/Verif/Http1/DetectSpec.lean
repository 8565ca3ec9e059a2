import Verif.Http1.Client

/-!
# Specification: the first token of a head, and the call in which it arrives

Used by C72. Nothing here refers to the states of the parser.
-/

namespace Verif.Http1

/-- The bytes that may stand before a message. -/
def lead (b : UInt8) : Bool := b ∈ b!" \t\r\n"

/-- The client passes `ks[i]` unread bytes to the `i`-th call. These are the bytes, without leading
blanks, of the first call that does not get only blanks. -/
def tokenSlice : List Nat → Bytes → Bytes
  | [], _ => []
  | k :: ks, msg =>
    if (msg.take k).dropWhile lead = [] then tokenSlice ks (msg.drop k) else (msg.take k).dropWhile lead

/-- After leading blanks, the message starts with `H`, but it is neither the start of `HTTP/` nor does
it start with it. -/
def HWord (msg : Bytes) : Prop :=
  (msg.dropWhile lead).head? = some (c! 'H') ∧
    ¬ (b!"HTTP/" <+: msg.dropWhile lead) ∧ ¬ (msg.dropWhile lead <+: b!"HTTP/")

/-- A word that starts with `H` arrives in a call with fewer than nine bytes of the message. -/
def Short (msg : Bytes) (ks : List Nat) : Prop := HWord msg ∧ (tokenSlice ks msg).length < 9

/-- `p` is what the first token has in common with `HTTP/`, `b` the byte after it, which differs. -/
structure Differs (p : Bytes) (b : UInt8) : Prop where
  like : p <+: b!"HTTP"
  ne : p ≠ []
  diff : ¬ p ++ [b] <+: b!"HTTP/"

/-- A parser at the start of the head `msg`: initialised or reset for heads, or made with `new`; in the
latter case the first slice is not empty and does not start with a blank. -/
def Begins (p : Parser) (msg : Bytes) (ks : List Nat) : Prop :=
  (∃ q : Parser, p = q.init .head) ∨
    (p = .new ∧ ∃ k b, ks.head? = some k ∧ (msg.take k).head? = some b ∧ lead b = false)

/-- The run `b` came to the same end as the run `a`, but among the callbacks after `l` it lacks `gone` at
the start. For errors and panics, the data of the token in which they occurred may be missing in either run. -/
def Loses (gone : List Ev) (l : List Ev) (a b : Outcome) : Prop :=
  match a.last, b.last with
  | .finished, .finished | .eos, .eos =>
    ∃ t, flat a.world.log = flat l ++ gone ++ t ∧ flat b.world.log = flat l ++ t ∧ a.rest = b.rest
  | .err e, .err e' => e = e' ∧ a.rest = b.rest ∧ ∃ t d d', isData d = true ∧ isData d' = true ∧
      flat a.world.log ++ flatEv d = flat l ++ gone ++ t ∧ flat b.world.log ++ flatEv d' = flat l ++ t
  | .panic, .panic => ∃ t d d', isData d = true ∧ isData d' = true ∧
      flat a.world.log ++ flatEv d = flat l ++ gone ++ t ∧ flat b.world.log ++ flatEv d' = flat l ++ t
  | _, _ => False

end Verif.Http1
