import Verif.Http2.Model

/-!
# A client of the HTTP/2 parser

A client owns the unread bytes of a connection. With every call of `resume` it passes some prefix of them (how
long is decided by a schedule) and drops what `resume` reports as processed. This is the usage described in
src/fsm.rs lines 199-233.
-/

namespace Verif.Http2

/-- How the last call of `resume` ended; `idle` when there was none. -/
inductive End
  | idle | callback | eos | finished | err | panic | diverge
deriving DecidableEq, Repr

/-- Where a call of `resume` stopped: what `state()` was then, and how many bytes of the input were left. -/
structure Stop where
  state : St
  left : Nat
deriving DecidableEq, Repr

/-- What the client is left with: how the last call ended, the parser and the history of callbacks, the bytes that
were not processed, and where each call that returned has stopped. -/
structure Outcome where
  last : End
  world : World
  rest : Bytes
  stops : List Stop
deriving DecidableEq, Repr

/-- Feed `rem` to the parser; the `i`-th call gets the first `ks[i]` unread bytes. -/
def drive (h : Handler) : End → List Stop → List Nat → World → Bytes → Outcome
  | last, sts, [], w, rem => ⟨last, w, rem, sts⟩
  | _, sts, k :: ks, w, rem =>
    match resume h w (rem.take k) with
    | (.ok (.callback n), w') => drive h .callback (sts ++ [⟨w'.p.st, (rem.drop n).length⟩]) ks w' (rem.drop n)
    | (.ok (.eos n), w') => drive h .eos (sts ++ [⟨w'.p.st, (rem.drop n).length⟩]) ks w' (rem.drop n)
    | (.ok (.finished n), w') => ⟨.finished, w', rem.drop n, sts ++ [⟨w'.p.st, (rem.drop n).length⟩]⟩
    | (.err, w') => ⟨.err, w', rem.drop (w'.p.byteCount - w.p.byteCount),
        sts ++ [⟨w'.p.st, rem.length - (w'.p.byteCount - w.p.byteCount)⟩]⟩
    | (.panic, w') => ⟨.panic, w', rem, sts⟩
    | (.diverge, w') => ⟨.diverge, w', rem, sts⟩

/-- The client run with a new parser. -/
def run (h : Handler) (ks : List Nat) (m : Bytes) : Outcome := drive h .idle [] ks ⟨.new, []⟩ m

/-- How many bytes of the input `m` were processed after each call that returned. -/
def Outcome.marks (o : Outcome) (m : Bytes) : List Nat := o.stops.map fun s => m.length - s.left

/-- The client run is over: everything was processed, or the parser panicked. -/
def Outcome.complete (o : Outcome) : Prop :=
  match o.last with
  | .panic => True
  | .eos => o.rest = []
  | _ => False

instance (o : Outcome) : Decidable o.complete := by
  unfold Outcome.complete; split <;> infer_instance

/-- The handler that answers `true` to every callback. -/
def yes : Handler := ⟨fun _ => true⟩

/-- Pass all of `rem` to `resume`. As long as a callback pauses the parser, call `resume` again with the bytes that
were not processed, at most `n` calls in all. The result: how the last call ended, the parser and the history of
callbacks, the bytes that were not processed. -/
def feed (h : Handler) : Nat → World → Bytes → End × World × Bytes
  | 0, w, rem => (.callback, w, rem)
  | n + 1, w, rem =>
    match resume h w rem with
    | (.ok (.callback k), w') => feed h n w' (rem.drop k)
    | (.ok (.eos k), w') => (.eos, w', rem.drop k)
    | (.ok (.finished k), w') => (.finished, w', rem.drop k)
    | (.err, w') => (.err, w', rem.drop (w'.p.byteCount - w.p.byteCount))
    | (.panic, w') => (.panic, w', rem)
    | (.diverge, w') => (.diverge, w', rem)

/-- Two such runs ended in the same way: with the same callbacks in the same order (not only the same data), the same
unprocessed bytes and the same parser; or both panicked, after the same callbacks. -/
def SameOut (a b : End × World × Bytes) : Prop :=
  a = b ∨ (a.1 = .panic ∧ b.1 = .panic ∧ a.2.1.log = b.2.1.log)

/-- The states in which `resume` can stop within the stream id of a frame header. -/
def inStreamId (st : St) : Bool :=
  st == .frameStreamId2 || st == .frameStreamId3 || st == .frameStreamId4

/-- The states in which `resume` can stop within the last stream id of a GOAWAY frame or the value of a
setting. -/
def inLongField (st : St) : Bool :=
  st == .goAwayStreamId2 || st == .goAwayStreamId3 || st == .goAwayStreamId4 ||
  st == .settingsValue2 || st == .settingsValue3 || st == .settingsValue4

/-- A frame header with only the lower half of the stream id; other events stay as they are. -/
def Ev.halfId : Ev → Ev
  | .frameFormat n t f id => .frameFormat n t f (id &&& 0xFFFF)
  | e => e

/-- One event for every byte of payload, and one for its end. -/
def flatEv : Ev → List Ev
  | .payload k d f => d.map (fun b => .payload k [b] false) ++ if f then [.payload k [] true] else []
  | e => [e]

/-- The same for a whole history: what was delivered, regardless of how payloads were cut into callbacks. -/
def flat (l : List Ev) : List Ev := l.flatMap flatEv

end Verif.Http2
