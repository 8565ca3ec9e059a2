import Verif.Http1.Events

/-!
# A client of the HTTP/1 parser

A client owns the unread bytes of a message. With every call of `resume` it passes some prefix of
them (how long is decided by a schedule), drops what `resume` reports as processed, and goes on
until the schedule is used up or `resume` reports the end of the message or an error. This is the
usage described in src/fsm.rs lines 199-233 and src/http1/parser.rs lines 273-284.
-/

namespace Verif.Http1

/-- How the last call of `resume` ended; `idle` when there was none. -/
inductive End
  | idle | callback | eos | finished | err (e : PErr) | panic | ub | diverge
deriving DecidableEq, Repr

/-- What the client is left with: how the last call ended, the parser and the history of
callbacks, and the bytes that were not processed. -/
structure Outcome where
  last : End
  world : World
  rest : Bytes
deriving DecidableEq, Repr

/-- Feed `rem` to the parser; the `i`-th call gets the first `ks[i]` unread bytes. -/
def drive (h : Handler) : End → List Nat → World → Bytes → Outcome
  | last, [], w, rem => ⟨last, w, rem⟩
  | _, k :: ks, w, rem =>
    match resume h w (rem.take k) with
    | (.ok (.callback n), w') => drive h .callback ks w' (rem.drop n)
    | (.ok (.eos n), w') => drive h .eos ks w' (rem.drop n)
    | (.ok (.finished n), w') => ⟨.finished, w', rem.drop n⟩
    | (.err e, w') => ⟨.err e, w', rem.drop (w'.p.byteCount - w.p.byteCount)⟩
    | (.panic, w') => ⟨.panic, w', rem⟩
    | (.ub, w') => ⟨.ub, w', rem⟩
    | (.diverge, w') => ⟨.diverge, w', rem⟩

/-- The client run is over: the parser has seen everything that it will ever process. -/
def Outcome.complete (o : Outcome) : Prop :=
  match o.last with
  | .finished | .err _ | .panic => True
  | .eos => o.rest = []
  | _ => False

instance (o : Outcome) : Decidable o.complete := by
  unfold Outcome.complete; split <;> infer_instance

/-- What has happened to a parser since it was made: nothing but setters (`fresh`), it was reset or
initialised and not resumed since (`ready`), or it was resumed (`running`). -/
inductive Stage
  | fresh | ready | running
deriving DecidableEq, Repr

/-- The parsers that a program can get hold of with the public functions of `Parser`
(src/http1/parser.rs lines 157-340), in any order and with any arguments; `ok` restricts the calls
of `set_boundary`. A call of `resume` counts when it returns. -/
inductive Reach (ok : Stage → Bytes → Prop) : Stage → Parser → Prop
  | new : Reach ok .fresh .new
  | reset {st p} (hp : Reach ok st p) : Reach ok .ready p.reset
  | init {st p} (hp : Reach ok st p) (t : PType) : Reach ok .ready (p.init t)
  | setBoundary {st p} (hp : Reach ok st p) (b : Bytes) (hb : ok st b) :
      Reach ok st (p.setBoundary b)
  | setLength {st p} (hp : Reach ok st p) (n : Nat) : Reach ok st (p.setLength n)
  | resumeOk {st w} (hp : Reach ok st w.p) (h : Handler) (s : Bytes) {r w'}
      (hr : resume h w s = (.ok r, w')) : Reach ok .running w'.p
  | resumeErr {st w} (hp : Reach ok st w.p) (h : Handler) (s : Bytes) {e w'}
      (hr : resume h w s = (.err e, w')) : Reach ok .running w'.p

/-- No restriction on `set_boundary`. -/
def anyBoundary : Stage → Bytes → Prop := fun _ _ => True

/-- `set_boundary` is called before the first `resume`, with fewer than 2^14 bytes. -/
def properBoundary : Stage → Bytes → Prop := fun st b => st ≠ .running ∧ b.length < 16384

/-- Two client runs over the same message came to the same end. For a parse error or a panic, the data of
the token in which it occurred may have been delivered in one run and not (or not completely) in the
other; apart from that the histories are the same. A mismatch of the first boundary of a multipart
body is reported in both runs, but not necessarily for the same byte. -/
def Agree (a b : Outcome) : Prop :=
  match a.last, b.last with
  | .finished, .finished => flat a.world.log = flat b.world.log ∧ a.rest = b.rest
  | .eos, .eos => flat a.world.log = flat b.world.log ∧ a.rest = b.rest
  | .err e, .err e' =>
    (e = e' ∧ a.rest = b.rest ∧ ∃ d d', isData d = true ∧ isData d' = true ∧
      flat a.world.log ++ flatEv d = flat b.world.log ++ flatEv d') ∨
    (flat a.world.log = flat b.world.log ∧ (∃ x, e = .multipartBoundary x) ∧
      ∃ x, e' = .multipartBoundary x)
  | .panic, .panic => ∃ d d', isData d = true ∧ isData d' = true ∧
      flat a.world.log ++ flatEv d = flat b.world.log ++ flatEv d'
  | _, _ => False

/-- The same handler, answering `true` to every callback. -/
def Handler.yes (h : Handler) : Handler := { h with ret := fun _ => true }

/-- Pass all of `rem` to `resume`. As long as a callback pauses the parser, call `resume` again with
the bytes that were not processed, at most `n` calls in all. -/
def feed (h : Handler) : Nat → World → Bytes → Outcome
  | 0, w, rem => ⟨.callback, w, rem⟩
  | n + 1, w, rem =>
    match resume h w rem with
    | (.ok (.callback k), w') => feed h n w' (rem.drop k)
    | (.ok (.eos k), w') => ⟨.eos, w', rem.drop k⟩
    | (.ok (.finished k), w') => ⟨.finished, w', rem.drop k⟩
    | (.err e, w') => ⟨.err e, w', rem.drop (w'.p.byteCount - w.p.byteCount)⟩
    | (.panic, w') => ⟨.panic, w', rem⟩
    | (.ub, w') => ⟨.ub, w', rem⟩
    | (.diverge, w') => ⟨.diverge, w', rem⟩

/-- Two runs ended in the same way: with the same callbacks in the same order (not only the same
data), the same unprocessed bytes and the same parser; or both panicked, after the same callbacks. After
the end of a URL-encoded body, or an error in it, the counters `byteCount` and `length` of the parser
may differ. -/
def SameOut (a b : Outcome) : Prop :=
  a = b ∨
  (a.last = b.last ∧ (a.last = .panic ∨ a.last = .ub) ∧ a.world.log = b.world.log) ∨
  (a.last = b.last ∧ (a.last = .finished ∨ ∃ e, a.last = .err e) ∧ a.world.p.ptype = .urlEncoded ∧
    a.world.log = b.world.log ∧ a.rest = b.rest ∧
    ∃ n m, b.world.p = { a.world.p with byteCount := n, length := m })

end Verif.Http1
