import Verif.Http1.Client

/-!
# Histories of calls of the HTTP/1 parser

Vocabulary for properties that speak about every sequence of calls of the public functions of
`Parser` (src/http1/parser.rs lines 157-340).
-/

namespace Verif.Http1

/-- What can happen to a parser without `reset` and the `init` functions: `set_boundary`,
`set_length`, and calls of `resume` that return. -/
inductive Later : Parser → Parser → Prop
  | refl (p) : Later p p
  | setBoundary {p q} (b : Bytes) (hq : Later p q) : Later p (q.setBoundary b)
  | setLength {p q} (n : Nat) (hq : Later p q) : Later p (q.setLength n)
  | resumeOk {p q} (h : Handler) (l : List Ev) (s : Bytes) {r w'}
      (hr : resume h ⟨q, l⟩ s = (.ok r, w')) (hq : Later p q) : Later p w'.p
  | resumeErr {p q} (h : Handler) (l : List Ev) (s : Bytes) {e w'}
      (hr : resume h ⟨q, l⟩ s = (.err e, w')) (hq : Later p q) : Later p w'.p

/-- The number of bytes that a successful call reports as processed. -/
def Success.count : Success → Nat
  | .callback n | .eos n | .finished n => n

/-- `Tally p lo hi`: a parser that has come to `p` with public functions, where the calls of
`resume` together processed between `lo` and `hi` bytes. A call that returns `Ok` processed the
number of bytes that it returned; a call that fails processed at most the slice. Of the calls in
URL-encoded mode only those are considered that do not finish the body (see `C14` for these). -/
inductive Tally : Parser → Nat → Nat → Prop
  | new : Tally .new 0 0
  | reset {p lo hi} (hp : Tally p lo hi) : Tally p.reset lo hi
  | init {p lo hi} (hp : Tally p lo hi) (t : PType) : Tally (p.init t) lo hi
  | setBoundary {p lo hi} (hp : Tally p lo hi) (b : Bytes) : Tally (p.setBoundary b) lo hi
  | setLength {p lo hi} (hp : Tally p lo hi) (n : Nat) : Tally (p.setLength n) lo hi
  | resumeOk {p lo hi} (hp : Tally p lo hi) (h : Handler) (l : List Ev) (s : Bytes) {r w'}
      (hr : resume h ⟨p, l⟩ s = (.ok r, w')) (hu : p.ptype = .urlEncoded → w'.p.state ≠ .finished) :
      Tally w'.p (lo + r.count) (hi + r.count)
  | resumeErr {p lo hi} (hp : Tally p lo hi) (h : Handler) (l : List Ev) (s : Bytes) {e w'}
      (hr : resume h ⟨p, l⟩ s = (.err e, w')) : Tally w'.p lo (hi + s.length)

/-- A call of one of the public functions that take `&mut self`. -/
inductive Op
  | resume (h : Handler) (s : Bytes)
  | reset
  | init (t : PType)
  | setBoundary (b : Bytes)
  | setLength (n : Nat)

/-- Make the calls one after the other and record what the calls of `resume` return. A call of
`resume` that does not return ends the history. -/
def run : List Op → World → List Res × World
  | [], w => ([], w)
  | .resume h s :: ops, w =>
    match Http1.resume h w s with
    | (.ok r, w') => ((.ok r) :: (run ops w').1, (run ops w').2)
    | (.err e, w') => ((.err e) :: (run ops w').1, (run ops w').2)
    | (r, _) => ([r], w)
  | .reset :: ops, w => run ops { w with p := w.p.reset }
  | .init t :: ops, w => run ops { w with p := w.p.init t }
  | .setBoundary b :: ops, w => run ops { w with p := w.p.setBoundary b }
  | .setLength n :: ops, w => run ops { w with p := w.p.setLength n }

/-- The same parser having counted `d` more bytes. -/
def Parser.bump (d : Nat) (p : Parser) : Parser := { p with byteCount := p.byteCount + d }

end Verif.Http1
