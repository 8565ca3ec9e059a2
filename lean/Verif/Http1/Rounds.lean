import Verif.Http1.ConnSpec

/-!
# How often state functions are called

The same loops as in `Verif.Http1.Model`, `Verif.Http1.Client` and `Verif.Http1.ConnSpec`, counting the state functions that
are called. What a state function does in itself is not counted. Used by C117.
-/

namespace Verif.Http1

/-- How many state functions the loop calls. src/http1/parser.rs 217-238, as `parse`. -/
def rounds (h : Handler) : Nat → Cfg → Nat
  | 0, _ => 0
  | n + 1, c =>
    match step h c with
    | .cont c' => rounds h n c' + 1
    | _ => 1

/-- The same without fuel: `Loops h c n` says that the loop ends after `n` state functions. src/http1/parser.rs 217-238. -/
inductive Loops (h : Handler) : Cfg → Nat → Prop
  | stop {c} : (∀ c', step h c ≠ .cont c') → Loops h c 1
  | more {c c' n} : step h c = .cont c' → Loops h c' n → Loops h c (n + 1)

/-- How many state functions a call of `resume` calls. src/http1/parser.rs 285-320, as `resume`: the loop may run twice. -/
def resumeRounds (h : Handler) (w : World) (stream : Bytes) : Nat :=
  match w.p.ptype with
  | .urlEncoded =>
    let stream := if w.p.length < stream.length then stream.take w.p.length else stream
    rounds h (fuel stream.length) ⟨w.p, Ctx.new stream, w.log⟩ +
      match parse h (fuel stream.length) ⟨w.p, Ctx.new stream, w.log⟩ with
      | (.ok (.eos n), c) =>
        if c.p.length < n then 0
        else if c.p.length - n = 0 then
          rounds h (fuel stream.length) { c with p := { c.p with state := .bodyFinished, fn := .bodyFinished } }
        else 0
      | _ => 0
  | _ => rounds h (fuel stream.length) ⟨w.p, Ctx.new stream, w.log⟩

/-- How many state functions are called in a client run, see `drive`. -/
def driveRounds (h : Handler) : List Nat → World → Bytes → Nat
  | [], _, _ => 0
  | k :: ks, w, rem =>
    resumeRounds h w (rem.take k) +
      match resume h w (rem.take k) with
      | (.ok (.callback n), w') => driveRounds h ks w' (rem.drop n)
      | (.ok (.eos n), w') => driveRounds h ks w' (rem.drop n)
      | _ => 0

/-- How many state functions are called for a connection, see `serve`. -/
def serveRounds (h : Handler) (next : List Ev → Option Mode) : List Nat → World → Bytes → Nat
  | [], _, _ => 0
  | k :: ks, w, rem =>
    resumeRounds h w (rem.take k) +
      match resume h w (rem.take k) with
      | (.ok (.callback n), w') => serveRounds h next ks w' (rem.drop n)
      | (.ok (.eos n), w') => serveRounds h next ks w' (rem.drop n)
      | (.ok (.finished n), w') =>
        match next w'.log with
        | none => 0
        | some m => serveRounds h next ks ⟨m.prepare w'.p, w'.log⟩ (rem.drop n)
      | _ => 0

end Verif.Http1
