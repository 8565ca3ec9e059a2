import Verif.Http2.Client

/-!
# How often state functions are called

The same loops as in `Verif.Http2.Model` and `Verif.Http2.Client`, counting the state functions that are called. What a state
function does in itself is not counted. Used by C117.
-/

namespace Verif.Http2

/-- How many state functions the loop calls. src/http2/parser.rs 258-279, as `parse`. -/
def rounds (h : Handler) : Nat → Cfg → Nat
  | 0, _ => 0
  | n + 1, c =>
    match stepFn h c with
    | .cont c' => rounds h n c' + 1
    | _ => 1

/-- The same without fuel: `Loops h c n` says that the loop ends after `n` state functions. src/http2/parser.rs 258-279. -/
inductive Loops (h : Handler) : Cfg → Nat → Prop
  | stop {c} : (∀ c', stepFn h c ≠ .cont c') → Loops h c 1
  | more {c c' n} : stepFn h c = .cont c' → Loops h c' n → Loops h c (n + 1)

/-- How many state functions a call of `resume` calls. src/http2/parser.rs 255-280, as `resume`. -/
def resumeRounds (h : Handler) (w : World) (s : Bytes) : Nat := rounds h (fuel s.length) ⟨w.p.toCore, Ctx.new s, w.log⟩

/-- How many state functions are called in a client run, see `drive`. -/
def driveRounds (h : Handler) : List Nat → World → Bytes → Nat
  | [], _, _ => 0
  | k :: ks, w, rem =>
    resumeRounds h w (rem.take k) +
      match resume h w (rem.take k) with
      | (.ok (.callback n), w') => driveRounds h ks w' (rem.drop n)
      | (.ok (.eos n), w') => driveRounds h ks w' (rem.drop n)
      | _ => 0

end Verif.Http2
