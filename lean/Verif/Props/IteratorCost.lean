import Verif.Util.Cost
import Verif.Props.Iterators

/-!
# What the iterators produce is bounded by what they are given

C99. `said next errs n it` is what the first `n` calls of `next` do; `itemBytes`, `itemCount` and `errorCount` are
defined in `Verif.Util.CostSpec`.
-/

namespace Verif.Util

/-- **C99.** All calls of `next` of a field iterator together return at most as many bytes as the field has; each
item and each error takes one byte more, but for the last one. -/
theorem C99_fields (x : Bytes) (d : UInt8) (z : Bool) (n : Nat) :
    let s := said FieldIter.next FieldIter.errs n (FieldIter.new x d z)
    itemBytes s + itemCount s + errorCount s ≤ x.length + 1 := by
  rw [C79_fields]
  have := Read.cost_calls (read := fun _ r => Read.fieldItem d z true r []) (fun _ => rfl)
    (fun _ x _ => Read.fits_field x true [] (by simp)) n true x
  refine Nat.le_trans this ?_
  split_ifs <;> omega

/-- The bound is met. -/
example : let s := said FieldIter.next FieldIter.errs 9 (FieldIter.new b!"a;b/c;d" (c! ';') true)
    itemBytes s = 5 ∧ itemCount s = 3 ∧ errorCount s = 0 ∧ b!"a;b/c;d".length = 7 := by decide +kernel

example : let s := said FieldIter.next FieldIter.errs 9 (FieldIter.new b!"a=\"1\\\"2\"!;b{" (c! ';') true)
    itemBytes s = 4 ∧ itemCount s = 1 ∧ errorCount s = 1 := by decide +kernel

/-- **C99.** The same for a query iterator, which goes on after some errors. -/
theorem C99_queries (x : Bytes) (n : Nat) :
    let s := said QueryIter.next QueryIter.errs n (QueryIter.new x)
    itemBytes s + itemCount s + errorCount s ≤ x.length + 1 := by
  rw [C80_queries]
  have := Read.cost_calls (read := fun f r => if r = [] then .nothing else Read.queryName f r []) (fun _ => rfl)
    (fun f x hx => by rw [if_neg hx]; exact Read.fits_qname x f [] (by simp)) n true x
  refine Nat.le_trans this ?_
  split_ifs <;> omega

/-- Every second byte is an item; every escape is an error. -/
example : (let s := said QueryIter.next QueryIter.errs 9 (QueryIter.new b!"a&b&c")
    itemBytes s = 3 ∧ itemCount s = 3 ∧ errorCount s = 0) ∧
    (let s := said QueryIter.next QueryIter.errs 9 (QueryIter.new b!"%x1%x2=3&d=%41")
    itemBytes s = 4 ∧ itemCount s = 2 ∧ errorCount s = 2) := by decide +kernel

end Verif.Util
