import Verif.Props.FormQuery
import Verif.Util.FormSplit

/-!
# C111: the names and values of a query or a form, as seen by others

`formPairs`, `ampersand` and `ampersandOrSemicolon` are defined in `Verif.Util.FormSplitSpec`.
-/

namespace Verif.Http1

open Util

/-- **C111 (partial).** If a loop over a query yields some items without an error, then a program that splits the same
bytes at `&` and `;` and each piece at its first `=` finds the same names and values, except that it skips empty items and
takes a missing value for an empty one; so does a program that only knows `&`, if there is no `;`. Missing: queries
with `;` for programs that only know `&` (`C111_fails`). -/
theorem C111_query_partial (x : Bytes) (items : List Item)
    (hx : ∃ it, Yields QueryIter.next (QueryIter.new x) items it ∧ it.errs = []) :
    let found := (items.filter (· != ([], none))).map fun i => (i.1, i.2.getD [])
    formPairs ampersandOrSemicolon x = found ∧ (c! ';' ∉ x → formPairs ampersand x = found) := by
  have h := pairs_split ((C05_query_partial x items).1 hx).1
  exact ⟨h, fun hs => (pairs_same hs).trans h⟩

/-- **C111 (partial).** The same for URL-encoded bodies, for every handler and every slicing. Missing: bodies that end
within an escape (C40), and bodies with `;` for programs that only know `&`. -/
theorem C111_form_partial (h : Handler) (q : Parser) (l : List Ev) (x rest : Bytes) (ks : List Nat)
    (hc : (urlRun h q l x.length ks (x ++ rest)).last = .finished) (hx : ∀ p y, x = p ++ y → ¬ CutEscape y) :
    ∃ items : List Item,
      flat (urlRun h q l x.length ks (x ++ rest)).world.log = flat (l ++ items.flatMap itemEvents ++ [.bodyFinished]) ∧
      let found := (items.filter (· != ([], none))).map fun i => (i.1, i.2.getD [])
      formPairs ampersandOrSemicolon x = found ∧ (c! ';' ∉ x → formPairs ampersand x = found) := by
  have hc' : (urlRun h q l x.length ks (x ++ rest)).complete := by
    unfold Outcome.complete; rw [hc]; trivial
  obtain ⟨p, y, items, h1, h2, h3⟩ := (C81_accepts h q l x rest ks hc').1 hc
  have hy : y = [] := h3.resolve_right (hx p y h1)
  rw [hy, List.append_nil] at h1
  rw [← h1] at h2
  have h4 := pairs_split h2
  exact ⟨items, (C81_fields h q l x items h2 rest ks hc').2.2, h4, fun hs => (pairs_same hs).trans h4⟩

/-- An empty item, an empty name, a missing value and a second `=`. -/
example : ∃ it, Yields QueryIter.next (QueryIter.new b!"a=%41+b&&=x&c&d=e=f&")
    [(b!"a", some b!"A b"), ([], none), ([], some b!"x"), (b!"c", none), (b!"d", some b!"e=f")] it ∧ it.errs = [] :=
  ⟨_, .item rfl (.item rfl (.item rfl (.item rfl (.item rfl (.stop rfl))))), rfl⟩

example : formPairs ampersand b!"a=%41+b&&=x&c&d=e=f&" =
    [(b!"a", b!"A b"), ([], b!"x"), (b!"c", []), (b!"d", b!"e=f")] := by decide +kernel

example : let x := b!"%61=%41+b&&=x&c;d=e=f&"
    (urlRun goOn .new [] x.length [5, 3, 100] (x ++ b!"rest")).last = .finished := by decide +kernel

/-- The full claim is false: a `;` separates items for the code, but not for a program that follows the standard; and
of a body that ends within an escape the code reports a part, where others find a percent sign. -/
theorem C111_fails :
    (∃ it, Yields QueryIter.next (QueryIter.new b!"a=1;admin=1") [(b!"a", some b!"1"), (b!"admin", some b!"1")] it ∧
      it.errs = []) ∧ formPairs ampersand b!"a=1;admin=1" = [(b!"a", b!"1;admin=1")] ∧
    (urlRun goOn .new [] 5 [100] b!"a=1%4").world.log =
      [.urlEncodedBegin, .urlEncodedName b!"a", .urlEncodedValue b!"1", .bodyFinished] ∧
    formPairs ampersand b!"a=1%4" = [(b!"a", b!"1%4")] :=
  ⟨⟨_, .item rfl (.item rfl (.stop rfl)), rfl⟩, by decide +kernel, by decide +kernel, by decide +kernel⟩

end Verif.Http1
