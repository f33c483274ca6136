/-!
Specification vocabulary for pagination (C46): cutting a list into pages.
-/
namespace Verif.Spec

/-- The pages of a list, `n` elements each, the last one possibly shorter. -/
def chunks {α : Type} (n : Nat) (xs : List α) : List (List α) :=
  if _h : n = 0 ∨ xs = [] then [] else xs.take n :: chunks n (xs.drop n)
termination_by xs.length
decreasing_by
  have : xs.length ≠ 0 := by intro e; exact _h (.inr (List.length_eq_zero_iff.1 e))
  simp; omega

/-- The number of elements of a page that a request may ask for: 1 to 100, otherwise 10. -/
def limitFor (limit : Option Int) : Nat :=
  match limit with
  | none => 10
  | some l => if 1 ≤ l ∧ l ≤ 100 then l.toNat else 10

end Verif.Spec
