import Verif.Model.CitationHeap
/-!
Specification vocabulary for the object graph of citations (C19, C24). It uses the heap type and the
names of the assembly steps only.
-/
namespace Verif.Spec
open Verif.Py Verif.Model

/-- Following `_root` from `x` ends at `t`. -/
inductive Climb (h : CHeap) : Nat → Nat → Prop where
  | top {x} : (h x).root = none → Climb h x x
  | up {x y t} : (h x).root = some y → Climb h y t → Climb h x t

/-- `x` is `t` or a descendant of `t` through children. -/
inductive Below (h : CHeap) (t : Nat) : Nat → Prop where
  | self : Below h t t
  | child {p c} : Below h t p → c ∈ (h p).children → Below h t c

/-- A scheme with one citation per level: `x`, then the deeper ones. -/
def IsChain (h : CHeap) : Nat → List Nat → Prop
  | x, [] => (h x).children = []
  | x, y :: r => (h x).children = [y] ∧ IsChain h y r

/-- A new object: nothing refers to it. -/
def Fresh (h : CHeap) (n : Nat) : Prop :=
  h n = ⟨none, []⟩ ∧ ∀ x, (h x).root ≠ some n ∧ n ∉ (h x).children

/-- An assembly step that only places citations that were not placed before, and none of them above
itself. -/
def LegalStep (h : CHeap) : CiteOp → Prop
  | .new n cs => Fresh h n ∧ ∀ c ∈ cs, c ≠ n ∧ (h c).root = none
  | .children p cs => ∀ c ∈ cs, (h c).root = none ∧ ¬ Climb h p c
  | .child p (some v) => (h v).root = none ∧ ¬ Climb h p v
  | .child _ none => True

/-- A history of such steps. -/
def Legal : CHeap → List CiteOp → Prop
  | _, [] => True
  | h, o :: r => LegalStep h o ∧ Legal (h.step o) r

end Verif.Spec
