import Verif.Model.CitationCopies
/-!
What copies of citation schemes should be.
-/
namespace Verif.Spec
open Verif.Py Verif.Model

/-- From `x` one gets to `y` through children and roots. -/
inductive CitReach (h : CitObjs) (x : Nat) : Nat → Prop
  | here : CitReach h x x
  | child {y z : Nat} {n : CitObj} : CitReach h x y → h[y]? = some n → z ∈ n.children → CitReach h x z
  | root {y z : Nat} {n : CitObj} : CitReach h x y → h[y]? = some n → n.root = some z → CitReach h x z

/-- Citations point to citations. -/
def CitClosed (h : CitObjs) : Prop := ∀ n ∈ h, (∀ c ∈ n.children, c < h.length) ∧ ∀ r, n.root = some r → r < h.length

/-- `y` of `h'` is a copy of `x` of `h`: there is a naming of new objects for all that `x` leads to, one for each and no old ones, under which they
have the same names and declarations, and corresponding children and roots. -/
def CitCopyOf (h : CitObjs) (x : Nat) (h' : CitObjs) (y : Nat) : Prop :=
  ∃ φ : Nat → Nat, φ x = y ∧ (∀ a b, CitReach h x a → CitReach h x b → φ a = φ b → a = b) ∧ ∀ a, CitReach h x a → h.length ≤ φ a ∧
    ∃ n, h[a]? = some n ∧ h'[φ a]? = some ⟨n.name, n.refsDecl, n.children.map φ, n.root.map φ⟩

/-- What a user sees of citations: names and declarations. -/
def citSeen (h : CitObjs) (l : List Nat) : List (Option (Option Str × Option Str)) := l.map fun x => (h[x]?).map fun n => (n.name, n.refsDecl)

/-- The citations of a scheme with one level under the other, from the root down. -/
def CitChain (h : CitObjs) : List Nat → Prop
  | [] => False
  | [a] => ∃ n, h[a]? = some n ∧ n.children = []
  | a :: b :: r => (∃ n, h[a]? = some n ∧ n.children = [b]) ∧ CitChain h (b :: r)

end Verif.Spec
