import Verif.Model.Collection
/-!
Specification vocabulary for collections (C37 - C40): the members of a collection, what is below it, and paths.
-/
namespace Verif.Spec
open Verif.Py Verif.Model

/-- `c` is a member of `p`: an entry of its children, `p` not being a text. -/
def Member (h : Heap) (p c : Nat) : Prop := (h p).leaf = false ∧ ∃ k, (k, c) ∈ (h p).children

/-- `b` is below `a`: a member, or a member of something below. -/
inductive Beneath (h : Heap) (a : Nat) : Nat → Prop
  | member {b : Nat} : Member h a b → Beneath h a b
  | deeper {b c : Nat} : Beneath h a b → Member h b c → Beneath h a c

/-- `b` is `a` or below it. -/
def Within (h : Heap) (a b : Nat) : Prop := b = a ∨ Beneath h a b

/-- Following positions among the members leads from `a` to `b`. -/
def Follows (h : Heap) : Nat → List Nat → Nat → Prop
  | a, [], b => b = a
  | a, i :: path, b => (h a).leaf = false ∧ ∃ k c, (h a).children[i]? = some (k, c) ∧ Follows h c path b

/-- No collection contains itself, and the depth under `a` is at most `rank a`. -/
def Ranked (h : Heap) (rank : Nat → Nat) : Prop := ∀ a b, Member h a b → rank b < rank a

/-- Parent and members agree, as in a tree: a member's key is its identifier and its parent is where it is a member,
and what has a parent is a member of it. -/
structure TreeLike (h : Heap) : Prop where
  key : ∀ p k c, (k, c) ∈ (h p).children → k = (h c).id ∧ (h c).parent = some p
  parent : ∀ p c, (h c).parent = some p → Member h p c

/-- The identifiers within `a` are all different. -/
def DistinctIds (h : Heap) (a : Nat) : Prop := ∀ b c, Within h a b → Within h a c → (h b).id = (h c).id → b = c

end Verif.Spec
