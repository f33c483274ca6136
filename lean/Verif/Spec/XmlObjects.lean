import Verif.Model.XmlObjects
/-!
Specification vocabulary for passages as objects (C109): what elements hold, and what it means that they are new. From
the model it uses the types of elements and values, nothing of the functions.
-/
namespace Verif.Spec
open Verif.Py Verif.Model

mutual
/-- The element holds the value: name, attributes, text, what follows, and the same for the children. All elements have
numbers below `hi`. -/
def HoldsNode (cell : Nat → Cell) (hi : Nat) : Node → Nat → Prop
  | .mk t a x ks tl, e =>
    e < hi ∧ (cell e).tag = t ∧ (cell e).attrs = a ∧ (cell e).text = x ∧ (cell e).tail = tl ∧ HoldsAll cell hi ks (cell e).kids
/-- The same for lists. -/
def HoldsAll (cell : Nat → Cell) (hi : Nat) : List Node → List Nat → Prop
  | [], [] => True
  | n :: r, e :: es => HoldsNode cell hi n e ∧ HoldsAll cell hi r es
  | _, _ => False
end

mutual
/-- The element holds the value, knows its parent, as do all inside, and they all have numbers between `lo` and `hi`,
parents before children. -/
def Built (cell : Nat → Cell) (hi : Nat) : Node → Nat → Option Nat → Nat → Prop
  | .mk t a x ks tl, lo, par, e => lo ≤ e ∧ e < hi ∧ cell e = ⟨t, a, x, tl, (cell e).kids, par⟩ ∧ BuiltAll cell hi ks (e + 1) e (cell e).kids
/-- The same for the children of an element. -/
def BuiltAll (cell : Nat → Cell) (hi : Nat) : List Node → Nat → Nat → List Nat → Prop
  | [], _, _, [] => True
  | n :: r, lo, par, e :: es => Built cell hi n lo (some par) e ∧ BuiltAll cell hi r lo par es
  | _, _, _, _ => False
end

/-- What a program does: take a passage, or change an element in any way. -/
inductive Use where
  | take (path1 path2 : List Step)
  | change (a : Nat) (c : Cell)

/-- The elements after all that, with the document at `root`. -/
def afterUses (d : Nat) (same : Same) (root : Nat) : Elements → List Use → Elements
  | h, [] => h
  | h, .take p1 p2 :: rest => afterUses d same root (h.passage d same root p1 p2).1 rest
  | h, .change a c :: rest => afterUses d same root (h.put a c) rest

/-- The program changes only elements with numbers from `base` on. -/
def ChangesFrom (base : Nat) (us : List Use) : Prop := ∀ a c, Use.change a c ∈ us → base ≤ a

end Verif.Spec
