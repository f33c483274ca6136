import Verif.Model.Xml
/-!
Specification vocabulary for passages of XML documents (C26-C31). It uses the types of trees and steps
and the meaning of a single step; nothing of `passageLoop`.
-/
namespace Verif.Spec
open Verif.Py Verif.Model

/-- The element at a position (child numbers on the way down). -/
def nodeAt : Node → List Nat → Option Node
  | n, [] => some n
  | n, i :: t =>
    match n.kids[i]? with
    | some c => nodeAt c t
    | none => none

/-- `./steps` selects the element at the position: every step goes to a child that matches it, or, for a
descendant step, first to any child. -/
inductive Sel : Node → List Step → List Nat → Prop where
  | nil {n} : Sel n [] []
  | child {n c s q i t} : n.kids[i]? = some c → s.test c = true → Sel c q t → Sel n (s :: q) (i :: t)
  | desc {n c s q i t} : n.kids[i]? = some c → s.desc = true → Sel c (s :: q) t → Sel n (s :: q) (i :: t)

/-- Exactly one element is selected. -/
def Uniq (n : Node) (p : List Step) (t : List Nat) : Prop := ∀ u, Sel n p u ↔ u = t

/-- Document order of positions: an element comes before its descendants and before what follows it. -/
def docLe : List Nat → List Nat → Bool
  | [], _ => true
  | _ :: _, [] => false
  | i :: t, j :: u => i < j || (i == j && docLe t u)

/-- The first position precedes the second, and neither element contains the other. -/
def Precedes : List Nat → List Nat → Prop
  | i :: t, j :: u => i < j ∨ (i = j ∧ Precedes t u)
  | _, _ => False

/-- An element without its text and children, with other children instead. -/
def emptied (n : Node) (ks : List Node) : Node := .mk n.tag n.attrs [] ks []

/-- A complete element, without what follows it. -/
def complete (n : Node) : Node := .mk n.tag n.attrs n.text n.kids []

/-- The chain of elements down to a position: emptied, except for the last one. -/
def chainTo (n : Node) : List Nat → List Node
  | [] => []
  | i :: t =>
    match n.kids[i]? with
    | none => []
    | some c => if t = [] then [complete c] else [emptied c (chainTo c t)]

/-- Is `t` the position of an element that contains the one at `u`? -/
def Above (t u : List Nat) : Prop := t <+: u ∧ t ≠ u

instance (t u : List Nat) : Decidable (Above t u) := by unfold Above; infer_instance

mutual
/-- What remains of the element at position `pos` when a document is cut down to the part from `st` to `en`:
emptied if it contains `st` or `en`, complete if it lies between them, nothing otherwise. -/
def cutNode (st en pos : List Nat) : Node → List Node
  | .mk t a x ks y =>
    if Above pos st ∨ Above pos en then [emptied (.mk t a x ks y) (cutKids st en pos 0 ks)]
    else if docLe st pos && docLe pos en then [complete (.mk t a x ks y)]
    else []
/-- The same for children number `i`, `i+1`, ... of the element at `pos`. -/
def cutKids (st en pos : List Nat) (i : Nat) : List Node → List Node
  | [] => []
  | c :: r => cutNode st en (pos ++ [i]) c ++ cutKids st en pos (i + 1) r
end

/-- The document cut down to the part from `st` to `en`. -/
def cut (root : Node) (st en : List Nat) : Node := emptied root (cutKids st en [] 0 root.kids)

/-- Does the element at a position survive in the part from `st` to `en`? It does if it contains `st` or
`en`, lies between them, or lies inside `en`. -/
def Kept (st en pos : List Nat) : Prop :=
  Above pos st ∨ Above pos en ∨ (docLe st pos = true ∧ (docLe pos en = true ∨ en <+: pos))

instance (st en pos : List Nat) : Decidable (Kept st en pos) := by unfold Kept; infer_instance

/-! ### Written paths -/

/-- A path written with its slashes; the flag marks descendant steps. -/
def pathText (p : List (Bool × Str)) : Str := p.flatMap fun s => (if s.1 then ['/', '/'] else ['/']) ++ s.2

/-- A step as it should stand in the step list. -/
def stepEntry (s : Bool × Str) : Str := if s.1 then '/' :: s.2 else s.2

/-- The comparison tells the children of every element apart. -/
def TellsApart (same : Same) (root : Node) : Prop :=
  ∀ pos p, nodeAt root pos = some p → ∀ i j, i < p.kids.length → j < p.kids.length → (same p i j = true ↔ i = j)

end Verif.Spec
