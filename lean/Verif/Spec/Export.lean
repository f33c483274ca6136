import Verif.Spec.LocalText
import Verif.Spec.Generic
/-!
Specification vocabulary for the exports (C35, C36). It uses the types of trees and of nested dictionaries.
-/
namespace Verif.Spec
open Verif.Py Verif.Model

/-- Is the name of an element excluded? -/
def excluded (ex : List Str) (name : Str) : Bool := ex.contains name || ex.contains ['*']

/-- A piece of text, left out when empty. -/
def piece (s : Str) : List Str := if s = [] then [] else [s]

mutual
/-- The pieces of text of an element in reading order, leaving out excluded elements with all they contain;
the text that follows an excluded element is kept. -/
def visible (ex : List Str) : Node → List Str
  | .mk t _ x ks _ => if excluded ex t then [] else piece x ++ visibleKids ex ks
/-- The same for the children of an element. -/
def visibleKids (ex : List Str) : List Node → List Str
  | [] => []
  | c :: r => visible ex c ++ piece c.tail ++ visibleKids ex r
end

mutual
/-- All text of an element. -/
def textContent : Node → Str
  | .mk _ _ x ks _ => x ++ kidsContent ks
/-- All text of the children of an element. -/
def kidsContent : List Node → Str
  | [] => []
  | c :: r => textContent c ++ c.tail ++ kidsContent r
end

/-- A piece of text with the position of the element that directly contains it. -/
def placed (pos : List Nat) (s : Str) : List (List Nat × Str) := (piece s).map fun x => (pos, x)

mutual
/-- The visible pieces of text of the element at position `pos`, with the positions of their elements. -/
def visibleAt (ex : List Str) (pos : List Nat) : Node → List (List Nat × Str)
  | .mk t _ x ks _ => if excluded ex t then [] else placed pos x ++ visibleKidsAt ex pos 0 ks
/-- The same for children number `i`, `i+1`, ... of the element at `pos`. -/
def visibleKidsAt (ex : List Str) (pos : List Nat) (i : Nat) : List Node → List (List Nat × Str)
  | [] => []
  | c :: r => visibleAt ex (pos ++ [i]) c ++ placed pos c.tail ++ visibleKidsAt ex pos (i + 1) r
end

/-- Does an element (by position) lie completely in the part from `st` to `en`? It begins at `st` or later, and
it is `en`, lies inside it, or comes before it without containing it. -/
def inside (st en pos : List Nat) : Bool := docLe st pos && (en.isPrefixOf pos || (docLe pos en && !pos.isPrefixOf en))

/-- The names of the elements on the way down to a position, without the element there. -/
def namesTo : Node → List Nat → List Str
  | _, [] => []
  | n, i :: t =>
    match n.kids[i]? with
    | none => []
    | some c => n.tag :: namesTo c t

/-- The text of a citable unit: that of its element. -/
def unitText (root : Node) (ex : List Str) (u : List Str × List Nat) : Str :=
  match nodeAt root u.2 with
  | none => []
  | some c => if (namesTo root u.2).any (excluded ex) then [] else squeeze (join [' '] (visible ex c))

end Verif.Spec
