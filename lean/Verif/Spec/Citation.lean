import Verif.Model.Citation
/-!
Specification vocabulary for citation trees (C18, C23, C25). It uses the tree type only.
-/
namespace Verif.Spec
open Verif.Py Verif.Model

/-- The citation reached from a list of citations by a path of child positions. -/
def sub {α} : List (Cite α) → List Nat → Option (Cite α)
  | _, [] => none
  | ks, [i] => ks[i]?
  | ks, i :: j :: p => match ks[i]? with
    | some c => sub c.kids (j :: p)
    | none => none

/-- A scheme with one citation per level, given by the data of the levels. -/
def chain {α} : α → List α → Cite α
  | d, [] => .mk d []
  | d, e :: r => .mk d [chain e r]

mutual
/-- Names and nesting of a citation, nothing else. -/
def shape : Cite DtsData → Cite (Option Str)
  | .mk d ks => .mk d.name (shapes ks)
/-- Names and nesting of a list of citations. -/
def shapes : List (Cite DtsData) → List (Cite (Option Str))
  | [] => []
  | c :: r => shape c :: shapes r
end

mutual
/-- The names and the nesting written in an expanded JSON-LD citation structure: an absent type is no
name, an absent structure is no children. -/
def sourceShape : ExpCite → Cite (Option Str)
  | .mk ct cs => .mk (ct.bind fun l => l.head?.join) (sourceOpt cs)
def sourceOpt : Option (List ExpCite) → List (Cite (Option Str))
  | none => []
  | some l => sourceShapes l
def sourceShapes : List ExpCite → List (Cite (Option Str))
  | [] => []
  | c :: r => sourceShape c :: sourceShapes r
end

mutual
/-- The names and the nesting written in an exported structure. -/
def outShape : OutCite → Cite (Option Str)
  | .mk n cs => .mk n (outOpt cs)
def outOpt : Option (List OutCite) → List (Cite (Option Str))
  | none => []
  | some l => outShapes l
def outShapes : List OutCite → List (Cite (Option Str))
  | [] => []
  | c :: r => outShape c :: outShapes r
end

mutual
/-- Every type that is present is a list with a value, as JSON-LD expansion produces them. -/
def TypesFilled : ExpCite → Prop
  | .mk ct cs => ct ≠ some [] ∧ TypesFilledOpt cs
def TypesFilledOpt : Option (List ExpCite) → Prop
  | none => True
  | some l => TypesFilledAll l
def TypesFilledAll : List ExpCite → Prop
  | [] => True
  | c :: r => TypesFilled c ∧ TypesFilledAll r
end

end Verif.Spec
