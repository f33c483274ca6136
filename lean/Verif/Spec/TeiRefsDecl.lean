import Verif.Spec.InventoryXml
import Verif.Model.TeiRefsDecl
/-!
Specification vocabulary for citation schemes in TEI headers (C73). From the model it uses the types of schemes and
of elements, and the list of the elements of a document in document order.
-/
namespace Verif.Spec
open Verif.Py Verif.Model

/-- A reference declaration for CTS. -/
def IsDeclaration (n : Node) : Prop := n.tag = "tei:refsDecl".toList ∧ n.get "n".toList = some "CTS".toList

/-- The first declaration of a document. -/
def FirstDeclaration (root r : Node) : Prop :=
  ∃ before after, root.allNodes = before ++ r :: after ∧ IsDeclaration r ∧ ∀ x ∈ before, ¬ IsDeclaration x

/-- The patterns inside of an element, in document order. -/
def patternsIn (n : Node) : List Node := (allNodesList n.kids).filter fun c => c.tag = "tei:cRefPattern".toList

/-- A pattern that describes a level: its name, and its expression as `#xpath(...)`. -/
def PatternDescribes (n : Node) (l : CiteLevel) : Prop :=
  ∃ e, n.get "n".toList = l.name ∧ l.refsDecl = some e ∧
    n.get "replacementPattern".toList = some ("#xpath(".toList ++ e ++ ")".toList)

/-- The levels are described by the patterns, one by one. -/
inductive PatternsDescribe : List Node → List CiteLevel → Prop
  | nil : PatternsDescribe [] []
  | cons {n l ns ls} : PatternDescribes n l → PatternsDescribe ns ls → PatternsDescribe (n :: ns) (l :: ls)

/-- A level that a TEI header can carry as the code writes it, without escaping. -/
def TeiSafe (l : CiteLevel) : Prop :=
  AttrSafe (l.name.getD []) ∧ '>' ∉ l.name.getD [] ∧ ∃ e, l.refsDecl = some e ∧ e ≠ [] ∧ AttrSafe e

/-- The level after the trip: a missing name is empty. -/
def teiRead (l : CiteLevel) : CiteLevel := { l with name := some (l.name.getD []) }

/-- The start and the end of a reference declaration. -/
def declarationStart : Str := "<tei:refsDecl n=\"CTS\">".toList
def declarationEnd : Str := "</tei:refsDecl>".toList

/-- A reference declaration with the exports of the levels of a scheme, the deepest level first. -/
def declarationText (written : CiteLevel → Str) (scheme : List CiteLevel) : Str :=
  declarationStart ++ (scheme.reverse.map written).flatten ++ declarationEnd

end Verif.Spec
