import Verif.Spec.CtsMetadata
import Verif.Model.RemoteText
/-!
Specification vocabulary for replies of CTS endpoints, labels and schemes of remote texts (C84).
-/
namespace Verif.Spec
open Verif.Py Verif.Model

mutual
/-- The elements below an element, in document order. -/
def below : Node → List Node
  | .mk _ _ _ ks _ => belowAll ks
/-- These elements and those below them, in document order. -/
def belowAll : List Node → List Node
  | [] => []
  | c :: r => c :: (below c ++ belowAll r)
end

/-- The elements of a document, in document order. -/
def elements (doc : Node) : List Node := doc :: below doc

/-- The elements of a label, each with the CTS property and the Dublin Core predicate under which its text is kept. -/
def labelTable : List (String × Term × Term) :=
  [("ti:groupname", cts "groupname", dc "creator"), ("ti:title", cts "title", dc "title"),
   ("ti:label", cts "label", dc "subject"), ("ti:description", cts "description", dc "description")]

/-- The text of an element of a label; an empty one reads `None`. -/
def labelText (e : Node) : Str := if e.text = [] then "None".toList else e.text

/-- The label `x` says `t` about `node`: some element below it has its text there, in English. -/
def Tells (x : Node) (node : Term) (t : Triple) : Prop :=
  ∃ e ∈ below x, ∃ row ∈ labelTable, e.tag = row.1.toList ∧
    (t = ⟨node, row.2.1, .lit (labelText e) (some "eng".toList) none⟩ ∨ t = ⟨node, row.2.2, .lit (labelText e) (some "eng".toList) none⟩)

/-- The texts of the elements of one name in a label, in English. -/
def toldTexts (x : Node) (name : String) (o : Term) : Prop :=
  ∃ e ∈ below x, e.tag = name.toList ∧ o = .lit (labelText e) (some "eng".toList) none

/-- The scheme that an element `ti:citation` declares: its own level, and below it that of its first child `ti:citation`. -/
inductive DeclaresScheme : Node → List CiteLevel → Prop
  | last {c} : (∀ k ∈ c.kids, k.tag ≠ "ti:citation".toList) → DeclaresScheme c [levelOf c.attrs]
  | next {c pre k post ls} : c.kids = pre ++ k :: post → (∀ m ∈ pre, m.tag ≠ "ti:citation".toList) → k.tag = "ti:citation".toList →
      DeclaresScheme k ls → DeclaresScheme c (levelOf c.attrs :: ls)

/-- A scheme is set: its first level has a refsDecl. -/
def SchemeSet (c : List CiteLevel) : Prop := ∃ l r x, c = l :: r ∧ l.refsDecl = some x

/-- The scheme `after` is what a text with the scheme `before` has after reading the element `x` of a document: a scheme that is
set stays, otherwise the first `ti:citation` below `x` counts, and a document without any changes nothing. -/
def Adopts (doc x : Node) (before after : List CiteLevel) : Prop :=
  (SchemeSet before ∧ after = before) ∨
  (¬ SchemeSet before ∧ (∀ e ∈ elements doc, e.tag ≠ "ti:citation".toList) ∧ after = before) ∨
  (¬ SchemeSet before ∧ (∃ e ∈ elements doc, e.tag = "ti:citation".toList) ∧
    ∃ pre c post, below x = pre ++ c :: post ∧ (∀ m ∈ pre, m.tag ≠ "ti:citation".toList) ∧ c.tag = "ti:citation".toList ∧ DeclaresScheme c after)

/-- The case in which reading `x` fails: no scheme is set, the document declares one, but not below `x`. -/
def SchemeElsewhere (doc x : Node) (before : List CiteLevel) : Prop :=
  ¬ SchemeSet before ∧ (∃ e ∈ elements doc, e.tag = "ti:citation".toList) ∧ ∀ e ∈ below x, e.tag ≠ "ti:citation".toList

/-- The texts directly in an element. -/
def directTexts (e : Node) : List Str := (e.text :: e.kids.map Node.tail).filter (· ≠ [])

mutual
/-- The elements of a tree in document order, each with the names of the elements around it, the nearest first. -/
def situated (around : List Str) : Node → List (List Str × Node)
  | .mk t a x ks l => (around, .mk t a x ks l) :: situatedAll (t :: around) ks
/-- The same for the children of an element. -/
def situatedAll (around : List Str) : List Node → List (List Str × Node)
  | [] => []
  | c :: r => situated around c ++ situatedAll around r
end

/-- The elements `b` that are children of an `a`, in document order. -/
def within (a b : String) (doc : Node) : List Node :=
  ((situated [] doc).filter fun p => p.2.tag = b.toList ∧ p.1.head? = some a.toList).map (·.2)

/-- The elements `b` anywhere in an `a`, in document order. -/
def anywhereIn (a b : String) (doc : Node) : List Node :=
  ((situated [] doc).filter fun p => p.2.tag = b.toList ∧ a.toList ∈ p.1).map (·.2)

/-- The elements of one name, in document order. -/
def named (name : String) (doc : Node) : List Node := (elements doc).filter fun e => e.tag = name.toList

/-- What follows the last colon. -/
def afterColon (s : Str) : Str := (s.reverse.takeWhile (· ≠ ':')).reverse

/-- The references that a reply lists: the texts of the elements `ti:urn` in `ti:reply`, after their last colon. -/
def listed (doc : Node) : List Str := ((anywhereIn "ti:reply" "ti:urn" doc).flatMap directTexts).map afterColon

/-- The URN of the previous or next passage in `ti:prevnext`, if there is a text. -/
def sideUrn (side : String) (p : Node) : Option Str :=
  (((p.kids.filter fun c => c.tag = side.toList).flatMap fun c => c.kids.filter fun u => u.tag = "ti:urn".toList).flatMap directTexts).head?

/-- What a text becomes by reading the element `x` of a document: the graph says of it what the label says, and nothing else is
new; its scheme is adopted; or the scheme is declared elsewhere, and reading ends with `TypeError` after the labels. -/
def ReadsLabel (doc x : Node) (s s' : RemoteText) (out : Except PyErr Unit) : Prop :=
  s'.urn = s.urn ∧ s'.log = s.log ∧ s'.obj.node = s.obj.node ∧
  (∀ t, t ∈ s'.graph ↔ t ∈ s.graph ∨ Tells x s.obj.node t) ∧
  ((out = .ok () ∧ Adopts doc x s.obj.cite s'.obj.cite) ∨
    (out = .error .typeError ∧ SchemeElsewhere doc x s.obj.cite ∧ s'.obj.cite = s.obj.cite))

/-- The text after sending a request. -/
def sent (s : RemoteText) (r : List (Str × Str)) : RemoteText := { s with log := s.log ++ [r] }

end Verif.Spec
