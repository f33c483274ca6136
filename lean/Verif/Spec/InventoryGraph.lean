import Verif.Spec.CtsMetadata
import Verif.Spec.RemoteText
import Verif.Spec.StructuredMetadata
import Verif.Model.InventoryGraph
/-!
Specification vocabulary for the statements that parsing an inventory makes (C86): which elements of a document stand for
objects, and what each of them says. From the model it uses the types of documents, terms, graphs and objects, and what
`lxml.objectify` makes of a text.
-/
namespace Verif.Spec
open Verif.Py Verif.Model

/-- The children of one name. -/
def childrenCalled (name : String) (e : Node) : List Node := e.kids.filter fun c => c.tag = name.toList

/-- The identifier that an element gives. -/
def urnOf (e : Node) : Str := (e.get "urn".toList).getD []

/-- An element that stands for an object, with its parent. -/
inductive Thing where
  | textgroup (inventory : Option Str) (element : Node)
  | work (group : Option Str) (element : Node)
  | text (work : Node) (kind : Kind) (element : Node)

/-- The element. -/
def Thing.element : Thing → Node
  | .textgroup _ e => e
  | .work _ e => e
  | .text _ _ e => e

/-- The object, as a subject of statements. -/
def Thing.node (x : Thing) : Term := .uri (urnOf x.element)

/-- The name of the element of each kind of text. -/
def kindName : Kind → String
  | .plain => "text"
  | .edition => "edition"
  | .translation => "translation"
  | .commentary => "commentary"

/-- The texts of a work: editions, then translations, then commentaries. -/
def textElements (w : Node) : List Thing :=
  [Kind.edition, .translation, .commentary].flatMap fun k => (childrenCalled ("ti:" ++ kindName k) w).map (.text w k)

/-- A work and its texts. -/
def workAndTexts (group : Option Str) (w : Node) : List Thing := .work group w :: textElements w

/-- A textgroup, its works and their texts. -/
def groupAndBelow (inventory : Option Str) (g : Node) : List Thing :=
  .textgroup inventory g :: (childrenCalled "ti:work" g).flatMap (workAndTexts (some (urnOf g)))

/-- The identifier of the inventory in a document. -/
def inventoryId (doc : Node) : Str := match named "ti:TextInventory" doc with
  | [] => []
  | e :: _ => (e.get "tiid".toList).getD []

/-- The objects of a document. -/
def things (doc : Node) : List Thing := (named "ti:textgroup" doc).flatMap (groupAndBelow (some (inventoryId doc)))

/-- The class of an object, in the CTS namespace. -/
def Thing.type : Thing → Term
  | .textgroup _ _ => cts "textgroup"
  | .work _ _ => cts "work"
  | .text _ k _ => cts (kindName k)

/-- The DTS model of an object: texts are resources, the others collections. -/
def Thing.model : Thing → Term
  | .text _ _ _ => .uri "https://w3id.org/dts/api#resource".toList
  | _ => .uri "https://w3id.org/dts/api#collection".toList

/-- The parent of an object, if it has one. -/
def Thing.parent : Thing → Option Str
  | .textgroup i _ => i
  | .work g _ => g
  | .text w _ _ => some (urnOf w)

/-- The property that is the title of an object. -/
def Thing.title : Thing → String
  | .textgroup _ _ => "groupname"
  | .work _ _ => "title"
  | .text _ _ _ => "label"

/-- The properties that are read from the children of an element. -/
def Thing.properties (x : Thing) : List String := match x with
  | .text _ _ _ => ["label", "description"]
  | _ => [x.title]

/-- The texts in a language that an element gives for a property. An empty text reads `None`. -/
def Gives (x : Thing) (name : String) (o : Term) : Prop :=
  ∃ c ∈ childrenCalled ("ti:" ++ name) x.element, ∃ l, c.get "xml:lang".toList = some l ∧ o = .lit (labelText c) (some l) none

/-- A tag as lxml gives it: without namespace, or with one in braces. `ti:` stands for the namespace of CTS. -/
def ProperTag (tag : Str) : Prop :=
  ('{' ∉ tag ∧ '}' ∉ tag) ∨ ∃ ns name, '{' ∉ ns ∧ '}' ∉ ns ∧ '{' ∉ name ∧ '}' ∉ name ∧ tag = "{".toList ++ ns ++ "}".toList ++ name

/-- The tag is in a namespace, and the namespace followed by the name is `u`. -/
def Named (tag u : Str) : Prop :=
  (∃ name, tag = "ti:".toList ++ name ∧ u = ctsNamespace ++ name) ∨ ∃ ns name, tag = "{".toList ++ ns ++ "}".toList ++ name ∧ '}' ∉ ns ∧ u = ns ++ name

/-- The value of an element of structured metadata: a resource when its text looks like one; else a text in the language of the
element; without language, a literal of the type of the element, or of the type of the number that it is. -/
def blockValue (nsmap : List (Str × Str)) (ob : Str → Objectified) (m : Node) : Term :=
  if LooksLikeLink (ob m.text).shown then .uri (ob m.text).shown
  else match m.get "xml:lang".toList, m.get "{http://www.w3.org/1999/02/22-rdf-syntax-ns#}datatype".toList, (ob m.text).kind with
    | some l, _, _ => .lit (ob m.text).shown (some l) none
    | none, some d, _ => .lit (ob m.text).shown none (some (if ¬ "http".toList <+: d ∧ ':' ∈ d then expandNamespace nsmap d else d))
    | none, none, .int => .lit (ob m.text).shown none (some "http://www.w3.org/2001/XMLSchema#integer".toList)
    | none, none, .float => .lit (ob m.text).shown none (some "http://www.w3.org/2001/XMLSchema#float".toList)
    | none, none, .other => .lit (ob m.text).shown none none

/-- The elements of the structured metadata of an object. -/
def Thing.block (x : Thing) : List Node :=
  (childrenCalled "{http://purl.org/capitains/ns/1.0#}structured-metadata" x.element).flatMap Node.kids

/-- The element says that `o` is a value of `p` of its object. -/
inductive Told (nsmap : List (Str × Str)) (ob : Str → Objectified) : Thing → Term → Term → Prop
  | property {x name o} : name ∈ x.properties → Gives x name o → Told nsmap ob x (cts name) o
  | title {x p o} : p ∈ labelPredicates → Gives x x.title o → Told nsmap ob x p o
  | about {w k e c} : c ∈ childrenCalled "ti:about" e →
      Told nsmap ob (.text w k e) (cts "about") (.uri ((c.get "urn".toList).getD "None".toList))
  | parent {x i} : x.parent = some i → Told nsmap ob x (.uri "http://purl.org/capitains/ns/1.0#parent".toList) (.uri i)
  | block {x m u} : m ∈ x.block → Named m.tag u → Told nsmap ob x (.uri u) (blockValue nsmap ob m)

/-- The predicate of the class of an object. -/
def typePredicate : Term := .uri "http://www.w3.org/1999/02/22-rdf-syntax-ns#type".toList

/-- The predicate of the DTS model of an object. -/
def modelPredicate : Term := .uri "https://w3id.org/dts/api#model".toList

/-- The predicates of which parsing replaces the value. -/
def replacedPredicates : List Term := [typePredicate, modelPredicate, dc "language"]

/-- The language that a graph has for a node, or `None`. -/
def SpokenIn (g : Graph) (n : Term) (v : Str) : Prop :=
  (∃ o, (⟨n, dc "language", o⟩ : Triple) ∈ g ∧ v = o.str) ∨ ((∀ o, (⟨n, dc "language", o⟩ : Triple) ∉ g) ∧ v = "None".toList)

/-- Parsing gives the object a language: works that have `xml:lang`, and all texts. -/
def Thing.speaks : Thing → Prop
  | .textgroup _ _ => False
  | .work _ e => e.get "xml:lang".toList ≠ none
  | .text _ _ _ => True

/-- The language that parsing gives to an object, where `g` is the graph before: that of `xml:lang`, which editions do not read;
for texts without it that of the work, which may be known from before. -/
def Thing.Speaks (g : Graph) (v : Str) : Thing → Prop
  | .textgroup _ _ => False
  | .work _ e => e.get "xml:lang".toList = some v
  | .text w k e =>
    match (if k = .edition then none else e.get "xml:lang".toList), w.get "xml:lang".toList with
    | some l, _ => v = l
    | none, some l => v = l
    | none, none => SpokenIn g (.uri (urnOf w)) v

/-- All that is said of an object afterwards: what its element says, its class, its model and its language, and what was said
before under other predicates. -/
def SaidAfter (nsmap : List (Str × Str)) (ob : Str → Objectified) (g : Graph) (x : Thing) (lang : Str) (p o : Term) : Prop :=
  Told nsmap ob x p o ∨ (p = typePredicate ∧ o = x.type) ∨ (p = modelPredicate ∧ o = x.model) ∨
  (p = dc "language" ∧ x.speaks ∧ o = .lit lang none none) ∨
  ((⟨x.node, p, o⟩ : Triple) ∈ g ∧ p ≠ typePredicate ∧ p ≠ modelPredicate ∧ (p = dc "language" → ¬ x.speaks))

/-- No two of these objects share their identifier. -/
def Distinct (xs : List Thing) : Prop := (xs.map fun x => urnOf x.element).Nodup

/-- The tags of the structured metadata are as lxml gives them. -/
def ProperBlocks (xs : List Thing) : Prop := ∀ x ∈ xs, ∀ m ∈ x.block, ProperTag m.tag

/-- The structured metadata use none of the predicates that parsing or the export use otherwise. -/
def BlocksApart (xs : List Thing) : Prop := ∀ x ∈ xs, ∀ m ∈ x.block, ∀ u, Named m.tag u →
  ∀ p ∈ replacedPredicates ++ labelPredicates ++ ["groupname", "title", "label", "description", "about"].map cts, (Term.uri u) ≠ p

/-- The graph says nothing of these objects. -/
def Unmentioned (g : Graph) (xs : List Thing) : Prop := ∀ x ∈ xs, ∀ p o, (⟨x.node, p, o⟩ : Triple) ∉ g

/-- The same text up to the order of its values. -/
def TextAlike (a b : XText) : Prop :=
  a.id = b.id ∧ a.kind = b.kind ∧ a.lang = b.lang ∧ a.cite = b.cite ∧
  a.labels.Perm b.labels ∧ a.descriptions.Perm b.descriptions ∧ a.about.Perm b.about

/-- Two lists of which the elements at the same place are alike. -/
inductive AllAlike {α : Type} (r : α → α → Prop) : List α → List α → Prop
  | nil : AllAlike r [] []
  | cons {a b l m} : r a b → AllAlike r l m → AllAlike r (a :: l) (b :: m)

/-- The same work up to the order of values. -/
def WorkAlike (a b : XWork) : Prop :=
  a.id = b.id ∧ a.lang = b.lang ∧ a.titles.Perm b.titles ∧ AllAlike TextAlike a.texts b.texts

/-- The same textgroup up to the order of values. -/
def GroupAlike (a b : XGroup) : Prop := a.id = b.id ∧ a.names.Perm b.names ∧ AllAlike WorkAlike a.works b.works

/-- The same inventory up to the order of values. -/
def InvAlike (a b : XInv) : Prop := a.id = b.id ∧ AllAlike GroupAlike a.groups b.groups

end Verif.Spec
