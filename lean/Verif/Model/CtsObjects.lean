import Verif.Model.CtsMetadata
import Verif.Model.InventoryXml
import Verif.Model.Urn
/-!
What a text of an inventory says of itself (MyCapytain/resources/prototypes/cts/inventory.py 342-376,
resources/prototypes/metadata.py 461-495), equality of CTS collections (inventory.py 50-64), and the exports of the
collection of inventories (inventory.py 691-748).
-/
namespace Verif.Model
open Verif.Py

/-! ### Creator, title, description, subject -/

/-- The methods of `Metadata`: common/metadata.py 36-236 and common/base.py 20-51. -/
def metadataMethods : List Str :=
  [['e', 'x', 'p', 'o', 'r', 't', '_', 'c', 'a', 'p', 'a', 'c', 'i', 't', 'i', 'e', 's'], ['_', '_', 'e', 'x', 'p', 'o', 'r', 't', '_', '_'], ['e', 'x', 'p', 'o', 'r', 't'], ['a', 's', 'N', 'o', 'd', 'e'], ['g', 'r', 'a', 'p', 'h'], ['s', 'e', 't'], ['a', 'd', 'd'], ['g', 'e', 't'], ['g', 'e', 't', '_', 's', 'i', 'n', 'g', 'l', 'e'], ['_', '_', 'g', 'e', 't', 'i', 't', 'e', 'm', '_', '_'],
   ['r', 'e', 'm', 'o', 'v', 'e'], ['u', 'n', 'l', 'i', 'n', 'k'], ['p', 'r', 'e', 'd', 'i', 'c', 'a', 't', 'e', '_', 'o', 'b', 'j', 'e', 'c', 't'], ['g', 'e', 't', 'O', 'r']]

/-- `x.metadata.name(…)`: `result` when the class `Metadata` has such a method, and otherwise `AttributeError`. -/
def callMetadata (name : Str) (result : Except PyErr (Option Term)) : Except PyErr (Option Term) :=
  if name ∈ metadataMethods then result else .error .attributeError

/-- `get_creator` of a CTS text: inventory.py 342-349. `parents` are the nodes of the work, the textgroup and so on; `None`
has no attribute `parent` or `metadata`. -/
def textCreator (order : Order) (g : Graph) (parents : List Term) (lang : Option Str) : Except PyErr (Option Term) :=
  match parents with
  | _ :: textgroup :: _ => callMetadata ['g', 'e', 't', '_', 'l', 'a', 'b', 'e', 'l'] (getLabel order g textgroup lang)
  | _ => .error .attributeError

/-- `get_title` of a CTS text: inventory.py 351-358. -/
def textTitle (order : Order) (g : Graph) (parents : List Term) (lang : Option Str) : Except PyErr (Option Term) :=
  match parents with
  | work :: _ => callMetadata ['g', 'e', 't', '_', 'l', 'a', 'b', 'e', 'l'] (getLabel order g work lang)
  | [] => .error .attributeError

/-- `get_description` of a CTS text: inventory.py 360-367. -/
def textDescription (order : Order) (g : Graph) (node : Term) (lang : Option Str) : Except PyErr (Option Term) :=
  metaGetSingle order g node (ctsTerm kDescription) lang

/-- `get_subject` of a CTS text: inventory.py 369-376. -/
def textSubject (order : Order) (g : Graph) (node : Term) (lang : Option Str) : Except PyErr (Option Term) := getLabel order g node lang

/-- `get_creator` of a `ResourceCollection`: prototypes/metadata.py 461-468. -/
def resourceCreator (order : Order) (g : Graph) (node : Term) (lang : Option Str) : Except PyErr (Option Term) := metaGetSingle order g node dcCreator lang

/-- `get_title` of a `ResourceCollection`: prototypes/metadata.py 470-477. -/
def resourceTitle (order : Order) (g : Graph) (node : Term) (lang : Option Str) : Except PyErr (Option Term) := metaGetSingle order g node dcTitle lang

/-- `get_description` of a `ResourceCollection`: prototypes/metadata.py 479-486. -/
def resourceDescription (order : Order) (g : Graph) (node : Term) (lang : Option Str) : Except PyErr (Option Term) := metaGetSingle order g node dcDescription lang

/-- `get_subject` of a `ResourceCollection`: prototypes/metadata.py 488-495. -/
def resourceSubject (order : Order) (g : Graph) (node : Term) (lang : Option Str) : Except PyErr (Option Term) := metaGetSingle order g node dcSubject lang

/-! ### Equality -/

/-- The classes of CTS collections: inventory.py 36, 187, 379, 392, 407, 422, 544, 632, 691; collections/cts.py 140, 207, 218, 233, 248,
297, 324. -/
inductive CollCls where
  | proto | text | edition | translation | commentary | work | textgroup | inventory | inventories
  | xmlText | xmlEdition | xmlTranslation | xmlCommentary | xmlWork | xmlTextgroup | xmlInventory
  deriving DecidableEq, Repr

/-- The CTS classes in the resolution order of a class. -/
def CollCls.mro : CollCls → List CollCls
  | .proto => [.proto]
  | .text => [.text, .proto]
  | .edition => [.edition, .text, .proto]
  | .translation => [.translation, .text, .proto]
  | .commentary => [.commentary, .text, .proto]
  | .work => [.work, .proto]
  | .textgroup => [.textgroup, .proto]
  | .inventory => [.inventory, .proto]
  | .inventories => [.inventories, .proto]
  | .xmlText => [.xmlText, .text, .proto]
  | .xmlEdition => [.xmlEdition, .edition, .xmlText, .text, .proto]
  | .xmlTranslation => [.xmlTranslation, .translation, .xmlText, .text, .proto]
  | .xmlCommentary => [.xmlCommentary, .commentary, .xmlText, .text, .proto]
  | .xmlWork => [.xmlWork, .work, .proto]
  | .xmlTextgroup => [.xmlTextgroup, .textgroup, .proto]
  | .xmlInventory => [.xmlInventory, .inventory, .proto]

/-- `issubclass(a, b)`. -/
def CollCls.sub (a b : CollCls) : Bool := a.mro.contains b

/-- Does the constructor of the class give the collection a `URN`? inventory.py 53 (no), 210 (texts), 447 (works), 568 (textgroups);
inventories and collections of inventories keep the empty string. -/
def CollCls.hasUrn : CollCls → Bool
  | .proto | .inventory | .inventories | .xmlInventory => false
  | _ => true

/-- A CTS collection as equality sees it: which object it is, its class, and its `urn` (`none` is the empty string). -/
structure CollObj where
  ident : Nat
  cls : CollCls
  urn : Option Urn
  deriving DecidableEq, Repr

/-- `cls(urn)`, or `cls(name)` for inventories. -/
def newColl (ident : Nat) (cls : CollCls) (arg : Str) : Except PyErr CollObj :=
  if cls.hasUrn then
    match Urn.parse arg with
    | .error e => .error e
    | .ok u => .ok ⟨ident, cls, some u⟩
  else .ok ⟨ident, cls, none⟩

/-- `collection.urn.x = …`, some assignments to the components of the URN. -/
def CollObj.assign (c : CollObj) (ops : List UrnOp) : CollObj := { c with urn := c.urn.map fun u => u.run ops }

/-- `self.urn == other.urn`; a `URN` equals no string. -/
def urnAttrEq : Option Urn → Option Urn → Except PyErr Bool
  | none, none => .ok true
  | some a, some b => Urn.eq a b
  | _, _ => .ok false

/-- `PrototypeCtsCollection.__eq__`: inventory.py 59-64. -/
def CollObj.eqMethod (self other : CollObj) : Except PyErr Bool :=
  if self.ident = other.ident then .ok true
  else if other.cls.sub self.cls then urnAttrEq self.urn other.urn
  else .ok false

/-- `a == b`: the method of `b` is called first when its class is a proper subclass of that of `a`; it always answers. -/
def CollObj.pyEq (a b : CollObj) : Except PyErr Bool :=
  if b.cls ≠ a.cls ∧ b.cls.sub a.cls = true then b.eqMethod a else a.eqMethod b

/-! ### Exports of the collection of inventories -/

/-- The formats of a `CtsTextInventoryCollection`: inventory.py 47, 701; prototypes/metadata.py 48. -/
inductive RootFormat where
  | cts | capitains | dts | etree | jsonLd | rdfXml
  deriving DecidableEq, Repr

/-- What an export gives: the text of a document, a tree, a DTS document, or `None`. -/
inductive RootOut where
  | xml (s : Str)
  | tree (s : Str)
  | dts (j : DtsJson)
  | nothing

/-- An inventory: what its XML export and its DTS export read. -/
structure RootMember where
  xml : XInv
  obj : DtsObj
  groups : List DtsObj

/-- `collection.export(format)`: inventory.py 721-748, 183-185; prototypes/metadata.py 327-443. `ns` are the predicates of the graph, for the header.
The tree of a document is given by its text; parsing is left to lxml. The format of CapiTainS is announced, but no branch makes it. -/
def rootExport (order order' : Order) (cut : Cut) (native : Str → Str → Atom) (g : Graph) (pf : Str) (ns : List (Str × Str))
    (self : DtsObj) (members : List RootMember) : RootFormat → Except PyErr RootOut
  | .cts => (exportInvs pf (some ns) self.id (members.map (·.xml))).map .xml
  | .capitains => .ok .nothing
  | .dts =>
    if members.length > 1 then (exportDts order order' cut native g self (members.map (·.obj)) none).map .dts
    else
      match members with
      | [] => .error .indexError
      | m :: _ => (exportDts order order' cut native g m.obj m.groups none).map .dts
  | .etree => (exportInvs pf (some ns) self.id (members.map (·.xml))).map .tree
  | .jsonLd => .error .attributeError
  | .rdfXml => .error .attributeError

end Verif.Model
