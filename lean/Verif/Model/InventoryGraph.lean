import Verif.Model.CtsMetadata
import Verif.Model.StructuredMetadata
/-!
Parsing of inventories into the one RDF graph of the library (MyCapytain/resources/collections/cts.py 103-340, with the
constructors of resources/prototypes/cts/inventory.py 187-221, 422-453, 544-575, 632-648 and resources/prototypes/metadata.py
49-65, 177-207).

An object is its identifier, its class, its citation scheme and its members; all that it says of itself stands in the graph
under the URI of its identifier. Several objects with the same identifier share what is said. What was written before an error
stays in the graph of rdflib; here an error stands alone.
-/
namespace Verif.Model
open Verif.Py

/-- `RDF_NAMESPACES.CAPITAINS.parent`: metadata.py 192. -/
def capParent : Term := .uri (nsCapitains ++ ['p', 'a', 'r', 'e', 'n', 't'])

/-- A text as an object. -/
structure GText where
  id : Str
  kind : Kind
  cite : List CiteLevel
  deriving DecidableEq, Repr

/-- A work as an object: `children` by identifier. -/
structure GWork where
  id : Str
  texts : List GText
  deriving DecidableEq, Repr

/-- A textgroup as an object. -/
structure GGroup where
  id : Str
  works : List GWork
  deriving DecidableEq, Repr

/-- An inventory as an object. -/
structure GInv where
  id : Str
  groups : List GGroup
  deriving DecidableEq, Repr

/-- `Collection.__init__`: metadata.py 49-65. `type` is `TYPE_URI` without its namespace, `model` the same of `MODEL_URI`
(inventory.py 200-201, 387-388, 402-403, 417-418, 438-439, 559-560, 641-642). -/
def newObject (g : Graph) (id type model : Str) : Graph :=
  (g.setValue ⟨.uri id, pType, ctsTerm type⟩).setValue ⟨.uri id, pModel, .uri (nsDts ++ model)⟩

/-- The assignment of the parent: metadata.py 183-194. The member is added to the children in `parseIntoS`. -/
def newParent (g : Graph) (id : Str) : Option Str → Graph
  | none => g
  | some p => g.insert ⟨.uri id, capParent, .uri p⟩

/-- The children of one name, set as a property when they have a language: collections/cts.py 165-173, 270-273, 312-315. -/
def readProperty (cls : CtsClass) (tag prop id : Str) (g : Graph) (n : Node) : Graph :=
  (namedKids tag n).foldl (fun g c =>
    match c.get ['x', 'm', 'l', ':', 'l', 'a', 'n', 'g'] with
    | some l => setCtsProperty g (.uri id) cls prop (.str (literalText c)) (some l)
    | none => g) g

/-- The links of a text: collections/cts.py 178-179. -/
def readAbout (id : Str) (g : Graph) (n : Node) : Graph :=
  (namedKids ['t', 'i', ':', 'a', 'b', 'o', 'u', 't'] n).foldl (fun g c => setLink g (.uri id) (ctsTerm ['a', 'b', 'o', 'u', 't']) (valueText (c.get ['u', 'r', 'n']))) g

/-- The language of a text: inventory.py 215-221 without `lang`, collections/cts.py 224-228, 239-243. -/
def readTextLang (order : Order) (k : Kind) (parent : Option Str) (id : Str) (g : Graph) (n : Node) : Graph :=
  let g := newTextLang order g (.uri id) (parent.map .uri) none
  if k = .edition then g
  else match n.get ['x', 'm', 'l', ':', 'l', 'a', 'n', 'g'] with
    | some l => setLang g (.uri id) l
    | none => g

/-- `parse` of editions, translations and commentaries: collections/cts.py 155-181, 207-245. -/
def parseTextG (order : Order) (nsmap : List (Str × Str)) (ob : Str → Objectified) (k : Kind) (parent : Option Str) (g : Graph) (n : Node) :
    Except PyErr (GText × Graph) :=
  match parseId n with
  | .error e => .error e
  | .ok id =>
    let g := newObject g id (kindTag k) ['r', 'e', 's', 'o', 'u', 'r', 'c', 'e']
    let g := newParent g id parent
    let g := readTextLang order k parent id g n
    let g := readProperty .text ['t', 'i', ':', 'd', 'e', 's', 'c', 'r', 'i', 'p', 't', 'i', 'o', 'n'] kDescription id g n
    let g := readProperty .text ['t', 'i', ':', 'l', 'a', 'b', 'e', 'l'] kLabel id g n
    let g := readAbout id g n
    match parseStructured nsmap ob id g n with
    | .error e => .error e
    | .ok g => .ok (⟨id, k, ingestOnline n⟩, g)

/-- The texts of a work: collections/cts.py 276-288. -/
def parseTextsG (order : Order) (nsmap : List (Str × Str)) (ob : Str → Objectified) (work : Str) (g : Graph) (n : Node) :
    Except PyErr (List GText × Graph) :=
  match parseIntoS GText.id (parseTextG order nsmap ob .edition (some work)) [] g (namedKids ['t', 'i', ':', 'e', 'd', 'i', 't', 'i', 'o', 'n'] n) with
  | .error e => .error e
  | .ok (l1, g) =>
    match parseIntoS GText.id (parseTextG order nsmap ob .translation (some work)) l1 g (namedKids ['t', 'i', ':', 't', 'r', 'a', 'n', 's', 'l', 'a', 't', 'i', 'o', 'n'] n) with
    | .error e => .error e
    | .ok (l2, g) => parseIntoS GText.id (parseTextG order nsmap ob .commentary (some work)) l2 g (namedKids ['t', 'i', ':', 'c', 'o', 'm', 'm', 'e', 'n', 't', 'a', 'r', 'y'] n)

/-- `XmlCtsWorkMetadata.parse`: collections/cts.py 255-294. -/
def parseWorkG (order : Order) (nsmap : List (Str × Str)) (ob : Str → Objectified) (parent : Option Str) (g : Graph) (n : Node) :
    Except PyErr (GWork × Graph) :=
  match parseId n with
  | .error e => .error e
  | .ok id =>
    let g := newObject g id ['w', 'o', 'r', 'k'] ['c', 'o', 'l', 'l', 'e', 'c', 't', 'i', 'o', 'n']
    let g := newParent g id parent
    let g := match n.get ['x', 'm', 'l', ':', 'l', 'a', 'n', 'g'] with
      | some l => setLang g (.uri id) l
      | none => g
    let g := readProperty .work ['t', 'i', ':', 't', 'i', 't', 'l', 'e'] kTitle id g n
    match parseTextsG order nsmap ob id g n with
    | .error e => .error e
    | .ok (texts, g) =>
      match parseStructured nsmap ob id g n with
      | .error e => .error e
      | .ok g => .ok (⟨id, texts⟩, g)

/-- `XmlCtsTextgroupMetadata.parse`: collections/cts.py 302-321. -/
def parseGroupG (order : Order) (nsmap : List (Str × Str)) (ob : Str → Objectified) (parent : Option Str) (g : Graph) (n : Node) :
    Except PyErr (GGroup × Graph) :=
  match parseId n with
  | .error e => .error e
  | .ok id =>
    let g := newObject g id ['t', 'e', 'x', 't', 'g', 'r', 'o', 'u', 'p'] ['c', 'o', 'l', 'l', 'e', 'c', 't', 'i', 'o', 'n']
    let g := newParent g id parent
    let g := readProperty .textgroup ['t', 'i', ':', 'g', 'r', 'o', 'u', 'p', 'n', 'a', 'm', 'e'] kGroupname id g n
    match parseIntoS GWork.id (parseWorkG order nsmap ob (some id)) [] g (namedKids ['t', 'i', ':', 'w', 'o', 'r', 'k'] n) with
    | .error e => .error e
    | .ok (works, g) =>
      match parseStructured nsmap ob id g n with
      | .error e => .error e
      | .ok g => .ok (⟨id, works⟩, g)

/-- `XmlCtsTextInventoryMetadata.parse`: collections/cts.py 329-339, on the root of the document. -/
def parseInvG (order : Order) (nsmap : List (Str × Str)) (ob : Str → Objectified) (g : Graph) (n : Node) : Except PyErr (GInv × Graph) :=
  match n.allNodes.filter fun c => c.tag = ['t', 'i', ':', 'T', 'e', 'x', 't', 'I', 'n', 'v', 'e', 'n', 't', 'o', 'r', 'y'] with
  | [] => .error .indexError
  | t :: _ =>
    let id := (t.get ['t', 'i', 'i', 'd']).getD []
    let g := newObject g id ['T', 'e', 'x', 't', 'I', 'n', 'v', 'e', 'n', 't', 'o', 'r', 'y'] ['c', 'o', 'l', 'l', 'e', 'c', 't', 'i', 'o', 'n']
    match parseIntoS GGroup.id (parseGroupG order nsmap ob (some id)) [] g (n.allNodes.filter fun c => c.tag = ['t', 'i', ':', 't', 'e', 'x', 't', 'g', 'r', 'o', 'u', 'p']) with
    | .error e => .error e
    | .ok (groups, g) => .ok (⟨id, groups⟩, g)

/-- `type`: metadata.py 81-83. -/
def typeOf (order : Order) (g : Graph) (id : Str) : Except PyErr Term :=
  match g.objects order (.uri id) pType with
  | [] => .error .indexError
  | t :: _ => .ok t

/-- `model`: metadata.py 91-93. -/
def modelOf (order : Order) (g : Graph) (id : Str) : Except PyErr Term :=
  match g.objects order (.uri id) pModel with
  | [] => .error .indexError
  | t :: _ => .ok t

/-! ### What an export sees -/

/-- A literal as the export writes it: its language and its text (inventory.py 151-157, 294-300). Other terms have no language
and make the export fail; here they are read as texts without language. -/
def litOf : Term → Lit
  | .lit s l _ => (l, s)
  | t => (none, t.str)

/-- What the export of a text reads: inventory.py 275-312. -/
def seenText (order : Order) (g : Graph) (t : GText) : XText :=
  { id := t.id, kind := t.kind, lang := getLang order g (.uri t.id),
    labels := (g.objects order (.uri t.id) (ctsTerm kLabel)).map litOf,
    descriptions := (g.objects order (.uri t.id) (ctsTerm kDescription)).map litOf,
    about := (g.objects order (.uri t.id) (ctsTerm ['a', 'b', 'o', 'u', 't'])).map Term.str,
    cite := t.cite }

/-- What the export of a work reads: inventory.py 137-171, 528-541. -/
def seenWork (order : Order) (g : Graph) (w : GWork) : XWork :=
  { id := w.id, lang := getLang order g (.uri w.id), titles := (g.objects order (.uri w.id) (ctsTerm kTitle)).map litOf,
    texts := w.texts.map (seenText order g) }

/-- What the export of a textgroup reads: inventory.py 137-171, 618-629. -/
def seenGroup (order : Order) (g : Graph) (x : GGroup) : XGroup :=
  { id := x.id, names := (g.objects order (.uri x.id) (ctsTerm kGroupname)).map litOf, works := x.works.map (seenWork order g) }

/-- What the export of an inventory reads: inventory.py 673-688. -/
def seenInv (order : Order) (g : Graph) (i : GInv) : XInv := { id := i.id, groups := i.groups.map (seenGroup order g) }

end Verif.Model
