import Verif.Model.DtsJson
import Verif.Model.Inventory
/-!
Properties, labels, links and languages of CTS collections (MyCapytain/resources/prototypes/cts/inventory.py 66-135, 207-221,
255-273, 460-519; resources/prototypes/metadata.py 125-151) and the metadata of passages
(resources/prototypes/text.py 89-156; resources/prototypes/cts/text.py 94-123).

A collection is its node in the shared graph, which is the URI of its identifier. Literals given by the caller have no
datatype. The values of a property are read before anything is added, as the in-memory store of rdflib does when subject
and predicate are given.
-/
namespace Verif.Model
open Verif.Py

/-- `RDF_NAMESPACES.CTS`: common/constants.py 39. -/
def nsCts : Str := ['h', 't', 't', 'p', ':', '/', '/', 'c', 'h', 's', '.', 'h', 'a', 'r', 'v', 'a', 'r', 'd', '.', 'e', 'd', 'u', '/', 'x', 'm', 'l', 'n', 's', '/', 'c', 't', 's', '/']
/-- `DC` of rdflib. -/
def nsDc : Str := ['h', 't', 't', 'p', ':', '/', '/', 'p', 'u', 'r', 'l', '.', 'o', 'r', 'g', '/', 'd', 'c', '/', 'e', 'l', 'e', 'm', 'e', 'n', 't', 's', '/', '1', '.', '1', '/']

/-- `RDF_NAMESPACES.CTS.term(prop)`. -/
def ctsTerm (prop : Str) : Term := .uri (nsCts ++ prop)

/-- `groupname`: inventory.py 558. -/
def kGroupname : Str := ['g', 'r', 'o', 'u', 'p', 'n', 'a', 'm', 'e']
/-- `title`: inventory.py 437. -/
def kTitle : Str := ['t', 'i', 't', 'l', 'e']
/-- `label`: inventory.py 199. -/
def kLabel : Str := ['l', 'a', 'b', 'e', 'l']
/-- `description`: inventory.py 203. -/
def kDescription : Str := ['d', 'e', 's', 'c', 'r', 'i', 'p', 't', 'i', 'o', 'n']

/-- `DC.creator`: text.py 96. -/
def dcCreator : Term := .uri (nsDc ++ ['c', 'r', 'e', 'a', 't', 'o', 'r'])
/-- `DC.title`: text.py 113. -/
def dcTitle : Term := .uri (nsDc ++ ['t', 'i', 't', 'l', 'e'])
/-- `DCT.title`: text.py 114. -/
def dctTitle : Term := .uri (nsDcterms ++ ['t', 'i', 't', 'l', 'e'])
/-- `DC.description`: text.py 131. -/
def dcDescription : Term := .uri (nsDc ++ ['d', 'e', 's', 'c', 'r', 'i', 'p', 't', 'i', 'o', 'n'])
/-- `DC.subject`: text.py 148. -/
def dcSubject : Term := .uri (nsDc ++ ['s', 'u', 'b', 'j', 'e', 'c', 't'])
/-- `DC.language`: inventory.py 466. -/
def dcLanguage : Term := .uri (nsDc ++ ['l', 'a', 'n', 'g', 'u', 'a', 'g', 'e'])

/-- The classes of CTS collections: inventory.py 187, 422, 544, 632, 691; `plain` is the class they all inherit from. -/
inductive CtsClass where
  | plain | text | work | textgroup | inventory | inventories
  deriving DecidableEq, Repr

/-- `DC_TITLE_KEY` without its namespace: inventory.py 43, 199, 437, 558, 640, 699. -/
def CtsClass.titleKey : CtsClass → Option Str
  | .plain => none
  | .text => some kLabel
  | .work => some kTitle
  | .textgroup => some kGroupname
  | .inventory => some ['n', 'a', 'm', 'e']
  | .inventories => some ['n', 'a', 'm', 'e']

/-- A value given by the caller: a string, or a literal with or without language. -/
inductive CtsValue where
  | str (s : Str)
  | lit (s : Str) (lang : Option Str)
  deriving DecidableEq, Repr

/-- A literal as it is, a string as a literal in the language: inventory.py 97-98. -/
def CtsValue.literal : CtsValue → Option Str → CtsValue
  | .str s, lang => .lit s lang
  | .lit s l, _ => .lit s l

/-- The term of a value. -/
def CtsValue.term : CtsValue → Term
  | .str s => .lit s none none
  | .lit s l => .lit s l none

/-- `Literal(label, lang=lang)`: of a literal, in the language given, or else in its own. -/
def CtsValue.label : CtsValue → Option Str → Term
  | .str s, lang => .lit s lang none
  | .lit s l, lang => .lit s (match lang with | some l' => some l' | none => l) none

/-- `set_label`: prototypes/metadata.py 142-151. -/
def setLabel (g : Graph) (node : Term) (label : CtsValue) (lang : Option Str) : Graph :=
  (metaAdd g node pPrefLabel (.term (label.label lang)) none).insert ⟨node, pLabel, label.label lang⟩

/-- `set_cts_property`: inventory.py 86-104. -/
def setCtsProperty (g : Graph) (node : Term) (cls : CtsClass) (prop : Str) (value : CtsValue) (lang : Option Str) : Graph :=
  let value := value.literal lang
  let g := if cls.titleKey = some prop then setLabel g node value lang else g
  metaAdd g node (ctsTerm prop) (.term value.term) none

/-- The dictionary of values by language, in which a later value takes the place of an earlier one: inventory.py 77-79. -/
def langDict : List (Option Str × Term) → List Term → Except PyErr (List (Option Str × Term))
  | d, [] => .ok d
  | d, o :: r =>
    match o.language with
    | .error e => .error e
    | .ok l => langDict (putEntry d l o) r

/-- `get_cts_property` without a language: inventory.py 66-79, 84. -/
def getCtsProperties (order : Order) (g : Graph) (node : Term) (prop : Str) : Except PyErr (List (Option Str × Term)) :=
  langDict [] (g.objects order node (ctsTerm prop))

/-- `get_cts_property` with a language: inventory.py 80-83. -/
def getCtsProperty (order : Order) (g : Graph) (node : Term) (prop lang : Str) : Except PyErr Term :=
  match getCtsProperties order g node prop with
  | .error e => .error e
  | .ok x =>
    match getEntry x (some lang) with
    | some v => .ok v
    | none =>
      match x with
      | [] => .error .stopIteration
      | (_, v) :: _ => .ok v

/-- `get_label`: prototypes/metadata.py 125-140. -/
def getLabel (order : Order) (g : Graph) (node : Term) : Option Str → Except PyErr (Option Term)
  | none => .ok (g.objects order node pLabel).head?
  | some lang => singleLoop lang none (g.objects order node pLabel)

/-- `set_link`: inventory.py 118-135; the value is a string or a URI. -/
def setLink (g : Graph) (node prop : Term) (value : Str) : Graph := metaAdd g node prop (.term (.uri value)) none

/-- `get_link`: inventory.py 106-116. -/
def getLink (order : Order) (g : Graph) (node prop : Term) : List Term := g.objects order node prop

/-- `lang` of a work or text: inventory.py 460-466, prototypes/metadata.py 444-450. -/
def getLang (order : Order) (g : Graph) (node : Term) : Str :=
  match (g.objects order node dcLanguage).head? with
  | none => ['N', 'o', 'n', 'e']
  | some t => t.str

/-- Setting `lang`: inventory.py 468-475, prototypes/metadata.py 452-459. -/
def setLang (g : Graph) (node : Term) (lang : Str) : Graph := g.setValue ⟨node, dcLanguage, .lit lang none none⟩

/-- The language of a new text: inventory.py 215-221. -/
def newTextLang (order : Order) (g : Graph) (node : Term) (parent : Option Term) (lang : Option Str) : Graph :=
  match lang with
  | some l => setLang g node l
  | none =>
    match parent with
    | none => g
    | some p => setLang g node (getLang order g p)

/-- `get_translation_in` of a work: inventory.py 500-519; its texts in the order of the dictionary, each with its class. -/
def translationsIn (order : Order) (g : Graph) (texts : List (Kind × Term)) : Option Str → List (Kind × Term)
  | some key => texts.filter fun t => t.1 = .translation ∧ getLang order g t.2 = key
  | none => texts.filter fun t => t.1 = .translation

/-- `editions` of a text, from the texts of its work: inventory.py 263-273. -/
def editionsOf (texts : List (Kind × Term)) : List (Kind × Term) := texts.filter fun t => t.1 = .edition

/-- Calls that write on collections. -/
inductive CtsOp where
  | property (cls : CtsClass) (node : Term) (prop : Str) (value : CtsValue) (lang : Option Str)
  | label (node : Term) (label : CtsValue) (lang : Option Str)
  | link (node prop : Term) (value : Str)
  deriving DecidableEq, Repr

/-- One call. -/
def CtsOp.run (g : Graph) : CtsOp → Graph
  | .property cls n p v l => setCtsProperty g n cls p v l
  | .label n v l => setLabel g n v l
  | .link n p v => setLink g n p v

/-- Calls one after the other, on any collections. -/
def runCts (g : Graph) (ops : List CtsOp) : Graph := ops.foldl CtsOp.run g

/-! ### Passages and texts -/

/-- `get_creator`: text.py 89-96. -/
def nodeCreator (order : Order) (g : Graph) (node : Term) (lang : Option Str) : Except PyErr (Option Term) := metaGetSingle order g node dcCreator lang

/-- Truth of a term: an empty one is false. -/
def Term.truthy (t : Term) : Bool := !t.str.isEmpty

/-- `get_title`: text.py 106-114. -/
def nodeTitle (order : Order) (g : Graph) (node : Term) (lang : Option Str) : Except PyErr (Option Term) :=
  match metaGetSingle order g node dcTitle lang with
  | .error e => .error e
  | .ok (some t) => if t.truthy then .ok (some t) else metaGetSingle order g node dctTitle lang
  | .ok none => metaGetSingle order g node dctTitle lang

/-- `get_description`: text.py 124-131. -/
def nodeDescription (order : Order) (g : Graph) (node : Term) (lang : Option Str) : Except PyErr (Option Term) := metaGetSingle order g node dcDescription lang

/-- `get_subject`: text.py 141-148. -/
def nodeSubject (order : Order) (g : Graph) (node : Term) (lang : Option Str) : Except PyErr (Option Term) := metaGetSingle order g node dcSubject lang

/-- One of the loops of `set_metadata_from_collection`: cts/text.py 102-105, 107-110, 112-115, 117-120. What was added before
an error stays in the graph of rdflib; here an error stands alone. -/
def copyValues (node p q : Term) : Graph → List Term → Except PyErr Graph
  | g, [] => .ok g
  | g, t :: r =>
    match t.language with
    | .error e => .error e
    | .ok l => copyValues node p q (metaAdd (metaAdd g node p (.str t.str) l) node q (.str t.str) l) r

/-- The loops of `set_metadata_from_collection`: cts/text.py 94-120. `chain` is the text followed by its parents. -/
def setFromCollections (order : Order) (g : Graph) (node : Term) (chain : List Term) : Except PyErr Graph :=
  match chain with
  | edition :: work :: textgroup :: _ =>
    match copyValues node (ctsTerm kGroupname) dcCreator g (g.objects order textgroup (ctsTerm kGroupname)) with
    | .error e => .error e
    | .ok g1 =>
      match copyValues node (ctsTerm kTitle) dcTitle g1 (g1.objects order work (ctsTerm kTitle)) with
      | .error e => .error e
      | .ok g2 =>
        match copyValues node (ctsTerm kLabel) dcSubject g2 (g2.objects order edition (ctsTerm kLabel)) with
        | .error e => .error e
        | .ok g3 => copyValues node (ctsTerm kDescription) dcDescription g3 (g3.objects order edition (ctsTerm kDescription))
  | _ => .error .valueError

/-- The citation scheme afterwards: cts/text.py 122-123. `isSet` is `is_set`; the text may have no citation. -/
def citationFrom {κ : Type} (isSet : κ → Bool) (own : κ) (edition : Option κ) : Except PyErr κ :=
  if isSet own then .ok own
  else
    match edition with
    | none => .error .attributeError
    | some c => .ok (if isSet c then c else own)

end Verif.Model
