import Verif.Model.Generic
import Verif.Model.RefsDecl
import Verif.Model.Xml
import Verif.Model.Urn
import Verif.Model.Inventory
/-!
XML of inventories: the exports to `Mimetypes.XML.CTS` of MyCapytain/resources/prototypes/cts/inventory.py and
of `Citation` (MyCapytain/common/reference/_capitains_cts.py 882-921), and the parsers of
MyCapytain/resources/collections/cts.py.

Every object carries its own metadata here. In the code they stand in one RDF graph under the identifier of
the object, so this is the code's behaviour as long as the identifiers of the objects are distinct and the
graph holds nothing else about them. `metadata.get(predicate)` yields the values in the order of the store: the
lists below stand for that order. The structured metadata (`cpt:structured-metadata`) are not part of this
export. Names of elements in the export are the qualified names that the graph gives: `pf` is the prefix to which
the graph binds the CTS namespace (constants.py 107-133 bind the empty prefix). In the parsers, `ti:name` stands
for the name in the CTS namespace, as in their XPath expressions, whatever the prefix in the document.
-/
namespace Verif.Model
open Verif.Py

/-- One level of a chain of citations: `citation.name` and `citation.refsDecl` (_capitains_cts.py 691-703). -/
structure CiteLevel where
  name : Option Str
  refsDecl : Option Str
  deriving DecidableEq, Repr

/-- A literal of the graph: its language and its text. -/
abbrev Lit := Option Str × Str

/-- A text: inventory.py 187-221. `cite` is the chain of its citations, empty for `None`. -/
structure XText where
  id : Str
  kind : Kind
  lang : Str
  labels : List Lit
  descriptions : List Lit
  about : List Str
  cite : List CiteLevel
  deriving DecidableEq, Repr

/-- A work: inventory.py 422-475. -/
structure XWork where
  id : Str
  lang : Str
  titles : List Lit
  texts : List XText
  deriving DecidableEq, Repr

/-- A textgroup: inventory.py 544-579. -/
structure XGroup where
  id : Str
  names : List Lit
  works : List XWork
  deriving DecidableEq, Repr

/-- An inventory: inventory.py 632-659. -/
structure XInv where
  id : Str
  groups : List XGroup
  deriving DecidableEq, Repr

/-! ### Export -/

/-- `namespace_manager.qname(CTS.term(name))` of rdflib, for the prefix of the CTS namespace: common/utils/xml.py 40. -/
def ctsName (pf name : Str) : Str := if pf = [] then name else pf ++ ':' :: name

/-- `re.sub(Citation.escape, "'", s)`: _capitains_cts.py 689, 897-898. -/
def singleQuotes (s : Str) : Str := s.map fun c => if c = '"' then '\'' else c

/-- `str.format` of an attribute value that may be `None`. -/
def valueText : Option Str → Str
  | some v => v
  | none => ['N', 'o', 'n', 'e']

/-- `citation.export(Mimetypes.XML.CTS)`: _capitains_cts.py 882-902, 918-921, for the chain that begins with this
citation. A citation without refsDecl exports nothing. -/
def exportCitation (pf : Str) : List CiteLevel → Except PyErr Str
  | [] => .ok []
  | l :: r =>
    if truthy l.refsDecl then
      match parseXpathScope (l.refsDecl.getD []), exportCitation pf r with
      | .ok (scope, xpath), .ok child =>
        .ok (makeXmlNode (ctsName pf ['c', 'i', 't', 'a', 't', 'i', 'o', 'n']) false
          (some [(['x', 'p', 'a', 't', 'h'], singleQuotes xpath), (['s', 'c', 'o', 'p', 'e'], singleQuotes scope), (['l', 'a', 'b', 'e', 'l'], l.name.getD [])]) [] true child)
      | .error e, _ => .error e
      | _, .error e => .error e
    else .ok []

/-- The nodes of the literals of one predicate: inventory.py 151-157 and 294-300. -/
def exportLits (tag : Str) (l : List Lit) : List Str :=
  l.map fun x => makeXmlNode tag false (some [(['x', 'm', 'l', ':', 'l', 'a', 'n', 'g'], valueText x.1)]) x.2 true []

/-- `__namespaces_header__`: metadata.py 282-303, for the prefixes and namespaces of the predicates of the graph,
in the order in which they are met. -/
def namespacesHeader (preds : List (Str × Str)) : List (Str × Str) :=
  (preds.foldl (fun d p => putItem d (if p.1 = [] then ['x', 'm', 'l', 'n', 's'] else ['x', 'm', 'l', 'n', 's', ':'] ++ p.1) p.2) []).map fun b =>
    (b.1, if b.2 = ['h', 't', 't', 'p', ':', '/', '/', 'c', 'h', 's', '.', 'h', 'a', 'r', 'v', 'a', 'r', 'd', '.', 'e', 'd', 'u', '/', 'x', 'm', 'l', 'n', 's', '/', 'c', 't', 's', '/'] then b.2.dropLast else b.2)

/-- The attributes of a node: those of the object, updated by the header when the namespaces are asked for
(inventory.py 175-176, 288-289). -/
def withHeader (attrs : List (Str × Str)) : Option (List (Str × Str)) → List (Str × Str)
  | some preds => (namespacesHeader preds).foldl (fun d p => putItem d p.1 p.2) attrs
  | none => attrs

/-- The attribute that names the parent, when there is one with an identifier: inventory.py 286-287, 539-540. -/
def parentAttr (name : Str) (parent : Option Str) : List (Str × Str) :=
  if truthy parent then [(name, parent.getD [])] else []

/-- `TYPE_URI` of the texts: inventory.py 200, 387, 402, 417. -/
def kindTag : Kind → Str
  | .plain => ['t', 'e', 'x', 't']
  | .edition => ['e', 'd', 'i', 't', 'i', 'o', 'n']
  | .translation => ['t', 'r', 'a', 'n', 's', 'l', 'a', 't', 'i', 'o', 'n']
  | .commentary => ['c', 'o', 'm', 'm', 'e', 'n', 't', 'a', 'r', 'y']

/-- The nodes of the citation of a text: inventory.py 313-325. -/
def exportOnline (pf : Str) (cite : List CiteLevel) : Except PyErr (List Str) :=
  if cite = [] then .ok []
  else match exportCitation pf cite with
    | .ok inner => .ok [makeXmlNode (ctsName pf ['o', 'n', 'l', 'i', 'n', 'e']) false none [] true
        (makeXmlNode (ctsName pf ['c', 'i', 't', 'a', 't', 'i', 'o', 'n', 'M', 'a', 'p', 'p', 'i', 'n', 'g']) false none [] true inner)]
    | .error e => .error e

/-- `text.export(Mimetypes.XML.CTS, namespaces=…)`: inventory.py 275-340. `ns` holds the predicates of the graph
when the namespaces are asked for; `parent` is the identifier of the work. -/
def exportText (pf : Str) (ns : Option (List (Str × Str))) (parent : Option Str) (t : XText) : Except PyErr Str :=
  match exportOnline pf t.cite with
  | .error e => .error e
  | .ok online => .ok (join ['\n'] (
      [makeXmlNode (ctsName pf (kindTag t.kind)) false
        (some (withHeader ([(['u', 'r', 'n'], t.id), (['x', 'm', 'l', ':', 'l', 'a', 'n', 'g'], t.lang)] ++ parentAttr ['w', 'o', 'r', 'k', 'U', 'r', 'n'] parent) ns)) [] false []] ++
      exportLits (ctsName pf ['l', 'a', 'b', 'e', 'l']) t.labels ++ exportLits (ctsName pf ['d', 'e', 's', 'c', 'r', 'i', 'p', 't', 'i', 'o', 'n']) t.descriptions ++
      (t.about.map fun u => makeXmlNode (ctsName pf ['a', 'b', 'o', 'u', 't']) false (some [(['u', 'r', 'n'], u)]) [] true []) ++
      online ++
      [makeXmlNode (ctsName pf (kindTag t.kind)) true none [] false []]))

/-- The strings of the members, in order; the first error stops: inventory.py 168-171. -/
def exportMembers {α : Type} (f : α → Except PyErr Str) : List α → Except PyErr (List Str)
  | [] => .ok []
  | x :: r =>
    match f x with
    | .error e => .error e
    | .ok s =>
      match exportMembers f r with
      | .error e => .error e
      | .ok l => .ok (s :: l)

/-- `__xml_export_generic__`: inventory.py 137-180, without structured metadata. -/
def exportGeneric {α : Type} (tag : Str) (attrs : List (Str × Str)) (ns : Option (List (Str × Str))) (props : List Str)
    (f : α → Except PyErr Str) (members : List α) : Except PyErr Str :=
  match exportMembers f members with
  | .error e => .error e
  | .ok l => .ok (join ['\n'] (
      [makeXmlNode tag false (some (withHeader attrs ns)) [] false []] ++ props ++ l ++ [makeXmlNode tag true none [] false []]))

/-- `work.export(Mimetypes.XML.CTS, namespaces=…)`: inventory.py 528-541. -/
def exportWork (pf : Str) (ns : Option (List (Str × Str))) (parent : Option Str) (w : XWork) : Except PyErr Str :=
  exportGeneric (ctsName pf ['w', 'o', 'r', 'k']) ([(['u', 'r', 'n'], w.id), (['x', 'm', 'l', ':', 'l', 'a', 'n', 'g'], w.lang)] ++ parentAttr ['g', 'r', 'o', 'u', 'p', 'U', 'r', 'n'] parent) ns
    (exportLits (ctsName pf ['t', 'i', 't', 'l', 'e']) w.titles) (exportText pf none (some w.id)) w.texts

/-- `textgroup.export(Mimetypes.XML.CTS, namespaces=…)`: inventory.py 618-629. -/
def exportGroup (pf : Str) (ns : Option (List (Str × Str))) (g : XGroup) : Except PyErr Str :=
  exportGeneric (ctsName pf ['t', 'e', 'x', 't', 'g', 'r', 'o', 'u', 'p']) [(['u', 'r', 'n'], g.id)] ns (exportLits (ctsName pf ['g', 'r', 'o', 'u', 'p', 'n', 'a', 'm', 'e']) g.names) (exportWork pf none (some g.id)) g.works

/-- `inventory.export(Mimetypes.XML.CTS)`: inventory.py 673-688. -/
def exportInv (pf : Str) (ns : Option (List (Str × Str))) (i : XInv) : Except PyErr Str :=
  exportGeneric (ctsName pf ['T', 'e', 'x', 't', 'I', 'n', 'v', 'e', 'n', 't', 'o', 'r', 'y']) (if i.id = [] then [] else [(['t', 'i', 'i', 'd'], i.id)]) ns [] (exportGroup pf none) i.groups

/-- `collection.export(Mimetypes.XML.CTS)` of several inventories: inventory.py 721-745. The textgroups of all of
them stand in one inventory. -/
def exportInvs (pf : Str) (ns : Option (List (Str × Str))) (id : Str) (invs : List XInv) : Except PyErr Str :=
  exportGeneric (ctsName pf ['T', 'e', 'x', 't', 'I', 'n', 'v', 'e', 'n', 't', 'o', 'r', 'y']) (if id = [] then [] else [(['t', 'i', 'i', 'd'], id)]) ns [] (exportGroup pf none) (invs.flatMap XInv.groups)

/-! ### Parsing -/

/-- `xml.xpath("ti:name")`: the children of that name. -/
def namedKids (tag : Str) (n : Node) : List Node := n.kids.filter fun c => c.tag = tag

mutual
/-- An element and all below it, in document order (`//*`). -/
def Node.allNodes : Node → List Node
  | .mk t a x ks l => .mk t a x ks l :: allNodesList ks
/-- The same for a list of elements. -/
def allNodesList : List Node → List Node
  | [] => []
  | c :: r => c.allNodes ++ allNodesList r
end

/-- Adding a value to a set of the graph. -/
def addOnce {α : Type} [DecidableEq α] (l : List α) (x : α) : List α := if x ∈ l then l else l ++ [x]

/-- `child.text` as `Literal` stores it: `None` becomes the text `None`. -/
def literalText (n : Node) : Str := if n.text = [] then ['N', 'o', 'n', 'e'] else n.text

/-- One child that may hold a literal: it is read only when it has a language (collections/cts.py 165-173, 270-273,
312-315). -/
def parseLit (l : List Lit) (c : Node) : List Lit :=
  match c.get ['x', 'm', 'l', ':', 'l', 'a', 'n', 'g'] with
  | some lg => addOnce l (some lg, literalText c)
  | none => l

/-- The literals of one name that are read (collections/cts.py 165-173, 270-273, 312-315). -/
def parseLits (tag : Str) (n : Node) : List Lit := (namedKids tag n).foldl parseLit []

/-- `cls(name=…, xpath=…, scope=…)`: collections/cts.py 54-58 and _capitains_cts.py 691-703. -/
def levelOf (attrs : List (Str × Str)) : CiteLevel :=
  { name := attrs.lookup ['l', 'a', 'b', 'e', 'l'],
    refsDecl :=
      if truthy (attrs.lookup ['s', 'c', 'o', 'p', 'e']) ∧ truthy (attrs.lookup ['x', 'p', 'a', 't', 'h']) then
        some (fromScopeXpath ((attrs.lookup ['s', 'c', 'o', 'p', 'e']).getD []) ((attrs.lookup ['x', 'p', 'a', 't', 'h']).getD []))
      else none }

mutual
/-- The chain of citations that begins with an element `ti:citation`: collections/cts.py 42-76. -/
def ingestFrom : Node → List CiteLevel
  | .mk _ a _ ks _ => levelOf a :: ingestFirst ks
/-- The chain of the first `ti:citation` among the children. -/
def ingestFirst : List Node → List CiteLevel
  | [] => []
  | c :: r => if c.tag = ['t', 'i', ':', 'c', 'i', 't', 'a', 't', 'i', 'o', 'n'] then ingestFrom c else ingestFirst r
end

/-- `XmlCtsCitation.ingest(xml, None, "ti:online/ti:citationMapping/ti:citation")`: collections/cts.py 42-76, 175. -/
def ingestOnline (n : Node) : List CiteLevel :=
  ingestFirst (((namedKids ['t', 'i', ':', 'o', 'n', 'l', 'i', 'n', 'e'] n).flatMap (namedKids ['t', 'i', ':', 'c', 'i', 't', 'a', 't', 'i', 'o', 'n', 'M', 'a', 'p', 'p', 'i', 'n', 'g'])).flatMap (namedKids ['t', 'i', ':', 'c', 'i', 't', 'a', 't', 'i', 'o', 'n']))

/-- `cls(urn=xml.get("urn"), …)`: `URN(None)` raises `AttributeError`; the identifier is `str(urn)`. -/
def parseId (n : Node) : Except PyErr Str :=
  match n.get ['u', 'r', 'n'] with
  | none => .error .attributeError
  | some u =>
    match Urn.parse u with
    | .ok _ => .ok u
    | .error e => .error e

/-- `parse` of editions, translations and commentaries: collections/cts.py 155-181, 207-245, with
inventory.py 207-221. `workLang` is the language of the parent, if there is one; an edition does not read
`xml:lang`. -/
def parseText (k : Kind) (workLang : Option Str) (n : Node) : Except PyErr XText :=
  match parseId n with
  | .error e => .error e
  | .ok id => .ok
    { id := id, kind := k,
      lang :=
        if k = .edition then valueText workLang
        else match n.get ['x', 'm', 'l', ':', 'l', 'a', 'n', 'g'] with
          | some l => l
          | none => valueText workLang,
      labels := parseLits ['t', 'i', ':', 'l', 'a', 'b', 'e', 'l'] n,
      descriptions := parseLits ['t', 'i', ':', 'd', 'e', 's', 'c', 'r', 'i', 'p', 't', 'i', 'o', 'n'] n,
      about := (namedKids ['t', 'i', ':', 'a', 'b', 'o', 'u', 't'] n).foldl (fun l c => addOnce l (valueText (c.get ['u', 'r', 'n']))) [],
      cite := ingestOnline n }

/-- `_xpathDict`: every element is parsed with the object as its parent, which keeps the first child of an
identifier (collections/cts.py 79-100, metadata.py 184-207). -/
def parseInto {α : Type} (key : α → Str) (f : Node → Except PyErr α) : List α → List Node → Except PyErr (List α)
  | l, [] => .ok l
  | l, n :: r =>
    match f n with
    | .error e => .error e
    | .ok x => parseInto key f (addKeyed key l x) r

/-- The texts of a work: first the editions, then the translations, then the commentaries (collections/cts.py
276-289). -/
def parseTexts (lang : Str) (n : Node) : Except PyErr (List XText) :=
  match parseInto XText.id (parseText .edition (some lang)) [] (namedKids ['t', 'i', ':', 'e', 'd', 'i', 't', 'i', 'o', 'n'] n) with
  | .error e => .error e
  | .ok l1 =>
    match parseInto XText.id (parseText .translation (some lang)) l1 (namedKids ['t', 'i', ':', 't', 'r', 'a', 'n', 's', 'l', 'a', 't', 'i', 'o', 'n'] n) with
    | .error e => .error e
    | .ok l2 => parseInto XText.id (parseText .commentary (some lang)) l2 (namedKids ['t', 'i', ':', 'c', 'o', 'm', 'm', 'e', 'n', 't', 'a', 'r', 'y'] n)

/-- `XmlCtsWorkMetadata.parse`: collections/cts.py 248-294. Without `xml:lang` the language is the text `None`. -/
def parseWork (n : Node) : Except PyErr XWork :=
  match parseId n with
  | .error e => .error e
  | .ok id =>
    match parseTexts (valueText (n.get ['x', 'm', 'l', ':', 'l', 'a', 'n', 'g'])) n with
    | .error e => .error e
    | .ok texts => .ok { id := id, lang := valueText (n.get ['x', 'm', 'l', ':', 'l', 'a', 'n', 'g']), titles := parseLits ['t', 'i', ':', 't', 'i', 't', 'l', 'e'] n, texts := texts }

/-- `XmlCtsTextgroupMetadata.parse`: collections/cts.py 297-321. -/
def parseGroup (n : Node) : Except PyErr XGroup :=
  match parseId n with
  | .error e => .error e
  | .ok id =>
    match parseInto XWork.id parseWork [] (namedKids ['t', 'i', ':', 'w', 'o', 'r', 'k'] n) with
    | .error e => .error e
    | .ok works => .ok { id := id, names := parseLits ['t', 'i', ':', 'g', 'r', 'o', 'u', 'p', 'n', 'a', 'm', 'e'] n, works := works }

/-- `XmlCtsTextInventoryMetadata.parse`: collections/cts.py 324-340, on the root of the document. -/
def parseInv (n : Node) : Except PyErr XInv :=
  match n.allNodes.filter fun c => c.tag = ['t', 'i', ':', 'T', 'e', 'x', 't', 'I', 'n', 'v', 'e', 'n', 't', 'o', 'r', 'y'] with
  | [] => .error .indexError
  | t :: _ =>
    match parseInto XGroup.id parseGroup [] (n.allNodes.filter fun c => c.tag = ['t', 'i', ':', 't', 'e', 'x', 't', 'g', 'r', 'o', 'u', 'p']) with
    | .error e => .error e
    | .ok groups => .ok { id := (t.get ['t', 'i', 'i', 'd']).getD [], groups := groups }

end Verif.Model
