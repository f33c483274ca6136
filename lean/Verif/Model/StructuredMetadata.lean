import Verif.Model.InventoryXml
import Verif.Model.MetadataExport
/-!
Structured metadata of inventories: the exports to `Mimetypes.XML.CapiTainS.CTS` of
MyCapytain/resources/prototypes/cts/inventory.py with `Metadata.__export__` (MyCapytain/common/metadata.py 210-221),
and `_parse_structured_metadata` of MyCapytain/resources/collections/cts.py with the parsers that call it.

The metadata of CTS (titles, labels, descriptions, names, languages, links, citations) stand in the objects, as in
`Verif.Model.InventoryXml`. All other metadata stand in the graph, under the identifier of their object.
-/
namespace Verif.Model
open Verif.Py

/-! ### Export -/

/-- `namespace_manager.compute_qname(uri)` of rdflib: prefix, namespace and local name, or `ValueError`. That it may
bind a new prefix is not modelled. -/
abbrev QNames := Str → Except PyErr (Str × Str × Str)

/-- The namespace that `compute_qname` gives: metadata.py 183. -/
def namespaceOf (qn : QNames) (u : Str) : Except PyErr Str :=
  match qn u with
  | .ok (_, ns, _) => .ok ns
  | .error e => .error e

/-- `namespace_manager.qname(uri)` of rdflib: common/utils/xml.py 40. -/
def metaQname (qn : QNames) (u : Str) : Except PyErr Str :=
  match qn u with
  | .ok (pf, _, name) => .ok (ctsName pf name)
  | .error e => .error e

/-- The graph of the library, as the exports use it: the prefix of the namespace of CTS, the qualified names, the
order in which the graph and the copy of the export are read, and the graph itself. -/
structure Store where
  pf : Str
  qn : QNames
  order : Order
  copyOrder : Order
  graph : Graph

/-- The attributes of a value: metadata.py 212-217. -/
def valueAttrs : Term → List (Str × Str)
  | .lit _ lang dt =>
    (match lang with
      | some l => [(['x', 'm', 'l', ':', 'l', 'a', 'n', 'g'], l)]
      | none => []) ++
    (match dt with
      | some d => [(['r', 'd', 'f', ':', 't', 'y', 'p', 'e'], d)]
      | none => [])
  | _ => []

/-- The node of one predicate and object: metadata.py 211-220. -/
def metaLine (qn : QNames) (t : Triple) : Except PyErr Str :=
  match metaQname qn t.p.str with
  | .error e => .error e
  | .ok name => .ok (makeXmlNode name false (some (valueAttrs t.o)) t.o.str true [])

/-- `metadata.export(Mimetypes.XML.CapiTainS.CTS, exclude=[CTS, DTS, RDF])`: metadata.py 164-191 and 209-221, with the
arguments of inventory.py 161-165 and 329-333. -/
def exportStructured (S : Store) (id : Str) : Except PyErr Str :=
  match selectTriples S.order (namespaceOf S.qn) S.graph (.uri id) none
      (some [.text ['h', 't', 't', 'p', ':', '/', '/', 'c', 'h', 's', '.', 'h', 'a', 'r', 'v', 'a', 'r', 'd', '.', 'e', 'd', 'u', '/', 'x', 'm', 'l', 'n', 's', '/', 'c', 't', 's', '/'], .text ['h', 't', 't', 'p', 's', ':', '/', '/', 'w', '3', 'i', 'd', '.', 'o', 'r', 'g', '/', 'd', 't', 's', '/', 'a', 'p', 'i', '#'],
        .text ['h', 't', 't', 'p', ':', '/', '/', 'w', 'w', 'w', '.', 'w', '3', '.', 'o', 'r', 'g', '/', '1', '9', '9', '9', '/', '0', '2', '/', '2', '2', '-', 'r', 'd', 'f', '-', 's', 'y', 'n', 't', 'a', 'x', '-', 'n', 's', '#']]) with
  | .error e => .error e
  | .ok sel =>
    match exportMembers (metaLine S.qn) (S.copyOrder sel.graph) with
    | .error e => .error e
    | .ok l => .ok (join ['\n'] l)

/-- The three strings of the structured metadata: inventory.py 159-166 and 327-336. -/
def structuredLines (S : Store) (id : Str) : Except PyErr (List Str) :=
  match metaQname S.qn ['h', 't', 't', 'p', ':', '/', '/', 'p', 'u', 'r', 'l', '.', 'o', 'r', 'g', '/', 'c', 'a', 'p', 'i', 't', 'a', 'i', 'n', 's', '/', 'n', 's', '/', '1', '.', '0', '#', 's', 't', 'r', 'u', 'c', 't', 'u', 'r', 'e', 'd', '-', 'm', 'e', 't', 'a', 'd', 'a', 't', 'a'] with
  | .error e => .error e
  | .ok name =>
    match exportStructured S id with
    | .error e => .error e
    | .ok s => .ok [makeXmlNode name false none [] false [], s, makeXmlNode name true none [] false []]

/-- The predicates for the header, with the namespace of CapiTainS (metadata.py 295-296). -/
def withCpt (ns : Option (List (Str × Str))) : Option (List (Str × Str)) :=
  ns.map fun preds => preds ++ [(['c', 'p', 't'], ['h', 't', 't', 'p', ':', '/', '/', 'p', 'u', 'r', 'l', '.', 'o', 'r', 'g', '/', 'c', 'a', 'p', 'i', 't', 'a', 'i', 'n', 's', '/', 'n', 's', '/', '1', '.', '0', '#'])]

/-- `text.export(Mimetypes.XML.CapiTainS.CTS, namespaces=…)`: inventory.py 275-340. -/
def exportTextS (S : Store) (ns : Option (List (Str × Str))) (parent : Option Str) (t : XText) : Except PyErr Str :=
  match exportOnline S.pf t.cite with
  | .error e => .error e
  | .ok online =>
    match structuredLines S t.id with
    | .error e => .error e
    | .ok block => .ok (join ['\n'] (
        [makeXmlNode (ctsName S.pf (kindTag t.kind)) false
          (some (withHeader ([(['u', 'r', 'n'], t.id), (['x', 'm', 'l', ':', 'l', 'a', 'n', 'g'], t.lang)] ++ parentAttr ['w', 'o', 'r', 'k', 'U', 'r', 'n'] parent) (withCpt ns))) [] false []] ++
        exportLits (ctsName S.pf ['l', 'a', 'b', 'e', 'l']) t.labels ++ exportLits (ctsName S.pf ['d', 'e', 's', 'c', 'r', 'i', 'p', 't', 'i', 'o', 'n']) t.descriptions ++
        (t.about.map fun u => makeXmlNode (ctsName S.pf ['a', 'b', 'o', 'u', 't']) false (some [(['u', 'r', 'n'], u)]) [] true []) ++
        online ++ block ++
        [makeXmlNode (ctsName S.pf (kindTag t.kind)) true none [] false []]))

/-- `__xml_export_generic__` with structured metadata, of the object of this identifier: inventory.py 137-180. -/
def exportGenericS {α : Type} (S : Store) (id : Str) (tag : Str) (attrs : List (Str × Str)) (ns : Option (List (Str × Str)))
    (props : List Str) (f : α → Except PyErr Str) (members : List α) : Except PyErr Str :=
  match structuredLines S id with
  | .error e => .error e
  | .ok block =>
    match exportMembers f members with
    | .error e => .error e
    | .ok l => .ok (join ['\n'] (
        [makeXmlNode tag false (some (withHeader attrs (withCpt ns))) [] false []] ++ props ++ block ++ l ++
        [makeXmlNode tag true none [] false []]))

/-- `work.export(Mimetypes.XML.CapiTainS.CTS, namespaces=…)`: inventory.py 528-541. -/
def exportWorkS (S : Store) (ns : Option (List (Str × Str))) (parent : Option Str) (w : XWork) : Except PyErr Str :=
  exportGenericS S w.id (ctsName S.pf ['w', 'o', 'r', 'k']) ([(['u', 'r', 'n'], w.id), (['x', 'm', 'l', ':', 'l', 'a', 'n', 'g'], w.lang)] ++ parentAttr ['g', 'r', 'o', 'u', 'p', 'U', 'r', 'n'] parent) ns
    (exportLits (ctsName S.pf ['t', 'i', 't', 'l', 'e']) w.titles) (exportTextS S none (some w.id)) w.texts

/-- `textgroup.export(Mimetypes.XML.CapiTainS.CTS, namespaces=…)`: inventory.py 618-629. -/
def exportGroupS (S : Store) (ns : Option (List (Str × Str))) (g : XGroup) : Except PyErr Str :=
  exportGenericS S g.id (ctsName S.pf ['t', 'e', 'x', 't', 'g', 'r', 'o', 'u', 'p']) [(['u', 'r', 'n'], g.id)] ns
    (exportLits (ctsName S.pf ['g', 'r', 'o', 'u', 'p', 'n', 'a', 'm', 'e']) g.names) (exportWorkS S none (some g.id)) g.works

/-- `inventory.export(Mimetypes.XML.CapiTainS.CTS)`: inventory.py 673-688. -/
def exportInvS (S : Store) (ns : Option (List (Str × Str))) (i : XInv) : Except PyErr Str :=
  exportGenericS S i.id (ctsName S.pf ['T', 'e', 'x', 't', 'I', 'n', 'v', 'e', 'n', 't', 'o', 'r', 'y']) (if i.id = [] then [] else [(['t', 'i', 'i', 'd'], i.id)]) ns []
    (exportGroupS S none) i.groups

/-! ### Parsing -/

/-- The class that `lxml.objectify` gives to an element without children, after its text. -/
inductive NumKind where
  | int
  | float
  | other
  deriving DecidableEq, Repr

/-- What `lxml.objectify` makes of the text of an element: `str(element)` and the class. For numbers `str` shows the
number, so that `str(int(element))` and `str(float(element))` are the same string. -/
structure Objectified where
  shown : Str
  kind : NumKind
  deriving DecidableEq, Repr

/-- The tests of cts.py 116. -/
def isLink (s : Str) : Bool := startsWith s ['u', 'r', 'n', ':'] || startsWith s ['h', 't', 't', 'p', ':'] || startsWith s ['h', 't', 't', 'p', 's', ':'] || startsWith s ['h', 'd', 'l', ':']

/-- The tag as lxml gives it, where `ti:name` stands for a name in the namespace of CTS. -/
def clarkTag (t : Str) : Str :=
  if startsWith t ['t', 'i', ':'] then ['{', 'h', 't', 't', 'p', ':', '/', '/', 'c', 'h', 's', '.', 'h', 'a', 'r', 'v', 'a', 'r', 'd', '.', 'e', 'd', 'u', '/', 'x', 'm', 'l', 'n', 's', '/', 'c', 't', 's', '}'] ++ t.drop 3 else t

/-- The value and the language that are added for an element: cts.py 115-137. The element has no children; the
normalisation of typed literals by rdflib is not modelled. `nsmap` is the table of prefixes of the element. -/
def structuredValue (nsmap : List (Str × Str)) (ob : Str → Objectified) (m : Node) : Value × Option Str :=
  if isLink (ob m.text).shown then (.term (.uri (ob m.text).shown), none)
  else match m.get ['x', 'm', 'l', ':', 'l', 'a', 'n', 'g'] with
    | some l => (.str (ob m.text).shown, some l)
    | none =>
      match m.get ['{', 'h', 't', 't', 'p', ':', '/', '/', 'w', 'w', 'w', '.', 'w', '3', '.', 'o', 'r', 'g', '/', '1', '9', '9', '9', '/', '0', '2', '/', '2', '2', '-', 'r', 'd', 'f', '-', 's', 'y', 'n', 't', 'a', 'x', '-', 'n', 's', '#', '}', 'd', 'a', 't', 'a', 't', 'y', 'p', 'e'] with
      | some d =>
        (.term (.lit (ob m.text).shown none (some (if ¬ startsWith d ['h', 't', 't', 'p'] ∧ ':' ∈ d then expandNamespace nsmap d else d))), none)
      | none =>
        match (ob m.text).kind with
        | .int => (.term (.lit (ob m.text).shown none (some ['h', 't', 't', 'p', ':', '/', '/', 'w', 'w', 'w', '.', 'w', '3', '.', 'o', 'r', 'g', '/', '2', '0', '0', '1', '/', 'X', 'M', 'L', 'S', 'c', 'h', 'e', 'm', 'a', '#', 'i', 'n', 't', 'e', 'g', 'e', 'r'])), none)
        | .float => (.term (.lit (ob m.text).shown none (some ['h', 't', 't', 'p', ':', '/', '/', 'w', 'w', 'w', '.', 'w', '3', '.', 'o', 'r', 'g', '/', '2', '0', '0', '1', '/', 'X', 'M', 'L', 'S', 'c', 'h', 'e', 'm', 'a', '#', 'f', 'l', 'o', 'a', 't'])), none)
        | .other => (.str (ob m.text).shown, none)

/-- One element of the structured metadata: cts.py 109-137. A tag without namespace is passed over. -/
def structuredStep (nsmap : List (Str × Str)) (ob : Str → Objectified) (node : Term) (g : Graph) (m : Node) : Except PyErr Graph :=
  if '{' ∈ clarkTag m.tag then
    match split '}' (clarkTag m.tag) with
    | [ns, name] => .ok (metaAdd g node (.uri (ns.drop 1 ++ name)) (structuredValue nsmap ob m).1 (structuredValue nsmap ob m).2)
    | _ => .error .valueError
  else .ok g

/-- The loop over `cpt:structured-metadata/*`: cts.py 109. -/
def structuredLoop (nsmap : List (Str × Str)) (ob : Str → Objectified) (node : Term) : Graph → List Node → Except PyErr Graph
  | g, [] => .ok g
  | g, m :: r =>
    match structuredStep nsmap ob node g m with
    | .error e => .error e
    | .ok g => structuredLoop nsmap ob node g r

/-- `_parse_structured_metadata(obj, xml)`: cts.py 103-137. -/
def parseStructured (nsmap : List (Str × Str)) (ob : Str → Objectified) (id : Str) (g : Graph) (n : Node) : Except PyErr Graph :=
  structuredLoop nsmap ob (.uri id) g ((namedKids ['{', 'h', 't', 't', 'p', ':', '/', '/', 'p', 'u', 'r', 'l', '.', 'o', 'r', 'g', '/', 'c', 'a', 'p', 'i', 't', 'a', 'i', 'n', 's', '/', 'n', 's', '/', '1', '.', '0', '#', '}', 's', 't', 'r', 'u', 'c', 't', 'u', 'r', 'e', 'd', '-', 'm', 'e', 't', 'a', 'd', 'a', 't', 'a'] n).flatMap Node.kids)

/-- `parse` of texts with their structured metadata: cts.py 155-181, 207-245. -/
def parseTextS (nsmap : List (Str × Str)) (ob : Str → Objectified) (k : Kind) (workLang : Option Str) (g : Graph) (n : Node) :
    Except PyErr (XText × Graph) :=
  match parseText k workLang n with
  | .error e => .error e
  | .ok t =>
    match parseStructured nsmap ob t.id g n with
    | .error e => .error e
    | .ok g => .ok (t, g)

/-- `_xpathDict` with the graph: cts.py 79-100. -/
def parseIntoS {α : Type} (key : α → Str) (f : Graph → Node → Except PyErr (α × Graph)) : List α → Graph → List Node → Except PyErr (List α × Graph)
  | l, g, [] => .ok (l, g)
  | l, g, n :: r =>
    match f g n with
    | .error e => .error e
    | .ok (x, g) => parseIntoS key f (addKeyed key l x) g r

/-- The texts of a work: cts.py 276-289. -/
def parseTextsS (nsmap : List (Str × Str)) (ob : Str → Objectified) (lang : Str) (g : Graph) (n : Node) : Except PyErr (List XText × Graph) :=
  match parseIntoS XText.id (parseTextS nsmap ob .edition (some lang)) [] g (namedKids ['t', 'i', ':', 'e', 'd', 'i', 't', 'i', 'o', 'n'] n) with
  | .error e => .error e
  | .ok (l1, g) =>
    match parseIntoS XText.id (parseTextS nsmap ob .translation (some lang)) l1 g (namedKids ['t', 'i', ':', 't', 'r', 'a', 'n', 's', 'l', 'a', 't', 'i', 'o', 'n'] n) with
    | .error e => .error e
    | .ok (l2, g) => parseIntoS XText.id (parseTextS nsmap ob .commentary (some lang)) l2 g (namedKids ['t', 'i', ':', 'c', 'o', 'm', 'm', 'e', 'n', 't', 'a', 'r', 'y'] n)

/-- `XmlCtsWorkMetadata.parse`: cts.py 248-294. -/
def parseWorkS (nsmap : List (Str × Str)) (ob : Str → Objectified) (g : Graph) (n : Node) : Except PyErr (XWork × Graph) :=
  match parseId n with
  | .error e => .error e
  | .ok id =>
    match parseTextsS nsmap ob (valueText (n.get ['x', 'm', 'l', ':', 'l', 'a', 'n', 'g'])) g n with
    | .error e => .error e
    | .ok (texts, g) =>
      match parseStructured nsmap ob id g n with
      | .error e => .error e
      | .ok g => .ok ({ id := id, lang := valueText (n.get ['x', 'm', 'l', ':', 'l', 'a', 'n', 'g']), titles := parseLits ['t', 'i', ':', 't', 'i', 't', 'l', 'e'] n, texts := texts }, g)

/-- `XmlCtsTextgroupMetadata.parse`: cts.py 297-321. -/
def parseGroupS (nsmap : List (Str × Str)) (ob : Str → Objectified) (g : Graph) (n : Node) : Except PyErr (XGroup × Graph) :=
  match parseId n with
  | .error e => .error e
  | .ok id =>
    match parseIntoS XWork.id (parseWorkS nsmap ob) [] g (namedKids ['t', 'i', ':', 'w', 'o', 'r', 'k'] n) with
    | .error e => .error e
    | .ok (works, g) =>
      match parseStructured nsmap ob id g n with
      | .error e => .error e
      | .ok g => .ok ({ id := id, names := parseLits ['t', 'i', ':', 'g', 'r', 'o', 'u', 'p', 'n', 'a', 'm', 'e'] n, works := works }, g)

/-- `XmlCtsTextInventoryMetadata.parse`: cts.py 324-340, on the root of the document. The structured metadata of the
inventory are not read. -/
def parseInvS (nsmap : List (Str × Str)) (ob : Str → Objectified) (g : Graph) (n : Node) : Except PyErr (XInv × Graph) :=
  match n.allNodes.filter fun c => c.tag = ['t', 'i', ':', 'T', 'e', 'x', 't', 'I', 'n', 'v', 'e', 'n', 't', 'o', 'r', 'y'] with
  | [] => .error .indexError
  | t :: _ =>
    match parseIntoS XGroup.id (parseGroupS nsmap ob) [] g (n.allNodes.filter fun c => c.tag = ['t', 'i', ':', 't', 'e', 'x', 't', 'g', 'r', 'o', 'u', 'p']) with
    | .error e => .error e
    | .ok (groups, g) => .ok ({ id := (t.get ['t', 'i', 'i', 'd']).getD [], groups := groups }, g)

end Verif.Model
