import Verif.Model.RemotePassage
import Verif.Model.InventoryXml
import Verif.Model.TeiRefsDecl
import Verif.Model.CtsMetadata
/-!
Replies of CTS endpoints as XML documents, and what remote texts and passages take from them besides the passage itself:
labels and citation schemes (MyCapytain/resources/texts/remote/cts.py, resources/prototypes/cts/text.py).

Elements have the prefixed names used in the XPaths. A text or passage is its node in the
shared graph and its citation scheme; the statement `dts:implements` that the constructor adds is left out.
-/
namespace Verif.Model
open Verif.Py

/-! ### Replies -/

/-- `.//name` from an element. -/
def descNamed (tag : Str) (n : Node) : List Node := (allNodesList n.kids).filter fun c => c.tag = tag

mutual
/-- `//a/b`, in document order. -/
def elementsIn (a b : Str) : Node → List Node
  | .mk t _ _ ks _ => elementsInList a b t ks
/-- The same for the children of an element named `t`. -/
def elementsInList (a b t : Str) : List Node → List Node
  | [] => []
  | c :: r => (if t = a ∧ c.tag = b then [c] else []) ++ elementsIn a b c ++ elementsInList a b t r
end

mutual
/-- `//a//b`, in document order; `inside` tells whether the element lies in an `a`. -/
def elementsUnder (a b : Str) (inside : Bool) : Node → List Node
  | .mk t _ _ ks _ => elementsUnderList a b (inside || decide (t = a)) ks
/-- The same for the children of an element. -/
def elementsUnderList (a b : Str) (inside : Bool) : List Node → List Node
  | [] => []
  | c :: r => (if inside = true ∧ c.tag = b then [c] else []) ++ elementsUnder a b inside c ++ elementsUnderList a b inside r
end

/-- `text()` of an element: its text and what follows each child, without empty ones. -/
def textNodes (n : Node) : List Str := (n.text :: n.kids.map Node.tail).filter (· ≠ [])

/-- `ti:prev/ti:urn/text()` of `ti:prevnext`, the first: remote/cts.py 304-312. -/
def sideText (side : Str) (n : Node) : Option Str := (((namedKids side n).flatMap (namedKids ['t', 'i', ':', 'u', 'r', 'n'])).flatMap textNodes).head?

/-- What is read of a reply: remote/cts.py 86-88, 116, 282-286, 301-313, 459. -/
def replyOf (doc : Node) : CtsReply :=
  { hasRequest := doc.allNodes.any fun c => c.tag = ['t', 'i', ':', 'r', 'e', 'q', 'u', 'e', 's', 't'],
    prevNext := (doc.allNodes.filter fun c => c.tag = ['t', 'i', ':', 'p', 'r', 'e', 'v', 'n', 'e', 'x', 't']).head?.map fun p => (sideText ['t', 'i', ':', 'p', 'r', 'e', 'v'] p, sideText ['t', 'i', ':', 'n', 'e', 'x', 't'] p),
    urns := (elementsUnder ['t', 'i', ':', 'r', 'e', 'p', 'l', 'y'] ['t', 'i', ':', 'u', 'r', 'n'] false doc).flatMap textNodes,
    topUrns := (elementsIn ['t', 'i', ':', 'r', 'e', 'p', 'l', 'y'] ['t', 'i', ':', 'u', 'r', 'n'] doc).flatMap textNodes,
    hasText := !(elementsIn ['t', 'i', ':', 'p', 'a', 's', 's', 'a', 'g', 'e'] ['t', 'e', 'i', ':', 'T', 'E', 'I'] doc).isEmpty }

/-- An endpoint that answers with documents. -/
abbrev DocEndpoint := List (Str × Str) → Except PyErr Node

/-- The same endpoint, as far as navigation is concerned. -/
def DocEndpoint.replies (serve : DocEndpoint) : CtsEndpoint := fun r => replyOf <$> serve r

/-! ### Labels and schemes -/

/-- A text or passage: its node in the graph and its citation scheme. -/
structure RemoteObject where
  node : Term
  cite : List CiteLevel
  deriving DecidableEq, Repr

/-- `node.get("xml:lang") or CtsText.DEFAULT_LANG`: remote/cts.py 162, 167, 172, 177, 331. lxml knows the attribute only by
its full name `{http://www.w3.org/XML/1998/namespace}lang`, so this is always the default. -/
def requestLang (_ : Node) : Str := ['e', 'n', 'g']

/-- One element of a label, under both predicates: remote/cts.py 162-164, 167-169, 172-174, 177-179. -/
def addLabel (node p q : Term) (g : Graph) (e : Node) : Graph :=
  metaAdd (metaAdd g node p (.str (literalText e)) (some (requestLang e))) node q (.str (literalText e)) (some (requestLang e))

/-- The loops of `_parse_request`: remote/cts.py 161-179. -/
def requestMeta (g : Graph) (node : Term) (x : Node) : Graph :=
  let g := (descNamed ['t', 'i', ':', 'g', 'r', 'o', 'u', 'p', 'n', 'a', 'm', 'e'] x).foldl (addLabel node (ctsTerm kGroupname) dcCreator) g
  let g := (descNamed ['t', 'i', ':', 't', 'i', 't', 'l', 'e'] x).foldl (addLabel node (ctsTerm kTitle) dcTitle) g
  let g := (descNamed ['t', 'i', ':', 'l', 'a', 'b', 'e', 'l'] x).foldl (addLabel node (ctsTerm kLabel) dcSubject) g
  (descNamed ['t', 'i', ':', 'd', 'e', 's', 'c', 'r', 'i', 'p', 't', 'i', 'o', 'n'] x).foldl (addLabel node (ctsTerm kDescription) dcDescription) g

/-- `XmlCtsCitation.ingest(x, xpath=".//ti:citation[not(ancestor::ti:citation)]")`: collections/cts.py 42-76; `none` for
`None`. The element `x` itself lies in no `ti:citation`, which is not checked. -/
def ingestBelow (x : Node) : Option (List CiteLevel) := (descNamed ['t', 'i', ':', 'c', 'i', 't', 'a', 't', 'i', 'o', 'n'] x).head?.map ingestFrom

/-- `//ti:citation` finds an element. -/
def hasCitation (doc : Node) : Bool := doc.allNodes.any fun c => c.tag = ['t', 'i', ':', 'c', 'i', 't', 'a', 't', 'i', 'o', 'n']

/-- The scheme after a document: it is looked for in the element `x` when none is set and the document has one; assigning
`None` raises `TypeError` (prototypes/text.py 205-209): remote/cts.py 182-186, 463-467. -/
def adoptScheme (doc x : Node) (cite : List CiteLevel) : Except PyErr (List CiteLevel) :=
  if citeIsSet cite = false ∧ hasCitation doc = true then
    match ingestBelow x with
    | none => .error .typeError
    | some c => .ok c
  else .ok cite

/-- `_parse_request(x)`, where `x` is an element of `doc`: remote/cts.py 155-186. The labels stay when the scheme fails. -/
def parseRequest (doc x : Node) (g : Graph) (o : RemoteObject) : Graph × Except PyErr RemoteObject :=
  (requestMeta g o.node x,
    match adoptScheme doc x o.cite with
    | .error e => .error e
    | .ok c => .ok { o with cite := c })

/-- A remote text, with the graph and the requests so far: remote/cts.py 42-51, 333-334. -/
structure RemoteText where
  urn : Urn
  obj : RemoteObject
  graph : Graph
  log : List (List (Str × Str))
  deriving DecidableEq, Repr

/-- `_parse_request` of the first of these elements of a reply; `IndexError` without any: remote/cts.py 86, 116, 198-200. -/
def RemoteText.take (s : RemoteText) (doc : Node) : List Node → RemoteText × Except PyErr Unit
  | [] => (s, .error .indexError)
  | x :: _ =>
    match parseRequest doc x s.graph s.obj with
    | (g, .error e) => ({ s with graph := g }, .error e)
    | (g, .ok o) => ({ s with graph := g, obj := o }, .ok ())

/-- `getLabel`: remote/cts.py 188-202. -/
def RemoteText.getLabel (serve : DocEndpoint) (d : Option Str) (s : RemoteText) : RemoteText × Except PyErr Unit :=
  match s.urn.str with
  | .error e => (s, .error e)
  | .ok (u, _) =>
    let r := ctsLabel d u none
    let s := { s with log := s.log ++ [r] }
    match serve r with
    | .error e => (s, .error e)
    | .ok doc => s.take doc (elementsIn ['t', 'i', ':', 'r', 'e', 'p', 'l', 'y'] ['t', 'i', ':', 'l', 'a', 'b', 'e', 'l'] doc)

/-- `len(citation)`; a new citation is one level without refsDecl. -/
def citeLen (c : List CiteLevel) : Nat := if c = [] then 1 else c.length

/-- `getValidReff(level, reference)`: remote/cts.py 63-88. -/
def RemoteText.getValidReff (serve : DocEndpoint) (d : Option Str) (level : Int) (reference : Option Str) (s : RemoteText) :
    RemoteText × Except PyErr (List Str) :=
  match s.urn.str with
  | .error e => (s, .error e)
  | .ok (u, _) =>
    let r := ctsValidReff d (withPassage u reference) none (some (reffLevel (citeLen s.obj.cite) level))
    let s := { s with log := s.log ++ [r] }
    match serve r with
    | .error e => (s, .error e)
    | .ok doc =>
      match s.take doc (doc.allNodes.filter fun c => c.tag = ['t', 'i', ':', 'r', 'e', 'q', 'u', 'e', 's', 't']) with
      | (s, .error e) => (s, .error e)
      | (s, .ok ()) => (s, .ok ((replyOf doc).urns.map lastPart))

/-- The list over the levels in `reffs`: remote/cts.py 345-347. -/
def RemoteText.levels (serve : DocEndpoint) (d : Option Str) : List Nat → RemoteText → RemoteText × Except PyErr (List Str)
  | [], s => (s, .ok [])
  | i :: r, s =>
    match s.getValidReff serve d i none with
    | (s, .error e) => (s, .error e)
    | (s, .ok l) =>
      match RemoteText.levels serve d r s with
      | (s, .error e) => (s, .error e)
      | (s, .ok l') => (s, .ok (l ++ l'))

/-- `reffs`: remote/cts.py 336-347. -/
def RemoteText.reffs (serve : DocEndpoint) (d : Option Str) (s : RemoteText) : RemoteText × Except PyErr (List Str) :=
  match (if citeIsSet s.obj.cite then (s, .ok ()) else s.getLabel serve d) with
  | (s, .error e) => (s, .error e)
  | (s, .ok ()) => s.levels serve d ((List.range (citeLen s.obj.cite)).map (· + 1))

/-- `get_cts_metadata(key, lang)`: prototypes/cts/text.py 68-75. -/
def nodeCtsMetadata (order : Order) (g : Graph) (node : Term) (key : Str) (lang : Option Str) : Except PyErr (Option Term) :=
  metaGetSingle order g node (ctsTerm key) lang

/-! ### Passages -/

/-- `CtsPassage(urn, resource, retriever)`: remote/cts.py 392-403, 453-467; `fresh` is the new node. -/
def openRemote (urn : Str) (doc : Node) (fresh : Term) (log : List (List (Str × Str))) : Except PyErr (RemotePassage × RemoteObject) :=
  match openPassage urn (replyOf doc) log with
  | .error e => .error e
  | .ok p =>
    match adoptScheme doc doc [] with
    | .error e => .error e
    | .ok c => .ok (p, ⟨fresh, c⟩)

/-- `getTextualNode(subreference)`: remote/cts.py 90-117. The labels of the request go to the text. -/
def RemoteText.getTextualNode (serve : DocEndpoint) (d : Option Str) (sub : Option Str) (fresh : Term) (s : RemoteText) :
    RemoteText × Except PyErr (RemotePassage × RemoteObject) :=
  match nodeUrn s.urn sub with
  | .error e => (s, .error e)
  | .ok urn =>
    let r := ctsPassage d urn none none
    let s := { s with log := s.log ++ [r] }
    match serve r with
    | .error e => (s, .error e)
    | .ok doc =>
      match s.take doc (doc.allNodes.filter fun c => c.tag = ['t', 'i', ':', 'r', 'e', 'q', 'u', 'e', 's', 't']) with
      | (s, .error e) => (s, .error e)
      | (s, .ok ()) => (s, openRemote urn doc fresh s.log)

/-- `getPassagePlus(reference)`: remote/cts.py 134-153. The labels go to the passage, and its scheme to the text. -/
def RemoteText.getPassagePlus (serve : DocEndpoint) (d : Option Str) (sub : Option Str) (fresh : Term) (s : RemoteText) :
    RemoteText × Except PyErr (RemotePassage × RemoteObject) :=
  match s.urn.str with
  | .error e => (s, .error e)
  | .ok (u, _) =>
    let r := ctsPassagePlus d (withPassage u sub) none none
    let s := { s with log := s.log ++ [r] }
    match serve r with
    | .error e => (s, .error e)
    | .ok doc =>
      match openRemote (withPassage u sub) doc fresh s.log with
      | .error e => (s, .error e)
      | .ok (p, o) =>
        match elementsIn ['t', 'i', ':', 'r', 'e', 'p', 'l', 'y'] ['t', 'i', ':', 'l', 'a', 'b', 'e', 'l'] doc with
        | [] => (s, .error .indexError)
        | x :: _ =>
          match parseRequest doc x s.graph o with
          | (g, .error e) => ({ s with graph := g }, .error e)
          | (g, .ok o) => ({ s with graph := g, obj := { s.obj with cite := o.cite } }, .ok (p, o))

end Verif.Model
