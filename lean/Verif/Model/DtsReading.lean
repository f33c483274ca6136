import Verif.Model.DtsDocument
import Verif.Model.RemoteExport
/-!
Documents of the DTS resolver with the XML they come with, and their exports: MyCapytain/resolvers/dts/api_v1.py 149-174,
resources/texts/remote/dts/_resolver_v1.py, and resources/texts/base/tei.py.

`Verif/Model/DtsDocument.lean` has the links of replies; here is their element. Parsing the XML is left out: a reply that is no
XML is an error of the route.
-/
namespace Verif.Model
open Verif.Py

/-- An endpoint with the elements that the replies of the documents route are parsed to; they mean something only for requests that
the route answers. _resolver_v1.py 81-90, with `response.text`. -/
structure DtsTexts (γ : Type) extends DtsNet γ where
  bodies : List (Str × List Str) → Node

/-- A document and its `resource`: _resolver_v1.py 18-30, tei.py 38-41. -/
structure TextDoc (γ : Type) where
  doc : DtsDoc γ
  element : Node

/-- `getTextualNode` of the resolver: api_v1.py 149-174. -/
def resolveText {γ : Type} (e : DtsTexts γ) (log : List DocReq) (id : Str) (ref : DtsRefArg) : List DocReq × Except PyErr (TextDoc γ) :=
  match resolveDoc e.toDtsNet log id ref with
  | (log', .error x) => (log', .error x)
  | (log', .ok d) => (log', .ok ⟨d, e.bodies (getDocument e.docQuery id ref)⟩)

/-- `getTextualNode` of a document: _resolver_v1.py 61-66. -/
def TextDoc.node {γ : Type} (e : DtsTexts γ) (log : List DocReq) (t : TextDoc γ) (ref : DtsRefArg) : List DocReq × Except PyErr (TextDoc γ) :=
  match resolveText e log t.doc.id ref with
  | (log', .error x) => (log', .error x)
  | (log', .ok o) => (log', .ok { o with doc := { o.doc with coll := t.doc.coll } })

/-- `if id is not None: return self.getTextualNode(id)`: prototypes/text.py 282-294. -/
def TextDoc.sibling {γ : Type} (e : DtsTexts γ) (log : List DocReq) (t : TextDoc γ) : Option DtsRef → List DocReq × Except PyErr (Option (TextDoc γ))
  | none => (log, .ok none)
  | some r =>
    match t.node e log r.arg with
    | (log', .error x) => (log', .error x)
    | (log', .ok o) => (log', .ok (some o))

/-- `next`: prototypes/text.py 289-294. -/
def TextDoc.goNext {γ : Type} (e : DtsTexts γ) (log : List DocReq) (t : TextDoc γ) := t.sibling e log t.doc.next

/-- `prev`: prototypes/text.py 282-287. -/
def TextDoc.goPrev {γ : Type} (e : DtsTexts γ) (log : List DocReq) (t : TextDoc γ) := t.sibling e log t.doc.prev

/-- The loop of `children`, read to its end: prototypes/text.py 296-302. -/
def TextDoc.nodes {γ : Type} (e : DtsTexts γ) (t : TextDoc γ) : List DocReq → List RefItem → List DocReq × Except PyErr (List (TextDoc γ))
  | log, [] => (log, .ok [])
  | log, i :: is =>
    match t.node e log i.arg with
    | (log', .error x) => (log', .error x)
    | (log', .ok o) =>
      match TextDoc.nodes e t log' is with
      | (log'', .error x) => (log'', .error x)
      | (log'', .ok os) => (log'', .ok (o :: os))

/-- `children`, read to its end, with the document as it is afterwards: prototypes/text.py 296-302, 325-333. -/
def TextDoc.children {γ : Type} (e : DtsTexts γ) (log : List DocReq) (t : TextDoc γ) :
    Option (List DocReq × TextDoc γ × Except PyErr (List (TextDoc γ))) :=
  match t.doc.childIds e.toDtsNet log with
  | none => none
  | some (log', d, .error x) => some (log', { t with doc := d }, .error x)
  | some (log', d, .ok ks) => let o := ({ t with doc := d } : TextDoc γ).nodes e log' ks; some (o.1, { t with doc := d }, o.2)

/-- `export(Mimetypes.PLAINTEXT, exclude)`: tei.py 85-97, 119-132; the element is the root of its document. -/
def TextDoc.plain {γ : Type} (exclude : List Str) (t : TextDoc γ) : Str := plainText defaultJoin [] exclude t.element

/-! ### The nested export -/

/-- `repr` of a character inside a string in the given quotes. Escapes of characters that are not printable are left out, but for the
three with a letter. -/
def reprChar (quote c : Char) : Str :=
  if c = '\\' ∨ c = quote then ['\\', c]
  else if c = '\n' then ['\\', 'n']
  else if c = '\r' then ['\\', 'r']
  else if c = '\t' then ['\\', 't']
  else [c]

/-- `repr` of a string: single quotes, unless it has these and no double ones. -/
def reprOf (s : Str) : Str :=
  let quote := if '\'' ∈ s ∧ '"' ∉ s then '"' else '\''
  quote :: s.flatMap (reprChar quote) ++ [quote]

/-- `str` of a list of strings, as `call` makes it of a parameter: retrievers/dts/__init__.py 50-51. -/
def strList (l : List Str) : Str := '[' :: join [',', ' '] (l.map reprOf) ++ [']']

/-- `str` of `None`. -/
def noneText : Str := ['N','o','n','e']

/-- `repr` of a `DtsReference`, which has no `__str__`: common/reference/_dts_1.py 40-44. -/
def DtsRef.shown (r : DtsRef) : Str :=
  ['<','D','t','s','R','e','f','e','r','e','n','c','e',' ','<'] ++
    join ['>','<'] (([r.start] ++ r.stop.toList).filter (· ≠ [])) ++ ['>',' ','['] ++ r.type.getD noneText ++ [']','>']

/-- `str(reff)`: tei.py 111. -/
def RefItem.shown : RefItem → Str
  | .ref r => r.shown
  | .part p => p.getD noneText

/-- `getTextualNode(str(reff).split("."))`: tei.py 111-112. A list is no reference; `call` sends the `str` of it. -/
def RefItem.splitArg (i : RefItem) : DtsRefArg := .other (.obj (strList (split '.' i.shown)))

/-- The loop of the export to a nested dictionary: tei.py 110-116. -/
def TextDoc.nestedLoop {γ : Type} (e : DtsTexts γ) (exclude : List Str) (t : TextDoc γ) :
    NDict Str → List DocReq → List RefItem → List DocReq × Except PyErr (NDict Str)
  | dict, log, [] => (log, .ok dict)
  | dict, log, i :: is =>
    match t.node e log i.splitArg with
    | (log', .error x) => (log', .error x)
    | (log', .ok o) =>
      match nestedSet dict (split '.' i.shown) (.leaf (o.plain exclude)) with
      | .error x => (log', .error x)
      | .ok dict => TextDoc.nestedLoop e exclude t dict log' is

/-- `export(Mimetypes.PYTHON.NestedDict, exclude)`: tei.py 106-117. The level is not used by `getReffs` of documents, _resolver_v1.py
68-69. -/
def TextDoc.exportNested {γ : Type} (e : DtsTexts γ) (log : List DocReq) (exclude : List Str) (t : TextDoc γ) :
    Option (List DocReq × Except PyErr (NDict Str)) :=
  match t.doc.reffs e.toDtsNet log .none none with
  | none => none
  | some (log', .error x) => some (log', .error x)
  | some (log', .ok set) => some (t.nestedLoop e exclude (.dict []) log' set.items)

end Verif.Model
