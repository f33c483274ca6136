import Verif.Model.RemoteText
import Verif.Model.Export
/-!
What a remote text or passage asks for, whatever it is asked with, and its exports:
MyCapytain/resources/texts/remote/cts.py 90-132, 368-380, 453-467 and resources/texts/base/tei.py 66-132.

The shared methods of remote texts and passages are those of `RemoteText`: a passage has a URN, a node and a scheme too.
-/
namespace Verif.Model
open Verif.Py

/-- What `getTextualNode` is given: remote/cts.py 101-114. `other` is anything else, such as `None`. -/
inductive NodeArg where
  | urn (u : Urn)
  | ref (r : Ref)
  | text (s : Str)
  | list (l : List Str)
  | other

/-- The URN that `getTextualNode` asks for: remote/cts.py 101-114; `u` is the URN of the text or passage. -/
def nodeUrnOf (u : Urn) : NodeArg → Except PyErr Str
  | .urn v => (·.1) <$> v.str
  | .ref r => (fun t => colon t.1 r.str) <$> u.str
  | .text s => nodeUrn u (some s)
  | .list l => (fun t => colon t.1 (join ['.'] l)) <$> u.str
  | .other => nodeUrn u none

mutual
/-- `//a/b`, in document order, each with the names of the elements around it, the nearest first. -/
def elementsAt (a b : Str) (around : List Str) : Node → List (List Str × Node)
  | .mk t _ _ ks _ => elementsAtList a b t (t :: around) ks
/-- The same for the children of an element named `t`. -/
def elementsAtList (a b t : Str) (around : List Str) : List Node → List (List Str × Node)
  | [] => []
  | c :: r => (if t = a ∧ c.tag = b then [(around, c)] else []) ++ elementsAt a b around c ++ elementsAtList a b t around r
end

/-- A passage with its `resource`, which stays in the reply: remote/cts.py 392-403, 453-467. -/
structure OpenedPassage where
  nav : RemotePassage
  obj : RemoteObject
  around : List Str
  element : Node

/-- `CtsPassage(urn, resource, retriever)`: remote/cts.py 392-403, 453-467. -/
def openWhole (urn : Str) (doc : Node) (fresh : Term) (log : List (List (Str × Str))) : Except PyErr OpenedPassage :=
  match elementsAt ['t', 'i', ':', 'p', 'a', 's', 's', 'a', 'g', 'e'] ['t', 'e', 'i', ':', 'T', 'E', 'I'] [] doc with
  | [] =>
    match Urn.parse urn with
    | .error e => .error e
    | .ok _ => .error .indexError
  | (around, x) :: _ =>
    match openRemote urn doc fresh log with
    | .error e => .error e
    | .ok (p, o) => .ok ⟨p, o, around, x⟩

/-- `getTextualNode(subreference)`: remote/cts.py 90-117. -/
def RemoteText.getNode (serve : DocEndpoint) (d : Option Str) (arg : NodeArg) (fresh : Term) (s : RemoteText) :
    RemoteText × Except PyErr OpenedPassage :=
  match nodeUrnOf s.urn arg with
  | .error e => (s, .error e)
  | .ok urn =>
    let r := ctsPassage d urn none none
    let s := { s with log := s.log ++ [r] }
    match serve r with
    | .error e => (s, .error e)
    | .ok doc =>
      match s.take doc (doc.allNodes.filter fun c => c.tag = ['t', 'i', ':', 'r', 'e', 'q', 'u', 'e', 's', 't']) with
      | (s, .error e) => (s, .error e)
      | (s, .ok ()) => (s, openWhole urn doc fresh s.log)

/-- `getReffs(level, subreference)`: remote/cts.py 119-132. -/
def RemoteText.getReffs (serve : DocEndpoint) (d : Option Str) (level : Int) (sub : Option Str) (s : RemoteText) :
    RemoteText × Except PyErr (List Str) :=
  s.getValidReff serve d (remoteLevel s.urn level) sub

/-- `export(Mimetypes.PLAINTEXT, exclude)` of a passage: tei.py 85-97, 119-132. The elements of the reply around the passage
count for the exclusion. -/
def OpenedPassage.plain (exclude : List Str) (p : OpenedPassage) : Str := plainText defaultJoin p.around exclude p.element

/-- The loop of the export to a nested dictionary: tei.py 106-117. `fresh` gives the node of the passage made after so many requests. -/
def RemoteText.nestedLoop (serve : DocEndpoint) (d : Option Str) (fresh : Nat → Term) (exclude : List Str) :
    NDict Str → List Str → RemoteText → RemoteText × Except PyErr (NDict Str)
  | dict, [], s => (s, .ok dict)
  | dict, reff :: r, s =>
    match s.getNode serve d (.list (split '.' reff)) (fresh s.log.length) with
    | (s, .error e) => (s, .error e)
    | (s, .ok p) =>
      match nestedSet dict (split '.' reff) (.leaf (p.plain exclude)) with
      | .error e => (s, .error e)
      | .ok dict => RemoteText.nestedLoop serve d fresh exclude dict r s

/-- `export(Mimetypes.PYTHON.NestedDict, exclude)` of a passage: tei.py 106-117. -/
def RemoteText.exportNested (serve : DocEndpoint) (d : Option Str) (fresh : Nat → Term) (exclude : List Str) (s : RemoteText) :
    RemoteText × Except PyErr (NDict Str) :=
  match s.getReffs serve d (citeLen s.obj.cite) none with
  | (s, .error e) => (s, .error e)
  | (s, .ok l) => s.nestedLoop serve d fresh exclude (.dict []) l

/-- The exports of TEI resources: tei.py 31-34, without those that write XML. -/
inductive TeiFormat where
  | etree | plain | nested
  deriving DecidableEq, Repr

/-- What an export gives. -/
inductive Exported where
  | tree (n : Node)
  | text (s : Str)
  | nested (d : NDict Str)

/-- The passage as an object with the shared methods. -/
def OpenedPassage.shared (p : OpenedPassage) (g : Graph) : RemoteText := ⟨p.nav.urn, p.obj, g, p.nav.log⟩

/-- `passage.export(output, exclude)`: tei.py 66-132, with the state after it. -/
def OpenedPassage.export (serve : DocEndpoint) (d : Option Str) (fresh : Nat → Term) (output : TeiFormat) (exclude : List Str) (g : Graph)
    (p : OpenedPassage) : RemoteText × Except PyErr Exported :=
  match output with
  | .etree => (p.shared g, .ok (.tree p.element))
  | .plain => (p.shared g, .ok (.text (p.plain exclude)))
  | .nested =>
    match (p.shared g).exportNested serve d fresh exclude with
    | (s, .error e) => (s, .error e)
    | (s, .ok dict) => (s, .ok (.nested dict))

/-- `text.export(output, exclude)`: remote/cts.py 368-380: the text is asked for as a passage and that is exported. -/
def RemoteText.export (serve : DocEndpoint) (d : Option Str) (fresh : Nat → Term) (output : TeiFormat) (exclude : List Str) (s : RemoteText) :
    RemoteText × Except PyErr Exported :=
  match s.getNode serve d .other (fresh s.log.length) with
  | (s, .error e) => (s, .error e)
  | (s, .ok p) =>
    let o := p.export serve d fresh output exclude s.graph
    ({ s with graph := o.1.graph, log := o.1.log }, o.2)

end Verif.Model
