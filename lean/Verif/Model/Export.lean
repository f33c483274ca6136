import Verif.Model.Siblings
import Verif.Model.Generic
/-!
Exports of TEI resources: MyCapytain/resources/texts/base/tei.py 68-131, and simple passages:
MyCapytain/resources/texts/local/capitains/cts.py 61-78, 111-142.
-/
namespace Verif.Model
open Verif.Py

/-! ### Plain text -/

/-- A text node, if the string is not empty (lxml has no empty text nodes), with the names of the elements
around it, innermost first. -/
def textNode (around : List Str) (s : Str) : List (List Str × Str) := if s = [] then [] else [(around, s)]

mutual
/-- `.//descendant-or-self::text()` of an element (tei.py 121): its text nodes in document order, each with
the names of the elements around it. `around` are the elements around the element itself. -/
def Node.textNodes (around : List Str) : Node → List (List Str × Str)
  | .mk t _ x ks _ => textNode (t :: around) x ++ textNodesAll (t :: around) ks
/-- The same for a list of children, each followed by its tail. -/
def textNodesAll (around : List Str) : List Node → List (List Str × Str)
  | [] => []
  | c :: r => c.textNodes around ++ textNode around c.tail ++ textNodesAll around r
end

/-- `[not(./ancestor-or-self::a) and not(./ancestor-or-self::b) …]` for one text node: tei.py 91-99. The
excluded entries are names, or `*`. -/
def keepsText (exclude : List Str) (n : List Str × Str) : Bool :=
  exclude.all fun x => !(n.1.any fun t => x == ['*'] || x == t)

/-- `export(Mimetypes.PLAINTEXT, exclude)`: tei.py 88-99, 112-127. `sep` is `plaintext_string_join`. -/
def plainText (sep : Str) (around : List Str) (exclude : List Str) (n : Node) : Str :=
  normalize (join sep (((n.textNodes around).filter (keepsText exclude)).map (·.2)))

/-- The default of `plaintext_string_join`, with which every passage is made: tei.py 36, 41. -/
def defaultJoin : Str := [' ']

/-! ### Simple passages -/

/-- The names of the elements around the element at a position, innermost first. -/
def namesAround : List Str → Node → List Nat → List Str
  | acc, _, [] => acc
  | acc, n, i :: t =>
    match n.kids[i]? with
    | none => acc
    | some c => namesAround (n.tag :: acc) c t

/-- `self.resource.xpath(path)` for an absolute path, as positions in the document. -/
def xpathPositions (root : Node) (s : Str) : Except PyErr (List (List Nat)) :=
  match parseSteps s.length s with
  | none => .error .xpathEval
  | some [] => .error .xpathEval
  | some p => .ok (select (docNode root) p)

/-- The element found for a simple passage, with the names around it: cts.py 133-134. -/
def onlyElement (root : Node) : List (List Nat) → Except PyErr (List Str × Node)
  | [0 :: t] =>
    match at? root t with
    | some n => .ok (namesAround [] root t, n)
    | none => .error .invalidURN
  | _ => .error .invalidURN

/-- `text.getTextualNode(reference, simple=True)`: cts.py 61-78, 111-142. The passage holds the element itself,
which still stands in its document. -/
def simplePassage (t : LocalText) (r : Ref) : Except PyErr (List Str × Node) :=
  if pdepth r.start > t.decls.length then .error .citationDepth
  else match citationAt t.decls ((r.depth : Int) - 1) with
    | .error e => .error e
    | .ok d =>
      match fill d (.ref (plist r.start)) with
      | .error e => .error e
      | .ok f =>
        match xpathPositions t.root f with
        | .error e => .error e
        | .ok l => onlyElement t.root l

/-! ### Nested dictionaries -/

/-- One entry of `text.export(Mimetypes.PYTHON.NestedDict)`: tei.py 112-118 and cts.py 64-68. -/
def nestedEntry (t : LocalText) (exclude : List Str) (d : NDict Str) (reff : Option Ref) : Except PyErr (NDict Str) :=
  match mkRef (join ['.'] (split '.' (refText reff))) with
  | .error e => .error e
  | .ok none => .error .attributeError
  | .ok (some r) =>
    match getTextualNode t r with
    | .error e => .error e
    | .ok tree => nestedSet d (split '.' (refText reff)) (.leaf (plainText defaultJoin [] exclude tree))

/-- The loop over the references: tei.py 112-118. -/
def nestedLoop (t : LocalText) (exclude : List Str) : NDict Str → List (Option Ref) → Except PyErr (NDict Str)
  | d, [] => .ok d
  | d, reff :: r =>
    match nestedEntry t exclude d reff with
    | .error e => .error e
    | .ok d => nestedLoop t exclude d r

/-- `text.export(Mimetypes.PYTHON.NestedDict, exclude)`: tei.py 109-119. -/
def exportNested (t : LocalText) (exclude : List Str) : Except PyErr (NDict Str) :=
  match getValidReff t (some t.decls.length) none with
  | .error e => .error e
  | .ok l => nestedLoop t exclude (.dict []) l

/-- `passage.export(Mimetypes.PYTHON.NestedDict)`: tei.py 109-119 with the passage's own `getTextualNode`
(cts.py 690-695), which hands the list of components to `CtsReference`; that class assigns no result for a
list (_capitains_cts.py 135-172). The passage's citation is that of its level (cts.py 82, 107). -/
def Passage.exportNested (t : LocalText) (p : Passage) : Except PyErr (NDict Str) :=
  match p.getReffs t ((t.decls.length : Int) - ((plist p.ref.start).length - 1)) with
  | .error e => .error e
  | .ok [] => .ok (.dict [])
  | .ok (_ :: _) => .error .unboundLocal

end Verif.Model
