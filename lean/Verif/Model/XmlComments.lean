import Verif.Model.Xml
/-!
Documents with comments and processing instructions, and what `passageLoop` does when it meets them:
MyCapytain/common/utils/xml.py 70-79 and 156-304.

lxml gives comments and processing instructions among the children of an element (`iterchildren` without
arguments, xml.py 77). Their `tag` is a function, not a name, and `SubElement` and `Element` do not take it:
they raise `TypeError`. XPath steps that name an element, or test an attribute, do not select them.

A comment or processing instruction is written here as a node with a name that no element has, without
attributes, text or children; its tail is the text that follows it. What the comment says is left out: no
function reads it. `Model/Xml` is the same code for documents in which no such node is met.
-/
namespace Verif.Model
open Verif.Py

/-- The name given here to comments and processing instructions. No element can have it. -/
def commentName : Str := "<!-- -->".toList

/-- Is a child a comment or a processing instruction? -/
def Node.isComment (n : Node) : Bool := n.tag == commentName

/-- `copyNode(node, children=True, parent=...)`: xml.py 156-182. Line 166-171 raises for a comment; the copies
of the children (line 181) are complete, with the comments among them. -/
def copyNodeFull (n : Node) : Except PyErr Node := if n.isComment then .error .typeError else .ok (copyFull n)

/-- `copyNode(node, parent=...)` and what is then appended to the copy: xml.py 156-182 with 233-243, 267-276,
290-293 and 298-302. -/
def copyNodeBare (n : Node) (r : Except PyErr (List Node)) : Except PyErr Node :=
  if n.isComment then .error .typeError else wrap n r

/-- The loop over siblings with one path: xml.py 225-248, comments among the siblings. -/
def sideSiblingsC (eq : Nat → Bool) (mid : Except PyErr Node) (prec foll : Bool) :
    Bool → List (Node × Nat) → Except PyErr (List Node)
  | _, [] => .ok []
  | central, (s, j) :: rest =>
    if eq j then
      match mid with
      | .error e => .error e
      | .ok m => if prec then .ok [m] else (m :: ·) <$> sideSiblingsC eq mid prec foll true rest
    else if (!central && prec) || (central && foll) then
      match copyNodeFull s with
      | .error e => .error e
      | .ok m => (m :: ·) <$> sideSiblingsC eq mid prec foll central rest
    else sideSiblingsC eq mid prec foll central rest

/-- `passageLoop` without second path: xml.py 215-248, comments among the siblings. -/
def sideLoopC (same : Same) (prec foll : Bool) : Nat → Node → List Step → Except PyErr (List Node)
  | 0, _, _ => .error .indexError
  | fuel + 1, parent, path =>
    match stepInto parent path with
    | .error e => .error e
    | .ok (c, i, queue) =>
      if prec || foll then
        sideSiblingsC (fun j => same parent j i)
          (if queue.isEmpty then copyNodeFull c else copyNodeBare c (sideLoopC same prec foll fuel c queue))
          prec foll false parent.kids.zipIdx
      else .ok []

/-- The loop over siblings with two paths: xml.py 278-297, comments among the siblings. -/
def rangeSiblingsC (eq1 eq2 : Nat → Bool) (first : Node → Except PyErr Node) :
    Bool → List (Node × Nat) → Except PyErr (List Node)
  | _, [] => .ok []
  | true, (s, j) :: rest =>
    if eq2 j then .ok []
    else match copyNodeFull s with
      | .error e => .error e
      | .ok m => (m :: ·) <$> rangeSiblingsC eq1 eq2 first true rest
  | false, (s, j) :: rest =>
    if eq1 j then
      match first s with
      | .error e => .error e
      | .ok m => (m :: ·) <$> rangeSiblingsC eq1 eq2 first true rest
    else rangeSiblingsC eq1 eq2 first false rest

/-- The branch of `passageLoop` where the two results differ: xml.py 278-302, comments among the siblings. -/
def rangeBranchC (same : Same) (fuel : Nat) (parent c2 : Node) (i1 i2 : Nat) (q1 q2 : List Step) :
    Except PyErr (List Node) :=
  match rangeSiblingsC (fun j => same parent j i1) (fun j => same parent j i2)
      (fun s => if q1.isEmpty then copyNodeFull s else copyNodeBare s (sideLoopC same false true fuel s q1))
      false parent.kids.zipIdx with
  | .error e => .error e
  | .ok ks =>
    match (if q2.isEmpty then copyNodeFull c2 else copyNodeBare c2 (sideLoopC same true false fuel c2 q2)) with
    | .error e => .error e
    | .ok m => .ok (ks ++ [m])

/-- `passageLoop` with two paths: xml.py 249-302, comments among the siblings. -/
def pairLoopC (same : Same) : Nat → Node → List Step → List Step → Except PyErr (List Node)
  | 0, _, _, _ => .error .indexError
  | fuel + 1, parent, path1, path2 =>
    match stepInto parent path1 with
    | .error e => .error e
    | .ok (c1, i1, q1) =>
      match (if path1 = path2 then .ok (c1, i1, q1) else stepInto parent path2) with
      | .error e => .error e
      | .ok (c2, i2, q2) =>
        if same parent i1 i2 then
          match (if q1.isEmpty then copyNodeFull c1 else copyNodeBare c1 (pairLoopC same fuel c1 q1 q2)) with
          | .error e => .error e
          | .ok m => .ok [m]
        else rangeBranchC same fuel parent c2 i1 i2 q1 q2

/-- `passageLoop(xml, copyNode(xml), start, end)` on a document with comments: cts.py 89-96 of
resources/texts/local/capitains. -/
def passageTreeC (same : Same) (root : Node) (path1 path2 : List Step) : Except PyErr Node :=
  copyNodeBare root (pairLoopC same root.height root path1 path2)

end Verif.Model
