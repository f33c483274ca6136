import Verif.Model.Xml
/-!
`copyNode` and `passageLoop` (MyCapytain/common/utils/xml.py 156-304) with the elements as objects: elements are changed
in place, appending an element that has a parent takes it away from there, and a failure leaves what was done so far.

`Model/Xml` has the same functions on values; C109 says how the two agree.
-/
namespace Verif.Model
open Verif.Py

/-- An element as an object: its children are objects, and it knows its parent. -/
structure Cell where
  tag : Str
  attrs : List (Str × Str)
  text : Str
  tail : Str
  kids : List Nat
  parent : Option Nat
  deriving DecidableEq, Repr

/-- The objects that exist. -/
structure Elements where
  cell : Nat → Cell
  next : Nat

namespace Elements

/-! ### lxml

Nothing in this part comes from /repo: it is what lxml does. -/

/-- `Element(tag, attrib)`, or any new object. -/
def alloc (h : Elements) (c : Cell) : Elements × Nat := (⟨fun a => if a = h.next then c else h.cell a, h.next + 1⟩, h.next)

/-- An object changes. -/
def put (h : Elements) (a : Nat) (c : Cell) : Elements := ⟨fun b => if b = a then c else h.cell b, h.next⟩

/-- An element is taken away from its parent. -/
def detach (h : Elements) (x : Nat) : Elements :=
  match (h.cell x).parent with
  | none => h
  | some p => h.put p { h.cell p with kids := (h.cell p).kids.filter (· ≠ x) }

/-- `p.append(x)`: the element moves. -/
def append (h : Elements) (p x : Nat) : Elements :=
  let h1 := h.detach x
  let h2 := h1.put p { h1.cell p with kids := (h1.cell p).kids ++ [x] }
  h2.put x { h2.cell x with parent := some p }

/-- An element as a value, down to the depth given first. -/
def view (h : Elements) : Nat → Nat → Node
  | 0, a => .mk (h.cell a).tag (h.cell a).attrs (h.cell a).text [] (h.cell a).tail
  | d + 1, a => .mk (h.cell a).tag (h.cell a).attrs (h.cell a).text ((h.cell a).kids.map (h.view d)) (h.cell a).tail

mutual
/-- New elements for a value. -/
def install : Node → Elements → Elements × Nat
  | .mk t a x ks tl, h => (installAll ks (h.alloc ⟨t, a, x, tl, [], none⟩).2 (h.alloc ⟨t, a, x, tl, [], none⟩).1, (h.alloc ⟨t, a, x, tl, [], none⟩).2)
/-- New elements for values, appended to an element. -/
def installAll : List Node → Nat → Elements → Elements
  | [], _, h => h
  | n :: r, c, h => installAll r c ((install n h).1.append c (install n h).2)
end

/-- `copy(child)`: a copy of the element with all that is inside, and what follows it. `d` bounds the depth of the copy. -/
def copyElement (d : Nat) (h : Elements) (a : Nat) : Elements × Nat := install (h.view d a) h

/-! ### xml.py -/

/-- The loop of `copyNode`: xml.py 180-181. -/
def copyKids (d : Nat) (c : Nat) : List Nat → Elements → Elements
  | [], h => h
  | k :: r, h => copyKids d c r ((h.copyElement d k).1.append c (h.copyElement d k).2)

/-- The new element of `copyNode`: xml.py 164-176. -/
def newElement (h : Elements) (a : Nat) (parent : Option Nat) : Elements × Nat :=
  let e := h.alloc ⟨(h.cell a).tag, (h.cell a).attrs, [], [], [], none⟩
  match parent with
  | none => e
  | some p => (e.1.append p e.2, e.2)

/-- `copyNode(node, children, parent)`: xml.py 156-182. -/
def copyNode (d : Nat) (h : Elements) (a : Nat) (children : Bool) (parent : Option Nat) : Elements × Nat :=
  let e := h.newElement a parent
  if children then
    (copyKids d e.2 (e.1.cell a).kids (if (e.1.cell a).text = [] then e.1 else e.1.put e.2 { e.1.cell e.2 with text := (e.1.cell a).text }), e.2)
  else e

/-- A copy that is complete, or whose content a recursive call makes: xml.py 229-240, 268-276, 294-297, 299-302. -/
def copyOrGo (d : Nat) (a dst : Nat) (queue : List Step) (go : Nat → Elements → Elements × Except PyErr Unit) (h : Elements) :
    Elements × Except PyErr Unit :=
  let e := h.copyNode d a queue.isEmpty (some dst)
  if queue.isEmpty then (e.1, .ok ()) else go e.2 e.1

/-- The loop over siblings with one path: xml.py 225-248. `mid` is what is done for the result. -/
def sideSiblings (d : Nat) (eq : Nat → Bool) (mid : Elements → Elements × Except PyErr Unit) (dst : Nat) (prec foll : Bool) :
    Bool → List (Nat × Nat) → Elements → Elements × Except PyErr Unit
  | _, [], h => (h, .ok ())
  | central, (s, j) :: rest, h =>
    if eq j then
      match mid h with
      | (h1, .error e) => (h1, .error e)
      | (h1, .ok ()) => if prec then (h1, .ok ()) else sideSiblings d eq mid dst prec foll true rest h1
    else if !central && prec then sideSiblings d eq mid dst prec foll central rest (h.copyNode d s true (some dst)).1
    else if central && foll then sideSiblings d eq mid dst prec foll central rest (h.copyNode d s true (some dst)).1
    else sideSiblings d eq mid dst prec foll central rest h

/-- `passageLoop` without second path: xml.py 215-248. `d` bounds the depth of the document, the number after the flags
the recursion. -/
def sideLoop (d : Nat) (same : Same) (prec foll : Bool) : Nat → Nat → Nat → List Step → Elements → Elements × Except PyErr Unit
  | 0, _, _, _, h => (h, .error .indexError)
  | fuel + 1, parent, dst, path, h =>
    match performXpath (h.view d parent) path with
    | .error e => (h, .error e)
    | .ok (_, i, loop) =>
      if prec || foll then
        sideSiblings d (fun j => same (h.view d parent) j i)
          (copyOrGo d ((h.cell parent).kids.getD i 0) dst (if loop then path else path.tail)
            (fun k => sideLoop d same prec foll fuel ((h.cell parent).kids.getD i 0) k (if loop then path else path.tail)))
          dst prec foll false (h.cell parent).kids.zipIdx h
      else (h, .ok ())

/-- The loop over siblings with two paths: xml.py 278-297. `first` is what is done for the first node. -/
def rangeSiblings (d : Nat) (eq1 eq2 : Nat → Bool) (first : Nat → Elements → Elements × Except PyErr Unit) (dst : Nat) :
    Bool → List (Nat × Nat) → Elements → Elements × Except PyErr Unit
  | _, [], h => (h, .ok ())
  | true, (s, j) :: rest, h =>
    if eq2 j then (h, .ok ()) else rangeSiblings d eq1 eq2 first dst true rest (h.copyNode d s true (some dst)).1
  | false, (s, j) :: rest, h =>
    if eq1 j then
      match first s h with
      | (h1, .error e) => (h1, .error e)
      | (h1, .ok ()) => rangeSiblings d eq1 eq2 first dst true rest h1
    else rangeSiblings d eq1 eq2 first dst false rest h

/-- The branch of `passageLoop` where the two results differ: xml.py 278-302. -/
def rangeBranch (d : Nat) (same : Same) (fuel : Nat) (parent dst : Nat) (i1 i2 : Nat) (q1 q2 : List Step) (h : Elements) :
    Elements × Except PyErr Unit :=
  match rangeSiblings d (fun j => same (h.view d parent) j i1) (fun j => same (h.view d parent) j i2)
      (fun s => copyOrGo d s dst q1 (fun k => sideLoop d same false true fuel s k q1)) dst false (h.cell parent).kids.zipIdx h with
  | (h1, .error e) => (h1, .error e)
  | (h1, .ok ()) =>
    copyOrGo d ((h.cell parent).kids.getD i2 0) dst q2 (fun k => sideLoop d same true false fuel ((h.cell parent).kids.getD i2 0) k q2) h1

/-- `passageLoop` with two paths: xml.py 249-302. -/
def pairLoop (d : Nat) (same : Same) : Nat → Nat → Nat → List Step → List Step → Elements → Elements × Except PyErr Unit
  | 0, _, _, _, _, h => (h, .error .indexError)
  | fuel + 1, parent, dst, path1, path2, h =>
    match stepInto (h.view d parent) path1 with
    | .error e => (h, .error e)
    | .ok (c1, i1, q1) =>
      match (if path1 = path2 then .ok (c1, i1, q1) else stepInto (h.view d parent) path2) with
      | .error e => (h, .error e)
      | .ok (_, i2, q2) =>
        if same (h.view d parent) i1 i2 then
          copyOrGo d ((h.cell parent).kids.getD i1 0) dst q1
            (fun k => pairLoop d same fuel ((h.cell parent).kids.getD i1 0) k q1 q2) h
        else rangeBranch d same fuel parent dst i1 i2 q1 q2 h

/-- `passageLoop(xml, copyNode(xml), start, end)`: resources/texts/local/capitains/cts.py 89-96. -/
def passage (d : Nat) (same : Same) (root : Nat) (path1 path2 : List Step) (h : Elements) : Elements × Except PyErr Nat :=
  let e := h.copyNode d root false none
  match pairLoop d same (h.view d root).height root e.2 path1 path2 e.1 with
  | (h1, .error x) => (h1, .error x)
  | (h1, .ok ()) => (h1, .ok e.2)

/-- The element at a position of a document. -/
def elementAt (h : Elements) : Nat → List Nat → Nat
  | a, [] => a
  | a, i :: t => h.elementAt ((h.cell a).kids.getD i 0) t

/-- `getTextualNode(…, simple=True)`: the element itself that the expression finds, if there is one only
(resources/texts/local/capitains/cts.py 118-145). -/
def simplePassage (d : Nat) (root : Nat) (path : List Step) (h : Elements) : Except PyErr Nat :=
  match select (h.view d root) path with
  | [pos] => .ok (h.elementAt root pos)
  | _ => .error .invalidURN

end Elements
end Verif.Model
