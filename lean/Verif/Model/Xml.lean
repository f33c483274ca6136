import Verif.Py.Str
/-!
XML trees, the part of XPath that citation schemes use, and MyCapytain/common/utils/xml.py 110-304.

Elements are modelled with name, attributes, text, children and tail. Comments, processing instructions
and namespaces are not modelled; names are the prefixed names used in the XPaths (`tei:div`).
-/
namespace Verif.Model
open Verif.Py

/-- An element as lxml presents it: name, attributes, text before the first child, children, and the
text that follows the element. -/
inductive Node where
  | mk (tag : Str) (attrs : List (Str × Str)) (text : Str) (kids : List Node) (tail : Str)

namespace Node
/-- `node.tag`. -/
def tag : Node → Str | .mk t _ _ _ _ => t
/-- `node.attrib`. -/
def attrs : Node → List (Str × Str) | .mk _ a _ _ _ => a
/-- `node.text`, `""` for `None`. -/
def text : Node → Str | .mk _ _ x _ _ => x
/-- `xmliter(node)`: the children (xml.py 70-79). -/
def kids : Node → List Node | .mk _ _ _ k _ => k
/-- `node.tail`, `""` for `None`. -/
def tail : Node → Str | .mk _ _ _ _ x => x
/-- `node.get(attribute)`. -/
def get (n : Node) (a : Str) : Option Str := n.attrs.lookup a
end Node

mutual
/-- Equality of elements is decidable. -/
def Node.decEq : (a b : Node) → Decidable (a = b)
  | .mk t1 a1 x1 k1 l1, .mk t2 a2 x2 k2 l2 =>
    match Node.decEqAll k1 k2 with
    | .isFalse h => .isFalse (by intro e; injection e; contradiction)
    | .isTrue h =>
      if h2 : t1 = t2 ∧ a1 = a2 ∧ x1 = x2 ∧ l1 = l2 then
        .isTrue (by obtain ⟨rfl, rfl, rfl, rfl⟩ := h2; subst h; rfl)
      else .isFalse (by intro e; injection e; exact h2 ⟨by assumption, by assumption, by assumption, by assumption⟩)
/-- Equality of lists of elements is decidable. -/
def Node.decEqAll : (a b : List Node) → Decidable (a = b)
  | [], [] => .isTrue rfl
  | [], _ :: _ => .isFalse (by simp)
  | _ :: _, [] => .isFalse (by simp)
  | x :: xs, y :: ys =>
    match Node.decEq x y, Node.decEqAll xs ys with
    | .isTrue h, .isTrue h2 => .isTrue (by rw [h, h2])
    | .isFalse h, _ => .isFalse (by intro e; injection e; contradiction)
    | _, .isFalse h => .isFalse (by intro e; injection e; contradiction)
end

instance : DecidableEq Node := Node.decEq

mutual
/-- Height of a tree: bounds the recursion of `passageLoop`, which goes down one level at a time. -/
def Node.height : Node → Nat
  | .mk _ _ _ ks _ => heightAll ks + 1
/-- Largest height in a list. -/
def heightAll : List Node → Nat
  | [] => 0
  | c :: r => max c.height (heightAll r)
end

/-! ### XPath

Nothing in this part comes from /repo: it is the meaning of the XPath expressions that MyCapytain sends to
lxml, restricted to child and descendant steps with tests on attributes. -/

/-- A test on an attribute: `[@a]` or `[@a='v']` (with the quote that is written). -/
inductive ATest where
  | has (a : Str)
  | eq (a : Str) (q : Char) (v : Str)
  deriving DecidableEq, Repr

/-- A step: `name[tests]`, after `/` or `//`. -/
structure Step where
  desc : Bool
  name : Str
  tests : List ATest
  deriving DecidableEq, Repr

/-- Does an element pass a test? -/
def ATest.holds (n : Node) : ATest → Bool
  | .has a => (n.get a).isSome
  | .eq a _ v => n.get a == some v

/-- Does an element match a step (`*` matches every name)? -/
def Step.test (s : Step) (n : Node) : Bool := (s.name == ['*'] || s.name == n.tag) && s.tests.all (·.holds n)

mutual
/-- The positions of all elements inside an element, in document order. A position is the list of child
numbers on the way down. -/
def Node.paths : Node → List (List Nat)
  | .mk _ _ _ ks _ => pathsFrom 0 ks
/-- The positions below a list of children, the first of which has number `i`. -/
def pathsFrom (i : Nat) : List Node → List (List Nat)
  | [] => []
  | c :: r => [i] :: (c.paths.map (i :: ·)) ++ pathsFrom (i + 1) r
end

/-- Is the element at the position selected by the steps, starting from `n`? -/
def matchPath : Node → List Step → List Nat → Bool
  | _, [], [] => true
  | n, s :: q, i :: t =>
    match n.kids[i]? with
    | some c => (s.test c && matchPath c q t) || (s.desc && matchPath c (s :: q) t)
    | none => false
  | _, _, _ => false

/-- The positions selected by `./steps` from `n`, in document order. -/
def select (n : Node) (p : List Step) : List (List Nat) := n.paths.filter (matchPath n p)

/-! ### xml.py -/

/-- The predicate part of `./step[./queue]` for one child: xml.py 110-126. -/
def stepHit (s : Step) (q : List Step) (c : Node) : Bool := s.test c && (q.isEmpty || !(select c q).isEmpty)

/-- First of a list of results, `result[0]`: xml.py 153. -/
def firstResult : List (Node × Nat) → Except PyErr (Node × Nat)
  | [] => .error .indexError
  | r :: _ => .ok r

/-- `__formatXpath__` followed by `performXpath` (xml.py 110-153): the child to go on with, its number, and
whether the steps have to be looked for inside it. For a descendant step, children that match
themselves come first; otherwise the first child that holds a match. -/
def performXpath (parent : Node) : List Step → Except PyErr (Node × Nat × Bool)
  | [] => .error .indexError
  | s :: q =>
    match firstResult (parent.kids.zipIdx.filter fun c => stepHit s q c.1) with
    | .ok (c, i) => .ok (c, i, false)
    | .error e =>
      if s.desc then
        match firstResult (parent.kids.zipIdx.filter fun c => !(select c.1 (s :: q)).isEmpty) with
        | .ok (c, i) => .ok (c, i, true)
        | .error e => .error e
      else .error e

/-- `copyNode(node, children=True)`: xml.py 156-182. Text and children are copied (children with what
follows them); the text after the node is not. -/
def copyFull : Node → Node
  | .mk t a x ks _ => .mk t a x ks []

/-- `copyNode(node, children=False)`, to which `ks` is then appended: xml.py 156-182. -/
def copyBare (ks : List Node) : Node → Node
  | .mk t a _ _ _ => .mk t a [] ks []

/-- The comparison `sibling == result` of two children, by number. lxml compares elements by identity, but
elements of `lxml.objectify` without children by value. -/
abbrev Same := Node → Nat → Nat → Bool

/-- Comparison by identity. -/
def sameIdentity : Same := fun _ i j => i == j

/-- Comparison in `lxml.objectify`: elements without children by their text, others by identity. (Texts that
read as numbers or truth values are compared as such by lxml; this is not modelled.) -/
def sameObjectify : Same := fun p i j =>
  match p.kids[i]?, p.kids[j]? with
  | some a, some b => if a.kids.isEmpty && b.kids.isEmpty then a.text == b.text else i == j
  | _, _ => i == j

/-- The loop over siblings with one path: xml.py 225-248. `mid` is the copy of the result with what the
recursion adds to it; `central` says whether the result was met. -/
def sideSiblings (eq : Nat → Bool) (mid : Except PyErr Node) (prec foll : Bool) :
    Bool → List (Node × Nat) → Except PyErr (List Node)
  | _, [] => .ok []
  | central, (s, j) :: rest =>
    if eq j then
      match mid with
      | .error e => .error e
      | .ok m => if prec then .ok [m] else (m :: ·) <$> sideSiblings eq mid prec foll true rest
    else if !central && prec then (copyFull s :: ·) <$> sideSiblings eq mid prec foll central rest
    else if central && foll then (copyFull s :: ·) <$> sideSiblings eq mid prec foll central rest
    else sideSiblings eq mid prec foll central rest

/-- A copy of `n` with the outcome of a recursive call as content. -/
def wrap (n : Node) : Except PyErr (List Node) → Except PyErr Node
  | .ok ks => .ok (copyBare ks n)
  | .error e => .error e

/-- `passageLoop` without second path (xml.py 215-248): the nodes appended to `new_tree`. The first
argument bounds the recursion. -/
def sideLoop (same : Same) (prec foll : Bool) : Nat → Node → List Step → Except PyErr (List Node)
  | 0, _, _ => .error .indexError
  | fuel + 1, parent, path =>
    match performXpath parent path with
    | .error e => .error e
    | .ok (c, i, loop) =>
      let queue := if loop then path else path.tail
      if prec || foll then
        sideSiblings (fun j => same parent j i)
          (if queue.isEmpty then .ok (copyFull c) else wrap c (sideLoop same prec foll fuel c queue))
          prec foll false parent.kids.zipIdx
      else .ok []

/-- The loop over siblings with two paths: xml.py 278-297. `first` makes the copy of the first node. -/
def rangeSiblings (eq1 eq2 : Nat → Bool) (first : Node → Except PyErr Node) :
    Bool → List (Node × Nat) → Except PyErr (List Node)
  | _, [] => .ok []
  | true, (s, j) :: rest =>
    if eq2 j then .ok [] else (copyFull s :: ·) <$> rangeSiblings eq1 eq2 first true rest
  | false, (s, j) :: rest =>
    if eq1 j then
      match first s with
      | .error e => .error e
      | .ok m => (m :: ·) <$> rangeSiblings eq1 eq2 first true rest
    else rangeSiblings eq1 eq2 first false rest

/-- `performXpath` with the path to go on with: `xpath` itself when it has to be looked for inside, what
follows its first step otherwise (xml.py 217-219, 250-263). -/
def stepInto (parent : Node) (path : List Step) : Except PyErr (Node × Nat × List Step) :=
  match performXpath parent path with
  | .error e => .error e
  | .ok (c, i, loop) => .ok (c, i, if loop then path else path.tail)

/-- The branch of `passageLoop` where the two results differ: xml.py 278-302. `fuel` bounds the recursion
below. -/
def rangeBranch (same : Same) (fuel : Nat) (parent c2 : Node) (i1 i2 : Nat) (q1 q2 : List Step) :
    Except PyErr (List Node) :=
  match rangeSiblings (fun j => same parent j i1) (fun j => same parent j i2)
      (fun s => if q1.isEmpty then .ok (copyFull s) else wrap s (sideLoop same false true fuel s q1))
      false parent.kids.zipIdx with
  | .error e => .error e
  | .ok ks =>
    match (if q2.isEmpty then .ok (copyFull c2) else wrap c2 (sideLoop same true false fuel c2 q2)) with
    | .error e => .error e
    | .ok m => .ok (ks ++ [m])

/-- `passageLoop` with two paths (xml.py 249-302): the nodes appended to `new_tree`. The first argument
after `same` bounds the recursion. -/
def pairLoop (same : Same) : Nat → Node → List Step → List Step → Except PyErr (List Node)
  | 0, _, _, _ => .error .indexError
  | fuel + 1, parent, path1, path2 =>
    match stepInto parent path1 with
    | .error e => .error e
    | .ok (c1, i1, q1) =>
      match (if path1 = path2 then .ok (c1, i1, q1) else stepInto parent path2) with
      | .error e => .error e
      | .ok (c2, i2, q2) =>
        if same parent i1 i2 then
          if q1.isEmpty then .ok [copyFull c1]
          else match pairLoop same fuel c1 q1 q2 with
            | .error e => .error e
            | .ok ks => .ok [copyBare ks c1]
        else rangeBranch same fuel parent c2 i1 i2 q1 q2

/-- `passageLoop(xml, copyNode(xml), start, end)`: the new tree (cts.py 89-96 of
resources/texts/local/capitains). The attribute `py:pytype` with which `lxml.objectify` marks a new document element (xml.py
172-176) is left out. -/
def passageTree (same : Same) (root : Node) (path1 path2 : List Step) : Except PyErr Node :=
  wrap root (pairLoop same root.height root path1 path2)

/-- `normalizeXpath`: xml.py 185-199, on the list of texts between slashes. -/
def normalizeXpath (xs : List Str) : List Str := go none xs
where
  /-- The loop; the first argument is the previous text. -/
  go : Option Str → List Str → List Str
  | _, [] => []
  | prev, x :: r =>
    if prev = some [] then ('/' :: x) :: go (some x) r
    else if x ≠ [] then x :: go (some x) r
    else go (some x) r

end Verif.Model
