import Verif.Model.Metadata
/-!
Collections as objects in a heap: MyCapytain/resources/prototypes/metadata.py, class `Collection`, and the overrides
of the text classes in prototypes/cts/inventory.py.

Objects are numbers. A collection keeps its identifier (the string of its node), its parent and its dictionary of
children. The graph is the shared one of `Model/Metadata`.
-/
namespace Verif.Model
open Verif.Py

/-- A collection: metadata.py 50-63. `leaf` is true for the text classes, which override `members` and `descendants`
with the empty list (inventory.py 235-253); `readable` is the property of that name (metadata.py 251-255,
inventory.py 231-233). -/
structure Coll where
  id : Str
  leaf : Bool
  readable : Bool
  parent : Option Nat
  children : List (Str × Nat)
  deriving DecidableEq, Repr

/-- The objects. -/
abbrev Heap := Nat → Coll

/-- Change one object. -/
def Heap.set (h : Heap) (a : Nat) (c : Coll) : Heap := fun x => if x = a then c else h x

/-- The objects and the shared graph. -/
structure World where
  heap : Heap
  graph : Graph

/-- `collection.asNode()`: metadata.py 114-119. -/
def Coll.node (c : Coll) : Term := .uri c.id

/-- `RDF_NAMESPACES.CAPITAINS.parent`: common/constants.py 42. -/
def parentPredicate : Term :=
  .uri ['h', 't', 't', 'p', ':', '/', '/', 'p', 'u', 'r', 'l', '.', 'o', 'r', 'g', '/', 'c', 'a', 'p', 'i', 't', 'a', 'i', 'n',
    's', '/', 'n',
    's', '/', '1', '.', '0', '#', 'p', 'a', 'r', 'e', 'n', 't']

/-- `members`: metadata.py 257-263. -/
def members (h : Heap) (a : Nat) : List Nat :=
  if (h a).leaf then [] else (h a).children.map (·.2)

/-- `_add_member`: metadata.py 196-207. -/
def addMember (h : Heap) (p c : Nat) : Heap :=
  if (h c).id ∈ (h p).children.map (·.1) then h
  else h.set p { h p with children := (h p).children ++ [((h c).id, c)] }

/-- The setter of `parent`: metadata.py 182-194. -/
def setParent (w : World) (c p : Nat) : World :=
  { heap := addMember (w.heap.set c { w.heap c with parent := some p }) p c
    graph := w.graph.insert ⟨(w.heap c).node, parentPredicate, (w.heap p).node⟩ }

/-- The comprehension of `descendants` (metadata.py 271-272); `visit` gives the descendants of a member. -/
def descLoop (visit : Nat → Except PyErr (List Nat)) : List Nat → Except PyErr (List Nat)
  | [] => .ok []
  | m :: rest =>
    match visit m with
    | .error e => .error e
    | .ok l =>
      match descLoop visit rest with
      | .error e => .error e
      | .ok r => .ok (l ++ r)

/-- `descendants`: metadata.py 265-272; `limit` is the depth of calls that Python allows. -/
def descendants (h : Heap) : Nat → Nat → Except PyErr (List Nat)
  | 0, _ => .error .recursion
  | limit + 1, a =>
    if (h a).leaf then .ok []
    else
      match descLoop (descendants h limit) (members h a) with
      | .error e => .error e
      | .ok r => .ok (members h a ++ r)

/-- `readableDescendants`: metadata.py 274-280. -/
def readableDescendants (h : Heap) (limit a : Nat) : Except PyErr (List Nat) :=
  match descendants h limit a with
  | .error e => .error e
  | .ok l => .ok (l.filter fun b => (h b).readable)

/-- `size`: metadata.py 97-99. -/
def collSize (h : Heap) (a : Nat) : Nat := (members h a).length

/-- `collection[key]`: metadata.py 209-223. -/
def getItem (h : Heap) (limit a : Nat) (key : Str) : Except PyErr Nat :=
  if key = (h a).id then .ok a
  else
    match (members h a).find? fun b => key == (h b).id with
    | some b => .ok b
    | none =>
      match descendants h limit a with
      | .error e => .error e
      | .ok l =>
        match l.find? fun b => (h b).id == key with
        | some b => .ok b
        | none => .error .unknownCollection

/-- `key in collection`: metadata.py 240-249. -/
def containsItem (h : Heap) (limit a : Nat) (key : Str) : Except PyErr Bool :=
  match descendants h limit a with
  | .error e => .error e
  | .ok l => .ok ((l ++ [a]).any fun b => (h b).id == key)

/-- `parents`: metadata.py 161-172; `limit` bounds the length of the chain, a longer one counts as a loop that does
not end. -/
def parents (h : Heap) : Nat → Nat → Except PyErr (List Nat)
  | 0, _ => .error .recursion
  | limit + 1, a =>
    match (h a).parent with
    | none => .ok []
    | some p =>
      match parents h limit p with
      | .error e => .error e
      | .ok l => .ok (p :: l)

/-- `del parent.children[key]`: `KeyError` when it is not there. -/
def delChild (h : Heap) (p : Nat) (key : Str) : Except PyErr Heap :=
  if key ∈ (h p).children.map (·.1) then
    .ok (h.set p { h p with children := (h p).children.filter fun e => e.1 ≠ key })
  else .error .keyError

/-- The triples that `del collection[key]` removes: metadata.py 232-235. -/
def delGraph (g : Graph) (item self : Term) : Graph :=
  (((g.removeAll (some item) none none).removeAll none none (some item)).removeAll (some self) none none).removeAll none none (some self)

/-- `del collection[key]`: metadata.py 225-238. -/
def delItem (w : World) (limit a : Nat) (key : Str) : Except PyErr World :=
  match getItem w.heap limit a key with
  | .error e => .error e
  | .ok b =>
    match parents w.heap limit b with
    | .error e => .error e
    | .ok [] => .ok { w with graph := delGraph w.graph (w.heap b).node (w.heap a).node }
    | .ok (p :: _) =>
      match delChild w.heap p (w.heap b).id with
      | .error e => .error e
      | .ok h => .ok { heap := h, graph := delGraph w.graph (w.heap b).node (w.heap a).node }

/-- Parent assignments one after the other: `c.parent = p` for each pair. -/
def assignAll (w : World) (ops : List (Nat × Nat)) : World := ops.foldl (fun w o => setParent w o.1 o.2) w

end Verif.Model
