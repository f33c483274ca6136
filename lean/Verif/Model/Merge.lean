import Verif.Model.InventoryGraph
/-!
Merging of works and textgroups as objects: `update` of MyCapytain/resources/prototypes/cts/inventory.py 477-498 and
581-605, with the setter of `parent` (prototypes/metadata.py 182-207) and `copy.deepcopy`.

`Model/Inventory` has the same methods on values. Here the collections are objects with addresses, so that sharing and
copying can be seen, and there may be several graphs: every object keeps the graph it was made with (metadata.py 52,
54; common/metadata.py 37), and a deep copy of an object has a copy of that graph.
-/
namespace Verif.Model
open Verif.Py

/-- The classes of collections: inventory.py 187, 422, 544, 632, 691. -/
inductive MClass where
  | text | work | textgroup | inventory | inventories
  deriving DecidableEq, Repr

/-- A collection: metadata.py 50-63, inventory.py 206-221. `graph` is the number of its graph, which its `metadata` has
too; `resource` is the attribute of that name, whatever was stored there. `urn`, `kind`, `cite` and `path` are as in
`TextV` and mean nothing for other classes. -/
structure MObj where
  cls : MClass
  id : Str
  urn : Urn
  kind : Kind
  cite : Option Nat
  path : Str
  parent : Option Nat
  children : List (Str × Nat)
  resource : Option Nat
  graph : Nat
  deriving DecidableEq, Repr

/-- All collections and all graphs. Those with a number below `next` and `graphCount` exist. -/
structure MStore where
  next : Nat
  heap : Nat → MObj
  graphCount : Nat
  graphs : Nat → Graph

/-- Assignment to an object. -/
def MStore.setObj (s : MStore) (a : Nat) (o : MObj) : MStore := { s with heap := fun x => if x = a then o else s.heap x }

/-- `collection.asNode()`: metadata.py 114-119. -/
def MStore.node (s : MStore) (a : Nat) : Term := .uri (s.heap a).id

/-- The graph of an object: metadata.py 102-108. -/
def MStore.graphOf (s : MStore) (a : Nat) : Graph := s.graphs (s.heap a).graph

/-- `graph.add(triple)` on a graph. -/
def MStore.say (s : MStore) (g : Nat) (t : Triple) : MStore :=
  { s with graphs := fun x => if x = g then (s.graphs g).insert t else s.graphs x }

/-- `_add_member`: metadata.py 196-207. -/
def MStore.addMember (s : MStore) (p c : Nat) : MStore :=
  if (s.heap c).id ∈ (s.heap p).children.map (·.1) then s
  else s.setObj p { s.heap p with children := (s.heap p).children ++ [((s.heap c).id, c)] }

/-- The setter of `parent`: metadata.py 182-194. The triple goes to the graph of the child. -/
def MStore.setParent (s : MStore) (c p : Nat) : MStore :=
  ((s.setObj c { s.heap c with parent := some p }).say (s.heap c).graph ⟨s.node c, capParent, s.node p⟩).addMember p c

/-- `x.parent = self` and `x.resource = None`: inventory.py 495-496, 602-603. -/
def MStore.adopt (s : MStore) (self x : Nat) : MStore :=
  let s := s.setParent x self
  s.setObj x { s.heap x with resource := none }

/-- One turn of the loop of `work.update`: inventory.py 493-496. -/
def MStore.takeText (self : Nat) (s : MStore) (e : Str × Nat) : MStore :=
  (s.setObj self { s.heap self with children := putEntry (s.heap self).children e.1 e.2 }).adopt self e.2

/-- `work.update(other)`: inventory.py 477-498. -/
def MStore.workUpdate (s : MStore) (self other : Nat) : Except PyErr MStore :=
  if (s.heap other).cls ≠ .work then .error .typeError
  else if urnText (s.heap self).id ≠ urnText (s.heap other).id then .error .invalidURN
  else .ok ((s.heap other).children.foldl (MStore.takeText self) s)

/-- An object with the objects and the graph it refers to moved by so many places. -/
def MObj.shift (o : MObj) (n m : Nat) : MObj :=
  { o with parent := o.parent.map (· + n), children := o.children.map (fun e => (e.1, e.2 + n)), graph := o.graph + m }

/-- The state after a call of `deepcopy`: the copy of object `a` has number `a + next`, and the copy of graph `g` number
`g + graphCount`. Python copies what can be reached from the object given: its parents, its children, their parents and
children, and their graphs. Here everything is copied; nothing refers to the copies that Python does not make. -/
def MStore.deepcopy (s : MStore) : MStore :=
  { next := s.next + s.next
    heap := fun a => if s.next ≤ a ∧ a < s.next + s.next then (s.heap (a - s.next)).shift s.next s.graphCount else s.heap a
    graphCount := s.graphCount + s.graphCount
    graphs := fun g => if s.graphCount ≤ g ∧ g < s.graphCount + s.graphCount then s.graphs (g - s.graphCount) else s.graphs g }

/-- `self.works[urn].update(copy)` for what is found there: textgroups refuse works, other classes have no such method. -/
def MStore.updateFound (s : MStore) (x copy : Nat) : Except PyErr MStore :=
  match (s.heap x).cls with
  | .work => s.workUpdate x copy
  | .textgroup => .error .typeError
  | _ => .error .attributeError

/-- One turn of the loop of `textgroup.update`: inventory.py 597-603. -/
def MStore.takeWork (self : Nat) (s : MStore) (e : Str × Nat) : Except PyErr MStore :=
  match getEntry (s.heap self).children e.1 with
  | some x =>
    match s.deepcopy.updateFound x (e.2 + s.next) with
    | .error err => .error err
    | .ok s' => .ok (s'.adopt self x)
  | none =>
    let s' := s.deepcopy
    .ok ((s'.setObj self { s'.heap self with children := putEntry (s'.heap self).children e.1 (e.2 + s.next) }).adopt self (e.2 + s.next))

/-- The loop: inventory.py 597-603. What was done before an error stays done; here an error stands alone. -/
def MStore.takeWorks (self : Nat) : MStore → List (Str × Nat) → Except PyErr MStore
  | s, [] => .ok s
  | s, e :: r =>
    match MStore.takeWork self s e with
    | .error err => .error err
    | .ok s' => MStore.takeWorks self s' r

/-- `textgroup.update(other)`: inventory.py 581-605. -/
def MStore.tgUpdate (s : MStore) (self other : Nat) : Except PyErr MStore :=
  if (s.heap other).cls ≠ .textgroup then .error .typeError
  else if urnText (s.heap self).id ≠ urnText (s.heap other).id then .error .invalidURN
  else MStore.takeWorks self s (s.heap other).children

end Verif.Model
