import Verif.Model.Merge
/-!
The library of a local resolver as objects: lookup in collections (MyCapytain/resources/prototypes/metadata.py 209-223, 240-249,
257-272), `CollectionDispatcher.dispatch` (resolvers/utils.py 68-82) and the dispatching routine of
MyCapytain/resolvers/cts/local.py 237-266, 304-306. `Model/Inventory` has the same on values.
-/
namespace Verif.Model
open Verif.Py

/-- `collection.members`: metadata.py 257-263, inventory.py 235-243. -/
def MStore.members (s : MStore) (a : Nat) : List Nat := (s.heap a).children.map (·.2)

/-- How many levels there may be below a collection of a class. -/
def MClass.height : MClass → Nat
  | .text => 0
  | .work => 1
  | .textgroup => 2
  | .inventory => 3
  | .inventories => 4

/-- The recursion of `descendants`: metadata.py 265-272. It ends after the levels that classes allow. -/
def MStore.below (s : MStore) : Nat → Nat → List Nat
  | 0, _ => []
  | n + 1, a => s.members a ++ (s.members a).flatMap (s.below n)

/-- `collection.descendants`: metadata.py 265-272, inventory.py 245-253. -/
def MStore.descendants (s : MStore) (a : Nat) : List Nat := s.below (s.heap a).cls.height a

/-- `collection[key]`: metadata.py 209-223. -/
def MStore.get (s : MStore) (a : Nat) (key : Str) : Except PyErr Nat :=
  if key = (s.heap a).id then .ok a
  else
    match (s.members a).find? fun x => key == (s.heap x).id with
    | some x => .ok x
    | none =>
      match (s.descendants a).find? fun x => (s.heap x).id == key with
      | some x => .ok x
      | none => .error .unknownCollection

/-- `key in collection`: metadata.py 240-249. -/
def MStore.contains (s : MStore) (a : Nat) (key : Str) : Bool := (s.descendants a ++ [a]).any fun x => (s.heap x).id == key

/-- `x.update(other)` for any collection: only works and textgroups have the method. -/
def MStore.updateObj (s : MStore) (x other : Nat) : Except PyErr MStore :=
  match (s.heap x).cls with
  | .work => s.workUpdate x other
  | .textgroup => s.tgUpdate x other
  | _ => .error .attributeError

/-- A filter of a dispatcher: whether it returns `True` for a collection found at a path. It may look at any object, and it
may raise; it changes nothing. -/
abbrev ObjFilter := MStore → Nat → Str → Except PyErr Bool

/-- `CollectionDispatcher`: resolvers/utils.py 9-43: the collection and the filters in the order in which they were added, the first being the one
for the default inventory. -/
structure ObjDispatcher where
  root : Nat
  methods : List (Str × ObjFilter)

/-- `collection.parent = self.collection.children[inventory]`: resolvers/utils.py 78. -/
def MStore.attachTo (s : MStore) (root g : Nat) (name : Str) : Except PyErr MStore :=
  match getEntry (s.heap root).children name with
  | some i => .ok (s.setParent g i)
  | none => .error .keyError

/-- The loop of `dispatch`: resolvers/utils.py 76-80. -/
def MStore.tryFilters (s : MStore) (root g : Nat) (path : Str) : List (Str × ObjFilter) → Except PyErr MStore
  | [] => .error .undispatched
  | (name, f) :: rest =>
    match f s g path with
    | .ok true => s.attachTo root g name
    | .ok false => s.tryFilters root g path rest
    | .error e => .error e

/-- `dispatcher.dispatch(collection, path=path)`: resolvers/utils.py 68-82. -/
def ObjDispatcher.dispatch (d : ObjDispatcher) (s : MStore) (g : Nat) (path : Str) : Except PyErr MStore :=
  s.tryFilters d.root g path d.methods.reverse

/-- The loop over the works of the textgroup in `_dispatch`: local.py 248-250. -/
def ObjDispatcher.takeWorks (d : ObjDispatcher) (gid : Str) : MStore → List (Str × Nat) → Except PyErr MStore
  | s, [] => .ok s
  | s, e :: rest =>
    match s.get d.root gid with
    | .error err => .error err
    | .ok x =>
      if (s.heap x).cls ≠ .textgroup then .error .attributeError
      else if e.1 ∈ (s.heap x).children.map (·.1) then
        match s.get d.root e.1 with
        | .error err => .error err
        | .ok y =>
          match s.updateObj y e.2 with
          | .error err => .error err
          | .ok s' => d.takeWorks gid s' rest
      else d.takeWorks gid s rest

/-- `_dispatch`: local.py 237-250. The dictionary of works that the loop goes through is not changed by it. -/
def ObjDispatcher.receive (d : ObjDispatcher) (s : MStore) (g : Nat) (path : Str) : Except PyErr MStore :=
  match (if s.contains d.root (s.heap g).id then
      match s.get d.root (s.heap g).id with
      | .error e => .error e
      | .ok x => s.updateObj x g
    else d.dispatch s g path) with
  | .error e => .error e
  | .ok s' => d.takeWorks (s'.heap g).id s' (s'.heap g).children

/-- `_dispatch_container`: local.py 252-266; `raises` is `RAISE_ON_UNDISPATCHED`. What `_dispatch` changed before it
failed stays; it fails with that error only before any change. -/
def ObjDispatcher.receiveSafely (d : ObjDispatcher) (raises : Bool) (s : MStore) (g : Nat) (path : Str) : Except PyErr MStore :=
  match d.receive s g path with
  | .error .undispatched => if raises then .error .undispatched else .ok s
  | x => x

/-- The dispatching routine of `parse`: local.py 304-306. -/
def ObjDispatcher.receiveAll (d : ObjDispatcher) (raises : Bool) : MStore → List (Nat × Str) → Except PyErr MStore
  | s, [] => .ok s
  | s, (g, path) :: rest =>
    match d.receiveSafely raises s g path with
    | .ok s' => d.receiveAll raises s' rest
    | .error e => .error e

end Verif.Model
