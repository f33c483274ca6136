import Verif.Model.RemoteText
/-!
`getMetadata` of the resolver for CTS endpoints: MyCapytain/resolvers/cts/api.py 101-116, retrievers/cts5.py 60-73, 179-187,
resources/prototypes/metadata.py 257-272.
-/
namespace Verif.Model
open Verif.Py

/-- An object of an inventory. -/
inductive XObject where
  | inventory (i : XInv)
  | textgroup (g : XGroup)
  | work (w : XWork)
  | text (t : XText)
  deriving DecidableEq, Repr

/-- `collection.id`: metadata.py 121-123. -/
def XObject.id : XObject → Str
  | .inventory i => i.id
  | .textgroup g => g.id
  | .work w => w.id
  | .text t => t.id

/-- `work.descendants`, each with its parents, the nearest first: metadata.py 257-272, inventory.py 245-253. -/
def workDescendants (above : List XObject) (w : XWork) : List (XObject × List XObject) :=
  w.texts.map fun t => (.text t, .work w :: above)

/-- `textgroup.descendants`: metadata.py 265-272. -/
def groupDescendants (above : List XObject) (g : XGroup) : List (XObject × List XObject) :=
  (g.works.map fun w => (.work w, .textgroup g :: above)) ++ g.works.flatMap (workDescendants (.textgroup g :: above))

/-- `inventory.descendants`: metadata.py 265-272. -/
def invDescendants (i : XInv) : List (XObject × List XObject) :=
  (i.groups.map fun g => (.textgroup g, [.inventory i])) ++ i.groups.flatMap (groupDescendants [.inventory i])

/-- `getMetadata(objectId, inventory=…, urn=…)` of the resolver: the request, and the object with its parents:
resolvers/cts/api.py 101-116. -/
def apiMetadata (serve : DocEndpoint) (d : Option Str) (objectId inventory urn : Option Str) :
    List (Str × Str) × Except PyErr (XObject × List XObject) :=
  let r := getCapabilities d inventory (match objectId with | some o => some o | none => urn)
  (r,
    match serve r with
    | .error e => .error e
    | .ok doc =>
      match parseInv doc with
      | .error e => .error e
      | .ok ti =>
        match objectId with
        | some (c :: o) =>
          match ((.inventory ti, []) :: invDescendants ti).filter fun x => x.1.id = c :: o with
          | [] => .error .indexError
          | x :: _ => .ok x
        | _ => .ok (.inventory ti, []))

/-- `getMetadata(objectId, inventory=…, urn=…)` of the retriever, where `objectId` takes the place of `urn`: cts5.py 179-187. -/
def retrieverMetadata (d : Option Str) (objectId inventory _urn : Option Str) : List (Str × Str) := getCapabilities d inventory objectId

end Verif.Model
