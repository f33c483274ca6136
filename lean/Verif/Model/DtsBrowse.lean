import Verif.Model.DtsCollection
/-!
Trees of remote DTS collections: MyCapytain/resources/collections/dts/_resolver.py, _base.py, the properties of
resources/prototypes/metadata.py that go down the tree, and `getMetadata` of resolvers/dts/api_v1.py.

A collection holds its members as objects; every object is held by one dictionary, so that a tree of values stands for them.
The requests are those of the retriever, which all collections share: they are handed to a collection before it is read and
taken back afterwards. What the graph holds of a collection (its type and its number of items) is kept with the object: an
endpoint is taken to say the same of a collection wherever it names it.
-/
namespace Verif.Model
open Verif.Py

/-- A collection in a reply, with what is read of it: _base.py 89, 117-147. -/
structure DtsEntry where
  /-- `@id` -/
  id : Str
  /-- `hydra:totalItems` -/
  items : Nat
  /-- the last `@type` is `hydra:Resource` -/
  resource : Bool
  /-- it has members of its own -/
  nested : Bool
  deriving DecidableEq, Repr

/-- A reply of the collections endpoint: the collection, its members and its view. -/
structure DtsListing where
  about : DtsEntry
  members : List DtsEntry
  view : Option (Option Str)
  deriving DecidableEq, Repr

/-- What the collections endpoint answers. -/
abbrev DtsCatalogue := List (Str × List Str) → Except PyErr DtsListing

/-- `HttpResolverDtsCollection`, with its members and `readable`: _resolver.py 70-101, _base.py 49-53. -/
inductive DtsShelf where
  | mk (resource : Bool) (coll : RemoteColl DtsShelf)

/-- `readable`: _base.py 49-53. -/
def DtsShelf.readable : DtsShelf → Bool
  | .mk r _ => r

/-- The collection without what the graph holds of it. -/
def DtsShelf.coll : DtsShelf → RemoteColl DtsShelf
  | .mk _ c => c

/-- A member of a reply on `parent`: _resolver.py 206-210 with _base.py 72-97. Members of members are parsed with the keyword
`metadata_parsed` given twice. The parents of a member are set when it is a child. -/
def DtsEntry.parse (parent : Option Str) (e : DtsEntry) : Except PyErr DtsShelf :=
  if e.nested then .error .typeError
  else .ok (.mk e.resource { parseColl e.id e.items false ⟨[], none⟩ with folks := parent.toList })

/-- `parse_member`: _resolver.py 201-218, for all members of a reply. -/
def parseDtsMembers (parent : Option Str) : List DtsEntry → Except PyErr (List (Str × DtsShelf))
  | [] => .ok []
  | e :: rest =>
    match e.parse parent with
    | .error x => .error x
    | .ok o =>
      match parseDtsMembers parent rest with
      | .error x => .error x
      | .ok l => .ok ((e.id, o) :: l)

/-- A reply with its members parsed, for a request of members of `id`: _resolver.py 126-143. The direction says whether
the members take `id` as their parent. -/
def DtsListing.page (id : Str) (dir : Dir) (a : DtsListing) : Except PyErr (CollPage DtsShelf) :=
  match parseDtsMembers (if dir = .children then some id else none) a.members with
  | .error x => .error x
  | .ok l => .ok ⟨l, a.view⟩

/-- The endpoint as the collection `id` sees it when it asks for its members. -/
def DtsCatalogue.pages (net : DtsCatalogue) (id : Str) (dir : Dir) (r : List (Str × List Str)) : Except PyErr (CollPage DtsShelf) :=
  match net r with
  | .error e => .error e
  | .ok a => a.page id dir

/-- `members`: prototypes/metadata.py 257-263, reading `children` as _resolver.py 156-167 does. -/
def DtsShelf.members (net : DtsCatalogue) (query : List (Str × List Str)) (fuel : Nat) (log : List (List (Str × List Str))) (o : DtsShelf) :
    Option (List (List (Str × List Str)) × DtsShelf × Except PyErr (List DtsShelf)) :=
  match ({ o.coll with log := log } : RemoteColl DtsShelf).read (net.pages o.coll.id .children) query fuel .iterKids with
  | none => none
  | some (c, .error e) => some (c.log, .mk o.readable c, .error e)
  | some (c, .ok (.dict d)) => some (c.log, .mk o.readable c, .ok (d.map (·.2)))
  | some (c, .ok _) => some (c.log, .mk o.readable c, .error .typeError)

/-- What is seen of a collection in a list of them: its identifier and whether it is readable. -/
def DtsShelf.label (o : DtsShelf) : Str × Bool := (o.coll.id, o.readable)

/-- The comprehension of `descendants` over the members of a dictionary: prototypes/metadata.py 271-272. The members are
objects: what is read of them stays. -/
def eachKid (f : List (List (Str × List Str)) → DtsShelf → Option (List (List (Str × List Str)) × DtsShelf × Except PyErr (List (Str × Bool)))) :
    List (List (Str × List Str)) → List (Str × DtsShelf) → Option (List (List (Str × List Str)) × List (Str × DtsShelf) × Except PyErr (List (Str × Bool)))
  | log, [] => some (log, [], .ok [])
  | log, (k, o) :: rest =>
    match f log o with
    | none => none
    | some (log, o, .error e) => some (log, (k, o) :: rest, .error e)
    | some (log, o, .ok l) =>
      match eachKid f log rest with
      | none => none
      | some (log, rest, .error e) => some (log, (k, o) :: rest, .error e)
      | some (log, rest, .ok l') => some (log, (k, o) :: rest, .ok (l ++ l'))

/-- `descendants`: prototypes/metadata.py 265-272: the members are read twice, then those of each. The first argument bounds
the depth. -/
def DtsShelf.descendants (net : DtsCatalogue) (query : List (Str × List Str)) (fuel : Nat) :
    Nat → List (List (Str × List Str)) → DtsShelf → Option (List (List (Str × List Str)) × DtsShelf × Except PyErr (List (Str × Bool)))
  | 0, _, _ => none
  | depth + 1, log, o =>
    match o.members net query fuel log with
    | none => none
    | some (log, o, .error e) => some (log, o, .error e)
    | some (log, o, .ok ms) =>
      match o.members net query fuel log with
      | none => none
      | some (log, o, .error e) => some (log, o, .error e)
      | some (log, o, .ok _) =>
        match eachKid (DtsShelf.descendants net query fuel depth) log o.coll.kids with
        | none => none
        | some (log, kids, .error e) => some (log, .mk o.readable { o.coll with kids := kids }, .error e)
        | some (log, kids, .ok l) => some (log, .mk o.readable { o.coll with kids := kids }, .ok (ms.map DtsShelf.label ++ l))

/-- `readableDescendants`: prototypes/metadata.py 274-280. -/
def DtsShelf.readableDescendants (net : DtsCatalogue) (query : List (Str × List Str)) (fuel depth : Nat) (log : List (List (Str × List Str))) (o : DtsShelf) :
    Option (List (List (Str × List Str)) × DtsShelf × Except PyErr (List (Str × Bool))) :=
  match o.descendants net query fuel depth log with
  | none => none
  | some (log, o, .error e) => some (log, o, .error e)
  | some (log, o, .ok l) => some (log, o, .ok (l.filter (·.2)))

/-- `key in collection`: prototypes/metadata.py 239-249. -/
def DtsShelf.contains (net : DtsCatalogue) (query : List (Str × List Str)) (fuel depth : Nat) (log : List (List (Str × List Str))) (o : DtsShelf) (key : Str) :
    Option (List (List (Str × List Str)) × DtsShelf × Except PyErr Bool) :=
  match o.descendants net query fuel depth log with
  | none => none
  | some (log, o, .error e) => some (log, o, .error e)
  | some (log, o, .ok l) => some (log, o, .ok ((l ++ [o.label]).any fun x => x.1 == key))

/-- `collection[key]`: prototypes/metadata.py 209-223. What is found is seen by its label. -/
def DtsShelf.get (net : DtsCatalogue) (query : List (Str × List Str)) (fuel depth : Nat) (log : List (List (Str × List Str))) (o : DtsShelf) (key : Str) :
    Option (List (List (Str × List Str)) × DtsShelf × Except PyErr (Str × Bool)) :=
  if key = o.coll.id then some (log, o, .ok o.label)
  else
    match o.members net query fuel log with
    | none => none
    | some (log, o, .error e) => some (log, o, .error e)
    | some (log, o, .ok ms) =>
      match ms.find? fun x => x.coll.id == key with
      | some x => some (log, o, .ok x.label)
      | none =>
        match o.descendants net query fuel depth log with
        | none => none
        | some (log, o, .error e) => some (log, o, .error e)
        | some (log, o, .ok l) =>
          match l.find? fun x => x.1 == key with
          | some x => some (log, o, .ok x)
          | none => some (log, o, .error .unknownCollection)

/-- `getMetadata(objectId)` of the resolver: resolvers/dts/api_v1.py 71-80, _base.py 72-97. -/
def dtsMetadata (net : DtsCatalogue) (query : List (Str × List Str)) (log : List (List (Str × List Str))) (objectId : Option Str) :
    List (List (Str × List Str)) × Except PyErr DtsShelf :=
  let r := getCollection query objectId children .none
  match net r with
  | .error e => (log ++ [r], .error e)
  | .ok a =>
    match a.page a.about.id .children with
    | .error e => (log ++ [r], .error e)
    | .ok p => (log ++ [r], .ok (.mk a.about.resource (parseColl a.about.id a.about.items true p)))

end Verif.Model
