import Verif.Model.Urn
/-!
Inventories of texts: MyCapytain/resources/prototypes/cts/inventory.py (works, textgroups, inventories and their
`update` and `__len__`), resolvers/utils.py (`CollectionDispatcher`) and resolvers/cts/local.py (dispatching, filters,
choice of an edition, `getMetadata`).

Objects are values here, nested as the dictionaries of children nest them; `Model/Collection` has the same objects
with their addresses. What the simplification leaves out: `deepcopy` (inventory.py 599-601) is the identity; the
parent of an object is the object that holds it; `resource = None` (inventory.py 496, 603) and the labels and
metadata in the graph are not kept. The textgroups given to the dispatcher are taken to be different objects, none of
them in the inventory yet, as they are when `parse` made them.

A dictionary of children is the list of its values in order of insertion: the key of an object is its identifier, for
both `_add_member` (metadata.py 196-207) and the two `update` methods store an object under its own key.
-/
namespace Verif.Model
open Verif.Py

/-- The classes of texts: inventory.py 187-205, 379-419. -/
inductive Kind where
  | plain | edition | translation | commentary
  deriving DecidableEq, Repr

/-- A text: inventory.py 187-221. `cite` stands for its citation scheme, `none` for `None`; `urn` is `text.urn`;
`path` is the file, set by local.py 196-201. -/
structure TextV where
  id : Str
  urn : Urn
  kind : Kind
  lang : Str
  cite : Option Nat
  path : Str
  deriving DecidableEq, Repr

/-- A work: inventory.py 422-475. -/
structure WorkV where
  id : Str
  lang : Str
  texts : List TextV
  deriving DecidableEq, Repr

/-- A textgroup: inventory.py 544-579. -/
structure TgV where
  id : Str
  works : List WorkV
  deriving DecidableEq, Repr

/-- An inventory: inventory.py 632-659. -/
structure InvV where
  id : Str
  tgs : List TgV
  deriving DecidableEq, Repr

/-- A collection of inventories: inventory.py 691-706. -/
structure RootV where
  id : Str
  invs : List InvV
  deriving DecidableEq, Repr

/-- Any of these objects. -/
inductive Obj where
  | text (t : TextV)
  | work (w : WorkV)
  | tg (g : TgV)
  | inv (i : InvV)
  | root (r : RootV)
  deriving DecidableEq, Repr

/-- `obj.id`: metadata.py 121-123. -/
def Obj.id : Obj → Str
  | .text t => t.id
  | .work w => w.id
  | .tg g => g.id
  | .inv i => i.id
  | .root r => r.id

/-- The text of `obj.urn`: `str(URN(id))`, which stops at a hash (_capitains_cts.py 509-532, 629-637). -/
def urnText (id : Str) : Str := id.takeWhile (· != '#')

/-- `d[v.id] = v`: an object with this key is replaced in place, a new key comes last. -/
def putKeyed {α : Type} (key : α → Str) : List α → α → List α
  | [], v => [v]
  | x :: r, v => if key x = key v then v :: r else x :: putKeyed key r v

/-- `_add_member`: metadata.py 196-207; nothing happens when the key is there. -/
def addKeyed {α : Type} (key : α → Str) (l : List α) (v : α) : List α :=
  if key v ∈ l.map key then l else l ++ [v]

/-- `work.update(other)`: inventory.py 477-498. -/
def workUpdate (self : WorkV) : Obj → Except PyErr WorkV
  | .work other =>
    if urnText self.id ≠ urnText other.id then .error .invalidURN
    else .ok { self with texts := other.texts.foldl (putKeyed TextV.id) self.texts }
  | _ => .error .typeError

/-- One turn of the loop of `textgroup.update`: inventory.py 597-603. -/
def tgStep (works : List WorkV) (w : WorkV) : Except PyErr (List WorkV) :=
  match works.find? fun x => x.id == w.id with
  | some x =>
    match workUpdate x (.work w) with
    | .ok y => .ok (putKeyed WorkV.id works y)
    | .error e => .error e
  | none => .ok (putKeyed WorkV.id works w)

/-- The loop: inventory.py 597-603. -/
def tgLoop : List WorkV → List WorkV → Except PyErr (List WorkV)
  | works, [] => .ok works
  | works, w :: rest =>
    match tgStep works w with
    | .ok works' => tgLoop works' rest
    | .error e => .error e

/-- `textgroup.update(other)`: inventory.py 581-605. -/
def tgUpdate (self : TgV) : Obj → Except PyErr TgV
  | .tg other =>
    if urnText self.id ≠ urnText other.id then .error .invalidURN
    else
      match tgLoop self.works other.works with
      | .ok ws => .ok { self with works := ws }
      | .error e => .error e
  | _ => .error .typeError

/-- `obj.update(other)` for any object: only works and textgroups have the method. -/
def objUpdate (self other : Obj) : Except PyErr Obj :=
  match self with
  | .work w =>
    match workUpdate w other with
    | .ok w' => .ok (.work w')
    | .error e => .error e
  | .tg g =>
    match tgUpdate g other with
    | .ok g' => .ok (.tg g')
    | .error e => .error e
  | _ => .error .attributeError

/-- `len(obj)`: inventory.py 521-526, 607-616, 661-671, 708-719; a text has no length. -/
def objLen : Obj → Except PyErr Nat
  | .work w => .ok w.texts.length
  | .tg g => .ok (g.works.flatMap (·.texts)).length
  | .inv i => .ok (i.tgs.flatMap fun g => g.works.flatMap (·.texts)).length
  | .root r => .ok (r.invs.flatMap fun i => i.tgs.flatMap fun g => g.works.flatMap (·.texts)).length
  | .text _ => .error .typeError

/-- `work.descendants`: metadata.py 265-272. -/
def workDesc (w : WorkV) : List Obj := w.texts.map .text
/-- `textgroup.descendants`: metadata.py 265-272. -/
def tgDesc (g : TgV) : List Obj := g.works.map .work ++ g.works.flatMap workDesc
/-- `inventory.descendants`: metadata.py 265-272. -/
def invDesc (i : InvV) : List Obj := i.tgs.map .tg ++ i.tgs.flatMap tgDesc
/-- `collection.descendants`: metadata.py 265-272. -/
def rootDesc (r : RootV) : List Obj := r.invs.map .inv ++ r.invs.flatMap invDesc

/-- `obj.descendants`: metadata.py 265-272, inventory.py 245-253. -/
def objDesc : Obj → List Obj
  | .text _ => []
  | .work w => workDesc w
  | .tg g => tgDesc g
  | .inv i => invDesc i
  | .root r => rootDesc r

/-- `obj.members`: metadata.py 257-263, inventory.py 235-243. -/
def objMembers : Obj → List Obj
  | .text _ => []
  | .work w => w.texts.map .text
  | .tg g => g.works.map .work
  | .inv i => i.tgs.map .tg
  | .root r => r.invs.map .inv

/-- `obj[key]`: metadata.py 209-223. -/
def objGet (o : Obj) (key : Str) : Except PyErr Obj :=
  if key = o.id then .ok o
  else
    match (objMembers o).find? fun x => key == x.id with
    | some x => .ok x
    | none =>
      match (objDesc o).find? fun x => x.id == key with
      | some x => .ok x
      | none => .error .unknownCollection

/-- `key in obj`: metadata.py 240-249. -/
def objContains (o : Obj) (key : Str) : Bool := (objDesc o ++ [o]).any fun x => x.id == key

/-- `readableDescendants` (metadata.py 274-280): only texts are readable. -/
def rootTexts (r : RootV) : List TextV :=
  (rootDesc r).filterMap fun
    | .text t => some t
    | _ => none

/-! ### Dispatching -/

/-- A filter: whether it returns `True` for a textgroup found at a path; it may raise. -/
abbrev Filter := TgV → Str → Except PyErr Bool

/-- `CollectionDispatcher`: resolvers/utils.py 9-32. -/
structure Dispatcher where
  root : RootV
  methods : List (Str × Filter)

/-- `CollectionDispatcher(collection, default_inventory_name)`: resolvers/utils.py 16-20. -/
def mkDispatcher (r : RootV) (default : Option Str) : Except PyErr Dispatcher :=
  match default with
  | some n => .ok { root := r, methods := [(n, fun _ _ => .ok true)] }
  | none =>
    match r.invs with
    | i :: _ => .ok { root := r, methods := [(i.id, fun _ _ => .ok true)] }
    | [] => .error .indexError

/-- `dispatcher.add(func, inventory_name)`: resolvers/utils.py 34-43. -/
def addFilter (d : Dispatcher) (f : Filter) (name : Str) : Dispatcher :=
  { d with methods := d.methods ++ [(name, f)] }

/-- `textgroup.parent = collection.children[name]`: resolvers/utils.py 78, metadata.py 182-207; `KeyError` for an
unknown name. -/
def attach (r : RootV) (g : TgV) (name : Str) : Except PyErr RootV :=
  match r.invs.find? fun i => i.id == name with
  | some i => .ok { r with invs := putKeyed InvV.id r.invs { i with tgs := addKeyed TgV.id i.tgs g } }
  | none => .error .keyError

/-- The loop of `dispatch`, over the filters from the last one: resolvers/utils.py 76-80. -/
def dispatchLoop (r : RootV) (g : TgV) (path : Str) : List (Str × Filter) → Except PyErr RootV
  | [] => .error .undispatched
  | (name, f) :: rest =>
    match f g path with
    | .ok true => attach r g name
    | .ok false => dispatchLoop r g path rest
    | .error e => .error e

/-- `dispatcher.dispatch(textgroup, path=path)`: resolvers/utils.py 68-80. -/
def dispatch (d : Dispatcher) (g : TgV) (path : Str) : Except PyErr RootV :=
  dispatchLoop d.root g path d.methods.reverse

/-- Change the first textgroup with this identifier in place, the one that `collection[id]` finds when it finds a
textgroup. -/
def putTgIn : List InvV → TgV → List InvV
  | [], _ => []
  | i :: rest, g =>
    if g.id ∈ i.tgs.map TgV.id then { i with tgs := putKeyed TgV.id i.tgs g } :: rest else i :: putTgIn rest g

/-- Change the first work with this identifier in place, within textgroups. -/
def putWorkTgs : List TgV → WorkV → List TgV
  | [], _ => []
  | g :: rest, w =>
    if w.id ∈ g.works.map WorkV.id then { g with works := putKeyed WorkV.id g.works w } :: rest else g :: putWorkTgs rest w

/-- Change the first work with this identifier in place, within inventories. -/
def putWorkIn : List InvV → WorkV → List InvV
  | [], _ => []
  | i :: rest, w =>
    if w.id ∈ i.tgs.flatMap fun g => g.works.map WorkV.id then { i with tgs := putWorkTgs i.tgs w } :: rest
    else i :: putWorkIn rest w

/-- `collection[key].update(other)`: the object found changes in place. -/
def updateFound (r : RootV) (key : Str) (other : Obj) : Except PyErr RootV :=
  match objGet (.root r) key with
  | .error e => .error e
  | .ok o =>
    match objUpdate o other with
    | .error e => .error e
    | .ok (.tg g) => .ok { r with invs := putTgIn r.invs g }
    | .ok (.work w) => .ok { r with invs := putWorkIn r.invs w }
    | .ok _ => .error .attributeError

/-- `collection[key].works`: the works of a textgroup; a text and a work have no such attribute, nor has an
inventory. -/
def worksOf (r : RootV) (key : Str) : Except PyErr (List WorkV) :=
  match objGet (.root r) key with
  | .ok (.tg g) => .ok g.works
  | .ok _ => .error .attributeError
  | .error e => .error e

/-- The loop over the works in `_dispatch`: local.py 248-250. -/
def dispatchWorks (gid : Str) : RootV → List WorkV → Except PyErr RootV
  | r, [] => .ok r
  | r, w :: rest =>
    match worksOf r gid with
    | .error e => .error e
    | .ok ws =>
      if w.id ∈ ws.map WorkV.id then
        match updateFound r w.id (.work w) with
        | .ok r' => dispatchWorks gid r' rest
        | .error e => .error e
      else dispatchWorks gid r rest

/-- `_dispatch`: local.py 237-250. -/
def resolverDispatch (d : Dispatcher) (g : TgV) (path : Str) : Except PyErr Dispatcher :=
  match (if objContains (.root d.root) g.id then updateFound d.root g.id (.tg g) else dispatch d g path) with
  | .error e => .error e
  | .ok r =>
    match dispatchWorks g.id r g.works with
    | .ok r' => .ok { d with root := r' }
    | .error e => .error e

/-- `_dispatch_container`: local.py 252-266; `raises` is `RAISE_ON_UNDISPATCHED`. What `_dispatch` changed before it
failed stays; it fails with that error only before any change. -/
def dispatchContainer (raises : Bool) (d : Dispatcher) (g : TgV) (path : Str) : Except PyErr Dispatcher :=
  match resolverDispatch d g path with
  | .error .undispatched => if raises then .error .undispatched else .ok d
  | x => x

/-- The dispatching routine of `parse`: local.py 304-306. -/
def dispatchAll (raises : Bool) : Dispatcher → List (TgV × Str) → Except PyErr Dispatcher
  | d, [] => .ok d
  | d, (g, path) :: rest =>
    match dispatchContainer raises d g path with
    | .ok d' => dispatchAll raises d' rest
    | .error e => .error e

/-- What a metadata file of a work describes: the work and its texts, in the order editions, translations,
commentaries (collections/cts.py 256-294). -/
structure WorkDesc where
  id : Str
  lang : Str
  texts : List TextV
  deriving Repr

/-- `work.parse(…, parent=textgroup)`: collections/cts.py 256-294; each text becomes a member as it is made. -/
def buildWork (d : WorkDesc) : WorkV := { id := d.id, lang := d.lang, texts := d.texts.foldl (addKeyed TextV.id) [] }

/-- A textgroup with the works described in its own file and then those of the files of its folders: local.py 286-297,
collections/cts.py 303-321; a work becomes a member before its texts are read. -/
def buildTg (id : Str) (works : List WorkDesc) : TgV := { id := id, works := (works.map buildWork).foldl (addKeyed WorkV.id) [] }

/-- A textgroup found: its identifier, the descriptions of its works, the file. -/
structure TgDesc where
  id : Str
  works : List WorkDesc
  path : Str
  deriving Repr

/-- `parse`: local.py 276-312, from the descriptions found in the folders. -/
def parseAll (raises : Bool) (d : Dispatcher) (found : List TgDesc) : Except PyErr Dispatcher :=
  dispatchAll raises d (found.map fun t => (buildTg t.id t.works, t.path))

/-! ### Filters -/

/-- The argument `urn` of the metadata search. -/
inductive UrnArg where
  | text (s : Str)
  | object (u : Urn)
  deriving DecidableEq, Repr

/-- The constants of local.py 377 by length; past the end of the list `IndexError`. -/
def partKey (n : Nat) : Except PyErr (Option Int) :=
  match n with
  | 0 => .ok none
  | 1 => .ok none
  | 2 => .ok (some 0)
  | 3 => .ok (some 1)
  | 4 => .ok (some 2)
  | 5 => .ok (some 3)
  | 6 => .ok (some 100)
  | _ => .error .indexError

/-- The key of the search: local.py 371-377. -/
def searchKey : Option UrnArg → Except PyErr (Option Int)
  | none => .ok none
  | some (.object u) => partKey u.len
  | some (.text s) =>
    match Urn.parse s with
    | .ok u => partKey u.len
    | .error e => .error e

/-- The key that `upTo(None)` amounts to: none of the constants. -/
def noKey : Int := -1

/-- `urn is None or text.urn.upTo(__PART) == urn`: local.py 384. A string is never equal to a `URN` object
(_capitains_cts.py 485-498). -/
def urnTest (t : TextV) (urn : Option UrnArg) (key : Option Int) : Except PyErr Bool :=
  match urn with
  | none => .ok true
  | some a =>
    match t.urn.upTo (key.getD noKey) with
    | .error e => .error e
    | .ok s =>
      match a with
      | .text x => .ok (s == x)
      | .object _ => .ok false

/-- The names of the categories: local.py 387. -/
def categories : List Str :=
  [['e','d','i','t','i','o','n'], ['t','r','a','n','s','l','a','t','i','o','n'], ['c','o','m','m','e','n','t','a','r','y']]

/-- `text.subtype`: inventory.py 205, 389, 404, 419. -/
def Kind.name : Kind → Str
  | .plain => ['u','n','k','n','o','w','n']
  | .edition => ['e','d','i','t','i','o','n']
  | .translation => ['t','r','a','n','s','l','a','t','i','o','n']
  | .commentary => ['c','o','m','m','e','n','t','a','r','y']

/-- The condition of the comprehension: local.py 382-389. `lower()` changes nothing on the names compared. -/
def textTest (t : TextV) (urn : Option UrnArg) (key : Option Int) (lang category : Option Str) : Except PyErr Bool :=
  if lang = none ∨ lang = some t.lang then
    match urnTest t urn key with
    | .error e => .error e
    | .ok false => .ok false
    | .ok true =>
      if t.cite.isSome then
        match category with
        | none => .ok true
        | some c => .ok (!(categories.contains c) || c == t.kind.name)
      else .ok false
  else .ok false

/-- The comprehension: local.py 379-390. -/
def textLoop (urn : Option UrnArg) (key : Option Int) (lang category : Option Str) : List TextV → Except PyErr (List TextV)
  | [] => .ok []
  | t :: rest =>
    match textTest t urn key lang category with
    | .error e => .error e
    | .ok b =>
      match textLoop urn key lang category rest with
      | .error e => .error e
      | .ok l => .ok (if b then t :: l else l)

/-- `__getTextMetadata__` without pagination: local.py 349-396. -/
def getTextMetadata (r : RootV) (urn : Option UrnArg) (lang category : Option Str) : Except PyErr (List TextV) :=
  match searchKey urn with
  | .error e => .error e
  | .ok key => textLoop urn key lang category (rootTexts r)

/-! ### Choice of a text -/

/-- The URN of the text to read: local.py 321-336. -/
def chooseUrn (r : RootV) (u : Urn) : Except PyErr Str :=
  if u.len = 5 then
    match u.str with
    | .ok (s, _) => .ok s
    | .error e => .error e
  else if u.len = 4 then
    match u.upTo 2 with
    | .error e => .error e
    | .ok w =>
      match (rootTexts r).filter fun t => startsWith t.id w && t.kind == .edition with
      | t :: _ =>
        match Urn.parse t.id with
        | .ok v =>
          match v.str with
          | .ok (s, _) => .ok s
          | .error e => .error e
        | .error e => .error e
      | [] => .error .unknownObject
  else .error .invalidURN

/-- `__getText__`: local.py 314-347: the object of the inventory that describes the text to read, which must have a
path. -/
def getText (r : RootV) (u : Urn) : Except PyErr TextV :=
  match chooseUrn r u with
  | .error e => .error e
  | .ok s =>
    match objGet (.root r) s with
    | .error e => .error e
    | .ok (.text t) => .ok t
    | .ok _ => .error .attributeError

/-! ### `getMetadata` -/

/-- A text with the objects that hold it. -/
structure Placed where
  inv : Str
  tg : Str
  work : Str
  workLang : Str
  text : TextV
  deriving DecidableEq, Repr

/-- The texts of the inventory with the identifiers of their parents, in the order of `readableDescendants`. -/
def placedTexts (r : RootV) : List Placed :=
  r.invs.flatMap fun i => i.tgs.flatMap fun g => g.works.flatMap fun w => w.texts.map fun t => ⟨i.id, g.id, w.id, w.lang, t⟩

/-- The texts of the search with their parents: local.py 379-390, 439. -/
def placedLoop (urn : Option UrnArg) (key : Option Int) : List Placed → Except PyErr (List Placed)
  | [] => .ok []
  | p :: rest =>
    match textTest p.text urn key none none with
    | .error e => .error e
    | .ok b =>
      match placedLoop urn key rest with
      | .error e => .error e
      | .ok l => .ok (if b then p :: l else l)

/-- The text made for a text found: local.py 460-468; a text of no particular class is not made. An edition takes the
language of its work (inventory.py 216-221). -/
def rebuiltText (p : Placed) : List TextV :=
  match p.text.kind with
  | .plain => []
  | .edition => [{ p.text with id := urnText p.text.id, lang := p.workLang, path := [] }]
  | _ => [{ p.text with id := urnText p.text.id, path := [] }]

/-- One turn of the loop that rebuilds an inventory: local.py 449-468. -/
def rebuildStep (i : InvV) (p : Placed) : InvV :=
  let tgs := addKeyed TgV.id i.tgs { id := urnText p.tg, works := [] }
  { i with tgs := tgs.map fun g =>
      if g.id = urnText p.tg then
        { g with works := (addKeyed WorkV.id g.works { id := urnText p.work, lang := p.workLang, texts := [] }).map fun w =>
            if w.id = urnText p.work then { w with texts := (rebuiltText p).foldl (addKeyed TextV.id) w.texts } else w }
      else g }

/-- The name of the rebuilt inventory: local.py 442-446. -/
def rebuiltName (ps : List Placed) : Str :=
  match ps with
  | [] => ['d','e','f','a','u','l','t','I','n','v','e','n','t','o','r','y']
  | p :: rest =>
    if rest.all fun q => q.inv == p.inv then p.inv
    else ['d','e','f','a','u','l','t','I','n','v','e','n','t','o','r','y']

/-- `getMetadata(objectId)`: local.py 426-470. -/
def getMetadata (r : RootV) (objectId : Option Str) : Except PyErr Obj :=
  match objectId with
  | none => .ok (.root r)
  | some o =>
    if o ∈ r.invs.map InvV.id then objGet (.root r) o
    else
      match searchKey (some (.text o)) with
      | .error e => .error e
      | .ok key =>
        match placedLoop (some (.text o)) key (placedTexts r) with
        | .error e => .error e
        | .ok ps => objGet (.inv (ps.foldl rebuildStep { id := rebuiltName ps, tgs := [] })) o

end Verif.Model
