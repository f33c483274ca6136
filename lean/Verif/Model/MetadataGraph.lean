import Verif.Model.Inventory
import Verif.Model.InventoryGraph
/-!
`getMetadata` of the local resolver (MyCapytain/resolvers/cts/local.py 426-470) with the one graph as state: the objects that are made for
an answer have the identifiers of objects of the library, so that making them writes statements about the library.
-/
namespace Verif.Model
open Verif.Py

/-- The library as it speaks at this time: the languages of works and texts are those in the graph (inventory.py 460-466,
prototypes/metadata.py 444-450). -/
def withLangs (order : Order) (g : Graph) (r : RootV) : RootV :=
  { r with invs := r.invs.map fun i => { i with tgs := i.tgs.map fun t => { t with works := t.works.map fun w =>
      { w with lang := getLang order g (.uri w.id), texts := w.texts.map fun x => { x with lang := getLang order g (.uri x.id) } } } } }

/-- The text that is made for a text found: local.py 460-468, with the constructors, inventory.py 207-221. -/
def metaText (order : Order) (g : Graph) (p : Placed) : Graph :=
  match p.text.kind with
  | .plain => g
  | .edition =>
    newTextLang order (newParent (newObject g (urnText p.text.id) (kindTag .edition) ['r', 'e', 's', 'o', 'u', 'r', 'c', 'e'])
      (urnText p.text.id) (some (urnText p.work))) (.uri (urnText p.text.id)) (some (.uri (urnText p.work))) none
  | k =>
    newParent (newTextLang order (newObject g (urnText p.text.id) (kindTag k) ['r', 'e', 's', 'o', 'u', 'r', 'c', 'e'])
      (.uri (urnText p.text.id)) (some (.uri (urnText p.work))) (some (getLang order g (.uri p.text.id)))) (urnText p.text.id) (some (urnText p.work))

/-- The textgroup that is made when the answer has none with this URN: local.py 454-455, inventory.py 563-570. -/
def metaGroup (i : InvV) (g : Graph) (p : Placed) : Graph :=
  if urnText p.tg ∈ i.tgs.map TgV.id then g
  else newParent (newObject g (urnText p.tg) ['t', 'e', 'x', 't', 'g', 'r', 'o', 'u', 'p'] ['c', 'o', 'l', 'l', 'e', 'c', 't', 'i', 'o', 'n'])
    (urnText p.tg) (some i.id)

/-- The work that is made when the textgroup of the answer has none with this URN: local.py 457-458, inventory.py 443-449. -/
def metaWork (i : InvV) (g : Graph) (p : Placed) : Graph :=
  if (i.tgs.any fun t => t.id == urnText p.tg && (t.works.map WorkV.id).contains (urnText p.work)) then g
  else newParent (newObject g (urnText p.work) ['w', 'o', 'r', 'k'] ['c', 'o', 'l', 'l', 'e', 'c', 't', 'i', 'o', 'n'])
    (urnText p.work) (some (urnText p.tg))

/-- One turn of the loop: local.py 449-468. -/
def metaStep (order : Order) (s : InvV × Graph) (p : Placed) : InvV × Graph :=
  (rebuildStep s.1 p, metaText order (metaWork s.1 (metaGroup s.1 s.2 p) p) p)

/-- The graph when the inventory of the answer is made: local.py 441-468. -/
def metaGraph (order : Order) (g : Graph) (ps : List Placed) : Graph :=
  (ps.foldl (metaStep order) ({ id := rebuiltName ps, tgs := [] },
    newObject g (rebuiltName ps) ['T', 'e', 'x', 't', 'I', 'n', 'v', 'e', 'n', 't', 'o', 'r', 'y'] ['c', 'o', 'l', 'l', 'e', 'c', 't', 'i', 'o', 'n'])).2

/-- The texts that the search of `getMetadata(objectId)` finds, when it comes to searching and no error is raised: local.py 434-439. -/
def metaFound (r : RootV) : Option Str → Option (List Placed)
  | none => none
  | some o =>
    if o ∈ r.invs.map InvV.id then none
    else match searchKey (some (.text o)) with
      | .error _ => none
      | .ok key => match placedLoop (some (.text o)) key (placedTexts r) with
        | .error _ => none
        | .ok ps => some ps

/-- `getMetadata(objectId)`: the answer, and the graph after it, which is written also when the answer is an error at the end (local.py 470). -/
def getMetadataG (order : Order) (g : Graph) (r : RootV) (objectId : Option Str) : Except PyErr Obj × Graph :=
  (getMetadata (withLangs order g r) objectId,
    match metaFound r objectId with
    | none => g
    | some ps => metaGraph order g ps)

end Verif.Model
