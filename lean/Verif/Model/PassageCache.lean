import Verif.Model.Siblings
/-!
Local texts and passages with what they remember: `_childIds` of texts (MyCapytain/resources/prototypes/text.py 325-355), `_children` and
`_prev_next` of passages (MyCapytain/resources/texts/local/capitains/cts.py 312-446, 549-702). The same object is asked again and again,
while the document of its text may change.
-/
namespace Verif.Model
open Verif.Py

/-- What an object remembers: `_children` (`_childIds` for a text) and `_prev_next`; cts.py 340-344, 560-569, prototypes/text.py 327-333. -/
structure Memory where
  children : Option RefSet := none
  prevNext : Option (Option Ref × Option Ref) := none

/-- What the properties of an object would compute at this time: an answer or an error that is given before the memory is looked at, and
the references that would be listed. -/
structure Live where
  childrenFirst : Option (Except PyErr RefSet)
  list : Except PyErr RefSet
  siblingsFirst : Option PyErr
  siblings : Except PyErr (Option Ref × Option Ref)

/-- `childIds`: cts.py 358-371, 576-590, prototypes/text.py 325-333. -/
def Memory.childIds (v : Live) (m : Memory) : Memory × Except PyErr RefSet :=
  match v.childrenFirst with
  | some r => (m, r)
  | none =>
    match m.children with
    | some l => (m, .ok l)
    | none =>
      match v.list with
      | .error e => (m, .error e)
      | .ok l => ({ m with children := some l }, .ok l)

/-- `siblingsId`: cts.py 415-446, 619-674. -/
def Memory.siblingsId (v : Live) (m : Memory) : Memory × Except PyErr (Option Ref × Option Ref) :=
  match v.siblingsFirst with
  | some e => (m, .error e)
  | none =>
    match m.prevNext with
    | some s => (m, .ok s)
    | none =>
      match v.siblings with
      | .error e => (m, .error e)
      | .ok s => ({ m with prevNext := some s }, .ok s)

/-- `nextId`: cts.py 396-403, 592-599. -/
def Memory.nextId (v : Live) (m : Memory) : Memory × Except PyErr (Option Ref) :=
  match m.siblingsId v with
  | (m, .error e) => (m, .error e)
  | (m, .ok s) => (m, .ok s.2)

/-- `prevId`: cts.py 405-412, 601-608. -/
def Memory.prevId (v : Live) (m : Memory) : Memory × Except PyErr (Option Ref) :=
  match m.siblingsId v with
  | (m, .error e) => (m, .error e)
  | (m, .ok s) => (m, .ok s.1)

/-- `firstId`, which reads `childIds` three times: prototypes/text.py 335-344. -/
def Memory.firstId (v : Live) (m : Memory) : Memory × Except PyErr (Option Ref) :=
  match m.childIds v with
  | (m, .error e) => (m, .error e)
  | (m, .ok _) =>
    match m.childIds v with
    | (m, .error e) => (m, .error e)
    | (m, .ok l) =>
      if l.length > 0 then
        match m.childIds v with
        | (m, .error e) => (m, .error e)
        | (m, .ok []) => (m, .error .indexError)
        | (m, .ok (r :: _)) => (m, .ok r)
      else (m, .ok none)

/-- `lastId`, which reads `childIds` three times: prototypes/text.py 346-355. -/
def Memory.lastId (v : Live) (m : Memory) : Memory × Except PyErr (Option Ref) :=
  match m.childIds v with
  | (m, .error e) => (m, .error e)
  | (m, .ok _) =>
    match m.childIds v with
    | (m, .error e) => (m, .error e)
    | (m, .ok l) =>
      if l.length > 0 then
        match m.childIds v with
        | (m, .error e) => (m, .error e)
        | (m, .ok l) =>
          match pyGet l (-1) with
          | none => (m, .error .indexError)
          | some r => (m, .ok r)
      else (m, .ok none)

/-! ### The three classes -/

/-- What a `CapitainsCtsPassage` computes: cts.py 576-590, 610-674. -/
def Passage.live (t : LocalText) (p : Passage) : Live where
  childrenFirst :=
    if pdepth p.ref.start ≠ pdepth (p.ref.stop.getD p.ref.start) then some (.error .invalidSibling)
    else if pdepth p.ref.start ≥ t.decls.length then some (.ok [])
    else none
  list := p.getReffs t 1
  siblingsFirst := if pdepth p.ref.start ≠ pdepth (p.ref.stop.getD p.ref.start) then some .invalidSibling else none
  siblings :=
    match p.src.getReffs t (pdepth p.ref.start) with
    | .error e => .error e
    | .ok l =>
      match p.ref.stop with
      | none => siblingsOf l p.ref.start p.ref.start 1
      | some e =>
        match p.getReffs t 0 with
        | .error e => .error e
        | .ok inside => siblingsOf l p.ref.start e inside.length

/-- A text: prototypes/text.py 325-333, cts.py 156-173. A text has no attribute `siblingsId`. -/
def LocalText.live (t : LocalText) : Live where
  childrenFirst := none
  list := getValidReff t (some 1) none
  siblingsFirst := some .attributeError
  siblings := .ok (none, none)

/-- A passage that was retrieved with `simple=True` and a reference, with its depth, which is set once: cts.py 327-356. -/
structure SimpleObj where
  ref : Ref
  depth : Nat
  memory : Memory := {}

/-- `_SimplePassage(reference=r, …)`: cts.py 328-340. -/
def newSimple (r : Ref) : SimpleObj := { ref := r, depth := r.depth }

/-- `passage.reference = value`: cts.py 351-353. -/
def SimpleObj.setReference (s : SimpleObj) (r : Ref) : SimpleObj := { s with ref := r }

/-- `siblingsId` of a simple passage with this depth: cts.py 423-446. -/
def simpleSiblingsAt (t : LocalText) (depth : Nat) (r : Ref) : Except PyErr (Option Ref × Option Ref) :=
  match getValidReff t (some depth) none with
  | .error e => .error e
  | .ok l =>
    match (if r.isRange then List.length <$> getValidReff t (some (1 + depth)) (some r) else .ok 1) with
    | .error e => .error e
    | .ok len =>
      match RefSet.index l r.start with
      | .error e => .error e
      | .ok i =>
        match (if i = 0 then .ok none else if (i : Int) - len < 0 then tupleAt l 0 else tupleAt l (i - 1)) with
        | .error e => .error e
        | .ok p =>
          match (if i + 1 = l.length then .ok none
              else if i + len > l.length then tupleAt l (-1) else tupleAt l (i + 1)) with
          | .error e => .error e
          | .ok n => .ok (p, n)

/-- What a simple passage computes: cts.py 358-384, 415-446. -/
def SimpleObj.live (t : LocalText) (s : SimpleObj) : Live where
  childrenFirst := if s.depth ≥ t.decls.length then some (.ok []) else none
  list := getValidReff t (some (1 + s.depth)) (some s.ref)
  siblingsFirst := none
  siblings := simpleSiblingsAt t s.depth s.ref

/-- A `CapitainsCtsPassage` with its memory. -/
structure PassageObj where
  passage : Passage
  memory : Memory := {}

/-- `passage.next`, which reads `nextId` twice: cts.py 676-681. -/
def PassageObj.next (t : LocalText) (o : PassageObj) : PassageObj × Except PyErr (Option Passage) :=
  match o.memory.nextId (o.passage.live t) with
  | (m, .error e) => ({ o with memory := m }, .error e)
  | (m, .ok none) => ({ o with memory := m }, .ok none)
  | (m, .ok (some _)) =>
    match m.nextId (o.passage.live t) with
    | (m, .error e) => ({ o with memory := m }, .error e)
    | (m, .ok none) => ({ o with memory := m }, .ok none)
    | (m, .ok (some r)) => ({ o with memory := m }, some <$> o.passage.step t r)

/-- `passage.prev`, which reads `prevId` twice: cts.py 683-688. -/
def PassageObj.prev (t : LocalText) (o : PassageObj) : PassageObj × Except PyErr (Option Passage) :=
  match o.memory.prevId (o.passage.live t) with
  | (m, .error e) => ({ o with memory := m }, .error e)
  | (m, .ok none) => ({ o with memory := m }, .ok none)
  | (m, .ok (some _)) =>
    match m.prevId (o.passage.live t) with
    | (m, .error e) => ({ o with memory := m }, .error e)
    | (m, .ok none) => ({ o with memory := m }, .ok none)
    | (m, .ok (some r)) => ({ o with memory := m }, some <$> o.passage.step t r)

/-- `passage.first`, which reads `firstId` twice: prototypes/text.py 309-315, cts.py 690-695. -/
def PassageObj.first (t : LocalText) (o : PassageObj) : PassageObj × Except PyErr (Option Passage) :=
  match o.memory.firstId (o.passage.live t) with
  | (m, .error e) => ({ o with memory := m }, .error e)
  | (m, .ok none) => ({ o with memory := m }, .ok none)
  | (m, .ok (some _)) =>
    match m.firstId (o.passage.live t) with
    | (m, .error e) => ({ o with memory := m }, .error e)
    | (m, .ok none) => ({ o with memory := m }, .ok none)
    | (m, .ok (some r)) => ({ o with memory := m }, some <$> o.passage.getTextualNode t r)

/-- `passage.last`, which reads `lastId` twice: prototypes/text.py 317-323, cts.py 690-695. -/
def PassageObj.last (t : LocalText) (o : PassageObj) : PassageObj × Except PyErr (Option Passage) :=
  match o.memory.lastId (o.passage.live t) with
  | (m, .error e) => ({ o with memory := m }, .error e)
  | (m, .ok none) => ({ o with memory := m }, .ok none)
  | (m, .ok (some _)) =>
    match m.lastId (o.passage.live t) with
    | (m, .error e) => ({ o with memory := m }, .error e)
    | (m, .ok none) => ({ o with memory := m }, .ok none)
    | (m, .ok (some r)) => ({ o with memory := m }, some <$> o.passage.getTextualNode t r)

end Verif.Model
