import Verif.Model.LocalText
/-!
Navigation between passages of a local text: MyCapytain/resources/texts/local/capitains/cts.py 312-703 and
MyCapytain/resources/prototypes/text.py 280-355.
-/
namespace Verif.Model
open Verif.Py

/-- What a passage has as `_text`: the text itself or the passage it was reached from. A passage keeps its
reference, its tree and its own `_text` (cts.py 549-568). The reference is that of the passage's URN, which
is read back from the same string (cts.py 556-558). -/
inductive Src where
  | text
  | passage (ref : Ref) (tree : Node) (src : Src)

/-- `_text.xml`. -/
def Src.tree (t : LocalText) : Src → Node
  | .text => t.root
  | .passage _ tree _ => tree

/-- A `CapitainsCtsPassage`. -/
structure Passage where
  ref : Ref
  tree : Node
  src : Src

/-- The passage as `_text` of another one. -/
def Passage.asSrc (p : Passage) : Src := .passage p.ref p.tree p.src

/-- What the methods of a passage read: its citation scheme is that of the text, its tree that of `_text`
(cts.py 89, 190, 697-703). -/
def Src.view (t : LocalText) (s : Src) : LocalText := { t with root := s.tree t }

/-- `text.getTextualNode(r)`: cts.py 103-109. -/
def textPassage (t : LocalText) (r : Ref) : Except PyErr Passage :=
  match getTextualNode t r with
  | .error e => .error e
  | .ok tree => .ok ⟨r, tree, .text⟩

/-- `passage.getTextualNode(r)`: cts.py 690-695. The new passage gets the `_text` of the old one. -/
def Passage.getTextualNode (t : LocalText) (p : Passage) (r : Ref) : Except PyErr Passage :=
  match Model.getTextualNode (p.src.view t) r with
  | .error e => .error e
  | .ok tree => .ok ⟨r, tree, p.src⟩

/-- `_SharedMethods.getTextualNode` called on a passage through `super`: cts.py 103-109, 676-688. The new
passage gets the old one as `_text`. -/
def Passage.step (t : LocalText) (p : Passage) (r : Ref) : Except PyErr Passage :=
  match Model.getTextualNode (p.src.view t) r with
  | .error e => .error e
  | .ok tree => .ok ⟨r, tree, p.asSrc⟩

/-- `_text.getReffs(level)`: cts.py 156-173. A passage as `_text` has a reference, a text has none. -/
def Src.getReffs (t : LocalText) (level : Int) : Src → Except PyErr RefSet
  | .text => getValidReff t (some level) none
  | .passage r _ src => getValidReff (src.view t) (some level) (some r)

/-- `passage.getReffs(level)`: cts.py 156-173. -/
def Passage.getReffs (t : LocalText) (p : Passage) (level : Int) : Except PyErr RefSet :=
  getValidReff (p.src.view t) (some level) (some p.ref)

/-- `refs[i]` of a tuple. -/
def tupleAt (l : RefSet) (i : Int) : Except PyErr (Option Ref) :=
  match pyGet l i with
  | some x => .ok x
  | none => .error .indexError

/-- `"{}".format(x)` for an element of a set of references. -/
def refText : Option Ref → Str
  | none => ['N', 'o', 'n', 'e']
  | some r => r.str

/-- What `siblingsId` hands to `CtsReference`: `None`, an element of the set, or a string. -/
inductive SibArg where
  | none
  | item (r : Option Ref)
  | text (s : Str)

/-- `CtsReference(x)`: _capitains_cts.py 135-172. -/
def SibArg.make : SibArg → Except PyErr (Option Ref)
  | .none => .ok Option.none
  | .item Option.none => .ok Option.none
  | .item (some r) => .ok (some (refeed r))
  | .text s => mkRef s

/-- An element of the set as argument. -/
def itemAt (l : RefSet) (i : Int) : Except PyErr SibArg :=
  match tupleAt l i with
  | .error e => .error e
  | .ok r => .ok (.item r)

/-- `"{}-{}".format(refs[i], refs[j])` as argument. -/
def pairAt (l : RefSet) (i j : Int) : Except PyErr SibArg :=
  match tupleAt l i with
  | .error e => .error e
  | .ok a =>
    match tupleAt l j with
    | .error e => .error e
    | .ok b => .ok (.text (refText a ++ ['-'] ++ refText b))

/-- The previous passage: cts.py 645-657. -/
def prevArg (l : RefSet) (start stop len : Int) : Except PyErr SibArg :=
  if start = 0 then .ok .none
  else if start - len < 0 then
    if start = stop then itemAt l 0 else pairAt l 0 (start - 1)
  else
    if start = stop then itemAt l (start - 1) else pairAt l (start - len) (start - 1)

/-- The next passage: cts.py 659-671. -/
def nextArg (l : RefSet) (start stop len : Int) : Except PyErr SibArg :=
  if start + 1 = l.length ∨ stop + 1 = l.length then .ok .none
  else if stop + len ≥ l.length then
    if start = stop then itemAt l (-1) else pairAt l (stop + 1) (-1)
  else
    if start = stop then itemAt l (stop + 1) else pairAt l (stop + 1) (stop + len)

/-- Both references: cts.py 642-673. -/
def siblingsOf (l : RefSet) (start stop : Str) (len : Int) : Except PyErr (Option Ref × Option Ref) :=
  match l.index start with
  | .error e => .error e
  | .ok i =>
    match l.index stop with
    | .error e => .error e
    | .ok j =>
      match prevArg l i j len with
      | .error e => .error e
      | .ok p =>
        match nextArg l i j len with
        | .error e => .error e
        | .ok n =>
          match p.make with
          | .error e => .error e
          | .ok p =>
            match n.make with
            | .error e => .error e
            | .ok n => .ok (p, n)

/-- `passage.siblingsId`: cts.py 620-674. The cache `_prev_next` holds what this computes. -/
def Passage.siblingsId (t : LocalText) (p : Passage) : Except PyErr (Option Ref × Option Ref) :=
  if pdepth p.ref.start ≠ pdepth (p.ref.stop.getD p.ref.start) then .error .invalidSibling
  else match p.src.getReffs t (pdepth p.ref.start) with
    | .error e => .error e
    | .ok l =>
      match p.ref.stop with
      | none => siblingsOf l p.ref.start p.ref.start 1
      | some e =>
        match p.getReffs t 0 with
        | .error e => .error e
        | .ok inside => siblingsOf l p.ref.start e inside.length

/-- `passage.next`: cts.py 676-681. -/
def Passage.next (t : LocalText) (p : Passage) : Except PyErr (Option Passage) :=
  match p.siblingsId t with
  | .error e => .error e
  | .ok (_, none) => .ok none
  | .ok (_, some r) => some <$> p.step t r

/-- `passage.prev`: cts.py 683-688. -/
def Passage.prev (t : LocalText) (p : Passage) : Except PyErr (Option Passage) :=
  match p.siblingsId t with
  | .error e => .error e
  | .ok (none, _) => .ok none
  | .ok (some r, _) => some <$> p.step t r

/-- `passage.childIds`: cts.py 576-590. -/
def Passage.childIds (t : LocalText) (p : Passage) : Except PyErr RefSet :=
  if pdepth p.ref.start ≠ pdepth (p.ref.stop.getD p.ref.start) then .error .invalidSibling
  else if pdepth p.ref.start ≥ t.decls.length then .ok []
  else p.getReffs t 1

/-- `passage.firstId`: prototypes/text.py 335-344. -/
def Passage.firstId (t : LocalText) (p : Passage) : Except PyErr (Option Ref) :=
  match p.childIds t with
  | .error e => .error e
  | .ok [] => .ok none
  | .ok (r :: _) => .ok r

/-- `passage.lastId`: prototypes/text.py 346-355. -/
def Passage.lastId (t : LocalText) (p : Passage) : Except PyErr (Option Ref) :=
  match p.childIds t with
  | .error e => .error e
  | .ok l => .ok (l.getLast?.getD none)

/-! ### Simple passages (cts.py 312-447) -/

/-- `siblingsId` of a passage retrieved with `simple=True`: cts.py 409-446. -/
def simpleSiblings (t : LocalText) (r : Ref) : Except PyErr (Option Ref × Option Ref) :=
  match getValidReff t (some r.depth) none with
  | .error e => .error e
  | .ok l =>
    match (if r.isRange then List.length <$> getValidReff t (some (1 + r.depth)) (some r) else .ok 1) with
    | .error e => .error e
    | .ok len =>
      match RefSet.index l r.start with
      | .error e => .error e
      | .ok i =>
        match (if i = 0 then .ok none else if (i : Int) - len < 0 then tupleAt l 0 else tupleAt l (i - 1)) with
        | .error e => .error e
        | .ok p =>
          match (if i + 1 = l.length then .ok none
              else if i + len > l.length then tupleAt l (-1) else tupleAt l (i + 1)) with
          | .error e => .error e
          | .ok n => .ok (p, n)

end Verif.Model
