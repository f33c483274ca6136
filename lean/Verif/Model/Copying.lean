import Verif.Model.Reference
/-!
Copies of references and of sets of references: `copy.copy`, `copy.deepcopy` and `pickle` (protocol 2 and above, so the default) of the
classes of common/reference/_base.py 313-388, _capitains_cts.py 113-172 and _dts_1.py 11-23.

Python copies an object of a subclass of `tuple` by calling `cls.__new__(cls, tuple(obj))`, which is what `tuple.__getnewargs__` says, and
then updating the `__dict__` of the new object with that of the old one. `deepcopy` and `pickle` do the same with copies of the
elements.
-/
namespace Verif.Model
open Verif.Py

/-- What the tuple of a reference may hold: `None`, a `str` or `CtsSinglePassageId`, a plain tuple. -/
inductive Item where
  | none
  | str (t : TStr)
  | tup (l : List Item)
  deriving Repr

/-- `BaseReference`, `CtsReference`, `DtsReference`. -/
inductive RefCls where
  | base
  | cts
  | dts
  deriving DecidableEq, Repr

/-- A reference: its class, its tuple, and its `__dict__`: `_str_repr` of CTS references, `_metadata` (an object) of DTS references. -/
structure RefObj where
  cls : RefCls
  items : List Item
  repr : Option Str
  info : Option Nat
  deriving Repr

/-- The tuple that `BaseReference.__new__` makes: _base.py 320-326. -/
def baseItems : List Item → List Item
  | [.tup l] => [.tup l]
  | [x] => [x, .none]
  | xs => xs

/-- A `CtsReference` as an object. -/
def refObj (r : Ref) : RefObj :=
  ⟨.cts, [.str ⟨r.start, true⟩, match r.stop with | none => .none | some e => .str ⟨e, true⟩], some r.repr, none⟩

/-- `CtsReference.__new__`: _capitains_cts.py 135-172. Tuples whose elements are neither strings nor `None` end in `TypeError`, from `join`;
a tuple that begins with `None` is not modelled (also `TypeError` here). -/
def newCts : List Item → Except PyErr (Option RefObj)
  | [] => .error .valueError
  | [.str a, .str b] => .ok (some (refObj (mkRef2 a.val b.val)))
  | [_, _] => .error .typeError
  | x :: _ =>
    match x with
    | .none => .ok none
    | .str t =>
      if !t.truthy then .ok none
      else if '-' ∉ t.val then .ok (some (refObj ⟨t.val, none, t.val⟩))
      else match split '-' t.val with
        | [a, b] => .ok (some (refObj ⟨a, some b, t.val⟩))
        | _ => .error .valueError
    | .tup [] => .ok none
    | .tup [_] => .error .indexError
    | .tup [.str a, .none] => .ok (some (refObj (mkRefTuple a none)))
    | .tup [.str a, .str b] => .ok (some (refObj (mkRefTuple a (some b))))
    | .tup _ => .error .typeError

/-- `cls.__new__(cls, *args)`; `fresh` is the metadata object that a DTS reference makes: _dts_1.py 12-21. -/
def makeRef (fresh : Nat) (cls : RefCls) (args : List Item) : Except PyErr (Option RefObj) :=
  match cls with
  | .base => .ok (some ⟨.base, baseItems args, none, none⟩)
  | .dts => .ok (some ⟨.dts, baseItems args, none, some fresh⟩)
  | .cts => newCts args

/-- `obj.__dict__.update(state)`. -/
def RefObj.update (y : RefObj) (repr : Option Str) (info : Option Nat) : RefObj :=
  { y with repr := repr.or y.repr, info := info.or y.info }

/-- `copy.copy(ref)`, and with `dup` for the copying of metadata objects `copy.deepcopy(ref)` and `pickle.loads(pickle.dumps(ref))`. -/
def copyRef (fresh : Nat) (dup : Nat → Nat) (r : RefObj) : Except PyErr (Option RefObj) :=
  match makeRef fresh r.cls [.tup r.items] with
  | .error e => .error e
  | .ok none => if r.repr.isNone && r.info.isNone then .ok none else .error .attributeError
  | .ok (some y) => .ok (some (y.update r.repr (r.info.map dup)))

/-- `ref.start`: _base.py 331-336. -/
def RefObj.start (r : RefObj) : Except PyErr Item :=
  match r.items[0]? with
  | none => .error .indexError
  | some x => .ok x

/-- `ref.end`: _base.py 338-342. -/
def RefObj.stop (r : RefObj) : Except PyErr Item :=
  match r.items[1]? with
  | none => .error .indexError
  | some x => .ok x

/-- `bool(item)`. -/
def Item.truthy : Item → Bool
  | .none => false
  | .str t => t.truthy
  | .tup l => !l.isEmpty

/-- `ref.is_range()`: _base.py 328-329. -/
def RefObj.isRange (r : RefObj) : Except PyErr Bool :=
  match r.items[1]? with
  | none => .error .indexError
  | some x => .ok x.truthy

/-- What a set of references may hold: references, or, when one reference was taken apart, parts. -/
inductive Member where
  | ref (r : RefObj)
  | item (i : Item)
  deriving Repr

/-- A set of references with its `__dict__`: _base.py 353-388. `CtsReferenceSet` and `DtsReferenceSet` make objects as this class does. -/
structure RefSetObj where
  members : List Member
  level : Int
  citation : Option Nat
  deriving Repr

/-- `BaseReferenceSet.__new__(cls, t)` for a plain tuple: _base.py 353-362. -/
def newSet (t : List Member) : RefSetObj := ⟨t, 1, none⟩

/-- `copy.copy(refs)`: the elements are the same objects. -/
def copySet (s : RefSetObj) : RefSetObj := { newSet s.members with level := s.level, citation := s.citation }

/-- The copy of an element. -/
def copyMember (fresh : Nat) (dup : Nat → Nat) : Member → Except PyErr Member
  | .item i => .ok (.item i)
  | .ref r =>
    match copyRef fresh dup r with
    | .error e => .error e
    | .ok none => .ok (.item .none)
    | .ok (some y) => .ok (.ref y)

/-- The copies of the elements, in order. -/
def copyMembers (fresh : Nat) (dup : Nat → Nat) : List Member → Except PyErr (List Member)
  | [] => .ok []
  | m :: r =>
    match copyMember fresh dup m with
    | .error e => .error e
    | .ok m' =>
      match copyMembers fresh dup r with
      | .error e => .error e
      | .ok r' => .ok (m' :: r')

/-- `copy.deepcopy(refs)` and `pickle.loads(pickle.dumps(refs))`; `dupCite` copies the citation. -/
def deepCopySet (fresh : Nat) (dup dupCite : Nat → Nat) (s : RefSetObj) : Except PyErr RefSetObj :=
  match copyMembers fresh dup s.members with
  | .error e => .error e
  | .ok ms => .ok { newSet ms with level := s.level, citation := s.citation.map dupCite }

end Verif.Model
