import Verif.Model.Reference
/-!
Objects of the library as keys of dictionaries and as elements of Python sets: what `==` answers between objects of different
classes, which objects have a hash, and what a `dict` does with them.

common/reference/_base.py 313-326 (`BaseReference`, a subclass of `tuple` with the equality and hash of tuples), _capitains_cts.py
62-110 (`CtsSinglePassageId`, a subclass of `str` with those of strings), 113-172 (`CtsReference`), 485-497 (`URN.__eq__`), _dts_1.py
35-38 (`DtsReference.__eq__`), 52-56 (`DtsReferenceSet.__eq__`), resources/prototypes/cts/inventory.py 59-64
(`PrototypeCtsCollection.__eq__`). A class that defines `__eq__` and not `__hash__` has no hash: `hash(x)` raises `TypeError`.
-/
namespace Verif.Model
open Verif.Py

/-- The subclasses of `tuple` that pairs of start and end may have. -/
inductive TupCls where
  | plain
  | base
  | cts
  | dts
  deriving DecidableEq, Repr

/-- Objects. Strings and `CtsSinglePassageId` are not told apart by `==` nor by `hash`. A tuple has its elements, strings or `None`, and,
when it is a DTS reference, its type (as in C81). A URN is the object with that text; a CTS collection has the text of its URN. -/
inductive KeyObj where
  | none
  | str (s : Str)
  | tup (cls : TupCls) (items : List (Option Str)) (type : Option Str)
  | urn (text : Str)
  | coll (ident : Nat) (urn : Str)
  deriving DecidableEq, Repr

/-- The object that a CTS reference is. Its text, `_str_repr`, takes no part in `==` or `hash`. -/
def Ref.key (r : Ref) : KeyObj := .tup .cts [some r.start, r.stop] none

/-- `c` is `d` or a subclass of it. -/
def TupCls.under : TupCls → TupCls → Bool
  | _, .plain => true
  | .base, .base | .cts, .base | .dts, .base => true
  | .cts, .cts => true
  | .dts, .dts => true
  | _, _ => false

/-- `a.__eq__(b)`; `none` stands for `NotImplemented`. -/
def dunderEq : KeyObj → KeyObj → Option Bool
  | .none, .none => some true
  | .none, _ => Option.none
  | .str s, .str t => some (s = t)
  | .str _, _ => Option.none
  | .tup .dts l x, .tup c m y => some (decide (l = m) && (c.under .dts && decide (x = y)))
  | .tup .dts _ _, _ => some false
  | .tup _ l _, .tup _ m _ => some (l = m)
  | .tup _ _ _, _ => Option.none
  | .urn s, .urn t => some (s = t)
  | .urn _, _ => some false
  | .coll i s, .coll j t => some (i = j || s = t)
  | .coll _ _, _ => some false

/-- `type(b)` is a proper subclass of `type(a)`. Such a `b` is asked first. -/
def rightFirst : KeyObj → KeyObj → Bool
  | .tup c _ _, .tup d _ _ => d.under c && c ≠ d
  | _, _ => false

/-- `a == b`, when `a` and `b` are not found identical before. -/
def keyEq (a b : KeyObj) : Bool :=
  let first := if rightFirst a b then dunderEq b a else dunderEq a b
  let second := if rightFirst a b then dunderEq a b else dunderEq b a
  match first with
  | some r => r
  | none =>
    match second with
    | some r => r
    | none => false

/-- `hash(a)`, for any hash function of strings and of tuples of strings and `None`. -/
def keyHash (hs : Str → Nat) (ht : List (Option Str) → Nat) : KeyObj → Except PyErr Nat
  | .none => .ok 0
  | .str s => .ok (hs s)
  | .tup .dts _ _ => .error .typeError
  | .tup _ l _ => .ok (ht l)
  | .urn _ => .error .typeError
  | .coll _ _ => .error .typeError

/-- A `dict`: its entries in the order in which they were made, with the hashes of their keys. -/
abbrev KeyDict (α : Type) := List (Nat × KeyObj × α)

/-- The entry where the key is: the same hash, and equal to the key that is there. -/
def KeyDict.hit {α : Type} (h : Nat) (k : KeyObj) (e : Nat × KeyObj × α) : Bool := e.1 == h && keyEq e.2.1 k

/-- `d[k] = v`: an entry that is there keeps its key and place. -/
def KeyDict.store {α : Type} (d : KeyDict α) (h : Nat) (k : KeyObj) (v : α) : KeyDict α :=
  match d with
  | [] => [(h, k, v)]
  | e :: r => if KeyDict.hit h k e then (e.1, e.2.1, v) :: r else e :: KeyDict.store r h k v

/-- The value of the entry. -/
def KeyDict.find {α : Type} (d : KeyDict α) (h : Nat) (k : KeyObj) : Option α :=
  match d with
  | [] => Option.none
  | e :: r => if KeyDict.hit h k e then some e.2.2 else KeyDict.find r h k

/-- The dictionary without the entry. -/
def KeyDict.drop {α : Type} (d : KeyDict α) (h : Nat) (k : KeyObj) : KeyDict α :=
  match d with
  | [] => []
  | e :: r => if KeyDict.hit h k e then r else e :: KeyDict.drop r h k

/-- Statements of a program: `d[k] = v` and `del d[k]`. -/
inductive DictOp (α : Type) where
  | put (k : KeyObj) (v : α)
  | del (k : KeyObj)

/-- One statement; one that raises leaves the dictionary as it was. -/
def dictStep {α : Type} (hs : Str → Nat) (ht : List (Option Str) → Nat) (d : KeyDict α) : DictOp α → Except PyErr (KeyDict α)
  | .put k v =>
    match keyHash hs ht k with
    | .error e => .error e
    | .ok h => .ok (d.store h k v)
  | .del k =>
    match keyHash hs ht k with
    | .error e => .error e
    | .ok h => if (d.find h k).isSome then .ok (d.drop h k) else .error .keyError

/-- A program that goes on after errors. -/
def dictRun {α : Type} (hs : Str → Nat) (ht : List (Option Str) → Nat) (d : KeyDict α) : List (DictOp α) → KeyDict α
  | [] => d
  | op :: r =>
    match dictStep hs ht d op with
    | .error _ => dictRun hs ht d r
    | .ok d' => dictRun hs ht d' r

/-- `d[k]`. -/
def dictGet {α : Type} (hs : Str → Nat) (ht : List (Option Str) → Nat) (d : KeyDict α) (k : KeyObj) : Except PyErr α :=
  match keyHash hs ht k with
  | .error e => .error e
  | .ok h =>
    match d.find h k with
    | none => .error .keyError
    | some v => .ok v

/-- `len(set(l))`: the elements are put one after the other. -/
def setOf (hs : Str → Nat) (ht : List (Option Str) → Nat) : KeyDict Unit → List KeyObj → Except PyErr (KeyDict Unit)
  | d, [] => .ok d
  | d, k :: r =>
    match dictStep hs ht d (.put k ()) with
    | .error e => .error e
    | .ok d' => setOf hs ht d' r

end Verif.Model
