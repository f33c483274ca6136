import Verif.Model.Metadata
/-!
Equality and membership of DTS references, sets of references and citations:
MyCapytain/common/reference/_dts_1.py 11-73, _base.py 315-387.

The type of a reference is kept in the shared graph under the node of its metadata. Sets of citations have no equality of
their own, so that they are compared by identity.
-/
namespace Verif.Model
open Verif.Py

/-- `RDF_NAMESPACES.DTS.term("citeType")`: _dts_1.py 31. -/
def pCiteType : Term := .uri ['h', 't', 't', 'p', 's', ':', '/', '/', 'w', '3', 'i', 'd', '.', 'o', 'r', 'g', '/', 'd', 't', 's', '/', 'a', 'p', 'i', '#', 'c', 'i', 't', 'e', 'T', 'y', 'p', 'e']

/-- A `DtsReference`: the pair of its start and end, and the node of its metadata (_dts_1.py 11-21, _base.py 322-328). -/
structure DRef where
  start : Str
  stop : Option Str
  node : Term
  deriving DecidableEq, Repr

/-- What a reference may be compared with: another one, a pair that is not a `DtsReference`, a string. -/
inductive RefVal where
  | dts (r : DRef)
  | pair (start : Str) (stop : Option Str)
  | str (s : Str)
  deriving DecidableEq, Repr

/-- `reference.type`: _dts_1.py 27-29. -/
def typeOfRef (order : Order) (g : Graph) (r : DRef) : Option Term := (g.objects order r.node pCiteType).head?

/-- `reference.type = value`: _dts_1.py 31-33. -/
def setRefType (g : Graph) (r : DRef) (value : Str) : Graph := metaSet g r.node pCiteType (.str value) none

/-- `DtsReference(start, end, type_=type_)` with the new node `node`: _dts_1.py 12-21. -/
def newRef (g : Graph) (node : Term) (start : Str) (stop : Option Str) (type : Option Str) : Graph × DRef :=
  let r : DRef := ⟨start, stop, node⟩
  match type with
  | some (c :: t) => (setRefType g r (c :: t), r)
  | _ => (g, r)

/-- `a == b`: _dts_1.py 35-38. When one of them is a `DtsReference` and the other one a pair, its method is called, whichever
side it is on. -/
def refEq (order : Order) (g : Graph) : RefVal → RefVal → Bool
  | .dts a, .dts b => a.start = b.start ∧ a.stop = b.stop ∧ typeOfRef order g a = typeOfRef order g b
  | .dts _, .pair .. => false
  | .pair .., .dts _ => false
  | .pair s e, .pair s' e' => s = s' ∧ e = e'
  | .str s, .str s' => s = s'
  | _, _ => false

/-- `a != b`: the method of `tuple`, which `DtsReference` does not override. -/
def refNe : RefVal → RefVal → Bool
  | .dts a, .dts b => ¬ (a.start = b.start ∧ a.stop = b.stop)
  | .dts a, .pair s e => ¬ (a.start = s ∧ a.stop = e)
  | .pair s e, .dts a => ¬ (a.start = s ∧ a.stop = e)
  | .pair s e, .pair s' e' => ¬ (s = s' ∧ e = e')
  | .str s, .str s' => ¬ s = s'
  | _, _ => true

/-- `item in references`: _dts_1.py 48-50. `DtsReference(item)` has no type; of a pair it is a tuple of one element, which
is equal to no reference. -/
def refsContain (order : Order) (g : Graph) (refs : List DRef) (item : RefVal) : Bool :=
  refs.any (fun r => refEq order g (.dts r) item) ||
    (match item with
    | .str s => refs.any fun r => r.start = s ∧ r.stop = none ∧ typeOfRef order g r = none
    | _ => false)

/-- A `DtsReferenceSet`: _base.py 358-367; the citation by its identity. -/
structure DRefSet where
  refs : List DRef
  level : Int
  citation : Option Nat
  deriving DecidableEq, Repr

/-- What a set may be compared with: another one, a `BaseReferenceSet`, another tuple, something that is not a tuple and has
no level. -/
inductive RefSetVal where
  | dts (s : DRefSet)
  | base (refs : List RefVal) (level : Int)
  | tuple (refs : List RefVal)
  | other
  deriving DecidableEq, Repr

/-- Equality of tuples. -/
def refsEq (order : Order) (g : Graph) : List RefVal → List RefVal → Bool
  | [], [] => true
  | a :: l, b :: m => refEq order g a b && refsEq order g l m
  | _, _ => false

/-- `references == other`: _dts_1.py 52-56. -/
def refSetEq (order : Order) (g : Graph) (a : DRefSet) : RefSetVal → Except PyErr Bool
  | .dts b => .ok (refsEq order g (a.refs.map .dts) (b.refs.map .dts) && a.level = b.level && a.citation = b.citation)
  | .base _ _ => .ok false
  | .tuple l => if refsEq order g (a.refs.map .dts) l then .error .attributeError else .ok false
  | .other => .error .attributeError

/-! ### Citations -/

/-- A citation or a set of citations: _base.py 22-26, 192-209; `isSet` for a set. -/
structure DCObj where
  isSet : Bool
  name : Option Str
  root : Option Nat
  children : List Nat
  deriving DecidableEq, Repr

/-- All citations and sets, by identity. -/
abbrev DCHeap := Nat → DCObj

/-- Equality of lists in Python: the lengths first, then the elements, each by identity or else by its equality. -/
def pyListEq (eq : Nat → Nat → Except PyErr Bool) : List Nat → List Nat → Except PyErr Bool
  | [], [] => .ok true
  | a :: l, b :: m =>
    if l.length ≠ m.length then .ok false
    else if a = b then pyListEq eq l m
    else
      match eq a b with
      | .error e => .error e
      | .ok false => .ok false
      | .ok true => pyListEq eq l m
  | _, _ => .ok false

/-- `a == b` for DTS citations and sets of them: _dts_1.py 63-76; sets are compared by identity. The first argument bounds
the depth of the recursion. -/
def citeEq (h : DCHeap) : Nat → Nat → Nat → Except PyErr Bool
  | 0, _, _ => .error .recursion
  | n + 1, a, b =>
    if (h a).isSet || (h b).isSet then .ok (a == b)
    else if (h a).name ≠ (h b).name then .ok false
    else
      match pyListEq (citeEq h n) (h a).children (h b).children with
      | .error e => .error e
      | .ok false => .ok false
      | .ok true =>
        match (h a).root, (h b).root with
        | some r, some r' => citeEq h n r r'
        | none, none => .ok true
        | _, _ => .ok false

end Verif.Model
