import Verif.Py.Str
/-!
Copies of citation schemes: `copy.copy` and `copy.deepcopy` (and so `pickle`) of the citations of common/reference/_base.py 12-312 and
_capitains_cts.py 660-850, whose pickling methods (_base.py 136-145) give a copy of the `__dict__` and put it in the new object.

Citations are objects that point to each other: to their children, and to the root of their scheme, which points back. `deepcopy` notes the new
object in its memo before it goes through the `__dict__` of the old one, and takes from the memo what it meets again.
-/
namespace Verif.Model
open Verif.Py

/-- A citation: `_name`, `_Citation__refsDecl`, `_children`, `_root` (_base.py 22, 204-205, _capitains_cts.py 696). The list `_children` is taken to
belong to its citation. -/
structure CitObj where
  name : Option Str
  refsDecl : Option Str
  children : List Nat
  root : Option Nat
  deriving DecidableEq, Repr

/-- The citations there are; where a citation stands is its identity. -/
abbrev CitObjs := List CitObj

/-- `citation.root`: _base.py 225-234. -/
def citRoot (h : CitObjs) (x : Nat) : Option Nat :=
  match h[x]? with
  | none => none
  | some n =>
    match n.root with
    | none => some x
    | some r => some r

/-- The iterations of several citations, one after the other; `none` when one does not end. -/
def citIterAll (one : Nat → Option (List Nat)) : List Nat → Option (List Nat)
  | [] => some []
  | c :: r =>
    match one c, citIterAll one r with
    | some l, some l' => some (l ++ l')
    | _, _ => none

/-- `iter(citation)`: _base.py 259-274; the bound is on the depth, and `none` says that it was not enough. -/
def citIter : Nat → CitObjs → Nat → Option (List Nat)
  | 0, _, _ => none
  | f + 1, h, x =>
    match h[x]? with
    | none => none
    | some n =>
      match citIterAll (citIter f h) n.children with
      | none => none
      | some l => some (x :: l)

/-- `citation.match(passageId)` for a reference of depth `d + 1`: _capitains_cts.py 802-805, 815-826. -/
def citMatch (f : Nat) (h : CitObjs) (x d : Nat) : Option (Except PyErr Nat) :=
  match citRoot h x with
  | none => none
  | some r =>
    match citIter f h r with
    | none => none
    | some l =>
      match l[d]? with
      | none => some (.error .keyError)
      | some c => some (.ok c)

/-- What `deepcopy` works on: the citations, and its memo, from old to new. -/
structure Copier where
  heap : CitObjs
  memo : List (Nat × Nat)

/-- A new object before `__setstate__`. -/
def blankCit : CitObj := ⟨none, none, [], none⟩

/-- `deepcopy` of a list of citations. -/
def deepAll (one : Copier → Nat → Option (Copier × Nat)) : Copier → List Nat → Option (Copier × List Nat)
  | s, [] => some (s, [])
  | s, c :: r =>
    match one s c with
    | none => none
    | some (s1, c') =>
      match deepAll one s1 r with
      | none => none
      | some (s2, r') => some (s2, c' :: r')

/-- `deepcopy` of `_root`. -/
def deepRoot (one : Copier → Nat → Option (Copier × Nat)) (s : Copier) : Option Nat → Option (Copier × Option Nat)
  | none => some (s, none)
  | some r =>
    match one s r with
    | none => none
    | some (s', r') => some (s', some r')

/-- `deepcopy(citation, memo)`: the memo is looked at; a new object is made and noted; the `__dict__` is copied, `_children` first and then `_root`
(_base.py 136-145, the order of 22 and 204-205); `__setstate__` puts it in the new object. The bound is on the nesting of calls. -/
def deepCit : Nat → Copier → Nat → Option (Copier × Nat)
  | 0, _, _ => none
  | f + 1, s, x =>
    match s.memo.lookup x with
    | some y => some (s, y)
    | none =>
      match s.heap[x]? with
      | none => none
      | some n =>
        match deepAll (deepCit f) ⟨s.heap ++ [blankCit], (x, s.heap.length) :: s.memo⟩ n.children with
        | none => none
        | some (s1, cs) =>
          match deepRoot (deepCit f) s1 n.root with
          | none => none
          | some (s2, r) => some (⟨s2.heap.set s.heap.length { n with children := cs, root := r }, s2.memo⟩, s.heap.length)

/-- `copy.deepcopy(citation)`. -/
def deepCopyCit (f : Nat) (h : CitObjs) (x : Nat) : Option (CitObjs × Nat) :=
  match deepCit f ⟨h, []⟩ x with
  | none => none
  | some (s, y) => some (s.heap, y)

/-- `copy.copy(citation)`. -/
def copyCit (h : CitObjs) (x : Nat) : Option (CitObjs × Nat) :=
  match h[x]? with
  | none => none
  | some n => some (h ++ [n], h.length)

end Verif.Model
