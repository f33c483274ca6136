import Verif.Spec.Merge
import Verif.Spec.Inventory
import Verif.Model.Dispatching
/-!
The library of a resolver as objects (C99): what it holds, which parents its members have, and textgroups that were read and wait to be
taken into it.
-/
namespace Verif.Spec
open Verif.Py Verif.Model

/-- A textgroup with works and texts of its own: identifiers are as `lv` says, each work has the textgroup as its parent, and each text its work. -/
structure FitsObj (lv : Levels) (s : MStore) (g : Nat) : Prop where
  cls : (s.heap g).cls = .textgroup
  level : lv.level (s.heap g).id = 2
  work : ∀ w ∈ (s.heap g).children, lv.level w.1 = 3 ∧ lv.owner w.1 = (s.heap g).id ∧ (s.heap w.2).parent = some g
  text : ∀ w ∈ (s.heap g).children, ∀ t ∈ (s.heap w.2).children, lv.level t.1 = 4 ∧ (s.heap t.2).parent = some w.2

/-- A collection of inventories as objects: identifiers are as `lv` says, a textgroup is in one inventory, and each member has as its parent the
collection that it is a member of. -/
structure LibraryObj (lv : Levels) (s : MStore) (root : Nat) : Prop where
  sound : Sound s
  one : OneLanguage s
  here : root < s.next
  cls : (s.heap root).cls = .inventories
  level : lv.level (s.heap root).id = 0
  inv : ∀ i ∈ (s.heap root).children, lv.level i.1 = 1 ∧ (s.heap i.2).parent = some root
  tg : ∀ i ∈ (s.heap root).children, ∀ g ∈ (s.heap i.2).children, FitsObj lv s g.2 ∧ (s.heap g.2).parent = some i.2
  once : ∀ i ∈ (s.heap root).children, ∀ i' ∈ (s.heap root).children, ∀ g ∈ (s.heap i.2).children, ∀ g' ∈ (s.heap i'.2).children, g.1 = g'.1 → g = g'

/-- A textgroup that was read and has no parent. -/
structure Loose (lv : Levels) (s : MStore) (g : Nat) : Prop where
  here : g < s.next
  fits : FitsObj lv s g
  parent : (s.heap g).parent = none

/-- The textgroup object `x` is in the library. -/
def InLibrary (s : MStore) (root x : Nat) : Prop := ∃ i ∈ (s.heap root).children, ∃ g ∈ (s.heap i.2).children, g.2 = x

/-- The textgroup has the text object `t` in its work `wid`. -/
def HasTextObj (s : MStore) (g : Nat) (wid : Str) (t : Nat) : Prop :=
  ∃ w ∈ (s.heap g).children, w.1 = wid ∧ ∃ e ∈ (s.heap w.2).children, e.2 = t

/-- The text object `t` is in work `wid` of textgroup `gid` of the library. -/
def HoldsTextObj (s : MStore) (root : Nat) (gid wid : Str) (t : Nat) : Prop :=
  ∃ x, InLibrary s root x ∧ (s.heap x).id = gid ∧ HasTextObj s x wid t

/-- The textgroup has a text with identifier `tid` in its work `wid`. -/
def DescribesObj (s : MStore) (g : Nat) (gid wid tid : Str) : Prop :=
  (s.heap g).id = gid ∧ ∃ t, HasTextObj s g wid t ∧ (s.heap t).id = tid

/-- The inventory that the filters choose for a textgroup: that of the last one that says yes, or the default. -/
def ChosenObj (filters : List (Str × ObjFilter)) (default : Str) (s : MStore) (g : Nat) (path name : Str) : Prop :=
  (∃ (pre post : List (Str × ObjFilter)) (f : ObjFilter), filters = pre ++ (name, f) :: post ∧ f s g path = .ok true ∧
    ∀ x ∈ post, x.2 s g path = .ok false) ∨
  (name = default ∧ ∀ x ∈ filters, x.2 s g path = .ok false)

/-- A textgroup with identifier `gid` is in the inventory `name`. -/
def OnShelf (s : MStore) (root : Nat) (name gid : Str) : Prop :=
  ∃ i ∈ (s.heap root).children, i.1 = name ∧ gid ∈ (s.heap i.2).children.map (·.1)

/-- The object says the same in both states under every predicate but that for its parent. -/
def SaysSame (s s' : MStore) (a : Nat) : Prop :=
  ∀ p o, p ≠ .uri "http://purl.org/capitains/ns/1.0#parent".toList → (says s' a p o ↔ says s a p o)

/-- The object is of the same class and has the same identifier, URN, kind, citation and path, and says the same. -/
def Unaltered (s s' : MStore) (a : Nat) : Prop :=
  (s'.heap a).cls = (s.heap a).cls ∧ (s'.heap a).id = (s.heap a).id ∧ (s'.heap a).urn = (s.heap a).urn ∧ (s'.heap a).kind = (s.heap a).kind ∧
    (s'.heap a).cite = (s.heap a).cite ∧ (s'.heap a).path = (s.heap a).path ∧ SaysSame s s' a

/-- A filter that looks only at the textgroup that it is given, with its works and texts. -/
def Steady (f : ObjFilter) : Prop :=
  ∀ s s' g path, (∀ a ∈ treeOf s g, s'.heap a = s.heap a ∧ SaysSame s s' a) → f s' g path = f s g path

/-- The library as its owner sees it. -/
def libView (order : Order) (s : MStore) (root : Nat) : RootV :=
  { id := (s.heap root).id
    invs := (s.heap root).children.map fun i => { id := (s.heap i.2).id, tgs := (s.heap i.2).children.map fun g => tgView order s g.2 } }

end Verif.Spec
