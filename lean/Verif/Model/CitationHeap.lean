import Verif.Model.Reference
/-!
Model of the object graph of citations (roots and children as references between objects):
MyCapytain/common/reference/_base.py 27-64, 155-160, 192-244 and _capitains_cts.py 748-767, 802-826,
923-956.
-/
namespace Verif.Model
open Verif.Py

/-- A citation object: `_root` and `_children` (_base.py 192-209). -/
structure CObj where
  root : Option Nat
  children : List Nat
  deriving DecidableEq, Repr

/-- All objects, by identity. Objects not yet created have no root and no children. -/
abbrev CHeap := Nat → CObj

/-- `citation.root`: itself when `_root` is `None` (_base.py 225-234). -/
def CHeap.rootOf (h : CHeap) (x : Nat) : Nat := (h x).root.getD x

/-- Assignment to an object. -/
def CHeap.set (h : CHeap) (x : Nat) (o : CObj) : CHeap := fun y => if y = x then o else h y

/-- `citation.root = value` (_base.py 236-244). -/
def CHeap.setRoot (h : CHeap) (x : Nat) (r : Option Nat) : CHeap := h.set x { h x with root := r }

/-- `p.children = cs` on a citation, `cs` a list of citations (_base.py 35-55): every one gets the root
of `p`, then the list is stored. -/
def CHeap.setChildren (h : CHeap) (p : Nat) (cs : List Nat) : CHeap :=
  let h1 := cs.foldl (fun h c => h.setRoot c (some (h.rootOf p))) h
  h1.set p { h1 p with children := cs }

/-- `p.child = v` of a CTS citation (_capitains_cts.py 758-767). -/
def CHeap.setChild (h : CHeap) (p : Nat) : Option Nat → CHeap
  | some v =>
    let h1 := h.setChildren p [v]
    if (h1 p).root = none then h1.setRoot v (some p) else h1.setRoot v (some (h1.rootOf p))
  | none => h.setChildren p []

/-- `p.add_child(c)` (_base.py 57-64): no root is set. -/
def CHeap.addChild (h : CHeap) (p c : Nat) : CHeap := h.set p { h p with children := (h p).children ++ [c] }

/-- Steps of assembling citation schemes. `new n cs` is the constructor `Citation(..., child=...)` or
`BaseCitation(..., children=cs)` for a new object `n` (_base.py 192-209, _capitains_cts.py 691-702): the
children assignment runs while `_root` is `None`, and `_root` is `None` afterwards. -/
inductive CiteOp where
  | new (n : Nat) (cs : List Nat)
  | children (p : Nat) (cs : List Nat)
  | child (p : Nat) (v : Option Nat)
  deriving DecidableEq, Repr

/-- One step. -/
def CHeap.step (h : CHeap) : CiteOp → CHeap
  | .new n cs => (((h.set n ⟨none, []⟩).setChildren n cs).setRoot n none)
  | .children p cs => h.setChildren p cs
  | .child p v => h.setChild p v

/-- The heap before anything was created. -/
def CHeap.empty : CHeap := fun _ => ⟨none, []⟩

/-- `iter(citation)`: the citation, then the iterations of its children (_base.py 259-274). The first
argument bounds the recursion; `none` when it does not suffice. -/
def CHeap.iter : Nat → CHeap → Nat → Option (List Nat)
  | 0, _, _ => none
  | fuel + 1, h, x =>
    match (h x).children.mapM (CHeap.iter fuel h) with
    | some ls => some (x :: ls.flatten)
    | none => none

/-- `citation[item]` (_capitains_cts.py 802-805). -/
def CHeap.getItem (fuel : Nat) (h : CHeap) (x : Nat) (item : Int) : Option (Except PyErr Nat) :=
  match h.iter fuel x with
  | none => none
  | some l =>
    if item > (l.length : Int) - 1 then some (.error .keyError)
    else match pyGet l item with
      | some y => some (.ok y)
      | none => some (.error .indexError)

/-- `citation.match(reference)` (_capitains_cts.py 815-826): at the root, index by depth; elsewhere ask
the root. The first argument bounds the recursion. -/
def CHeap.matchRef : Nat → CHeap → Nat → Ref → Option (Except PyErr Nat)
  | 0, _, _, _ => none
  | fuel + 1, h, x, r =>
    match (h x).root with
    | none => h.getItem fuel x ((r.depth : Int) - 1)
    | some y => CHeap.matchRef fuel h y r

/-- The loop of `Citation.ingest` (_capitains_cts.py 945-952): citation number `i` is created with the
previous one as child. -/
def CHeap.ingestLoop (h : CHeap) (base : Nat) : Nat → CHeap
  | 0 => h
  | n + 1 => (CHeap.ingestLoop h base n).step (.new (base + n) (if n = 0 then [] else [base + n - 1]))

/-- `Citation.ingest` of `n` patterns into new objects `base, base+1, ...` (_capitains_cts.py 945-956):
after the loop all but the last get the last one as root. The last one is returned. -/
def CHeap.ingest (h : CHeap) (base n : Nat) : CHeap :=
  (List.range (n - 1)).foldl (fun h i => h.setRoot (base + i) (some (base + n - 1))) (h.ingestLoop base n)

end Verif.Model
