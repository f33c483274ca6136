import Verif.Model.Urn
/-!
Copies of URNs: `copy.copy` and `copy.deepcopy` of the objects of _capitains_cts.py 300-657. The class has no methods for copying, so a copy has the
`__dict__` of the original: the text `__urn`, and the dictionary `__parsed` (341-342), which a plain copy shares.
-/
namespace Verif.Model
open Verif.Py

/-- The dictionary `__parsed`: _capitains_cts.py 614-627. -/
structure UrnParts where
  ns : Option Str
  cts : Option Str
  tg : Option Str
  wk : Option Str
  ver : Option Str
  ref : Option Ref
  deriving DecidableEq, Repr

/-- The dictionary of a URN. -/
def Urn.parts (u : Urn) : UrnParts := ⟨u.ns, u.cts, u.tg, u.wk, u.ver, u.ref⟩

/-- The URN with a text and a dictionary. -/
def UrnParts.urn (p : UrnParts) (cache : Option Str) : Urn := ⟨cache, p.ns, p.cts, p.tg, p.wk, p.ver, p.ref⟩

/-- The URN objects 0, 1, ... of a program: the text of each, which dictionary each has, and the dictionaries. -/
structure UrnStore where
  num : Nat
  cache : Nat → Option Str
  dict : Nat → Nat
  parts : Nat → UrnParts
  used : Nat

/-- URN `i` as one sees it. -/
def UrnStore.view (w : UrnStore) (i : Nat) : Urn := (w.parts (w.dict i)).urn (w.cache i)

/-- What a program may do with URN `i`: assign to it or read its text; copy it; copy it deeply. -/
inductive UrnCopyOp where
  | on (i : Nat) (op : UrnOp)
  | copy (i : Nat)
  | deep (i : Nat)
  deriving DecidableEq, Repr

/-- A function with one value changed. -/
def upd {α : Type} (f : Nat → α) (k : Nat) (v : α) : Nat → α := fun i => if i = k then v else f i

/-- One step. Assignments change the dictionary in place and drop the text of the object that is assigned to: _capitains_cts.py 353-429; `str` fills
it: 509-532. -/
def UrnStore.step (w : UrnStore) : UrnCopyOp → UrnStore
  | .on i op =>
    if i < w.num then
      { w with cache := upd w.cache i ((w.view i).step op).cache, parts := upd w.parts (w.dict i) ((w.view i).step op).parts }
    else w
  | .copy i =>
    if i < w.num then { w with num := w.num + 1, cache := upd w.cache w.num (w.cache i), dict := upd w.dict w.num (w.dict i) } else w
  | .deep i =>
    if i < w.num then
      { num := w.num + 1, cache := upd w.cache w.num (w.cache i), dict := upd w.dict w.num w.used,
        parts := upd w.parts w.used (w.parts (w.dict i)), used := w.used + 1 }
    else w

/-- A program. -/
def UrnStore.run (w : UrnStore) (ops : List UrnCopyOp) : UrnStore := ops.foldl UrnStore.step w

/-- One URN. -/
def UrnStore.one (u : Urn) : UrnStore := ⟨1, fun _ => u.cache, fun _ => 0, fun _ => u.parts, 1⟩

end Verif.Model
