import Verif.Spec.Export
import Verif.Spec.Siblings
import Verif.Model.Siblings
import Verif.Model.Export
/-!
Programs of a reader (C95): reading a text from one passage to the next through `getTextualNode`, `nextId` and `prevId`, and
listing a level passage by passage. They use the model of the calls and nothing else.
-/
namespace Verif.Spec
open Verif.Py Verif.Model

/-- A reader who starts at `r`, asks the text for the passage, and goes on with its `nextId` until there is none. The number bounds the
passages read; when it does not suffice, this is an error. -/
def readOn (t : LocalText) : Nat → Ref → Except PyErr (List Passage)
  | 0, _ => .error .recursion
  | fuel + 1, r => do
    let p ← textPassage t r
    let (_, next) ← p.siblingsId t
    match next with
    | none => return [p]
    | some r => return p :: (← readOn t fuel r)

/-- The same backwards, with `prevId`. -/
def readBack (t : LocalText) : Nat → Ref → Except PyErr (List Passage)
  | 0, _ => .error .recursion
  | fuel + 1, r => do
    let p ← textPassage t r
    let (prev, _) ← p.siblingsId t
    match prev with
    | none => return [p]
    | some r => return p :: (← readBack t fuel r)

/-- A reader who asks for the references of `level` under each of the references in `l`. -/
def listUnder (t : LocalText) (level : Int) : RefSet → Except PyErr RefSet
  | [] => return []
  | r :: l => do
    let here ← getValidReff t (some level) r
    return here ++ (← listUnder t level l)

/-- All text of the document, or what of it counts (the characters of which `p` is true), stands inside one of the given units. -/
def Covered (p : Char → Bool) (ex : List Str) (root : Node) (us : List (List Str × List Nat)) : Prop :=
  ∀ x ∈ visibleAt ex [] root, x.2.filter p ≠ [] → ∃ u ∈ us, u.2 <+: x.1

/-- What the plain texts of the passages have of the characters of which `p` is true, one passage after the other. -/
def textOfAll (p : Char → Bool) (sep : Str) (ex : List Str) (ps : List Passage) : Str :=
  ps.flatMap fun q => (plainText sep [] ex q.tree).filter p

end Verif.Spec
