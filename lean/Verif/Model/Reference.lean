import Verif.Py.Str
/-!
Model of MyCapytain/common/reference/_capitains_cts.py, lines 10-297 (references), and of the parts
of MyCapytain/common/reference/_base.py that references use (BaseReference 313-342,
BaseReferenceSet 345-388).
-/
namespace Verif.Model
open Verif.Py

/-! ### Word references (_capitains_cts.py 12, 28-54) -/

/-- A `CtsWordReference`: the string itself (`"@" + word_reference`), `.word` and `.counter`.
_capitains_cts.py 36-48. -/
structure WordRef where
  text : Str
  word : Str
  counter : Nat
  deriving DecidableEq, Repr

/-- First match of `SUBREFERENCE = (\w*)\[?([0-9]*)\]?` at position 0 (_capitains_cts.py 12, 37):
the greedy run of word characters, an optional `[`, the run of digits. Every part may be empty, so
the first match is always at position 0 and never backtracks. `isWord` is Python's Unicode `\w`. -/
def subreferenceMatch (isWord : Char → Bool) (s : Str) : Str × Str :=
  let word := s.takeWhile isWord
  let rest := s.dropWhile isWord
  let rest := match rest with
    | '[' :: r => r
    | r => r
  (word, rest.takeWhile isDigit)

/-- `CtsWordReference(word_reference)`: _capitains_cts.py 36-48. -/
def mkWordRef (isWord : Char → Bool) (s : Str) : WordRef :=
  let (word, counter) := subreferenceMatch isWord s
  { text := '@' :: s, word := word, counter := if counter = [] then 0 else digitsVal counter }

/-! ### Passage identifiers (_capitains_cts.py 57-110)

A `CtsSinglePassageId` is a `str`; its properties are functions of the string. Its `__len__` is
overridden (105) and never 0, so even the empty identifier is truthy. -/

/-- `.list` / iteration: _capitains_cts.py 91-93, 101-103 (`self.split("@")[0].split(".")`). -/
def plist (s : Str) : List Str := split '.' ((split '@' s).headD [])

/-- `.depth` and `len()`: _capitains_cts.py 105-110 (dots are counted in the whole string). -/
def pdepth (s : Str) : Nat := count '.' s + 1

/-- Text of `.subreference` (the `CtsWordReference` is a `str` whose text is `"@" + ...`);
`none` is Python's `None`: _capitains_cts.py 95-99. -/
def psub (s : Str) : Option Str :=
  match split '@' s with
  | [_, b] => some ('@' :: b)
  | _ => none

/-- `.subreference` as an object: _capitains_cts.py 95-99. -/
def psubref (isWord : Char → Bool) (s : Str) : Option WordRef :=
  match split '@' s with
  | [_, b] => some (mkWordRef isWord b)
  | _ => none

/-! ### References (_capitains_cts.py 113-282) -/

/-- A `CtsReference`: the tuple `(start, end)` and the cached string. _capitains_cts.py 135-172. -/
structure Ref where
  start : Str
  stop : Option Str
  repr : Str
  deriving DecidableEq, Repr

/-- Equality of references is tuple equality of start and end (no `__eq__` is defined on
`CtsReference`): _base.py 313-328. -/
def Ref.eqv (a b : Ref) : Prop := a.start = b.start ∧ a.stop = b.stop

instance (a b : Ref) : Decidable (a.eqv b) := by unfold Ref.eqv; infer_instance

/-- An element of a tuple fed to the constructor: a plain `str` (falsy when empty) or a
`CtsSinglePassageId` (always truthy because of its `__len__`, 105). -/
structure TStr where
  val : Str
  isPid : Bool
  deriving DecidableEq, Repr

/-- Truth value of a tuple element. -/
def TStr.truthy (t : TStr) : Bool := t.isPid || !t.val.isEmpty

/-- `CtsReference(s)` for a `str`: _capitains_cts.py 147-149, 164-172. `.ok none` is `None`. -/
def mkRef (s : Str) : Except PyErr (Option Ref) :=
  if s = [] then .ok none
  else if '-' ∉ s then .ok (some ⟨s, none, s⟩)
  else match split '-' s with
    | [a, b] => .ok (some ⟨a, some b, s⟩)
    | _ => .error .valueError        -- `_start, _end = tuple(...)` cannot unpack

/-- `CtsReference(start, end)` for two `str`: _capitains_cts.py 137-145. -/
def mkRef2 (a b : Str) : Ref := ⟨a, some b, a ++ ['-'] ++ b⟩

/-- `CtsReference((a, b))` for a pair, the second possibly `None`: _capitains_cts.py 150-162.
A pair is never falsy. Tuples of another length are not modelled. -/
def mkRefTuple (a : TStr) (b : Option TStr) : Ref :=
  let repr := join ['-'] (([some a, b].filterMap id).filter TStr.truthy |>.map TStr.val)
  match b with
  | some b => if b.truthy then ⟨a.val, some b.val, repr⟩ else ⟨a.val, none, repr⟩
  | none => ⟨a.val, none, repr⟩

/-- The tuple of a reference, as pickle or `CtsReference(ref)` feeds it back: both parts are
`CtsSinglePassageId`. _capitains_cts.py 136, 150. -/
def refeed (r : Ref) : Ref :=
  mkRefTuple ⟨r.start, true⟩ (r.stop.map (⟨·, true⟩))

/-- `str(ref)`: _capitains_cts.py 270-282. -/
def Ref.str (r : Ref) : Str := r.repr

/-- `ref.is_range()`: _base.py 327 (`bool(self[1])`; a passage id is always truthy). -/
def Ref.isRange (r : Ref) : Bool := r.stop.isSome

/-- `ref.parent`: _capitains_cts.py 174-203. The conditions `self.end.depth == 0` can never hold
since a depth is at least 1. Falling through every branch returns `None`. -/
def Ref.parent (r : Ref) : Except PyErr (Option Ref) :=
  match r.stop with
  | none =>
    if pdepth r.start = 1 then .ok none
    else mkRef (join ['.'] (dropLast (plist r.start)) ++ (psub r.start).getD [])
  | some e =>
    if pdepth r.start = 1 ∧ pdepth e ≤ 1 then .ok none
    else if pdepth r.start > 1 ∧ pdepth e > 1 then
      let ps := dropLast (plist r.start)
      let pe := dropLast (plist e)
      if ps = pe ∧ psub r.start = none ∧ psub e = none then
        mkRef (join ['.'] ps)
      else
        mkRef (join ['.'] ps ++ (psub r.start).getD [] ++ ['-']
                ++ join ['.'] pe ++ (psub e).getD [])
    else .ok none

/-- `ref.highest`: _capitains_cts.py 205-223. -/
def Ref.highest (r : Ref) : Str :=
  match r.stop with
  | none => r.start
  | some e =>
    if pdepth r.start < pdepth e then r.start
    else if pdepth r.start > pdepth e then e
    else r.start

/-- `ref.depth`: _capitains_cts.py 253-268. -/
def Ref.depth (r : Ref) : Nat := (plist r.highest).length

/-- `ref.subreference`: _capitains_cts.py 241-251. -/
def Ref.subreference (isWord : Char → Bool) (r : Ref) : Option WordRef :=
  match r.stop with
  | none => psubref isWord r.start
  | some _ => none

/-! ### Reference sets (_capitains_cts.py 285-297, _base.py 345-388) -/

/-- A `CtsReferenceSet`: a tuple of references. An element is `none` when it was built by
`CtsReference("")`. The `citation` and `level` annotations play no role in membership. -/
abbrev RefSet := List (Option Ref)

/-- Equality of two set elements (`None == None`, tuple equality otherwise). -/
def itemEq : Option Ref → Option Ref → Bool
  | none, none => true
  | some a, some b => decide (a.eqv b)
  | _, _ => false

/-- `s in set` for a `str` s: _capitains_cts.py 289-291. The first disjunct compares a `str` with
tuples and is always false. -/
def RefSet.contains (l : RefSet) (s : Str) : Except PyErr Bool := do
  let r ← mkRef s
  return l.any (fun x => itemEq x r)

/-- Position of the first element equal to `r`; `ValueError` when there is none
(`tuple.index`, used by _capitains_cts.py 297). -/
def RefSet.indexOf (l : RefSet) (r : Option Ref) : Except PyErr Nat :=
  match l.findIdx? (fun x => itemEq x r) with
  | some i => .ok i
  | none => .error .valueError

/-- `set.index(s)` for a `str` s: _capitains_cts.py 293-297. -/
def RefSet.index (l : RefSet) (s : Str) : Except PyErr Nat := do
  let r ← mkRef s
  l.indexOf r

end Verif.Model
