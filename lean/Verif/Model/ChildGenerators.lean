import Verif.Py.Str
/-!
Going through the children of a text or passage one by one: the generator that `children` returns (resources/prototypes/text.py 295-302) and
`childIds`, which it reads when it is first asked (319-327), for several generators that are used in turns, and over a source that may fail.

A Python generator runs when it is asked for the next value, up to the next `yield`. When an exception leaves it, or its end is reached, it is
finished: from then on it raises `StopIteration`.
-/
namespace Verif.Model
open Verif.Py

/-- A generator made by `children`: not yet asked, with the identifiers that are left, or finished. -/
inductive ChildGen where
  | fresh
  | going (left : List Str)
  | over
  deriving DecidableEq, Repr

/-- What `next(generator)` does: a child, given by its identifier, `StopIteration`, or the error of the source. -/
inductive Pulled where
  | child (id : Str)
  | stop
  | error
  deriving DecidableEq, Repr

/-- The node: what it remembers of its children (`_childIds`), how often the source was asked for their identifiers, the generators, and for each
what it gave, in order. -/
structure ChildWorld where
  ids : Option (List Str)
  asked : Nat
  gen : Nat → ChildGen
  given : Nat → List Pulled

/-- Generator `g` is left as `c`, having given `p`. -/
def ChildWorld.give (w : ChildWorld) (g : Nat) (c : ChildGen) (p : Pulled) : ChildWorld :=
  { w with gen := fun i => if i = g then c else w.gen i, given := fun i => if i = g then w.given i ++ [p] else w.given i }

/-- The loop of the generator at its head, with the identifiers left: resources/prototypes/text.py 301-302. `ok` says whether the source gives the
child. -/
def ChildWorld.advance (w : ChildWorld) (g : Nat) (ok : Bool) : List Str → ChildWorld
  | [] => w.give g .over .stop
  | x :: r => if ok then w.give g (.going r) (.child x) else w.give g .over .error

/-- `childIds`: resources/prototypes/text.py 319-327; `none` when the source fails. -/
def ChildWorld.childIds (all : List Str) (w : ChildWorld) (ok : Bool) : ChildWorld × Option (List Str) :=
  match w.ids with
  | some l => (w, some l)
  | none => if ok then ({ w with ids := some all, asked := w.asked + 1 }, some all) else ({ w with asked := w.asked + 1 }, none)

/-- What may be done: `next` of a generator, `okIds` and `okChild` saying whether the source answers should it be asked; or `childIds`, as `firstId`,
`lastId` and others do. -/
inductive ChildOp where
  | next (g : Nat) (okIds okChild : Bool)
  | look (okIds : Bool)
  deriving DecidableEq, Repr

/-- One step; `all` is what the source says the children are. -/
def ChildWorld.step (all : List Str) (w : ChildWorld) : ChildOp → ChildWorld
  | .look ok => (w.childIds all ok).1
  | .next g okIds okChild =>
    match w.gen g with
    | .over => w.give g .over .stop
    | .going l => w.advance g okChild l
    | .fresh =>
      match w.childIds all okIds with
      | (w', none) => w'.give g .over .error
      | (w', some l) => w'.advance g okChild l

/-- A program. -/
def ChildWorld.run (all : List Str) (w : ChildWorld) : List ChildOp → ChildWorld
  | [] => w
  | op :: r => ChildWorld.run all (w.step all op) r

/-- A node that was not asked for its children. -/
def childWorld : ChildWorld := ⟨none, 0, fun _ => .fresh, fun _ => []⟩

end Verif.Model
