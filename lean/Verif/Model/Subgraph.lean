import Verif.Model.Metadata
/-!
Extraction of a part of the graph: `Subgraph` of MyCapytain/common/utils/_graph.py.
-/
namespace Verif.Model
open Verif.Py

/-- The state of a `Subgraph`: the strings marked `False` in the two dictionaries, and its own graph
(_graph.py 12-19). Bindings of prefixes are not modelled. -/
structure SubState where
  down : List Str
  up : List Str
  out : Graph
  deriving DecidableEq, Repr

/-- A new `Subgraph`. -/
def SubState.new : SubState := ⟨[], [], []⟩

/-- `isinstance(term, BNode)`. -/
def Term.isBNode : Term → Bool
  | .bnode _ => true
  | _ => false

/-- `graph.predicate_objects(target)`. -/
def Graph.predicateObjects (order : Order) (g : Graph) (target : Term) : List (Term × Term) :=
  ((order g).filter fun t => t.matches (some target) none none).map fun t => (t.p, t.o)

/-- `graph.subject_predicates(object=target)`. -/
def Graph.subjectPredicates (order : Order) (g : Graph) (target : Term) : List (Term × Term) :=
  ((order g).filter fun t => t.matches none none (some target)).map fun t => (t.s, t.p)

/-- _graph.py 33-39: the number of levels left after this one. -/
def levelsLeft (n : Int) : Int := if n ≠ 0 then n - 1 else 0

/-- The loop over predicates and objects: _graph.py 45-52. `visit` is the recursive call. -/
def downLoop (visit : Term → SubState → Option SubState) (target : Term) (desc : Int) :
    List (Term × Term) → SubState → Option SubState
  | [], st => some st
  | (pred, obj) :: rest, st =>
    if desc = 0 ∧ obj.isBNode = true then downLoop visit target desc rest st
    else
      if desc ≠ 0 ∧ obj.str ∉ st.down then
        match visit obj { st with out := st.out.insert ⟨target, pred, obj⟩ } with
        | none => none
        | some st' => downLoop visit target desc rest st'
      else downLoop visit target desc rest { st with out := st.out.insert ⟨target, pred, obj⟩ }

/-- The loop over subjects and predicates: _graph.py 56-63. -/
def upLoop (visit : Term → SubState → Option SubState) (target : Term) (asc desc : Int) :
    List (Term × Term) → SubState → Option SubState
  | [], st => some st
  | (s, p) :: rest, st =>
    if desc = 0 ∧ s.isBNode = true then upLoop visit target asc desc rest st
    else
      if asc ≠ 0 ∧ s.str ∉ st.up then
        match visit s { st with out := st.out.insert ⟨s, p, target⟩ } with
        | none => none
        | some st' => upLoop visit target asc desc rest st'
      else upLoop visit target asc desc rest { st with out := st.out.insert ⟨s, p, target⟩ }

/-- `subgraph.graphiter(graph, target, ascendants, descendants)`: _graph.py 21-63. `fuel` is the depth of calls that
is allowed, `none` means that it does not suffice. -/
def graphiter (order : Order) (g : Graph) : Nat → Term → Int → Int → SubState → Option SubState
  | 0, _, _, _, _ => none
  | fuel + 1, target, ascendants, descendants, st =>
    let asc := levelsLeft ascendants
    let desc := levelsLeft descendants
    match
      (if descendants ≠ 0 ∧ target.str ∉ st.down then
        downLoop (fun x s => graphiter order g fuel x 0 desc s) target desc (g.predicateObjects order target)
          { st with down := target.str :: st.down }
      else some st) with
    | none => none
    | some st1 =>
      if ascendants ≠ 0 ∧ target.str ∉ st1.up then
        upLoop (fun x s => graphiter order g fuel x asc 0 s) target asc desc (g.subjectPredicates order target)
          { st1 with up := target.str :: st1.up }
      else some st1

end Verif.Model
