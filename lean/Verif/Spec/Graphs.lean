import Verif.Model.Graphs
import Verif.Spec.Metadata
/-!
Specification vocabulary for programs with several graphs (C111): which graph is in force, which graph an object belongs to, and what
a program says in a graph. It uses the steps of a program and the node of an object.
-/
namespace Verif.Spec
open Verif.Py Verif.Model

/-- The graph in force after the steps: the last that was set, or the one at the start. -/
def inForce (start : Nat) (ops : List GraphOp) : Nat :=
  (ops.filterMap fun op => match op with | .setGraph k => some k | _ => none).getLast?.getD start

/-- The step makes an object. -/
def makes : GraphOp → Bool
  | .collection _ _ _ => true
  | .text _ => true
  | .metadata _ => true
  | .getOr _ _ _ => true
  | _ => false

/-- For each object that the program makes, the graph in force when it was made. -/
def birthGraphs (start : Nat) (ops : List GraphOp) : List Nat :=
  ((List.range ops.length).filter fun j => (ops[j]?).any makes).map fun j => inForce start (ops.take j)

/-- What a step says of the metadata of an object, as operations on the metadata of nodes, each with the graph of the object. `made` is
the number of objects made before: only these can be meant, and an object that the step makes gets this number. -/
def said (objs : List Holder) (made : Nat) : GraphOp → List (Nat × MetaOp)
  | .collection id t m =>
    match objs[made]? with
    | none => []
    | some h => [(h.graph, .set (.uri id) pType (.term (.uri t)) none), (h.graph, .set (.uri id) pModel (.term (.uri m)) none)]
  | .text id => (objs[made]?).toList.map fun h => (h.graph, .add h.node pImplements (.term (.uri id)) none)
  | .set i key v l => of i fun n => .set n key v l
  | .add i key v l => of i fun n => .add n key v l
  | .remove i p o => of i fun n => .remove n p o
  | .unlink i s p => of i fun n => .unlink n s p
  | .setType i u => of i fun n => .set n pType (.term (.uri u)) none
  | .setModel i u => of i fun n => .set n pModel (.term (.uri u)) none
  | .setVersion i v => of i fun n => .set n pVersion (.str v) none
  | .setParent c p =>
    match (objs.take made)[p]? with
    | none => []
    | some h => of c fun n => .add n parentPredicate (.term h.node) none
  | _ => []
where
  of (i : Nat) (f : Term → MetaOp) : List (Nat × MetaOp) :=
    ((objs.take made)[i]?).toList.map fun h => (h.graph, f h.node)

/-- What the program says in a graph, in order. -/
def saidIn (objs : List Holder) (k : Nat) (ops : List GraphOp) : List MetaOp :=
  (((List.range ops.length).flatMap fun j =>
    ((ops[j]?).toList.flatMap (said objs ((ops.take j).countP makes)))).filter fun x => x.1 == k).map (·.2)

/-- The program does not itself give a blank node to an object: it neither names one nor asks for metadata that may be there already. -/
def NamesNoBlank : GraphOp → Bool
  | .metadata (some (.bnode _)) => false
  | .getOr _ _ _ => false
  | _ => true

/-- The step is done to the object with this number, or takes away links, which may be those of any object. -/
def DoneTo (t : Nat) : GraphOp → Bool
  | .set i _ _ _ | .add i _ _ _ | .remove i _ _ | .setType i _ | .setModel i _ | .setVersion i _ | .setParent i _ => i == t
  | .unlink _ _ _ => true
  | _ => false

/-- The operation leaves `o` the only value of a key of a node, when it is: it writes no value there, and does not erase `o`. -/
def LeavesAlone (op : MetaOp) (node key o : Term) : Prop := (∀ x, ¬ Writes op node key x) ∧ ¬ Erases op node key o

end Verif.Spec
