import Verif.Model.Metadata
import Verif.Model.Collection
import Verif.Model.DtsJson
import Verif.Model.TextNodes
/-!
Several graphs: `set_graph` and `get_graph` (MyCapytain/common/constants.py 136-146), and the objects that take the graph in force
when they are made: metadata (common/metadata.py 36-42, 229-243), collections (resources/prototypes/metadata.py
50-93, 182-193) and texts (resources/prototypes/text.py 42-53).

A graph that the user makes is a number; what it holds at the start is arbitrary.
-/
namespace Verif.Model
open Verif.Py

/-- An object with a node in a graph: metadata, a collection or a text, and the metadata of these. -/
structure Holder where
  node : Term
  graph : Nat
  deriving DecidableEq, Repr

/-- The graphs, the one in force, the objects made so far, and the number of blank nodes made so far. -/
structure GraphWorld where
  graphs : Nat → Graph
  current : Nat
  objs : List Holder
  fresh : Nat

/-- What a program does. Objects are numbered as they are made. -/
inductive GraphOp where
  | setGraph (k : Nat)
  | collection (id type model : Str)
  | text (id : Str)
  | metadata (node : Option Term)
  | getOr (order : Order) (subject predicate : Term)
  | set (i : Nat) (key : Term) (value : Value) (lang : Option Str)
  | add (i : Nat) (key : Term) (value : Value) (lang : Option Str)
  | remove (i : Nat) (predicate obj : Option Term)
  | unlink (i : Nat) (subj predicate : Option Term)
  | setType (i : Nat) (uri : Str)
  | setModel (i : Nat) (uri : Str)
  | setVersion (i : Nat) (value : Str)
  | setParent (child parent : Nat)

/-- `DTS.version`. -/
def pVersion : Term := .uri (nsDts ++ ['v', 'e', 'r', 's', 'i', 'o', 'n'])

/-- Change what a graph holds. -/
def GraphWorld.write (w : GraphWorld) (k : Nat) (f : Graph → Graph) : GraphWorld :=
  { w with graphs := fun j => if j = k then f (w.graphs j) else w.graphs j }

/-- `Metadata(node)`: metadata.py 36-42. -/
def GraphWorld.newMetadata (w : GraphWorld) : Option Term → GraphWorld
  | some n => { w with objs := w.objs ++ [⟨n, w.current⟩] }
  | none => { w with objs := w.objs ++ [⟨.bnode (natStr w.fresh), w.current⟩], fresh := w.fresh + 1 }

/-- `Collection(identifier)` of a class with the given `TYPE_URI` and `MODEL_URI`: prototypes/metadata.py 50-63. -/
def GraphWorld.newCollection (w : GraphWorld) (id type model : Str) : GraphWorld :=
  GraphWorld.write { w with objs := w.objs ++ [⟨.uri id, w.current⟩] } w.current fun g =>
    (g.setValue ⟨.uri id, pType, .uri type⟩).setValue ⟨.uri id, pModel, .uri model⟩

/-- `TextualElement(identifier)`: prototypes/text.py 42-53. -/
def GraphWorld.newText (w : GraphWorld) (id : Str) : GraphWorld :=
  GraphWorld.write { w with objs := w.objs ++ [⟨.bnode (natStr w.fresh), w.current⟩], fresh := w.fresh + 1 } w.current fun g =>
    g.insert ⟨.bnode (natStr w.fresh), pImplements, .uri id⟩

/-- Something done to an object that exists. -/
def GraphWorld.on (w : GraphWorld) (i : Nat) (f : Term → Graph → Graph) : GraphWorld :=
  match w.objs[i]? with
  | none => w
  | some h => w.write h.graph (f h.node)

/-- One step. The setters of `type`, `model` and `version` are prototypes/metadata.py 73-93; of `parent` 182-193, of which the
part about members is in `Model/Collection`. -/
def GraphWorld.step (w : GraphWorld) : GraphOp → GraphWorld
  | .setGraph k => { w with current := k }
  | .collection id t m => w.newCollection id t m
  | .text id => w.newText id
  | .metadata n => w.newMetadata n
  | .getOr order s p => w.newMetadata (getOr order (w.graphs w.current) s p)
  | .set i key v l => w.on i fun n g => metaSet g n key v l
  | .add i key v l => w.on i fun n g => metaAdd g n key v l
  | .remove i p o => w.on i fun n g => metaRemove g n p o
  | .unlink i s p => w.on i fun n g => metaUnlink g n s p
  | .setType i u => w.on i fun n g => g.setValue ⟨n, pType, .uri u⟩
  | .setModel i u => w.on i fun n g => g.setValue ⟨n, pModel, .uri u⟩
  | .setVersion i v => w.on i fun n g => g.setValue ⟨n, pVersion, .lit v none none⟩
  | .setParent c p =>
    match w.objs[p]? with
    | none => w
    | some h => w.on c fun n g => g.insert ⟨n, parentPredicate, h.node⟩

/-- A program. -/
def GraphWorld.run (w : GraphWorld) (ops : List GraphOp) : GraphWorld := ops.foldl GraphWorld.step w

/-- `list(obj.metadata.get(key, lang))`: metadata.py 81-94. -/
def GraphWorld.get (order : Order) (w : GraphWorld) (h : Holder) (key : Term) (lang : Option Str) : Except PyErr (List Term) :=
  metaGet order (w.graphs h.graph) h.node key lang

/-- `collection.type`: prototypes/metadata.py 75-77. -/
def GraphWorld.type (order : Order) (w : GraphWorld) (h : Holder) : Except PyErr Term :=
  match (w.graphs h.graph).objects order h.node pType with
  | [] => .error .indexError
  | t :: _ => .ok t

/-- `collection.model`: prototypes/metadata.py 85-87. -/
def GraphWorld.model (order : Order) (w : GraphWorld) (h : Holder) : Except PyErr Term :=
  match (w.graphs h.graph).objects order h.node pModel with
  | [] => .error .indexError
  | t :: _ => .ok t

/-- `collection.version`: prototypes/metadata.py 67-70. -/
def GraphWorld.version (order : Order) (w : GraphWorld) (h : Holder) : Option Term :=
  ((w.graphs h.graph).objects order h.node pVersion).head?

end Verif.Model
