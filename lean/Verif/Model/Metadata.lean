import Verif.Py.Str
/-!
The shared RDF graph and the metadata of an object: MyCapytain/common/metadata.py.

The graph of rdflib is a set of triples that is read in an order rdflib does not specify. Here it is a list
of triples; every function that reads it is given an `order`, which may be any rearrangement. Language tags
are compared exactly (rdflib compares them without regard to case).
-/
namespace Verif.Model
open Verif.Py

/-- A term of rdflib: `URIRef`, `BNode`, or `Literal` with language and datatype. -/
inductive Term where
  | uri (s : Str)
  | bnode (s : Str)
  | lit (s : Str) (lang : Option Str) (datatype : Option Str)
  deriving DecidableEq, Repr

/-- A triple: subject, predicate, object. -/
structure Triple where
  s : Term
  p : Term
  o : Term
  deriving DecidableEq, Repr

/-- The graph: `get_graph()`, one for all objects (common/constants.py 106-109). -/
abbrev Graph := List Triple

/-- The order in which rdflib reads a graph. -/
abbrev Order := Graph → Graph

/-- `graph.add(triple)`: nothing happens when the triple is there. -/
def Graph.insert (g : Graph) (t : Triple) : Graph := if t ∈ g then g else g ++ [t]

/-- Does a triple match a pattern, `none` matching all? -/
def Triple.matches (s p o : Option Term) (t : Triple) : Bool :=
  (s.all (· == t.s)) && (p.all (· == t.p)) && (o.all (· == t.o))

/-- `graph.remove((s, p, o))`. -/
def Graph.removeAll (g : Graph) (s p o : Option Term) : Graph := g.filter fun t => !t.matches s p o

/-- `graph.set((s, p, o))`: `remove((s, p, None))`, then `add`. -/
def Graph.setValue (g : Graph) (t : Triple) : Graph := (g.removeAll (some t.s) (some t.p) none).insert t

/-- `graph.objects(s, p)`. -/
def Graph.objects (order : Order) (g : Graph) (s p : Term) : List Term :=
  ((order g).filter fun t => t.matches (some s) (some p) none).map (·.o)

/-- A value given to `set` or `add`: a term or a Python string. Other Python values are not modelled. -/
inductive Value where
  | term (t : Term)
  | str (s : Str)
  deriving DecidableEq, Repr

/-- The string of a term, `str(term)`. -/
def Term.str : Term → Str
  | .uri s => s
  | .bnode s => s
  | .lit s _ _ => s

/-- `Literal(value)` or `Literal(value, lang=lang)` for a value that is not a literal. -/
def mkLiteral (s : Str) (lang : Option Str) : Term := .lit s lang none

/-- The term that is stored: metadata.py 62-65 and 75-78. `Literal(literal)` is that literal. -/
def toTerm (value : Value) (lang : Option Str) : Term :=
  match value, lang with
  | .term (.lit s l d), _ => .lit s l d
  | .term t, none => t
  | .term t, some l => mkLiteral t.str (some l)
  | .str s, l => mkLiteral s l

/-- `metadata.set(key, value, lang)`: metadata.py 55-66. -/
def metaSet (g : Graph) (node key : Term) (value : Value) (lang : Option Str) : Graph :=
  g.setValue ⟨node, key, toTerm value lang⟩

/-- `metadata.add(key, value, lang)`: metadata.py 68-79. -/
def metaAdd (g : Graph) (node key : Term) (value : Value) (lang : Option Str) : Graph :=
  g.insert ⟨node, key, toTerm value lang⟩

/-- `term.language`: only literals have it. -/
def Term.language : Term → Except PyErr (Option Str)
  | .lit _ l _ => .ok l
  | _ => .error .attributeError

/-- The values in a language, read one after the other: metadata.py 88-91. -/
def inLang (lang : Str) : List Term → Except PyErr (List Term)
  | [] => .ok []
  | o :: r =>
    match o.language with
    | .error e => .error e
    | .ok l =>
      match inLang lang r with
      | .error e => .error e
      | .ok m => .ok (if l = some lang then o :: m else m)

/-- `list(metadata.get(key, lang))`: metadata.py 81-94. -/
def metaGet (order : Order) (g : Graph) (node key : Term) (lang : Option Str) : Except PyErr (List Term) :=
  match lang with
  | some l => inLang l (g.objects order node key)
  | none => .ok (g.objects order node key)

/-- The loop of `get_single` with a language: metadata.py 108-112. -/
def singleLoop (lang : Str) : Option Term → List Term → Except PyErr (Option Term)
  | default, [] => .ok default
  | _, o :: r =>
    match o.language with
    | .error e => .error e
    | .ok l => if l = some lang then .ok (some o) else singleLoop lang (some o) r

/-- `metadata.get_single(key, lang)`: metadata.py 96-116. -/
def metaGetSingle (order : Order) (g : Graph) (node key : Term) (lang : Option Str) : Except PyErr (Option Term) :=
  match lang with
  | some l => singleLoop l none (g.objects order node key)
  | none => .ok (g.objects order node key).head?

/-- `metadata.remove(predicate, obj)`: metadata.py 131-137. -/
def metaRemove (g : Graph) (node : Term) (predicate obj : Option Term) : Graph := g.removeAll (some node) predicate obj

/-- `metadata.unlink(subj, predicate)`: metadata.py 139-145. -/
def metaUnlink (g : Graph) (node : Term) (subj predicate : Option Term) : Graph := g.removeAll subj predicate (some node)

/-- `Metadata.getOr(subject, predicate)`: metadata.py 226-238; the node of the metadata, `none` being a new
blank node. -/
def getOr (order : Order) (g : Graph) (subject predicate : Term) : Option Term := (g.objects order subject predicate).head?

/-- Operations on metadata. -/
inductive MetaOp where
  | set (node key : Term) (value : Value) (lang : Option Str)
  | add (node key : Term) (value : Value) (lang : Option Str)
  | remove (node : Term) (predicate obj : Option Term)
  | unlink (node : Term) (subj predicate : Option Term)
  deriving DecidableEq, Repr

/-- One operation on the graph. -/
def MetaOp.run (g : Graph) : MetaOp → Graph
  | .set n k v l => metaSet g n k v l
  | .add n k v l => metaAdd g n k v l
  | .remove n p o => metaRemove g n p o
  | .unlink n s p => metaUnlink g n s p

/-- Operations one after the other, on any objects. -/
def runOps (g : Graph) (ops : List MetaOp) : Graph := ops.foldl MetaOp.run g

end Verif.Model
