import Verif.Model.Metadata
/-!
The exports of metadata: `Metadata.__export__`, MyCapytain/common/metadata.py 154-224.

`compute_qname` of rdflib splits the name of a predicate and raises `ValueError` when it cannot; it is the
parameter `nsOf`, which gives the namespace. That it may bind a new prefix is not modelled. `set(...)` is
read in the order of the graph.
-/
namespace Verif.Model
open Verif.Py

/-- An entry of `only` or of `exclude`: a term of rdflib (`URIRef`), or another string (`str`, `Namespace`).
A term and another string are never equal. -/
inductive Choice where
  | term (t : Term)
  | text (s : Str)
  deriving DecidableEq, Repr

/-- `str(entry)`. -/
def Choice.str : Choice → Str
  | .term t => t.str
  | .text s => s

/-- `self.graph[node]`: predicates and objects of a node. -/
def pairsOf (order : Order) (g : Graph) (node : Term) : List (Term × Term) :=
  ((order g).filter fun t => t.s = node).map fun t => (t.p, t.o)

/-- `set(self.graph.predicates(subject=node))`. -/
def predicatesOf (order : Order) (g : Graph) (node : Term) : List Term := ((pairsOf order g node).map Prod.fst).eraseDups

/-- The loop that adds the predicates of the namespaces to `_only`, which is the list of the caller:
metadata.py 171-175; `strs` is the list of strings of line 170. -/
def extendOnly (nsOf : Str → Except PyErr Str) (strs : List Str) : List Choice → List Term → Except PyErr (List Choice)
  | only, [] => .ok only
  | only, p :: r =>
    if p.str ∈ strs then extendOnly nsOf strs only r
    else
      match nsOf p.str with
      | .error e => .error e
      | .ok ns => extendOnly nsOf strs (if ns ∈ strs then only ++ [.term p] else only) r

/-- The loop that lists the predicates that are not excluded: metadata.py 182-185. -/
def restOf (nsOf : Str → Except PyErr Str) (strs : List Str) : List Choice → List Term → Except PyErr (List Choice)
  | only, [] => .ok only
  | only, p :: r =>
    match nsOf p.str with
    | .error e => .error e
    | .ok ns => restOf nsOf strs (if p.str ∉ strs ∧ ns ∉ strs then only ++ [.term p] else only) r

/-- The pairs of the node that are copied: metadata.py 176-178, 186-188. -/
def copyListed (node : Term) (only : List Choice) (pairs : List (Term × Term)) : Graph :=
  pairs.foldl (fun c x => if Choice.term x.1 ∈ only then Graph.insert c ⟨node, x.1, x.2⟩ else c) []

/-- What an export leaves: the triples that are exported, and the list `only` of the caller. -/
structure Selected where
  graph : Graph
  only : Option (List Choice)
  deriving DecidableEq, Repr

/-- The triples to export: metadata.py 164-191. When an error is raised, the list of the caller may have grown
already; this is not modelled. -/
def selectTriples (order : Order) (nsOf : Str → Except PyErr Str) (g : Graph) (node : Term)
    (only exclude : Option (List Choice)) : Except PyErr Selected :=
  match only with
  | some only =>
    match extendOnly nsOf (only.map Choice.str) only (predicatesOf order g node) with
    | .error e => .error e
    | .ok only' => .ok ⟨copyListed node only' (pairsOf order g node), some only'⟩
  | none =>
    match exclude with
    | some ex =>
      match restOf nsOf (ex.map Choice.str) [] (predicatesOf order g node) with
      | .error e => .error e
      | .ok l => .ok ⟨copyListed node l (pairsOf order g node), none⟩
    | none => .ok ⟨(pairsOf order g node).foldl (fun c x => c.insert ⟨node, x.1, x.2⟩) [], none⟩

/-- A value in the JSON export: one string, or a list of strings. -/
inductive JValue where
  | one (s : Str)
  | many (l : List Str)
  deriving DecidableEq, Repr

/-- The values of a predicate by language, in the order of their first appearance. -/
abbrev ByLang := List (Option Str × JValue)

/-- `d[key] = value` for any keys. -/
def putEntry {κ β : Type} [DecidableEq κ] (d : List (κ × β)) (k : κ) (v : β) : List (κ × β) :=
  match d with
  | [] => [(k, v)]
  | (k', w) :: r => if k' = k then (k, v) :: r else (k', w) :: putEntry r k v

/-- `d.get(key)` for any keys. -/
def getEntry {κ β : Type} [DecidableEq κ] (d : List (κ × β)) (k : κ) : Option β :=
  match d with
  | [] => none
  | (k', w) :: r => if k' = k then some w else getEntry r k

/-- One more value in a language: metadata.py 200-205. -/
def addValue (d : ByLang) (lang : Option Str) (v : Str) : ByLang :=
  match getEntry d lang with
  | some (.one w) => putEntry d lang (.many [w, v])
  | some (.many l) => putEntry d lang (.many (l ++ [v]))
  | none => putEntry d lang (.one v)

/-- The dictionary of the export. -/
abbrev JDict := List (Str × ByLang)

/-- The dictionary of a predicate, a new one when it is missing: metadata.py 197-198. -/
def entryFor (out : JDict) (p : Str) : ByLang := (getEntry out p).getD []

/-- One triple of the JSON export: metadata.py 195-205. `title` is `str.title`. -/
def jsonStep (title : Str → Str) (out : JDict) (t : Triple) : JDict :=
  match t.o with
  | .lit s lang _ => putEntry out t.p.str (addValue (entryFor out t.p.str) lang (title s))
  | _ => putEntry out t.p.str (entryFor out t.p.str)

/-- `metadata.export(Mimetypes.JSON.Std, only, exclude)`: metadata.py 164-207. `order'` is the order in which the
copy is read. -/
def exportJson (order order' : Order) (nsOf : Str → Except PyErr Str) (title : Str → Str) (g : Graph) (node : Term)
    (only exclude : Option (List Choice)) : Except PyErr (JDict × Option (List Choice)) :=
  match selectTriples order nsOf g node only exclude with
  | .error e => .error e
  | .ok sel => .ok ((order' sel.graph).foldl (jsonStep title) [], sel.only)

end Verif.Model
