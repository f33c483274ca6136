import Verif.Model.DtsJson
import Verif.Spec.Metadata
import Verif.Spec.MetadataExport
/-!
Specification vocabulary for DTS documents (C74, C75, C76): which values a collection has, how they are shown, what a
document states and when it is complete. It uses the types of terms and documents.
-/
namespace Verif.Spec
open Verif.Py Verif.Model

/-! ### Export (C74) -/

/-- The values of a node for a predicate, blank nodes left out. -/
def valuesOf (g : Graph) (node p : Term) : List Term :=
  (g.filter fun t => t.s = node && t.p = p && !t.o.isBNode).map (·.o)

/-- How a value is written: with its language, as a link, or plain. `native` is the Python value of a literal with a datatype. -/
def jsonOf (native : Str → Str → Atom) : Term → DValue
  | .lit s (some l) _ => .tagged s l
  | .lit s none (some d) => .plain (native s d)
  | .lit s none none => .plain (.text s)
  | .uri s => .link s
  | .bnode s => .plain (.text s)

/-- How the values of a key are written: nothing, a plain value alone, or a list. -/
def listedAs : List DValue → Option DEntry
  | [] => none
  | [.plain a] => some (.one (.plain a))
  | vs => some (.many vs)

/-- The namespaces that have their own place in a DTS document. -/
def Reserved (ns : Str) : Prop :=
  ns = "http://purl.org/capitains/ns/1.0#".toList ∨ ns = "https://www.w3.org/ns/hydra/core#".toList ∨
  ns = "http://www.w3.org/1999/02/22-rdf-syntax-ns#".toList ∨ ns = "http://www.w3.org/2000/01/rdf-schema#".toList ∨
  ns = "https://w3id.org/dts/api#".toList

/-- The namespace of Dublin Core terms. -/
def DublinCore (ns : Str) : Prop := ns = "http://purl.org/dc/terms/".toList

/-- What qualified names are: a URI is cut into namespace and name, a prefix stands for one namespace, the empty prefix for that of Hydra,
and neither prefix nor name has a colon. -/
structure QNames (cut : Cut) : Prop where
  whole : ∀ u pre ns name, cut u = .ok (pre, ns, name) → u = ns ++ name
  apart : ∀ u v pre ns ns' name name', cut u = .ok (pre, ns, name) → cut v = .ok (pre, ns', name') → ns = ns'
  vocab : ∀ u ns name, cut u = .ok ([], ns, name) → ns = "https://www.w3.org/ns/hydra/core#".toList
  prefixes : ∀ u pre ns name, cut u = .ok (pre, ns, name) → ':' ∉ pre ∧ '@' ∉ pre
  names : ∀ u pre ns name, cut u = .ok (pre, ns, name) → ':' ∉ name

/-- The base information `b` says of a collection what the graph says. -/
structure BaseOf (cut : Cut) (g : Graph) (o : DtsObj) (b : DtsBase) : Prop where
  id : b.id = o.id
  type : ∃ t pre ns name, (⟨.uri o.id, .uri "http://www.w3.org/1999/02/22-rdf-syntax-ns#type".toList, t⟩ : Triple) ∈ g ∧
    cut t.str = .ok (pre, ns, name) ∧ b.type = qnameOf pre name
  title : (∃ l, (⟨.uri o.id, .uri "http://www.w3.org/2000/01/rdf-schema#label".toList, l⟩ : Triple) ∈ g ∧ b.title = l.str) ∨
    (∀ l, (⟨.uri o.id, .uri "http://www.w3.org/2000/01/rdf-schema#label".toList, l⟩ : Triple) ∉ g) ∧ b.title = "None".toList
  counted : ∀ n, o.counted = some n → b.total = n
  none_announced : o.counted = none → (∀ v, (⟨.uri o.id, .uri "https://www.w3.org/ns/hydra/core#totalItems".toList, v⟩ : Triple) ∉ g) → b.total = 0
  announced : o.counted = none → ∀ v, (⟨.uri o.id, .uri "https://www.w3.org/ns/hydra/core#totalItems".toList, v⟩ : Triple) ∈ g →
    ∃ w, (⟨.uri o.id, .uri "https://www.w3.org/ns/hydra/core#totalItems".toList, w⟩ : Triple) ∈ g ∧
      (∀ c ∈ w.str, isDigit c = true) ∧ b.total = (digitsVal w.str : Int)
  description : (∀ s, b.description = some s → ∃ d,
      (⟨.uri o.id, .uri "https://www.w3.org/ns/hydra/core#description".toList, d⟩ : Triple) ∈ g ∧ s = d.str) ∧
    (b.description = none → valuesOf g (.uri o.id) (.uri "https://www.w3.org/ns/hydra/core#description".toList) = [])

/-- Two lists of the same length, related place by place. -/
inductive AllTwo {α β : Type} (R : α → β → Prop) : List α → List β → Prop
  | nil : AllTwo R [] []
  | cons {a : α} {b : β} {as : List α} {bs : List β} : R a b → AllTwo R as bs → AllTwo R (a :: as) (b :: bs)

/-- The collection has a type, its types have qualified names, and what it announces as the number of its members is one. -/
structure Presentable (cut : Cut) (g : Graph) (o : DtsObj) : Prop where
  typed : ∃ t, (⟨.uri o.id, .uri "http://www.w3.org/1999/02/22-rdf-syntax-ns#type".toList, t⟩ : Triple) ∈ g
  cuttable : ∀ t, (⟨.uri o.id, .uri "http://www.w3.org/1999/02/22-rdf-syntax-ns#type".toList, t⟩ : Triple) ∈ g → ∃ x, cut t.str = .ok x
  number : o.counted = none → ∀ v, (⟨.uri o.id, .uri "https://www.w3.org/ns/hydra/core#totalItems".toList, v⟩ : Triple) ∈ g → ∀ c ∈ v.str, isDigit c = true

/-- Qualified names by a table of prefixes and namespaces. -/
def tableCut (table : List (Str × Str)) : Cut := fun u =>
  match table.find? (fun e => startsWith u e.2 && !(u.drop e.2.length).contains ':') with
  | some e => .ok (e.1, e.2, u.drop e.2.length)
  | none => .error .valueError

/-- The table of the usual prefixes. -/
def sampleCut : Cut := tableCut
  [("".toList, "https://www.w3.org/ns/hydra/core#".toList), ("dts".toList, "https://w3id.org/dts/api#".toList),
   ("dct".toList, "http://purl.org/dc/terms/".toList), ("rdf".toList, "http://www.w3.org/1999/02/22-rdf-syntax-ns#".toList),
   ("rdfs".toList, "http://www.w3.org/2000/01/rdf-schema#".toList), ("skos".toList, "http://www.w3.org/2004/02/skos/core#".toList),
   ("cts".toList, "http://chs.harvard.edu/xmlns/cts/".toList), ("cpt".toList, "http://purl.org/capitains/ns/1.0#".toList)]

/-- The Python value of a typed literal: an integer for an integer, else the text of the literal. -/
def sampleNative (s d : Str) : Atom :=
  if d = "http://www.w3.org/2001/XMLSchema#integer".toList then .int (digitsVal s) else .text s

/-! ### Parsing (C75) -/

mutual
/-- A document and all documents nested in it, by their keys. -/
def docsIn : ExpDoc → List ExpData
  | .mk d ms => d :: docsInAll ms
/-- The same for a list of documents. -/
def docsInAll : List ExpDoc → List ExpData
  | [] => []
  | m :: r => docsIn m ++ docsInAll r
end

/-- The term that a value stands for when its language is ignored. -/
def untagged : ExpValue → Option Term
  | .value (.text s) _ => some (.lit s none none)
  | .value (.int n) _ => some (.lit (toString n).toList none (some "http://www.w3.org/2001/XMLSchema#integer".toList))
  | .value (.other s d) _ => some (.lit s none (some d))
  | .node _ => none

/-- The term that a value stands for. -/
def meant : ExpValue → Option Term
  | .value (.text s) l => some (.lit s l none)
  | v => untagged v

/-- The type of a document: the last one that it lists. -/
def docType (d : ExpData) : Str :=
  ((d.types.getD []).getLast?).getD "https://w3id.org/dts/api#collection".toList

/-- The keys and values of a part (Dublin Core or extensions) of a document. -/
def inPart (part : Option (List (List (Str × List ExpValue)))) (p o : Term) : Prop :=
  ∃ c r, part = some (c :: r) ∧ ∃ k vs v, (k, vs) ∈ c ∧ v ∈ vs ∧ p = .uri k ∧ meant v = some o

/-- What a document states about its collection, its members left aside. -/
inductive StatedHere (i : Str) (d : ExpData) : Triple → Prop
  | type : StatedHere i d ⟨.uri i, .uri "http://www.w3.org/1999/02/22-rdf-syntax-ns#type".toList, .uri (docType d)⟩
  | model : StatedHere i d ⟨.uri i, .uri "https://w3id.org/dts/api#model".toList, .uri "https://w3id.org/dts/api#collection".toList⟩
  | label {v : ExpValue} {o : Term} : v ∈ d.title.getD [] → untagged v = some o →
      StatedHere i d ⟨.uri i, .uri "http://www.w3.org/2000/01/rdf-schema#label".toList, o⟩
  | prefLabel {v : ExpValue} {o : Term} : v ∈ d.title.getD [] → untagged v = some o →
      StatedHere i d ⟨.uri i, .uri "http://www.w3.org/2004/02/skos/core#prefLabel".toList, o⟩
  | total {v : ExpValue} {o : Term} : v ∈ d.total.getD [] → untagged v = some o →
      StatedHere i d ⟨.uri i, .uri "https://www.w3.org/ns/hydra/core#totalItems".toList, o⟩
  | description {v : ExpValue} {o : Term} : v ∈ d.description → untagged v = some o →
      StatedHere i d ⟨.uri i, .uri "https://www.w3.org/ns/hydra/core#description".toList, o⟩
  | dublincore {p o : Term} : inPart d.dublincore p o → StatedHere i d ⟨.uri i, p, o⟩
  | extensions {p o : Term} : inPart d.extensions p o → StatedHere i d ⟨.uri i, p, o⟩

/-- What some documents state. -/
def Stated (ds : List ExpData) (t : Triple) : Prop := ∃ d ∈ ds, ∃ i, d.id = some i ∧ StatedHere i d t

/-- Types and models of the collections that some documents are about: these are replaced. -/
def Replaced (ds : List ExpData) (t : Triple) : Prop :=
  ∃ d ∈ ds, ∃ i, d.id = some i ∧ t.s = .uri i ∧
    (t.p = .uri "http://www.w3.org/1999/02/22-rdf-syntax-ns#type".toList ∨ t.p = .uri "https://w3id.org/dts/api#model".toList)

/-- No two documents are about the same collection. -/
def DistinctDocs (ds : List ExpData) : Prop := (ds.map (·.id)).Nodup

/-- Every value has an `@value`. -/
def AllValues (vs : List ExpValue) : Prop := ∀ v ∈ vs, ∃ a l, v = .value a l

/-- A part is missing, or a list that begins with an object all of whose values have an `@value`. -/
def PartOk (part : Option (List (List (Str × List ExpValue)))) : Prop :=
  part = none ∨ ∃ c r, part = some (c :: r) ∧ ∀ e ∈ c, AllValues e.2

/-- A document has what the parser asks for: an identifier, types, a title, a number of members, values, and a citation structure that can
be read (C25). -/
structure Complete (d : ExpData) : Prop where
  id : ∃ i, d.id = some i
  types : ∃ l, d.types = some l
  title : ∃ l, d.title = some l ∧ AllValues l
  total : ∃ l, d.total = some l ∧ AllValues l
  description : AllValues d.description
  dublincore : PartOk d.dublincore
  extensions : PartOk d.extensions
  citeStructure : ∀ l, d.citeStructure = some l → ∃ ts, ingestSet l = .ok ts
  citeDepth : ∀ v r, d.citeDepth = some (v :: r) → ∃ a l, v = .value a l

/-- The citation set is that of the document. -/
structure CitesOf (d : ExpData) (c : DtsCites) : Prop where
  trees : ingestSet (d.citeStructure.getD []) = .ok c.trees
  depth : ∀ n l r, d.citeDepth = some (.value (.int n) l :: r) → c.announced = some n.toNat
  no_depth : d.citeDepth = none → c.announced = none

mutual
/-- The collection is that of the document, and its children are those of the members, in their order. -/
inductive TreeOf : ExpDoc → DtsTree → Prop
  | mk {d : ExpData} {ms : List ExpDoc} {i : Str} {c : DtsCites} {cs : List (Str × DtsTree)} : d.id = some i → CitesOf d c → TreesOf ms cs →
      TreeOf (.mk d ms) (.mk i c cs)
/-- The children are those of the members. -/
inductive TreesOf : List ExpDoc → List (Str × DtsTree) → Prop
  | nil : TreesOf [] []
  | cons {m : ExpDoc} {ms : List ExpDoc} {i : Str} {c : DtsTree} {cs : List (Str × DtsTree)} : TreeOf m c → c.id = i → TreesOf ms cs →
      TreesOf (m :: ms) ((i, c) :: cs)
end

/-! ### Export and parsing (C76) -/

/-- A value that a DTS document can carry and the parser can read: a literal without datatype, or one whose Python value is the same literal. -/
def Survives (native : Str → Str → Atom) : Term → Prop
  | .lit _ _ none => True
  | .lit s none (some d) => (native s d).term = .lit s none (some d)
  | _ => False

/-- A predicate that the containers of a document show. -/
def Shown (cut : Cut) (p : Str) : Prop := ∃ pre ns name, cut p = .ok (pre, ns, name) ∧ ¬ Reserved ns

/-- The hypotheses under which a collection survives: its values do, and its members are other collections. -/
structure RoundSafe (cut : Cut) (native : Str → Str → Atom) (g : Graph) (o : DtsObj) (ms : List DtsObj) : Prop where
  nodup : g.Nodup
  predicates : UriPredicates g (.uri o.id)
  values : ∀ p v, Shown cut p → v ∈ valuesOf g (.uri o.id) (.uri p) → Survives native v
  ids : (o.id :: ms.map (·.id)).Nodup

/-- The statements of the base information of a document, the type being given as URI. -/
inductive BaseShown (b : DtsBase) (type : Str) : Term → Term → Prop
  | type : BaseShown b type (.uri "http://www.w3.org/1999/02/22-rdf-syntax-ns#type".toList) (.uri type)
  | model : BaseShown b type (.uri "https://w3id.org/dts/api#model".toList) (.uri "https://w3id.org/dts/api#collection".toList)
  | label : BaseShown b type (.uri "http://www.w3.org/2000/01/rdf-schema#label".toList) (.lit b.title none none)
  | prefLabel : BaseShown b type (.uri "http://www.w3.org/2004/02/skos/core#prefLabel".toList) (.lit b.title none none)
  | total : BaseShown b type (.uri "https://www.w3.org/ns/hydra/core#totalItems".toList)
      (.lit (toString b.total).toList none (some "http://www.w3.org/2001/XMLSchema#integer".toList))
  | description {s : Str} : b.description = some s →
      BaseShown b type (.uri "https://www.w3.org/ns/hydra/core#description".toList) (.lit s none none)

end Verif.Spec
