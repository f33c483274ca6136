import Verif.Model.MetadataExport
import Verif.Model.Subgraph
import Verif.Model.Citation
import Verif.Model.Retriever
/-!
DTS documents: the export of a collection as DTS JSON (MyCapytain/resources/prototypes/metadata.py 305-430) and the
parser of such documents (resources/collections/dts/_base.py, common/utils/dts.py, common/utils/_json_ld.py).

`compute_qname` of rdflib is the parameter `cut`, which gives the prefix, the namespace and the name of a URI, or an
error; that it may bind a new prefix is not modelled. The keys of the base information are those of the namespace manager
that the export builds (lines 341-350: `title` for `hydra:title`, `dts:dublincore`), hence they are fields of a structure here.
JSON-LD expansion is the work of the library pyld; `expandDoc` says what it makes of a document that the export wrote.
-/
namespace Verif.Model
open Verif.Py

/-- `RDF_NAMESPACES.HYDRA`: common/constants.py. -/
def nsHydra : Str := ['h', 't', 't', 'p', 's', ':', '/', '/', 'w', 'w', 'w', '.', 'w', '3', '.', 'o', 'r', 'g', '/', 'n', 's', '/', 'h', 'y', 'd', 'r', 'a', '/', 'c', 'o', 'r', 'e', '#']
/-- `RDF_NAMESPACES.DTS`. -/
def nsDts : Str := ['h', 't', 't', 'p', 's', ':', '/', '/', 'w', '3', 'i', 'd', '.', 'o', 'r', 'g', '/', 'd', 't', 's', '/', 'a', 'p', 'i', '#']
/-- `RDF_NAMESPACES.CAPITAINS`. -/
def nsCapitains : Str := ['h', 't', 't', 'p', ':', '/', '/', 'p', 'u', 'r', 'l', '.', 'o', 'r', 'g', '/', 'c', 'a', 'p', 'i', 't', 'a', 'i', 'n', 's', '/', 'n', 's', '/', '1', '.', '0', '#']
/-- `DCTERMS` of rdflib. -/
def nsDcterms : Str := ['h', 't', 't', 'p', ':', '/', '/', 'p', 'u', 'r', 'l', '.', 'o', 'r', 'g', '/', 'd', 'c', '/', 't', 'e', 'r', 'm', 's', '/']
/-- `RDF` of rdflib. -/
def nsRdf : Str := ['h', 't', 't', 'p', ':', '/', '/', 'w', 'w', 'w', '.', 'w', '3', '.', 'o', 'r', 'g', '/', '1', '9', '9', '9', '/', '0', '2', '/', '2', '2', '-', 'r', 'd', 'f', '-', 's', 'y', 'n', 't', 'a', 'x', '-', 'n', 's', '#']
/-- `RDFS` of rdflib. -/
def nsRdfs : Str := ['h', 't', 't', 'p', ':', '/', '/', 'w', 'w', 'w', '.', 'w', '3', '.', 'o', 'r', 'g', '/', '2', '0', '0', '0', '/', '0', '1', '/', 'r', 'd', 'f', '-', 's', 'c', 'h', 'e', 'm', 'a', '#']
/-- `SKOS` of rdflib. -/
def nsSkos : Str := ['h', 't', 't', 'p', ':', '/', '/', 'w', 'w', 'w', '.', 'w', '3', '.', 'o', 'r', 'g', '/', '2', '0', '0', '4', '/', '0', '2', '/', 's', 'k', 'o', 's', '/', 'c', 'o', 'r', 'e', '#']

/-- `RDF.type`. -/
def pType : Term := .uri (nsRdf ++ ['t', 'y', 'p', 'e'])
/-- `RDFS.label`. -/
def pLabel : Term := .uri (nsRdfs ++ ['l', 'a', 'b', 'e', 'l'])
/-- `SKOS.prefLabel`. -/
def pPrefLabel : Term := .uri (nsSkos ++ ['p', 'r', 'e', 'f', 'L', 'a', 'b', 'e', 'l'])
/-- `RDF_NAMESPACES.DTS.model`. -/
def pModel : Term := .uri (nsDts ++ ['m', 'o', 'd', 'e', 'l'])
/-- `RDF_NAMESPACES.DTS.collection`, the value of `TYPE_URI` and `MODEL_URI`: metadata.py 46-47. -/
def dtsCollectionUri : Term := .uri (nsDts ++ ['c', 'o', 'l', 'l', 'e', 'c', 't', 'i', 'o', 'n'])
/-- `RDF_NAMESPACES.HYDRA.totalItems`. -/
def pTotal : Term := .uri (nsHydra ++ ['t', 'o', 't', 'a', 'l', 'I', 't', 'e', 'm', 's'])
/-- `RDF_NAMESPACES.HYDRA.description`. -/
def pDescription : Term := .uri (nsHydra ++ ['d', 'e', 's', 'c', 'r', 'i', 'p', 't', 'i', 'o', 'n'])
/-- `XSD.integer`. -/
def xsdInteger : Str := ['h', 't', 't', 'p', ':', '/', '/', 'w', 'w', 'w', '.', 'w', '3', '.', 'o', 'r', 'g', '/', '2', '0', '0', '1', '/', 'X', 'M', 'L', 'S', 'c', 'h', 'e', 'm', 'a', '#', 'i', 'n', 't', 'e', 'g', 'e', 'r']

/-- A JSON value that is not an object: a string, an integer, or another one (`True`, a float), given by the text and the datatype of
the literal that rdflib makes of it. -/
inductive Atom where
  | text (s : Str)
  | int (n : Int)
  | other (s d : Str)
  deriving DecidableEq, Repr

/-- `Literal(value)` of rdflib. -/
def Atom.term : Atom → Term
  | .text s => .lit s none none
  | .int n => .lit (intStr n) none (some xsdInteger)
  | .other s d => .lit s none (some d)

/-- What `literal_to_dict` gives: a plain value, `{"@value": …, "@language": …}`, or `{"@id": …}`. -/
inductive DValue where
  | plain (a : Atom)
  | tagged (s lang : Str)
  | link (s : Str)
  deriving DecidableEq, Repr

/-- `isinstance(value, dict)`. -/
def DValue.isDict : DValue → Bool
  | .plain _ => false
  | _ => true

/-- `literal_to_dict`: _json_ld.py 4-18. `native` is `toPython` for a literal with a datatype. -/
def literalToDict (native : Str → Str → Atom) : Term → DValue
  | .lit s (some l) _ => .tagged s l
  | .lit s none none => .plain (.text s)
  | .lit s none (some d) => .plain (native s d)
  | .uri s => .link s
  | .bnode s => .plain (.text s)

/-- The value of a key in `dts:dublincore` or `dts:extensions`: a single value, or a list. -/
inductive DEntry where
  | one (v : DValue)
  | many (l : List DValue)
  deriving DecidableEq, Repr

/-- The values by key. -/
abbrev Container := List (Str × DEntry)

/-- One more value under a key: metadata.py 392-401. -/
def addEntry (m : Container) (k : Str) (v : DValue) : Container :=
  match getEntry m k with
  | some (.many l) => putEntry m k (.many (l ++ [v]))
  | some (.one w) => putEntry m k (.many [w, v])
  | none => putEntry m k (if v.isDict then .many [v] else .one v)

/-- `compute_qname`. -/
abbrev Cut := Str → Except PyErr (Str × Str × Str)

/-- The qualified name, `qname` of rdflib: the name alone when the prefix is empty. -/
def qnameOf (prefix' name : Str) : Str := if prefix' = [] then name else prefix' ++ ':' :: name

/-- `nsm.qname(uri)`. -/
def Cut.qname (cut : Cut) (u : Str) : Except PyErr Str :=
  match cut u with
  | .error e => .error e
  | .ok (p, _, n) => .ok (qnameOf p n)

/-- The loop that builds the `@context`: metadata.py 362-367. -/
def bindingsLoop (cut : Cut) : List (Str × Str) → List Term → Except PyErr (List (Str × Str))
  | b, [] => .ok b
  | b, p :: r =>
    match cut p.str with
    | .error e => .error e
    | .ok (pre, ns, _) =>
      bindingsLoop cut (if getEntry b pre = none ∧ ns ∉ [nsCapitains, nsHydra, nsRdf, nsRdfs] then putEntry b pre ns else b) r

/-- The two containers. -/
structure Containers where
  extensions : Container
  dublincore : Container
  deriving DecidableEq, Repr

/-- The loop that fills `dts:extensions` and `dts:dublincore`: metadata.py 369-401. -/
def containerLoop (cut : Cut) (native : Str → Str → Atom) : Containers → List Triple → Except PyErr Containers
  | c, [] => .ok c
  | c, t :: r =>
    match cut t.p.str with
    | .error e => .error e
    | .ok (pre, ns, name) =>
      containerLoop cut native
        (if ns ∈ [nsCapitains, nsHydra, nsRdf, nsRdfs, nsDts] then c
        else if ns = nsDcterms then { c with dublincore := addEntry c.dublincore (qnameOf pre name) (literalToDict native t.o) }
        else { c with extensions := addEntry c.extensions (qnameOf pre name) (literalToDict native t.o) }) r

/-- A collection as far as its export reads it outside the graph: its identifier and, unless it is a `DtsCollection`, the number
of its members. -/
structure DtsObj where
  id : Str
  counted : Option Nat
  deriving DecidableEq, Repr

/-- `asNode()`. -/
def DtsObj.node (o : DtsObj) : Term := .uri o.id

/-- `int(text)`. Signs, spaces and underscores in the text are not modelled; they are refused here. -/
def pyInt (s : Str) : Except PyErr Int :=
  if s ≠ [] ∧ s.all isDigit = true then .ok (digitsVal s) else .error .valueError

/-- `obj.size`: the number of members (metadata.py 94-96), or the announced number (dts/_base.py 42-46). -/
def objSize (order : Order) (g : Graph) (o : DtsObj) : Except PyErr Int :=
  match o.counted with
  | some n => .ok n
  | none =>
    match (g.objects order o.node pTotal).head? with
    | none => .ok 0
    | some v => if v.str = [] then .ok 0 else pyInt v.str

/-- `obj.type`: metadata.py 75-77. -/
def objType (order : Order) (g : Graph) (o : DtsObj) : Except PyErr Term :=
  match (g.objects order o.node pType).head? with
  | none => .error .indexError
  | some t => .ok t

/-- `str(obj.get_label())`: metadata.py 125-140. -/
def objTitle (order : Order) (g : Graph) (o : DtsObj) : Str :=
  match (g.objects order o.node pLabel).head? with
  | none => ['N', 'o', 'n', 'e']
  | some t => t.str

/-- The base information. -/
structure DtsBase where
  id : Str
  type : Str
  title : Str
  total : Int
  description : Option Str
  deriving DecidableEq, Repr

/-- `export_base_dts(graph, obj, nsm)`: metadata.py 305-325. `g` is the graph of the object; `descs` is the graph given, in the order
in which it is read. -/
def exportBase (order : Order) (cut : Cut) (g : Graph) (descs : List Triple) (o : DtsObj) : Except PyErr DtsBase :=
  match objType order g o with
  | .error e => .error e
  | .ok t =>
    match cut.qname t.str with
    | .error e => .error e
    | .ok q =>
      match objSize order g o with
      | .error e => .error e
      | .ok n =>
        .ok ⟨o.id, q, objTitle order g o, n,
          ((descs.filter fun t => t.s = o.node && t.p = pDescription).getLast?).map fun t => t.o.str⟩

/-- The base information of the members, in their order: metadata.py 411-415. -/
def exportBases (order : Order) (cut : Cut) (g : Graph) : List DtsObj → Except PyErr (List DtsBase)
  | [] => .ok []
  | m :: r =>
    match exportBase order cut g (order g) m with
    | .error e => .error e
    | .ok b =>
      match exportBases order cut g r with
      | .error e => .error e
      | .ok bs => .ok (b :: bs)

/-- A DTS citation set: the trees, and the depth that was set. -/
structure DtsCites where
  trees : List (Cite DtsData)
  announced : Option Nat

/-- `citation.depth`: _dts_1.py 116-120. -/
def DtsCites.depth (c : DtsCites) : Nat :=
  match c.announced with
  | some (n + 1) => n + 1
  | _ => Cite.depthAll c.trees

/-- The document that the export gives. A container without keys is not written. -/
structure DtsJson where
  context : List (Str × Str)
  base : DtsBase
  extensions : Container
  dublincore : Container
  member : Option (List DtsBase)
  citeDepth : Option Nat
  citeStructure : Option (List OutCite)

/-- The key of the vocabulary in the `@context`. -/
def vocabKey : Str := ['@', 'v', 'o', 'c', 'a', 'b']

/-- `collection.export(Mimetypes.JSON.DTS.Std)`: metadata.py 337-430. `order'` is the order in which the derived graph is read;
`cites` is the citation set of a `DtsCollection`. -/
def exportDts (order order' : Order) (cut : Cut) (native : Str → Str → Atom) (g : Graph) (o : DtsObj) (ms : List DtsObj)
    (cites : Option DtsCites) : Except PyErr DtsJson :=
  match graphiter order g 1 o.node 0 1 SubState.new with
  | none => .error .recursion
  | some st =>
    match bindingsLoop cut [] ((order' st.out).map (·.p)).eraseDups with
    | .error e => .error e
    | .ok ctx =>
      match containerLoop cut native ⟨[], []⟩ (order' st.out) with
      | .error e => .error e
      | .ok c =>
        match exportBase order cut g (order' st.out) o with
        | .error e => .error e
        | .ok b =>
          match (if b.total ≠ 0 then (exportBases order cut g ms).map some else .ok none) with
          | .error e => .error e
          | .ok member =>
            .ok ⟨putEntry ctx vocabKey nsHydra, b, c.extensions, c.dublincore, member,
              (match cites with
               | some cs => if cs.depth ≠ 0 then some cs.depth else none
               | none => none),
              (match cites with
               | some cs => if cs.trees.isEmpty then none else some (exportSet cs.trees)
               | none => none)⟩

/-- The formats in which a collection can be exported: metadata.py 48. -/
inductive CollFormat where
  | dts
  | jsonLd
  | rdfXml
  deriving DecidableEq, Repr

/-- `collection.export(format, namespace_manager)`: metadata.py 327-443. With a namespace manager, and for the two RDF formats, the
`Subgraph` is given an object without `items` (line 352 a generator, line 436 a namespace manager; _graph.py 15). -/
def exportColl (order order' : Order) (cut : Cut) (native : Str → Str → Atom) (g : Graph) (o : DtsObj) (ms : List DtsObj)
    (cites : Option DtsCites) (format : CollFormat) (manager : Bool) : Except PyErr DtsJson :=
  match format with
  | .dts => if manager then .error .attributeError else exportDts order order' cut native g o ms cites
  | _ => .error .attributeError

/-! ### Parsing -/

/-- A value in expanded JSON-LD: `{"@value": …}` with or without `@language`, or another object (`{"@id": …}`). -/
inductive ExpValue where
  | value (a : Atom) (lang : Option Str)
  | node (id : Str)
  deriving DecidableEq, Repr

/-- The keys of an expanded document that are read; `none` where a key is missing. -/
structure ExpData where
  id : Option Str
  types : Option (List Str)
  title : Option (List ExpValue)
  total : Option (List ExpValue)
  description : List ExpValue
  dublincore : Option (List (List (Str × List ExpValue)))
  extensions : Option (List (List (Str × List ExpValue)))
  citeStructure : Option (List ExpCite)
  citeDepth : Option (List ExpValue)

/-- An expanded document and its members. -/
inductive ExpDoc where
  | mk (d : ExpData) (members : List ExpDoc)

/-- `val_dict["@value"]`. -/
def ExpValue.get : ExpValue → Except PyErr Atom
  | .value a _ => .ok a
  | .node _ => .error .keyError

/-- `data[key]`. -/
def needKey {α : Type} : Option α → Except PyErr α
  | none => .error .keyError
  | some x => .ok x

/-- Add `Literal(val_dict["@value"])` for some predicates and every value, as in the loops of `_parse_metadata` (dts/_base.py 119-120,
134-138) and in `set_label` (metadata.py 142-152). -/
def addValues (node : Term) (ps : List Term) : Graph → List ExpValue → Except PyErr Graph
  | g, [] => .ok g
  | g, v :: r =>
    match v.get with
    | .error e => .error e
    | .ok a => addValues node ps (ps.foldl (fun g p => Graph.insert g ⟨node, p, a.term⟩) g) r

/-- `metadata.add(term, *dict_to_literal(value))`: _json_ld.py 21-27, common/metadata.py 66-78. In JSON-LD a
language comes only with a text. -/
def dictTerm : ExpValue → Except PyErr Term
  | .node _ => .error .keyError
  | .value (.text s) l => .ok (.lit s l none)
  | .value a _ => .ok a.term

/-- The values of one key: common/utils/dts.py 19-20. -/
def addDicts (node p : Term) : Graph → List ExpValue → Except PyErr Graph
  | g, [] => .ok g
  | g, v :: r =>
    match dictTerm v with
    | .error e => .error e
    | .ok t => addDicts node p (g.insert ⟨node, p, t⟩) r

/-- The keys of a container: common/utils/dts.py 17-20. -/
def addTerms (node : Term) : Graph → List (Str × List ExpValue) → Except PyErr Graph
  | g, [] => .ok g
  | g, (k, vs) :: r =>
    match addDicts node (.uri k) g vs with
    | .error e => .error e
    | .ok g' => addTerms node g' r

/-- `metadata_dictionary.get(key, [{}])[0]`: common/utils/dts.py 17, 22. -/
def addContainer (node : Term) (g : Graph) : Option (List (List (Str × List ExpValue))) → Except PyErr Graph
  | none => .ok g
  | some [] => .error .indexError
  | some (c :: _) => addTerms node g c

/-- `self.type = …`, `graph.set`: metadata.py 79-83. -/
def setTypes (node : Term) (g : Graph) (types : List Str) : Graph :=
  types.foldl (fun g t => g.setValue ⟨node, pType, .uri t⟩) g

/-- `Collection.__init__`: metadata.py 50-63, the part about the graph. -/
def newCollection (node : Term) (g : Graph) : Graph :=
  (g.setValue ⟨node, pType, dtsCollectionUri⟩).setValue ⟨node, pModel, dtsCollectionUri⟩

/-- The citation structure, when there is one: dts/_base.py 124-127. -/
def parseTrees : Option (List ExpCite) → Except PyErr (List (Cite DtsData))
  | none => .ok []
  | some l => ingestSet l

/-- The depth, when it is announced: dts/_base.py 129-131. A depth that is not an integer is not modelled (it is taken as it is). -/
def parseDepth : Option (List ExpValue) → Except PyErr (Option Nat)
  | none => .ok none
  | some [] => .ok none
  | some (v :: _) =>
    match v.get with
    | .error e => .error e
    | .ok (.int n) => .ok (some n.toNat)
    | .ok _ => .ok none

/-- `_parse_metadata(data)`: dts/_base.py 115-140. -/
def parseData (node : Term) (g : Graph) (d : ExpData) : Except PyErr (Graph × DtsCites) :=
  match needKey d.title with
  | .error e => .error e
  | .ok titles =>
    match addValues node [pPrefLabel, pLabel] g titles with
    | .error e => .error e
    | .ok g1 =>
      match needKey d.types with
      | .error e => .error e
      | .ok types =>
        match parseTrees d.citeStructure with
        | .error e => .error e
        | .ok trees =>
          match parseDepth d.citeDepth with
          | .error e => .error e
          | .ok depth =>
            match needKey d.total with
            | .error e => .error e
            | .ok totals =>
              match addValues node [pTotal] (setTypes node g1 types) totals with
              | .error e => .error e
              | .ok g2 =>
                match addValues node [pDescription] g2 d.description with
                | .error e => .error e
                | .ok g3 =>
                  match addContainer node g3 d.dublincore with
                  | .error e => .error e
                  | .ok g4 =>
                    match addContainer node g4 d.extensions with
                    | .error e => .error e
                    | .ok g5 => .ok (g5, ⟨trees, depth⟩)

/-- A parsed collection: its identifier, its citation set and its children by identifier. -/
inductive DtsTree where
  | mk (id : Str) (cites : DtsCites) (children : List (Str × DtsTree))

/-- `collection.id`. -/
def DtsTree.id : DtsTree → Str
  | .mk i _ _ => i

/-- A document of which JSON-LD expansion leaves nothing: it has no key but `@id`. -/
def ExpData.bare (d : ExpData) : Bool :=
  d.types.isNone && d.title.isNone && d.total.isNone && d.description.isEmpty && d.dublincore.isNone && d.extensions.isNone &&
    d.citeStructure.isNone && d.citeDepth.isNone

mutual
/-- `DtsCollection.parse(resource)` with the members as children: dts/_base.py 70-95, 97-113. Expanding an expanded document is taken
to change nothing, except that a document without keys is dropped (lines 83-85); the `@id` is that of the expanded document. -/
def parseDoc (g : Graph) : ExpDoc → Except PyErr (Graph × DtsTree)
  | .mk d ms =>
    if d.bare && ms.isEmpty then .error .jsonLdCollectionMissing
    else
      match needKey d.id with
      | .error e => .error e
      | .ok i =>
        match parseData (.uri i) (newCollection (.uri i) g) d with
        | .error e => .error e
        | .ok (g1, cites) =>
          match parseDocs g1 ms with
          | .error e => .error e
          | .ok (g2, cs) => .ok (g2, .mk i cites (cs.foldl (fun m c => putEntry m c.id c) []))
/-- `parse_member`: dts/_base.py 148-171. -/
def parseDocs (g : Graph) : List ExpDoc → Except PyErr (Graph × List DtsTree)
  | [] => .ok (g, [])
  | m :: r =>
    match parseDoc g m with
    | .error e => .error e
    | .ok (g1, c) =>
      match parseDocs g1 r with
      | .error e => .error e
      | .ok (g2, cs) => .ok (g2, c :: cs)
end

/-- `DtsCollection.parse(resource, direction)`: with another direction than `"children"` a list is added to a set
(dts/_base.py 112-113), which raises `TypeError`. -/
def parseDir (children : Bool) (g : Graph) (doc : ExpDoc) : Except PyErr (Graph × DtsTree) :=
  match parseDoc g doc with
  | .error e => .error e
  | .ok r => if children then .ok r else .error .typeError

/-! ### Expansion of an exported document -/

/-- Expansion of a value. -/
def expandValue : DValue → ExpValue
  | .plain a => .value a none
  | .tagged s l => .value (.text s) (some l)
  | .link s => .node s

/-- The values of a key, always a list after expansion. -/
def expandEntry : DEntry → List ExpValue
  | .one v => [expandValue v]
  | .many l => l.map expandValue

/-- Expansion of a key or of a type: a prefix that is in the `@context` is replaced, a name without prefix gets the vocabulary in front, another
is left as it is. -/
def expandName (context : List (Str × Str)) (k : Str) : Str :=
  match find ':' k with
  | none => (getEntry context vocabKey).getD [] ++ k
  | some i =>
    match getEntry context (k.take i) with
    | some ns => ns ++ k.drop (i + 1)
    | none => k

/-- Expansion of a container: missing when it has no keys. -/
def expandContainer (context : List (Str × Str)) (c : Container) : Option (List (List (Str × List ExpValue))) :=
  if c.isEmpty then none else some [c.map fun e => (expandName context e.1, expandEntry e.2)]

/-- Expansion of base information. -/
def expandBase (context : List (Str × Str)) (b : DtsBase) : ExpData :=
  { id := some b.id
    types := some [expandName context b.type]
    title := some [.value (.text b.title) none]
    total := some [.value (.int b.total) none]
    description := (match b.description with
      | none => []
      | some s => [.value (.text s) none])
    dublincore := none
    extensions := none
    citeStructure := none
    citeDepth := none }

/-- What JSON-LD expansion makes of an exported document. -/
def expandDoc (j : DtsJson) : ExpDoc :=
  .mk { expandBase j.context j.base with
        dublincore := expandContainer j.context j.dublincore
        extensions := expandContainer j.context j.extensions
        citeStructure := expandOpt j.citeStructure
        citeDepth := j.citeDepth.map fun (n : Nat) => [.value (.int (Int.ofNat n)) none] }
    ((j.member.getD []).map fun b => .mk (expandBase j.context b) [])

end Verif.Model
