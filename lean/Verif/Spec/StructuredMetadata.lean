import Verif.Spec.InventoryXml
import Verif.Spec.MetadataExport
import Verif.Model.StructuredMetadata
/-!
Specification vocabulary for the structured metadata of inventories (C83). From the model it uses the types of
inventories, terms, stores, and what `lxml.objectify` makes of a text.
-/
namespace Verif.Spec
open Verif.Py Verif.Model

/-- A text that the parser takes for the name of a resource. -/
def LooksLikeLink (s : Str) : Prop :=
  ∃ scheme ∈ ["urn:", "http:", "https:", "hdl:"], scheme.toList <+: s

instance (s : Str) : Decidable (LooksLikeLink s) := by unfold LooksLikeLink; infer_instance

/-- What a value is after the trip: a resource when its text looks like one; else a literal with the same language;
without language, a number when its text is one; else a literal without language and type. -/
def restored (ob : Str → Objectified) (o : Term) : Term :=
  if LooksLikeLink (ob o.str).shown then .uri (ob o.str).shown
  else match o with
    | .lit _ (some l) _ => .lit (ob o.str).shown (some l) none
    | _ =>
      match (ob o.str).kind with
      | .int => .lit (ob o.str).shown none (some "http://www.w3.org/2001/XMLSchema#integer".toList)
      | .float => .lit (ob o.str).shown none (some "http://www.w3.org/2001/XMLSchema#float".toList)
      | .other => .lit (ob o.str).shown none none

/-- The values that survive the trip: `lxml.objectify` shows their text unchanged, and they are resources of a known
scheme, or literals that do not look like resources, with a language and no type, or without language and with the type
that objectify finds. -/
def ValueSurvives (ob : Str → Objectified) (o : Term) : Prop :=
  (ob o.str).shown = o.str ∧
  match o with
  | .uri s => LooksLikeLink s
  | .bnode _ => False
  | .lit s (some _) d => ¬ LooksLikeLink s ∧ d = none
  | .lit s none d => ¬ LooksLikeLink s ∧
      d = (match (ob s).kind with
        | .int => some "http://www.w3.org/2001/XMLSchema#integer".toList
        | .float => some "http://www.w3.org/2001/XMLSchema#float".toList
        | .other => none)

/-- The predicates that are not structured metadata: those of CTS, DTS and RDF. -/
def Structured (qn : QNames) (p : Term) : Prop :=
  ∀ ns ∈ ["http://chs.harvard.edu/xmlns/cts/", "https://w3id.org/dts/api#", "http://www.w3.org/1999/02/22-rdf-syntax-ns#"],
    p.str ≠ ns.toList ∧ ∀ x, qn p.str = .ok x → x.2.1 ≠ ns.toList

/-- The identifiers of the texts of a work and of the work. -/
def workIds (w : XWork) : List Str := w.texts.map XText.id ++ [w.id]

/-- The identifiers of the works of a textgroup, of their texts, and of the textgroup. -/
def groupIds (g : XGroup) : List Str := g.works.flatMap workIds ++ [g.id]

/-- The identifiers of all objects in an inventory. -/
def innerIds (i : XInv) : List Str := i.groups.flatMap groupIds

/-- A predicate that can be the name of an element: a URI whose qualified name has a prefix that the header declares. -/
def PredicateSafe (qn : QNames) (preds : List (Str × Str)) (p : Term) : Prop :=
  ∃ u pf ns name, p = .uri u ∧ qn u = .ok (pf, ns, name) ∧ u = ns ++ name ∧ (pf, ns) ∈ preds ∧ ns ≠ [] ∧ PrefixSafe pf ∧
    NameSafe name ∧ ':' ∉ name ∧ '}' ∉ u ∧ ns ≠ ctsNamespace

/-- A value that XML can carry; the prefix `rdf` must be declared for the type of a literal. -/
def ValueSafe (preds : List (Str × Str)) (o : Term) : Prop :=
  '\r' ∉ o.str ∧
  match o with
  | .lit _ lang dt => (∀ l, lang = some l → AttrSafe l) ∧ ∀ d, dt = some d → AttrSafe d ∧ ∃ p ∈ preds, p.1 = "rdf".toList
  | _ => True

/-- The metadata of an object can be exported. -/
def NodeSafe (S : Store) (preds : List (Str × Str)) (id : Str) : Prop :=
  ∀ t ∈ S.graph, t.s = .uri id → PredicateSafe S.qn preds t.p ∧ (Structured S.qn t.p → ValueSafe preds t.o)

/-- The graph, with the prefixes and namespaces of its predicates. Every prefix stands for one namespace, and `cpt` for
the namespace of CapiTainS, as the library binds it. -/
structure StoreSafe (S : Store) (preds : List (Str × Str)) : Prop where
  header : HeaderSafe S.pf preds
  one : ∀ p ∈ preds, ∀ q ∈ preds, p.1 = q.1 → p.2 = q.2
  cpt : ∀ p ∈ preds, p.1 = "cpt".toList → p.2 = "http://purl.org/capitains/ns/1.0#".toList
  block : S.qn "http://purl.org/capitains/ns/1.0#structured-metadata".toList =
    .ok ("cpt".toList, "http://purl.org/capitains/ns/1.0#".toList, "structured-metadata".toList)
  order : Rearranges S.order
  copyOrder : Rearranges S.copyOrder
  set : S.graph.Nodup

/-- The triples that come back: those about the objects of a list of identifiers, with restored values. -/
def ComesBack (S : Store) (ob : Str → Objectified) (ids : List Str) (t : Triple) : Prop :=
  ∃ u ∈ S.graph, (∃ id ∈ ids, u.s = .uri id) ∧ Structured S.qn u.p ∧ t = ⟨u.s, u.p, restored ob u.o⟩

end Verif.Spec
