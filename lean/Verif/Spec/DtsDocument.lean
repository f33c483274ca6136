import Verif.Model.DtsDocument
import Verif.Spec.RemotePassage
/-!
Specification vocabulary for documents of the DTS resolver (C77, C78).
-/
namespace Verif.Spec
open Verif.Py Verif.Model

/-- The last link of a relation has this query. -/
def LastLink (ls : List DocLink) (rel : Str) (q : List (Str × Str)) : Prop :=
  ∃ a b, ls = a ++ ⟨rel, q⟩ :: b ∧ ∀ l ∈ b, l.rel ≠ rel

/-- A query names a passage: its `ref`, or else its `start` and `end`; an empty value names nothing. -/
def PointsTo (q : List (Str × Str)) (r : DtsRef) : Prop :=
  r.type = none ∧
  ((("ref".toList, r.start) ∈ q ∧ r.start ≠ [] ∧ r.stop = none) ∨
   ((∀ v, ("ref".toList, v) ∈ q → v = []) ∧ ("start".toList, r.start) ∈ q ∧ r.start ≠ [] ∧
     ∃ e, r.stop = some e ∧ ("end".toList, e) ∈ q ∧ e ≠ []))

/-- The queries of links are dictionaries. -/
def Dictionaries (ls : List DocLink) : Prop := ∀ l ∈ ls, (l.query.map (·.1)).Nodup

/-- What the links say of a relation: the passage that its last link names, or nothing. -/
def LinksTo (ls : List DocLink) (rel : Str) : Option DtsRef → Prop
  | some r => ∃ q, LastLink ls rel q ∧ PointsTo q r
  | none => ¬ ∃ q r, LastLink ls rel q ∧ PointsTo q r

/-- The links that the parsing needs: with a `parent` link whose address has a query, an `up` link and a `last` link. -/
def Openable (ls : List DocLink) : Prop :=
  (∃ q, LastLink ls "parent".toList q ∧ q ≠ []) → (∃ q, LastLink ls "up".toList q) ∧ ∃ q, LastLink ls "last".toList q

/-- The passage before position `i`. -/
def unitBefore (refs : List DtsRef) (i : Nat) : Option DtsRef := if i = 0 then none else refs[i - 1]?

/-- The request of the document of a passage. -/
def docRequest {γ : Type} (net : DtsNet γ) (id : Str) (r : DtsRef) : DocReq := .document (getDocument net.docQuery id r.arg)

/-- An endpoint that has the passages `refs` of a text, in this order: the reply to the request of each of them has a
`next` link to the passage after it and a `prev` link to the one before it, where there are such passages. -/
structure ServesUnits {γ : Type} (net : DtsNet γ) (id : Str) (refs : List DtsRef) : Prop where
  served : ∀ i r, refs[i]? = some r → ∃ ls, net.documents (getDocument net.docQuery id r.arg) = .ok ls ∧ Dictionaries ls ∧ Openable ls ∧
    LinksTo ls "next".toList refs[i + 1]? ∧ LinksTo ls "prev".toList (unitBefore refs i)

/-- Reading `next` or `prev` of a document. -/
def docMove {γ : Type} (net : DtsNet γ) (log : List DocReq) (d : DtsDoc γ) : Move → List DocReq × Except PyErr (Option (DtsDoc γ))
  | .next => d.goNext net log
  | .prev => d.goPrev net log

/-- The document that a sequence of readings of `next` and `prev` leads to, `none` for `None`, and the requests made. -/
def docNavigate {γ : Type} (net : DtsNet γ) : List DocReq → DtsDoc γ → List Move → List DocReq × Except PyErr (Option (DtsDoc γ))
  | log, d, [] => (log, .ok (some d))
  | log, d, m :: rest =>
    match docMove net log d m with
    | (log', .error e) => (log', .error e)
    | (log', .ok none) => (log', .ok none)
    | (log', .ok (some d')) => docNavigate net log' d' rest

/-- What can be done with a document: reading its collection or its depth, or going on to another document. -/
inductive DocStep where
  | collection
  | depth
  | next
  | prev
  | parent
  | passage (r : DtsRefArg)
  deriving DecidableEq, Repr

/-- A step: the requests made, and the document that is at hand afterwards, the same one after a reading. -/
def docStep {γ : Type} (net : DtsNet γ) (log : List DocReq) (d : DtsDoc γ) : DocStep → List DocReq × Except PyErr (Option (DtsDoc γ))
  | .collection => let o := d.collection net log; (o.1, (fun _ => some o.2.1) <$> o.2.2)
  | .depth => let o := d.getDepth net log; (o.1, (fun _ => some o.2.1) <$> o.2.2)
  | .next => d.goNext net log
  | .prev => d.goPrev net log
  | .parent => let o := d.goParent net log; (o.1, some <$> o.2)
  | .passage r => let o := d.node net log r; (o.1, some <$> o.2)

/-- A history of steps, each with the endpoint as it is then; it ends early when a step raises or gives `None`. -/
def docHistory {γ : Type} : List DocReq → DtsDoc γ → List (DtsNet γ × DocStep) → List DocReq × Except PyErr (Option (DtsDoc γ))
  | log, d, [] => (log, .ok (some d))
  | log, d, (net, s) :: rest =>
    match docStep net log d s with
    | (log', .error e) => (log', .error e)
    | (log', .ok none) => (log', .ok none)
    | (log', .ok (some d')) => docHistory log' d' rest

/-- A request of the collections route. -/
def OfCollections : DocReq → Bool
  | .collection _ => true
  | _ => false

end Verif.Spec
