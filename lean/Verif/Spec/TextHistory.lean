import Verif.Spec.RemoteText
import Verif.Spec.CtsHistory
import Verif.Model.RemoteExport
/-!
Specification vocabulary for C104: what is asked of a remote text over time, with an endpoint that fails at times.
-/
namespace Verif.Spec
open Verif.Py Verif.Model

/-- A request whose reply has a label: `GetLabel` and `GetPassagePlus`. -/
def WantsLabel (r : List (Str × Str)) : Prop :=
  ("request".toList, "GetLabel".toList) ∈ r ∨ ("request".toList, "GetPassagePlus".toList) ∈ r

/-- The element of a reply that a text reads: the first `ti:label` in a `ti:reply` when a label was asked for, the first `ti:request`
otherwise. -/
def LabelOf (r : List (Str × Str)) (doc x : Node) : Prop :=
  ∃ rest, (WantsLabel r ∧ within "ti:reply" "ti:label" doc = x :: rest) ∨ (¬ WantsLabel r ∧ named "ti:request" doc = x :: rest)

/-- An endpoint with one citation scheme for the text: it answers a request for the label with it, and wherever a reply declares a
scheme that is set, it is this one, and in the label if there is any. -/
structure OneScheme (serve : DocEndpoint) (d : Option Str) (text : Urn) (scheme : List CiteLevel) : Prop where
  set : SchemeSet scheme
  label : ∀ u w, text.str = .ok (u, w) → ∃ doc x rest, serve (ctsLabel d u none) = .ok doc ∧ within "ti:reply" "ti:label" doc = x :: rest ∧ Adopts doc x [] scheme
  here : ∀ r doc x, serve r = .ok doc → LabelOf r doc x → ¬ SchemeElsewhere doc x []
  same : ∀ r doc x c, serve r = .ok doc → x = doc ∨ LabelOf r doc x → Adopts doc x [] c → SchemeSet c → c = scheme

/-- An endpoint as it is at some time: it answers as `serve`, or fails. -/
def DocAtTimes (e serve : DocEndpoint) : Prop := ∀ r, e r = serve r ∨ ∃ x, e r = .error x

/-- What can be asked of a text. -/
inductive TextOp where
  | label
  | reffs
  | refs (level : Nat) (sub : Option Str)
  | node (arg : NodeArg)
  | plus (sub : Option Str)
  | export (output : TeiFormat) (exclude : List Str)

/-- What it gives. Of passages the requests so far and the name of their node in the graph are left out. -/
inductive TextAnswer where
  | done
  | refs (l : List Str)
  | passage (p : OpenedPassage)
  | labelled (p : RemotePassage) (cite : List CiteLevel)
  | exported (x : Exported)

/-- A passage without the requests so far and the name of its node. -/
def anonymous (p : OpenedPassage) : OpenedPassage := { p with nav := unlogged p.nav, obj := { p.obj with node := .bnode [] } }

/-- Something is asked of a text. `fresh` gives the node of the passage made after so many requests. -/
def askText (serve : DocEndpoint) (d : Option Str) (fresh : Nat → Term) (s : RemoteText) : TextOp → RemoteText × Except PyErr TextAnswer
  | .label => let o := s.getLabel serve d; (o.1, (fun _ => .done) <$> o.2)
  | .reffs => let o := s.reffs serve d; (o.1, .refs <$> o.2)
  | .refs level sub => let o := s.getReffs serve d level sub; (o.1, .refs <$> o.2)
  | .node arg => let o := s.getNode serve d arg (fresh s.log.length); (o.1, (fun p => .passage (anonymous p)) <$> o.2)
  | .plus sub => let o := s.getPassagePlus serve d sub (fresh s.log.length); (o.1, (fun p => .labelled (unlogged p.1) p.2.cite) <$> o.2)
  | .export output exclude => let o := s.export serve d fresh output exclude; (o.1, .exported <$> o.2)

/-- What came of it: the requests made and the answer. -/
structure TextOutcome where
  requests : List (List (Str × Str))
  answer : Except PyErr TextAnswer

/-- A text is asked for one thing after the other, each with the endpoint as it is then. -/
def textSession (d : Option Str) (fresh : Nat → Term) : RemoteText → List (DocEndpoint × TextOp) → RemoteText × List TextOutcome
  | s, [] => (s, [])
  | s, (e, op) :: rest =>
    let o := askText e d fresh s op
    let more := textSession d fresh o.1 rest
    (more.1, ⟨o.1.log.drop s.log.length, o.2⟩ :: more.2)

/-- The graph still says what it said, and what is new was told by the label in a reply to a request that was made. -/
def OnlyTold (serve : DocEndpoint) (before : Graph) (s : RemoteText) : Prop :=
  (∀ t ∈ before, t ∈ s.graph) ∧
  ∀ t ∈ s.graph, t ∈ before ∨ ∃ r ∈ s.log, ∃ doc x node, serve r = .ok doc ∧ LabelOf r doc x ∧ Tells x node t

end Verif.Spec
