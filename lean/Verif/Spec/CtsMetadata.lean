import Verif.Model.CtsMetadata
import Verif.Spec.Metadata
/-!
Specification vocabulary for the metadata of CTS collections and passages (C79, C80): what each call says, in terms of
subjects, predicates and values. It uses the types of the model (terms, calls) and none of its functions.
-/
namespace Verif.Spec
open Verif.Py Verif.Model

/-- A predicate in the CTS namespace. -/
def cts (name : String) : Term := .uri ("http://chs.harvard.edu/xmlns/cts/".toList ++ name.toList)

/-- A predicate in the namespace of Dublin Core elements. -/
def dc (name : String) : Term := .uri ("http://purl.org/dc/elements/1.1/".toList ++ name.toList)

/-- The predicates under which a label is kept. -/
def labelPredicates : List Term :=
  [.uri "http://www.w3.org/2000/01/rdf-schema#label".toList, .uri "http://www.w3.org/2004/02/skos/core#prefLabel".toList]

/-- The property that is the title of a collection of each class. -/
def titleOfClass : CtsClass → Option String
  | .plain => none
  | .text => some "label"
  | .work => some "title"
  | .textgroup => some "groupname"
  | .inventory => some "name"
  | .inventories => some "name"

/-- The value of a property: a string is in the language given, a literal stays in its own. -/
def propertyValue : CtsValue → Option Str → Term
  | .str s, lang => .lit s lang none
  | .lit s own, _ => .lit s own none

/-- The value of a label: in the language given, or else, for a literal, in its own. -/
def labelValue : CtsValue → Option Str → Term
  | .str s, lang => .lit s lang none
  | .lit s own, lang => .lit s (lang.or own) none

/-- The call says that `o` is a value of `p` of the collection `n`. -/
inductive SaysOf : CtsOp → Term → Term → Term → Prop
  | property {cls n prop v lang} : SaysOf (.property cls n prop v lang) n (.uri ("http://chs.harvard.edu/xmlns/cts/".toList ++ prop)) (propertyValue v lang)
  | title {cls n name v lang p} : titleOfClass cls = some name → p ∈ labelPredicates → SaysOf (.property cls n name.toList v lang) n p (labelValue v lang)
  | label {n v lang p} : p ∈ labelPredicates → SaysOf (.label n v lang) n p (labelValue v lang)
  | link {n p v} : SaysOf (.link n p v) n p (.uri v)

/-- The language of a value. -/
def HasLanguage (l : Option Str) (t : Term) : Prop := ∃ s d, t = .lit s l d

/-- What a passage takes from collections: from which of them, which property, and under which Dublin Core predicate. -/
def taken (edition work textgroup : Term) : List (Term × Term × Term) :=
  [(textgroup, cts "groupname", dc "creator"), (work, cts "title", dc "title"),
   (edition, cts "label", dc "subject"), (edition, cts "description", dc "description")]

/-- The statement `t` about the passage `node` repeats a statement about its text, its work or its textgroup. -/
def Repeats (g : Graph) (node edition work textgroup : Term) (t : Triple) : Prop :=
  ∃ x ∈ taken edition work textgroup, ∃ s l d, (⟨x.1, x.2.1, .lit s l d⟩ : Triple) ∈ g ∧
    (t = ⟨node, x.2.1, .lit s l none⟩ ∨ t = ⟨node, x.2.2, .lit s l none⟩)

/-- All that is taken is text. -/
def AllText (g : Graph) (edition work textgroup : Term) : Prop :=
  ∀ x ∈ taken edition work textgroup, ∀ o, (⟨x.1, x.2.1, o⟩ : Triple) ∈ g → IsLiteral o

/-- What a getter gives of values: one in the language if there is one, otherwise some value, `None` exactly without any. -/
def Answers (values : Term → Prop) (lang : Option Str) (r : Option Term) : Prop :=
  (∀ o, r = some o → values o) ∧ (∀ l, lang = some l → (∃ o, values o ∧ InLanguage l o) → ∃ o, r = some o ∧ InLanguage l o) ∧
  (r = none ↔ ∀ o, ¬ values o)

/-- The values of a property as texts without datatype. -/
def plainTexts (g : Graph) (n p : Term) (o : Term) : Prop := ∃ s l d, (⟨n, p, .lit s l d⟩ : Triple) ∈ g ∧ o = .lit s l none

end Verif.Spec
