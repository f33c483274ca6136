import Verif.Model.MetadataExport
import Verif.Spec.Metadata
/-!
Specification vocabulary for the JSON export of metadata (C72): which predicates are asked for, which values a
predicate has in a language, and how values are shown. It uses the types of terms and of entries.
-/
namespace Verif.Spec
open Verif.Py Verif.Model

/-- `only` asks for a predicate: it is listed, or its namespace is. -/
def Asked (nsOf : Str → Except PyErr Str) (only : List Choice) (p : Term) : Prop :=
  Choice.term p ∈ only ∨ ∃ ns, nsOf p.str = .ok ns ∧ ns ∈ only.map Choice.str

/-- `exclude` refuses a predicate: it is listed, or its namespace is. -/
def Refused (nsOf : Str → Except PyErr Str) (exclude : List Choice) (p : Term) : Prop :=
  p.str ∈ exclude.map Choice.str ∨ ∃ ns, nsOf p.str = .ok ns ∧ ns ∈ exclude.map Choice.str

/-- The predicates that an export is asked for; `exclude` is ignored next to `only`. -/
def InExport (nsOf : Str → Except PyErr Str) : Option (List Choice) → Option (List Choice) → Term → Prop
  | some only, _, p => Asked nsOf only p
  | none, some exclude, p => ¬ Refused nsOf exclude p
  | none, none, _ => True

/-- Predicates are listed in `only` as URIs, not as other strings. -/
def ListedAsTerms (g : Graph) (node : Term) : Option (List Choice) → Prop
  | some only => ∀ t ∈ g, t.s = node → ∀ c ∈ only, c.str = t.p.str → c = .term t.p
  | none => True

/-- The predicates of a node are URIs, as in any RDF graph. -/
def UriPredicates (g : Graph) (node : Term) : Prop := ∀ t ∈ g, t.s = node → ∃ s, t.p = .uri s

/-- The text of a term when it is a literal in this language (`none`: without language). -/
def textIn (lang : Option Str) : Term → Option Str
  | .lit s l _ => if l = lang then some s else none
  | _ => none

/-- The texts of the literals that a node has for a predicate in a language. -/
def textsOf (g : Graph) (node p : Term) (lang : Option Str) : List Str :=
  (g.filter fun t => t.s = node && t.p = p).filterMap fun t => textIn lang t.o

/-- How values are shown: nothing, the only value, or the list of the values. -/
def shownAs : List Str → Option JValue
  | [] => none
  | [v] => some (.one v)
  | vs => some (.many vs)

/-- `str.title` on ASCII: the first letter of every run of letters is made large, the others small. -/
def asciiTitle (inWord : Bool) : Str → Str
  | [] => []
  | c :: r => if c.isAlpha then (if inWord then c.toLower else c.toUpper) :: asciiTitle true r else c :: asciiTitle false r

end Verif.Spec
