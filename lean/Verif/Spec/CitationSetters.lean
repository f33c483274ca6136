import Verif.Spec.RefsDecl
import Verif.Model.CitationSetters
/-!
Specification vocabulary for assignments of citations (C87): a citation is one path, its scope all steps but the last, its
xpath the last one. Uses only the names of assignments from the model.
-/
namespace Verif.Spec
open Verif.Py Verif.Model

/-- An assignment of paths. -/
inductive PathSet where
  | scope (v : Option (List PStep))
  | xpath (v : Option (List PStep))
  | refsDecl (v : Option (List PStep))

/-- The assignment as a user writes it. -/
def PathSet.text : PathSet → CiteSet
  | .scope v => .scope (v.map shownText)
  | .xpath v => .xpath (v.map shownText)
  | .refsDecl v => .refsDecl (v.map refsDeclText)

/-- Its steps are well formed. -/
def PathSet.WF : PathSet → Prop
  | .scope v => ∀ p, v = some p → ∀ s ∈ p, s.WF
  | .xpath v => ∀ p, v = some p → ∀ s ∈ p, s.WF
  | .refsDecl v => ∀ p, v = some p → ∀ s ∈ p, s.WF

/-- What an assignment does to the path: `None` does nothing; a scope replaces all steps but the last, an xpath the last one, if there
are steps; a refsDecl replaces the path. -/
def PathSet.apply : Option (List PStep) → PathSet → Option (List PStep)
  | path, .scope none | path, .xpath none | path, .refsDecl none => path
  | path, .scope (some q) => path.map fun p => match p.getLast? with
    | none => p
    | some x => q ++ [x]
  | path, .xpath (some q) => path.map fun p => if p = [] then p else p.dropLast ++ q
  | _, .refsDecl (some q) => some q

/-- What the citation answers for a path: nothing can be read without one; an empty one has no last step. -/
def ReadsAs (c : CiteText) : Option (List PStep) → Prop
  | none => c.refsDecl = none ∧ citeScope c = .error .typeError ∧ citeXpath c = .error .typeError
  | some p => match p.getLast? with
    | none => c.refsDecl = some [] ∧ citeScope c = .error .indexError ∧ citeXpath c = .error .indexError
    | some x => citeScope c = .ok (shownText p.dropLast) ∧ citeXpath c = .ok (shownText [x]) ∧
        ∃ q : List PStep, c.refsDecl = some (refsDeclText q) ∧ shownText q = shownText p

end Verif.Spec
