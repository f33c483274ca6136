import Verif.Spec.RemotePassage
import Verif.Model.RemoteFamily
/-!
Specification vocabulary for C103: what is asked of a remote passage over time, with an endpoint that fails at times.
-/
namespace Verif.Spec
open Verif.Py Verif.Model

/-- An endpoint as it is at some time: it answers as `serve`, or fails. -/
def AtTimes (e serve : CtsEndpoint) : Prop := ∀ r, e r = serve r ∨ ∃ x, e r = .error x

/-- What can be read of a passage: identifiers and passages. -/
inductive PassageOp where
  | prevId | nextId | siblingsId | firstId | lastId | childIds
  | prev | next | parent | first | last | children
  deriving DecidableEq, Repr

/-- The readings that give identifiers. -/
def PassageOp.isId : PassageOp → Bool
  | .prevId | .nextId | .siblingsId | .firstId | .lastId | .childIds => true
  | _ => false

/-- What a reading gives. Of a passage the requests so far are left out, which are those of the whole retriever. -/
inductive PassageAnswer where
  | sib (x : Sib)
  | sibs (x y : Sib)
  | id (x : Option Str)
  | ids (l : List Str)
  | passage (p : Option RemotePassage)
  | passages (l : List RemotePassage)
  deriving DecidableEq, Repr

/-- The endpoint said nothing of the sibling. -/
def PassageAnswer.silent : PassageAnswer → Bool
  | .sib x => x = .unknown
  | .sibs x y => x = .unknown || y = .unknown
  | _ => false

/-- A passage without the requests so far. -/
def unlogged (p : RemotePassage) : RemotePassage := { p with log := [] }

/-- A reading. `deepest` is the number of levels that the passage knows of. -/
def askPassage (serve : CtsEndpoint) (d : Option Str) (deepest : Nat) (s : RemotePassage) : PassageOp → RemotePassage × Except PyErr PassageAnswer
  | .prevId => let o := s.prevId serve d; (o.1, .sib <$> o.2)
  | .nextId => let o := s.nextId serve d; (o.1, .sib <$> o.2)
  | .siblingsId => let o := s.siblingsId serve d; (o.1, (fun x => .sibs x.1 x.2) <$> o.2)
  | .firstId => let o := s.firstId serve d; (o.1, .id <$> o.2)
  | .lastId => let o := s.lastId serve d deepest; (o.1, (fun x => .id (some x)) <$> o.2)
  | .childIds => let o := s.childIds serve d deepest; (o.1, .ids <$> o.2)
  | .prev => let o := s.goPrev serve d; (o.1, (fun p => .passage (p.map unlogged)) <$> o.2)
  | .next => let o := s.goNext serve d; (o.1, (fun p => .passage (p.map unlogged)) <$> o.2)
  | .parent => let o := s.goParent serve d; ({ s with log := o.1 }, (fun p => .passage (some (unlogged p))) <$> o.2)
  | .first => let o := s.goFirst serve d; (o.1, (fun p => .passage (p.map unlogged)) <$> o.2)
  | .last => let o := s.goLast serve d deepest; (o.1, (fun p => .passage (some (unlogged p))) <$> o.2)
  | .children => let o := s.goChildren serve d deepest; (o.1, (fun l => .passages (l.map unlogged)) <$> o.2)

/-- What came of a reading: the requests made and the answer. -/
structure Outcome where
  requests : List (List (Str × Str))
  answer : Except PyErr PassageAnswer

/-- Readings of a passage, one after the other, each with the endpoint as it is then. -/
def session (d : Option Str) (deepest : Nat) : RemotePassage → List (CtsEndpoint × PassageOp) → RemotePassage × List Outcome
  | s, [] => (s, [])
  | s, (e, op) :: rest =>
    let o := askPassage e d deepest s op
    let more := session d deepest o.1 rest
    (more.1, ⟨o.1.log.drop s.log.length, o.2⟩ :: more.2)

/-- A reader who asks for the next passage, again when the endpoint fails, as often as there are endpoints in the list, which is what the
endpoint is at each of the times. What they get: the passages, and whether they reached the end of the text. -/
def persist (d : Option Str) : List CtsEndpoint → RemotePassage → List RemotePassage × Bool
  | [], _ => ([], false)
  | e :: later, s =>
    match s.goNext e d with
    | (s, .error _) => persist d later s
    | (_, .ok none) => ([], true)
    | (_, .ok (some p)) => let more := persist d later p; (p :: more.1, more.2)

/-- An endpoint that has a passage of a text. -/
def GivesPassage (serve : CtsEndpoint) (d : Option Str) (text r : Str) : Prop :=
  ∃ a, serve (ctsPassage d (text ++ ':' :: r) none none) = .ok a ∧ a.hasRequest = true ∧ a.hasText = true

end Verif.Spec
