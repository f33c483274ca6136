import Verif.Model.PassageCache
/-!
Specification vocabulary for C107: questions to a text or a passage, asked again and again while the document may change.
-/
namespace Verif.Spec
open Verif.Py Verif.Model

/-- Questions for identifiers. -/
inductive IdQuestion where
  | childIds | siblingsId | nextId | prevId | firstId | lastId
  deriving DecidableEq

/-- Answers. -/
inductive IdAnswer where
  | refs (l : RefSet)
  | pair (s : Option Ref × Option Ref)
  | ref (r : Option Ref)
  deriving DecidableEq

/-- Asking an object. -/
def askIds (v : Live) (m : Memory) : IdQuestion → Memory × Except PyErr IdAnswer
  | .childIds => let x := m.childIds v; (x.1, .refs <$> x.2)
  | .siblingsId => let x := m.siblingsId v; (x.1, .pair <$> x.2)
  | .nextId => let x := m.nextId v; (x.1, .ref <$> x.2)
  | .prevId => let x := m.prevId v; (x.1, .ref <$> x.2)
  | .firstId => let x := m.firstId v; (x.1, .ref <$> x.2)
  | .lastId => let x := m.lastId v; (x.1, .ref <$> x.2)

/-- Questions to a passage. -/
inductive Question where
  | ids (q : IdQuestion)
  | next | prev | first | last

/-- Answers of a passage. -/
inductive Answer where
  | ids (a : IdAnswer)
  | passage (p : Option Passage)

/-- Asking a passage, when its text is `t`. -/
def askKept (t : LocalText) (o : PassageObj) : Question → PassageObj × Except PyErr Answer
  | .ids q => let x := askIds (o.passage.live t) o.memory q; ({ o with memory := x.1 }, .ids <$> x.2)
  | .next => let x := o.next t; (x.1, .passage <$> x.2)
  | .prev => let x := o.prev t; (x.1, .passage <$> x.2)
  | .first => let x := o.first t; (x.1, .passage <$> x.2)
  | .last => let x := o.last t; (x.1, .passage <$> x.2)

/-- The text with another document. -/
def withDoc (t : LocalText) (n : Node) : LocalText := { t with root := n }

/-- A passage after a history of questions, each with the document at that time. -/
def passageAfter (t : LocalText) (p : Passage) (history : List (Node × Question)) : PassageObj :=
  history.foldl (fun o x => (askKept (withDoc t x.1) o x.2).1) { passage := p }

/-- The answer after a history. -/
def answerAfter (t : LocalText) (p : Passage) (history : List (Node × Question)) (n : Node) (q : Question) : Except PyErr Answer :=
  (askKept (withDoc t n) (passageAfter t p history) q).2

/-- What a passage that remembers nothing says of identifiers, when its text is `t`. -/
def freshIds (t : LocalText) (p : Passage) : IdQuestion → Except PyErr IdAnswer
  | .childIds => .refs <$> p.childIds t
  | .siblingsId => .pair <$> p.siblingsId t
  | .nextId => (fun s => .ref s.2) <$> p.siblingsId t
  | .prevId => (fun s => .ref s.1) <$> p.siblingsId t
  | .firstId => .ref <$> p.firstId t
  | .lastId => .ref <$> p.lastId t

/-- What a passage says that takes identifiers from the text `then` and retrieves passages from the text `now`. -/
def freshAnswer (then_ now : LocalText) (p : Passage) : Question → Except PyErr Answer
  | .ids q => .ids <$> freshIds then_ p q
  | .next => do
    match (← p.siblingsId then_).2 with
    | none => return .passage none
    | some r => return .passage (some (← p.step now r))
  | .prev => do
    match (← p.siblingsId then_).1 with
    | none => return .passage none
    | some r => return .passage (some (← p.step now r))
  | .first => do
    match ← p.firstId then_ with
    | none => return .passage none
    | some r => return .passage (some (← p.getTextualNode now r))
  | .last => do
    match ← p.lastId then_ with
    | none => return .passage none
    | some r => return .passage (some (← p.getTextualNode now r))

/-- What a simple passage is asked, with assignments of its reference. -/
inductive SimpleStep where
  | ask (q : IdQuestion)
  | assign (r : Ref)

/-- A simple passage after a history. -/
def simpleAfter (t : LocalText) (r : Ref) (history : List (Node × SimpleStep)) : SimpleObj :=
  history.foldl (fun s x => match x.2 with
    | .ask q => { s with memory := (askIds (s.live (withDoc t x.1)) s.memory q).1 }
    | .assign r => s.setReference r) (newSimple r)

/-- Its answer then. -/
def simpleAnswer (t : LocalText) (r : Ref) (history : List (Node × SimpleStep)) (n : Node) (q : IdQuestion) : Except PyErr IdAnswer :=
  let s := simpleAfter t r history
  (askIds (s.live (withDoc t n)) s.memory q).2

/-- The children of a simple passage that remembers nothing. -/
def simpleChildren (t : LocalText) (r : Ref) : Except PyErr RefSet :=
  if r.depth ≥ t.decls.length then .ok [] else getValidReff t (some (1 + r.depth)) (some r)

/-- What a simple passage that remembers nothing says. -/
def freshSimple (t : LocalText) (r : Ref) : IdQuestion → Except PyErr IdAnswer
  | .childIds => .refs <$> simpleChildren t r
  | .siblingsId => .pair <$> simpleSiblings t r
  | .nextId => (fun s => .ref s.2) <$> simpleSiblings t r
  | .prevId => (fun s => .ref s.1) <$> simpleSiblings t r
  | .firstId => (fun l => .ref (l.head?.getD none)) <$> simpleChildren t r
  | .lastId => (fun l => .ref (l.getLast?.getD none)) <$> simpleChildren t r

/-- A text after a history, and its answer then. -/
def textMemory (t : LocalText) (history : List (Node × IdQuestion)) : Memory :=
  history.foldl (fun m x => (askIds (withDoc t x.1).live m x.2).1) {}

def textAnswer (t : LocalText) (history : List (Node × IdQuestion)) (n : Node) (q : IdQuestion) : Except PyErr IdAnswer :=
  (askIds (withDoc t n).live (textMemory t history) q).2

end Verif.Spec
