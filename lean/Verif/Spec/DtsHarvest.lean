import Verif.Spec.DtsReading
import Verif.Spec.DtsBrowse
/-!
Specification vocabulary for C102: endpoints that fail at times while texts are read, and a user who collects all that an endpoint offers.
-/
namespace Verif.Spec
open Verif.Py Verif.Model

/-- The endpoint `e'` answers as `e` does, but for requests that fail. -/
structure Falters {γ : Type} (e' e : DtsTexts γ) : Prop where
  documents : ∀ r, e'.documents r = e.documents r ∨ ∃ x, e'.documents r = .error x
  navigation : ∀ r, e'.navigation r = e.navigation r ∨ ∃ x, e'.navigation r = .error x
  bodies : e'.bodies = e.bodies
  docQuery : e'.docQuery = e.docQuery
  navQuery : e'.navQuery = e.navQuery
  turns : e'.turns = e.turns

/-- A request fails. -/
def FailsAt {γ : Type} (e : DtsTexts γ) (r : DocReq) (x : PyErr) : Prop :=
  match r with
  | .document ps => e.documents ps = .error x
  | .navigation ps => e.navigation ps = .error x
  | .collection ps => e.collections ps = .error x

/-- What is done with an endpoint that falters, beside the same with one that does not: it goes as the other, or as the other up to
the first request that fails; this is the last one made, and its failure is what the user gets. `log` is what was requested before. -/
def StopsAtFailure {γ α : Type} (e' : DtsTexts γ) (log : List DocReq) (run' run : List DocReq × Except PyErr α) : Prop :=
  run' = run ∨ ∃ made r later x, run = (log ++ made ++ r :: later, run.2) ∧ run' = (log ++ made ++ [r], .error x) ∧ FailsAt e' r x ∧
    ∀ q ∈ made, ∀ y, ¬ FailsAt e' q y

/-- Reading a level of each of some texts. -/
def readEach {γ : Type} (e : DtsTexts γ) (level : Nat) :
    List DocReq → List Str → Option (List DocReq × Except PyErr (List (Str × List (TextDoc γ))))
  | log, [] => some (log, .ok [])
  | log, id :: ids =>
    match readListed e id level log with
    | none => none
    | some (log, .error x) => some (log, .error x)
    | some (log, .ok ds) =>
      match readEach e level log ids with
      | none => none
      | some (log, .error x) => some (log, .error x)
      | some (log, .ok rest) => some (log, .ok ((id, ds) :: rest))

/-- A user who asks for a collection, for all readable ones below it, and reads a level of each of these. The requests of collections
and those of texts are listed apart. -/
def harvest {γ : Type} (net : DtsCatalogue) (query : List (Str × List Str)) (e : DtsTexts γ) (fuel depth level : Nat) (objectId : Option Str) :
    Option (List (List (Str × List Str)) × List DocReq × Except PyErr (List (Str × List (TextDoc γ)))) :=
  match dtsMetadata net query [] objectId with
  | (log, .error x) => some (log, [], .error x)
  | (log, .ok o) =>
    match o.readableDescendants net query fuel depth log with
    | none => none
    | some (log, _, .error x) => some (log, [], .error x)
    | some (log, _, .ok l) => (readEach e level [] (l.map (·.1))).map fun r => (log, r)

end Verif.Spec
