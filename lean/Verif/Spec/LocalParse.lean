import Verif.Spec.Inventory
import Verif.Model.LocalParse
/-!
Specification vocabulary for errors while folders are parsed (C90). From the model it uses the types of files.
-/
namespace Verif.Spec
open Verif.Py Verif.Model

/-- The exception of a result. -/
def raisedBy {α : Type} : Except PyErr α → Option PyErr
  | .ok _ => none
  | .error e => some e

/-- The metadata files in the order in which they are read: those of the textgroups, and then those of the works; each with the exception that
reading it raises. -/
def readOrder (found : List TgRead) : List (Str × Option PyErr) :=
  found.map (fun t => (t.file, raisedBy t.parsed)) ++ found.flatMap fun t => t.works.map fun w => (w.file, raisedBy w.parsed)

/-- The first file that cannot be read. -/
def FirstBad (found : List TgRead) (file : Str) (e : PyErr) : Prop :=
  ∃ before after, readOrder found = before ++ (file, some e) :: after ∧ ∀ x ∈ before, x.2 = none

/-- Every file is read, and they describe these textgroups. -/
structure AllRead (found : List TgRead) (gs : List TgFile) : Prop where
  paths : found.map TgRead.file = gs.map TgFile.path
  ids : found.map TgRead.parsed = gs.map fun g => .ok g.id
  works : found.map (fun t => t.works.map WorkRead.parsed) = gs.map fun g => g.works.map .ok

end Verif.Spec
