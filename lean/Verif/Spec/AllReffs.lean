import Verif.Spec.LocalText
/-!
Specification vocabulary for all references of a text (C88). Nothing here uses the model of `reffs`.
-/
namespace Verif.Spec
open Verif.Py Verif.Model

/-- The citable units of all levels, the first level first, each level in document order. -/
def unitsByLevel (root : Node) (ls : List Level) : List (List Str × List Nat) :=
  (List.range ls.length).flatMap fun i => units (ls.take (i + 1)) root

end Verif.Spec
