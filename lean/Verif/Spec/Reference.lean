import Verif.Py.Str
/-!
Specification vocabulary for CTS passage references, independent of the model:
what it means for a text to be written from components.
-/
namespace Verif.Spec
open Verif.Py

/-- A passage component as CTS defines it: non-empty, free of `.`, `-`, `@`. -/
def IsComponent (c : Str) : Prop := c ≠ [] ∧ '.' ∉ c ∧ '-' ∉ c ∧ '@' ∉ c

instance (c : Str) : Decidable (IsComponent c) := by unfold IsComponent; infer_instance

/-- Components written with dots between them: `1`, `2`, `3` is written `1.2.3`. -/
def dotted : List Str → Str
  | [] => []
  | [c] => c
  | c :: cs => c ++ '.' :: dotted cs

/-- A written passage: dotted components, then `@` and a subreference if there is one. -/
def passage (cs : List Str) : Option Str → Str
  | none => dotted cs
  | some w => dotted cs ++ '@' :: w

/-- A subreference text without any of the separators. -/
def IsSub (w : Str) : Prop := '.' ∉ w ∧ '-' ∉ w ∧ '@' ∉ w

instance (w : Str) : Decidable (IsSub w) := by unfold IsSub; infer_instance

/-- Every string in an optional subreference is separator free. -/
def IsOptSub : Option Str → Prop
  | none => True
  | some w => IsSub w

end Verif.Spec
