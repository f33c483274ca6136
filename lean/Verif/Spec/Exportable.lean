import Verif.Model.Exportable
/-!
Specification vocabulary for C51: what a class declares and which implementation it runs, in terms of the first
class of its resolution order that says so.
-/
namespace Verif.Spec
open Verif.Py Verif.Model

/-- `a` is the first of the list with property `P`. -/
def FirstWith (P : Str → Prop) (l : List Str) (a : Str) : Prop :=
  ∃ pre post, l = pre ++ a :: post ∧ (∀ b ∈ pre, ¬ P b) ∧ P a

/-- A class declares an output: the list that it defines, or else the nearest one it inherits, contains it. -/
def Declares (cs : Classes) (output k : Str) : Prop :=
  ∃ a l, FirstWith (fun b => (cs b).exportTo ≠ none) (cs k).mro a ∧ (cs a).exportTo = some l ∧ output ∈ l

/-- The implementation that a class runs: its own, or the nearest that it inherits. -/
def Runs (cs : Classes) (k i : Str) : Prop := FirstWith (fun b => (cs b).definesExport = true) (cs k).mro i

/-- The default output of a class. -/
def HasDefault (cs : Classes) (c o : Str) : Prop :=
  ∃ a, FirstWith (fun b => (cs b).defaultExport ≠ none) (cs c).mro a ∧ (cs a).defaultExport = some (some o)

end Verif.Spec
