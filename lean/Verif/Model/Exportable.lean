import Verif.Py.Str
/-!
Dispatch of exports over the classes of an object: MyCapytain/common/base.py.
-/
namespace Verif.Model
open Verif.Py

/-- A class with what its own body defines. `mro` is its method resolution order, the class itself first;
classes are named by strings. `object` is a class without any of the attributes. -/
structure Cls where
  mro : List Str
  exportTo : Option (List Str)
  defaultExport : Option (Option Str)
  definesExport : Bool
  deriving DecidableEq, Repr

/-- The classes that exist. -/
abbrev Classes := Str → Cls

/-- `getattr(cls, "EXPORT_TO")`, `none` when `hasattr` is false: the first class of the resolution order that
defines it. -/
def exportToOf (cs : Classes) (c : Str) : Option (List Str) := (cs c).mro.findSome? fun k => (cs k).exportTo

/-- `self.DEFAULT_EXPORT`; `none` when no class defines it (then Python raises, but `Exportable` defines it). -/
def defaultOf (cs : Classes) (c : Str) : Option Str :=
  match (cs c).mro.findSome? fun k => (cs k).defaultExport with
  | some d => d
  | none => none

/-- The class whose `__export__` is found from `cls`. -/
def implOf (cs : Classes) (c : Str) : Except PyErr Str :=
  match (cs c).mro.find? fun k => (cs k).definesExport with
  | some k => .ok k
  | none => .error .attributeError

/-- `export_capacities`: base.py 20-24. -/
def exportCapacities (cs : Classes) (c : Str) : List Str :=
  (cs c).mro.flatMap fun k => match exportToOf cs k with | some l => l | none => []

/-- The loop of `export`: base.py 46-48. -/
def exportLoop (cs : Classes) (output : Str) : List Str → Except PyErr Str
  | [] => .error .notImplemented
  | k :: rest =>
    match exportToOf cs k with
    | some l => if output ∈ l then implOf cs k else exportLoop cs output rest
    | none => exportLoop cs output rest

/-- `obj.export(output)`, `c` being the class of the object: base.py 35-51. The result is the class whose
`__export__` is run. An empty string counts as an output, as in Python. -/
def exportObj (cs : Classes) (c : Str) (output : Option Str) : Except PyErr Str :=
  match (match output with | none => defaultOf cs c | some o => some o) with
  | none => .error .notImplemented
  | some o => if o ∈ exportCapacities cs c then exportLoop cs o (cs c).mro else .error .notImplemented

end Verif.Model
