import Verif.Spec.LocalResolver
/-!
Specification vocabulary for a local resolver whose files change after it was made (C108).
-/
namespace Verif.Spec
open Verif.Py Verif.Model

/-! ### An inventory but for the citation schemes -/

/-- A text without its citation scheme. -/
def plainText (t : TextV) : TextV := { t with cite := none }
/-- A work whose texts have no citation schemes. -/
def plainWork (w : WorkV) : WorkV := { w with texts := w.texts.map plainText }
/-- A textgroup whose texts have no citation schemes. -/
def plainTg (g : TgV) : TgV := { g with works := g.works.map plainWork }
/-- An inventory whose texts have no citation schemes. -/
def plainInv (i : InvV) : InvV := { i with tgs := i.tgs.map plainTg }
/-- A collection of inventories whose texts have no citation schemes. -/
def plainRoot (r : RootV) : RootV := { r with invs := r.invs.map plainInv }

/-- Two inventories are the same but for the citation schemes of texts. -/
def SameButSchemes (r r' : RootV) : Prop := plainRoot r = plainRoot r'

/-- The filter does not look at the citation schemes of the texts. -/
def IgnoresSchemes (f : Filter) : Prop := ∀ g g' path, plainTg g = plainTg g' → f g path = f g' path

/-! ### Files that change, and questions in between -/

/-- Something that a program asks. -/
inductive TextAsked where
  | node (textId : Str) (sub : Option PassageArg)
  | siblings (textId : Str) (sub : PassageArg)
  | reffs (textId : Str) (level : Option Int) (sub : Option PassageArg)

/-- The URN of the text that is asked about. -/
def TextAsked.textId : TextAsked → Str
  | .node s _ => s
  | .siblings s _ => s
  | .reffs s _ _ => s

/-- What comes back. -/
inductive Reply where
  | node (a : Except PyErr Answer)
  | siblings (a : Except PyErr (Option Ref × Option Ref))
  | reffs (a : Except PyErr RefSet)

/-- The reply of a resolver with this inventory when the files are these. -/
def reply (same : Same) (files : Files) (r : RootV) : TextAsked → Reply
  | .node s sub => .node (resolverNode files same r s sub)
  | .siblings s sub => .siblings (resolverSiblings files same r s sub)
  | .reffs s level sub => .reffs (resolverReffs files same r s level sub)

/-- What happens: a file is written over or made, a file is removed, something is asked. -/
inductive Happening where
  | write (path : Str) (content : Except PyErr Node)
  | remove (path : Str)
  | ask (q : TextAsked)

/-- The files with what is at one path changed. -/
def setFile (files : Files) (path : Str) (c : Option (Except PyErr Node)) : Files := fun s => if s = path then c else files s

/-- The replies of a resolver that was made once, with this inventory. -/
def repliesOf (same : Same) (r : RootV) : Files → List Happening → List Reply
  | _, [] => []
  | files, .write p c :: rest => repliesOf same r (setFile files p (some c)) rest
  | files, .remove p :: rest => repliesOf same r (setFile files p none) rest
  | files, .ask q :: rest => reply same files r q :: repliesOf same r files rest

/-- The replies of resolvers that are made anew for every question, from the same folders. -/
def repliesAnew (same : Same) (make : Files → Except PyErr Dispatcher) : Files → List Happening → List (Except PyErr Reply)
  | _, [] => []
  | files, .write p c :: rest => repliesAnew same make (setFile files p (some c)) rest
  | files, .remove p :: rest => repliesAnew same make (setFile files p none) rest
  | files, .ask q :: rest => (make files).map (fun d => reply same files d.root q) :: repliesAnew same make files rest

/-- What is at a path after all that. -/
def fileAfter : Files → List Happening → Files
  | files, [] => files
  | files, .write p c :: rest => fileAfter (setFile files p (some c)) rest
  | files, .remove p :: rest => fileAfter (setFile files p none) rest
  | files, .ask _ :: rest => fileAfter files rest

/-- Nothing that happens touches this path. -/
def Untouched (path : Str) (es : List Happening) : Prop :=
  ∀ e ∈ es, (∀ c, e ≠ .write path c) ∧ e ≠ .remove path

end Verif.Spec
