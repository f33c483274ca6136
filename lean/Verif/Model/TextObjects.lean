import Verif.Model.LocalText
import Verif.Model.XmlObjects
/-!
`getTextualNode` of a local text whose document is made of objects: resources/texts/local/capitains/cts.py 53-109. The
same on values is `getTextualNode` of `Model/LocalText`.
-/
namespace Verif.Model
open Verif.Py

/-- A local text: its document element, the refsDecl of each level, and the way lxml compares elements. -/
structure TextObj where
  root : Nat
  decls : List Str
  same : Same

/-- The paths for the component lists of start and end: cts.py 82-87. -/
def pathsBetween (decls : List Str) (start stop : List Str) : Except PyErr (List Step × List Step) :=
  match citationAt decls ((start.length : Int) - 1) with
  | .error e => .error e
  | .ok d1 =>
    match citationAt decls ((stop.length : Int) - 1) with
    | .error e => .error e
    | .ok d2 =>
      match fill d1 (.list (start.map some)) with
      | .error e => .error e
      | .ok f1 =>
        match fill d2 (.list (stop.map some)) with
        | .error e => .error e
        | .ok f2 =>
          match parseEntries (pathEntries f1) with
          | .error e => .error e
          | .ok p1 =>
            match parseEntries (pathEntries f2) with
            | .error e => .error e
            | .ok p2 => .ok (p1, p2)

/-- `getTextualNode(subreference)`: the element of the passage (cts.py 53-109). -/
def TextObj.node (d : Nat) (t : TextObj) (r : Ref) (h : Elements) : Elements × Except PyErr Nat :=
  if pdepth r.start > t.decls.length then (h, .error .citationDepth)
  else
    match pathsBetween t.decls (plist r.start) (plist (r.stop.getD r.start)) with
    | .error e => (h, .error e)
    | .ok (p1, p2) => h.passage d t.same t.root p1 p2

end Verif.Model
