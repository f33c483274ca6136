import Verif.Model.TextObjects
import Verif.Model.XmlComments
/-!
`getTextualNode` of a local text whose document may have comments and processing instructions:
resources/texts/local/capitains/cts.py 53-109. The same on documents without them is `getTextualNode` of `Model/LocalText`.
-/
namespace Verif.Model
open Verif.Py

/-- `getTextualNode(subreference)`: the document of the passage (cts.py 53-109), where `passageLoop` meets comments
(utils/xml.py 243-366). Simplification: a step `*` without tests would have to pass over comments, here it does not. -/
def getTextualNodeC (t : LocalText) (r : Ref) : Except PyErr Node :=
  if pdepth r.start > t.decls.length then .error .citationDepth
  else
    match pathsBetween t.decls (plist r.start) (plist (r.stop.getD r.start)) with
    | .error e => .error e
    | .ok (p1, p2) => passageTreeC t.same t.root p1 p2

end Verif.Model
