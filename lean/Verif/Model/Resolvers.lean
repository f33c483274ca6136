import Verif.Model.RemoteExport
import Verif.Model.LocalResolver
/-!
The resolver of CTS endpoints with what it returns in full: MyCapytain/resolvers/cts/api.py 46-102 and
resources/texts/remote/cts.py 134-153. `Verif/Model/RemotePassage.lean` has the same functions as far as navigation is
concerned. Subreferences are those of the local resolver: strings, references or `None`.
-/
namespace Verif.Model
open Verif.Py

/-- `"{}".format(subreference)`: remote/cts.py 77, 103, 145, 218. -/
def PassageArg.shown : PassageArg → Str
  | .text s => s
  | .ref r => r.str

/-- A subreference as `getTextualNode` of a remote text takes it: remote/cts.py 101-114. -/
def subArg : Option PassageArg → NodeArg
  | none => .other
  | some (.text s) => .text s
  | some (.ref r) => .ref r

/-- `getPassagePlus(reference)`: remote/cts.py 134-153, with the element of the passage. The labels go to the passage, and its
scheme to the text. -/
def RemoteText.plus (serve : DocEndpoint) (d : Option Str) (sub : Option Str) (fresh : Term) (s : RemoteText) :
    RemoteText × Except PyErr OpenedPassage :=
  match s.urn.str with
  | .error e => (s, .error e)
  | .ok (u, _) =>
    let r := ctsPassagePlus d (withPassage u sub) none none
    let s := { s with log := s.log ++ [r] }
    match serve r with
    | .error e => (s, .error e)
    | .ok doc =>
      match openWhole (withPassage u sub) doc fresh s.log with
      | .error e => (s, .error e)
      | .ok p =>
        match elementsIn ['t', 'i', ':', 'r', 'e', 'p', 'l', 'y'] ['t', 'i', ':', 'l', 'a', 'b', 'e', 'l'] doc with
        | [] => (s, .error .indexError)
        | x :: _ =>
          match parseRequest doc x s.graph p.obj with
          | (g, .error e) => ({ s with graph := g }, .error e)
          | (g, .ok o) => ({ s with graph := g, obj := { s.obj with cite := o.cite } }, .ok { p with obj := o })

/-- `CtsText(urn=textId, retriever=…)`: resolvers/cts/api.py 60-63, remote/cts.py 333-334. `fresh` is its node in the graph. -/
def apiText (textId : Str) (g : Graph) (fresh : Term) : Except PyErr RemoteText :=
  match Urn.parse textId with
  | .error e => .error e
  | .ok u => .ok ⟨u, ⟨fresh, []⟩, g, []⟩

/-- `getTextualNode(textId, subreference, prevnext, metadata)` of the resolver: resolvers/cts/api.py 46-68. `fresh` and `fresh'` are the
nodes of the text and of the passage. -/
def apiOpen (serve : DocEndpoint) (d : Option Str) (textId : Str) (sub : Option PassageArg) (prevnext metadata : Bool) (g : Graph)
    (fresh fresh' : Term) : Except PyErr (RemoteText × Except PyErr OpenedPassage) :=
  match apiText textId g fresh with
  | .error e => .error e
  | .ok s =>
    if metadata || prevnext then .ok (s.plus serve d (sub.map PassageArg.shown) fresh')
    else .ok (s.getNode serve d (subArg sub) fresh')

/-- `getReffs(textId, level, subreference)` of the resolver: resolvers/cts/api.py 86-102. -/
def apiList (serve : DocEndpoint) (d : Option Str) (textId : Str) (level : Int) (sub : Option PassageArg) (g : Graph) (fresh : Term) :
    Except PyErr (RemoteText × Except PyErr (List Str)) :=
  match apiText textId g fresh with
  | .error e => .error e
  | .ok s => .ok (s.getReffs serve d level (sub.map PassageArg.shown))

end Verif.Model
