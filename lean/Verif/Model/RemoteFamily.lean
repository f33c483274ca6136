import Verif.Model.RemotePassage
/-!
The first and last unit of a remote passage and its children, as passages: resources/prototypes/text.py 296-323, with the
identifiers of resources/texts/remote/cts.py 249-271.
-/
namespace Verif.Model
open Verif.Py

/-- `self.getTextualNode(id)` with the log of the passage brought up to date: remote/cts.py 90-117. -/
def RemotePassage.nodeAt (serve : CtsEndpoint) (d : Option Str) (id : Str) (s : RemotePassage) : RemotePassage × Except PyErr RemotePassage :=
  let out := remoteNode serve d s.urn (some id) s.log
  ({ s with log := out.1 }, out.2)

/-- `first`: prototypes/text.py 311-316: the identifier is read twice; `none` for `None`. -/
def RemotePassage.goFirst (serve : CtsEndpoint) (d : Option Str) (s : RemotePassage) : RemotePassage × Except PyErr (Option RemotePassage) :=
  match s.firstId serve d with
  | (s, .error e) => (s, .error e)
  | (s, .ok none) => (s, .ok none)
  | (s, .ok (some _)) =>
    match s.firstId serve d with
    | (s, .error e) => (s, .error e)
    | (s, .ok f) =>
      let out := remoteNode serve d s.urn f s.log
      ({ s with log := out.1 }, some <$> out.2)

/-- `last`: prototypes/text.py 318-323: the identifier, which is never `None`, is read twice. -/
def RemotePassage.goLast (serve : CtsEndpoint) (d : Option Str) (deepest : Nat) (s : RemotePassage) : RemotePassage × Except PyErr RemotePassage :=
  match s.lastId serve d deepest with
  | (s, .error e) => (s, .error e)
  | (s, .ok _) =>
    match s.lastId serve d deepest with
    | (s, .error e) => (s, .error e)
    | (s, .ok x) => s.nodeAt serve d x

/-- The loop of `children`, read to its end: prototypes/text.py 296-302. -/
def RemotePassage.nodesAt (serve : CtsEndpoint) (d : Option Str) : List Str → RemotePassage → RemotePassage × Except PyErr (List RemotePassage)
  | [], s => (s, .ok [])
  | x :: r, s =>
    match s.nodeAt serve d x with
    | (s, .error e) => (s, .error e)
    | (s, .ok p) =>
      match RemotePassage.nodesAt serve d r s with
      | (s, .error e) => (s, .error e)
      | (s, .ok l) => (s, .ok (p :: l))

/-- `children`, read to its end: prototypes/text.py 296-302. -/
def RemotePassage.goChildren (serve : CtsEndpoint) (d : Option Str) (deepest : Nat) (s : RemotePassage) : RemotePassage × Except PyErr (List RemotePassage) :=
  match s.childIds serve d deepest with
  | (s, .error e) => (s, .error e)
  | (s, .ok l) => s.nodesAt serve d l

end Verif.Model
