import Verif.Model.Siblings
import Verif.Model.Urn
import Verif.Model.Metadata
import Verif.Model.DtsJson
/-!
URN, identifier and reference of texts and passages: MyCapytain/resources/prototypes/cts/text.py 40-66,
resources/prototypes/text.py 42-87, resources/texts/local/capitains/cts.py 32-45, 98-110, 112-152, 320-350, 545-570.

What a passage contains is the matter of `Model/LocalText` and `Model/Siblings`.
-/
namespace Verif.Model
open Verif.Py

/-- A value given for a URN: `None`, a string, a `URN`, or something else (given by its `str`). -/
inductive UrnGiven where
  | none
  | str (s : Str)
  | urn (u : Urn)
  | other (s : Str)
  deriving DecidableEq, Repr

/-- `str(value)`. -/
def UrnGiven.text : UrnGiven → Except PyErr Str
  | .none => .ok ['N', 'o', 'n', 'e']
  | .str s => .ok s
  | .urn u => (·.1) <$> u.str
  | .other s => .ok s

/-- A text or a passage: its identifier, its URN and its reference. A text has no reference. -/
structure TextNode where
  id : Str
  urn : Option Urn
  ref : Option Ref
  deriving DecidableEq, Repr

/-- The setter of `urn`: prototypes/cts/text.py 53-66. -/
def TextNode.setUrn (n : TextNode) : UrnGiven → Except PyErr TextNode
  | .str s =>
    match Urn.parse s with
    | .error e => .error e
    | .ok u => .ok { n with urn := some u }
  | .urn u => .ok { n with urn := some u }
  | _ => .error .typeError

/-- `PrototypeCtsNode.__init__`: prototypes/cts/text.py 40-45. -/
def newTextNode (arg : UrnGiven) : Except PyErr TextNode :=
  match arg.text with
  | .error e => .error e
  | .ok id =>
    match arg with
    | .none => .ok ⟨id, Option.none, Option.none⟩
    | a => TextNode.setUrn ⟨id, Option.none, Option.none⟩ a

/-- One assignment to `urn`; when it raises, the object stays as it was. -/
def TextNode.assign (n : TextNode) (a : UrnGiven) : TextNode :=
  match n.setUrn a with
  | .ok n' => n'
  | .error _ => n

/-- `DTS.implements`. -/
def pImplements : Term := .uri (nsDts ++ ['i', 'm', 'p', 'l', 'e', 'm', 'e', 'n', 't', 's'])

/-- What the construction of a text or passage states in the graph: prototypes/text.py 42-52. `blank` is the new blank node. -/
def nodeStatement (g : Graph) (blank id : Str) : Graph := g.insert ⟨.bnode blank, pImplements, .uri id⟩

/-- `_make_passage_kwargs(urn, reference)`: capitains/cts.py 32-45. -/
def passageKwargs : Option Urn → Option Ref → Except PyErr UrnGiven
  | none, _ => .ok .none
  | some u, none => .ok (.urn u)
  | some u, some r =>
    match u.upTo 3 with
    | .error e => .error e
    | .ok base =>
      match Urn.parse (base ++ ':' :: r.str) with
      | .error e => .error e
      | .ok v => .ok (.urn v)

/-- `CapitainsCtsPassage(reference, urn=…)`: capitains/cts.py 545-570, as far as identifier, URN and reference are concerned. -/
def newPassage (urn : Option Urn) (ref : Ref) : Except PyErr TextNode :=
  match passageKwargs urn (some ref) with
  | .error e => .error e
  | .ok a =>
    match newTextNode a with
    | .error e => .error e
    | .ok n => .ok { n with ref := match urn with
        | none => some ref
        | some u => match u.ref with | none => some ref | some r => some r }

/-- The passage that `getTextualNode(reference)` of a text or passage makes: capitains/cts.py 98-110. A `URN` is true when its
`len` is not zero. -/
def TextNode.passage (n : TextNode) (ref : Ref) : Except PyErr TextNode :=
  match n.urn with
  | none => newPassage none ref
  | some u =>
    if u.len = 0 then newPassage none ref
    else
      match u.str with
      | .error e => .error e
      | .ok (s, _) =>
        match Urn.parse (s ++ ':' :: ref.str) with
        | .error e => .error e
        | .ok v => newPassage (some v) ref

/-- The passage that `getTextualNode(reference, simple=True)` makes, or the whole text without a reference: capitains/cts.py 112-152,
320-350. -/
def TextNode.simple (n : TextNode) (ref : Option Ref) : Except PyErr TextNode :=
  match passageKwargs n.urn ref with
  | .error e => .error e
  | .ok a =>
    match newTextNode a with
    | .error e => .error e
    | .ok m => .ok { m with ref := ref }

/-- A passage of a passage of a passage …, each by `getTextualNode` of the one before. -/
def TextNode.walk (n : TextNode) : List Ref → Except PyErr TextNode
  | [] => .ok n
  | r :: rest =>
    match n.passage r with
    | .error e => .error e
    | .ok m => m.walk rest

end Verif.Model
