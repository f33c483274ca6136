import Verif.Model.Inventory
import Verif.Model.Siblings
import Verif.Model.TeiRefsDecl
/-!
The local resolver as a whole: MyCapytain/resolvers/cts/local.py 104-123 (`xmlparse`, `read`), 183-235
(`_parse_text`), 295-312 (`parse`, for texts), 314-347 (`__getText__`) and 472-525 (`getTextualNode`, `getSiblings`,
`getReffs`), with the constructors that they call: resources/texts/local/capitains/cts.py 32-46, 53-136, 332-346,
464-488 and 549-568.

It puts together the inventory (`Model/Inventory`), the header of a document (`Model/TeiRefsDecl`), local texts
(`Model/LocalText`) and their passages (`Model/Siblings`). Metadata are not kept: what `metadata=True` adds to a passage
is in `Model/CtsMetadata`. Warnings and the log are not modelled.
-/
namespace Verif.Model
open Verif.Py

/-- The files: what is at a path, if it is a file; reading and parsing it may raise. -/
abbrev Files := Str → Option (Except PyErr Node)

/-- `CapitainsCtsText(urn=…, resource=…)`: capitains/cts.py 464-488. The text reads the refsDecl of every level. -/
def openText (same : Same) (root : Node) : Except PyErr LocalText :=
  match findCRefPattern [] root with
  | .error e => .error e
  | .ok ls => .ok ⟨root, ls.map fun l => l.refsDecl.getD [], same⟩

/-! ### Reading the texts of a folder -/

/-- `"{}".format(x)` for a component of a URN. -/
def partText : Option Str → Str
  | none => ['N', 'o', 'n', 'e']
  | some s => s

/-- The path of a text: local.py 194-200. -/
def textPath (dir : Str) (u : Urn) : Str :=
  dir ++ '/' :: partText u.tg ++ '.' :: partText u.wk ++ '.' :: partText u.ver ++ ['.', 'x', 'm', 'l']

/-- `s.replace("'", '"')`. -/
def doubleQuotes (s : Str) : Str := s.map fun c => if c = '\'' then '"' else c

/-- The citation made for a level of the text: local.py 205-218 and _capitains_cts.py 691-703. A level that cannot be
cut into scope and xpath raises `IndexError`; one of a single step has no scope, and the new citation no refsDecl. -/
def rebuildLevel (l : CiteLevel) : Except PyErr CiteLevel :=
  match parseXpathScope (l.refsDecl.getD []) with
  | .error e => .error e
  | .ok (scope, xpath) =>
    .ok { name := l.name,
          refsDecl := if scope = [] ∨ xpath = [] then none else some (fromScopeXpath (doubleQuotes scope) (doubleQuotes xpath)) }

/-- The loop over the levels, from the deepest: local.py 204-218. -/
def rebuildLevels : List CiteLevel → Except PyErr (List CiteLevel)
  | [] => .ok []
  | l :: r =>
    match rebuildLevels r with
    | .error e => .error e
    | .ok ls =>
      match rebuildLevel l with
      | .error e => .error e
      | .ok x => .ok (x :: ls)

/-- `self.read(…)` and the levels of the citation: local.py 111-123, 203-218. -/
def readScheme (f : Except PyErr Node) : Except PyErr (List CiteLevel) :=
  match f with
  | .error e => .error e
  | .ok root =>
    match findCRefPattern [] root with
    | .error e => .error e
    | .ok ls => rebuildLevels ls

/-- What `_parse_text` leaves in a text: its path and its citation, and what it returns. -/
structure ParsedText where
  path : Str
  cite : List CiteLevel
  ok : Bool
  deriving DecidableEq, Repr

/-- `_parse_text(text, directory)`: local.py 183-235. `cite` is the citation that the metadata gave, empty for `None`;
it stays when the file is missing or something raises. -/
def parseTextFile (files : Files) (dir : Str) (u : Urn) (cite : List CiteLevel) : ParsedText :=
  match files (textPath dir u) with
  | none => ⟨textPath dir u, cite, false⟩
  | some f =>
    match readScheme f with
    | .error _ => ⟨textPath dir u, cite, false⟩
    | .ok ls => ⟨textPath dir u, ls, citeIsSet ls⟩

/-- The texts that a metadata file of a work describes, and the folder of the file. -/
structure WorkFile where
  id : Str
  lang : Str
  texts : List TextV
  dir : Str

/-- A textgroup found in the folders. -/
structure TgFile where
  id : Str
  works : List WorkFile
  path : Str

/-- The text as `_parse_text` leaves it: local.py 299-302. In the inventory the number of levels stands for a citation
scheme; a text whose metadata had no citation is meant. `_clean_invalids` (local.py 255-263) does nothing: a text that
could not be read stays. -/
def placeText (files : Files) (dir : Str) (t : TextV) : TextV :=
  { t with path := (parseTextFile files dir t.urn []).path,
           cite := if (parseTextFile files dir t.urn []).cite = [] then none else some (parseTextFile files dir t.urn []).cite.length }

/-- A textgroup with its texts read: local.py 286-302. -/
def placeTg (files : Files) (g : TgFile) : TgDesc :=
  { id := g.id, path := g.path,
    works := g.works.map fun w => { id := w.id, lang := w.lang, texts := w.texts.map (placeText files w.dir) } }

/-- `parse(resource)`: local.py 276-312. -/
def parseFiles (files : Files) (raises : Bool) (d : Dispatcher) (found : List TgFile) : Except PyErr Dispatcher :=
  parseAll raises d (found.map (placeTg files))

/-! ### Answering -/

/-- `__getText__(urn)`: local.py 314-347: the text with its URN, `none` when the file does not exist, and its object in
the inventory. -/
def fetchText (files : Files) (same : Same) (r : RootV) (u : Urn) : Except PyErr (Option (Str × LocalText) × TextV) :=
  match chooseUrn r u with
  | .error e => .error e
  | .ok s =>
    match getText r u with
    | .error e => .error e
    | .ok t =>
      match files t.path with
      | none => .ok (none, t)
      | some (.error e) => .error e
      | some (.ok root) =>
        match openText same root with
        | .error e => .error e
        | .ok x => .ok (some (s, x), t)

/-- `__getText__` for an identifier given as a string: local.py 321-322. -/
def fetchTextId (files : Files) (same : Same) (r : RootV) (textId : Str) : Except PyErr (Option (Str × LocalText) × TextV) :=
  match Urn.parse textId with
  | .error e => .error e
  | .ok u => fetchText files same r u

/-- A subreference: a string or a `CtsReference`. -/
inductive PassageArg where
  | text (s : Str)
  | ref (r : Ref)

/-- `CtsReference(subreference)` unless it is one: local.py 487, 504; `None` for the empty string. -/
def PassageArg.make : PassageArg → Except PyErr (Option Ref)
  | .text s => mkRef s
  | .ref r => .ok (some r)

/-- The URN of a passage and the reference that the passage keeps: capitains/cts.py 32-46, 98-101, 549-559. The
reference is read back from the URN. -/
def passageUrn (s : Str) (r : Ref) : Except PyErr (Str × Ref) :=
  match Urn.parse (s ++ ':' :: r.str) with
  | .error e => .error e
  | .ok w =>
    match w.upTo 3 with
    | .error e => .error e
    | .ok v =>
      match Urn.parse (v ++ ':' :: r.str) with
      | .error e => .error e
      | .ok x =>
        match x.str with
        | .error e => .error e
        | .ok (a, _) => .ok (a, w.ref.getD r)

/-- What `getTextualNode` returns: the text as one passage without reference, or a passage; both with the URN. -/
inductive Answer where
  | whole (urn : Str) (root : Node)
  | part (urn : Str) (p : Passage)

/-- `text.getTextualNode(subreference)` on a text with a URN: capitains/cts.py 53-136. -/
def textAnswer (s : Str) (t : LocalText) : Option Ref → Except PyErr Answer
  | none => .ok (.whole s t.root)
  | some r =>
    match getTextualNode t r with
    | .error e => .error e
    | .ok tree =>
      match passageUrn s r with
      | .error e => .error e
      | .ok (a, ref) => .ok (.part a ⟨ref, tree, .text⟩)

/-- The subreference of `getTextualNode`: local.py 486-487. -/
def optMake : Option PassageArg → Except PyErr (Option Ref)
  | none => .ok none
  | some a => a.make

/-- `resolver.getTextualNode(textId, subreference)`: local.py 472-490. Without a file, `None.getTextualNode` raises
`AttributeError`. -/
def resolverNode (files : Files) (same : Same) (r : RootV) (textId : Str) (sub : Option PassageArg) : Except PyErr Answer :=
  match fetchTextId files same r textId with
  | .error e => .error e
  | .ok (t, _) =>
    match optMake sub with
    | .error e => .error e
    | .ok ref =>
      match t with
      | none => .error .attributeError
      | some (s, x) => textAnswer s x ref

/-- `passage.siblingsId` of what `getTextualNode` returned: capitains/cts.py 409-446, 620-674. The passage without
reference has depth 0, and no reference to ask for `is_range()`. -/
def Answer.siblings (t : LocalText) : Answer → Except PyErr (Option Ref × Option Ref)
  | .part _ p => p.siblingsId t
  | .whole _ _ =>
    match getValidReff t (some 0) none with
    | .error e => .error e
    | .ok _ => .error .attributeError

/-- `resolver.getSiblings(textId, subreference)`: local.py 492-508. -/
def resolverSiblings (files : Files) (same : Same) (r : RootV) (textId : Str) (sub : PassageArg) :
    Except PyErr (Option Ref × Option Ref) :=
  match fetchTextId files same r textId with
  | .error e => .error e
  | .ok (t, _) =>
    match sub.make with
    | .error e => .error e
    | .ok ref =>
      match t with
      | none => .error .attributeError
      | some (s, x) =>
        match textAnswer s x ref with
        | .error e => .error e
        | .ok a => a.siblings x

/-- `text.getReffs(level, subreference)` when the subreference counts as false: capitains/cts.py 156-172, 190-230. The
empty string is not `None`, so that the levels below 1 become 1. -/
def reffsWithout (t : LocalText) (level : Option Int) : Option PassageArg → Except PyErr RefSet
  | none => getValidReff t level none
  | some _ => reffsAt t.decls t.root [] (effLevel level true 0)

/-- Is the subreference false? -/
def noSub : Option PassageArg → Bool
  | none => true
  | some (.text s) => s.isEmpty
  | some (.ref _) => false

/-- `resolver.getReffs(textId, level, subreference)`: local.py 510-525 and capitains/cts.py 156-172. With a subreference
the passage is made first. -/
def resolverReffs (files : Files) (same : Same) (r : RootV) (textId : Str) (level : Option Int) (sub : Option PassageArg) :
    Except PyErr RefSet :=
  match fetchTextId files same r textId with
  | .error e => .error e
  | .ok (none, _) => .error .attributeError
  | .ok (some (s, x), _) =>
    if noSub sub then reffsWithout x level sub
    else
      match optMake sub with
      | .error e => .error e
      | .ok ref =>
        match textAnswer s x ref with
        | .error e => .error e
        | .ok _ => getValidReff x level ref

end Verif.Model
