import Verif.Model.InventoryXml
/-!
Citation schemes in TEI headers: `Citation.export(Mimetypes.XML.TEI)` and `Citation.ingest` of
MyCapytain/common/reference/_capitains_cts.py 903-956, and `CapitainsCtsText._findCRefPattern` of
MyCapytain/resources/texts/local/capitains/cts.py 471-488.

A scheme is the list of its levels from the top (`iter(citation)`); the objects and their roots are in
`Model/CitationHeap`. Names of elements are those of the XPath expressions, `tei:name`.
-/
namespace Verif.Model
open Verif.Py

/-- `citation.export(Mimetypes.XML.TEI)` for one level: _capitains_cts.py 903-921. A level without refsDecl gives
the empty string, as does one with the empty refsDecl (`export`, 918-921). -/
def teiExport (l : CiteLevel) : Str :=
  match l.refsDecl with
  | none => []
  | some rd =>
    if rd = [] then []
    else
      ['<', 't', 'e', 'i', ':', 'c', 'R', 'e', 'f', 'P', 'a', 't', 't', 'e', 'r', 'n', ' ', 'n', '=', '"'] ++ l.name.getD [] ++ ['"', ' ', 'm', 'a', 't', 'c', 'h', 'P', 'a', 't', 't', 'e', 'r', 'n', '=', '"'] ++
      join ['\\', '.'] (List.replicate (count '$' rd) ['(', '\\', 'w', '+', ')']) ++ ['"', ' ', 'r', 'e', 'p', 'l', 'a', 'c', 'e', 'm', 'e', 'n', 't', 'P', 'a', 't', 't', 'e', 'r', 'n', '=', '"', '#', 'x', 'p', 'a', 't', 'h', '('] ++ rd ++
      [')', '"', '>', '<', 't', 'e', 'i', ':', 'p', '>', 'T', 'h', 'i', 's', ' ', 'p', 'o', 'i', 'n', 't', 'e', 'r', ' ', 'p', 'a', 't', 't', 'e', 'r', 'n', ' ', 'e', 'x', 't', 'r', 'a', 'c', 't', 's', ' '] ++ l.name.getD [] ++ ['<', '/', 't', 'e', 'i', ':', 'p', '>', '<', '/', 't', 'e', 'i', ':', 'c', 'R', 'e', 'f', 'P', 'a', 't', 't', 'e', 'r', 'n', '>']

/-- `s[7:-1]`. -/
def withoutFunction (s : Str) : Str := s.dropLast.drop 7

/-- The loop of `Citation.ingest` over the patterns: _capitains_cts.py 945-952. A pattern without replacement
raises `TypeError` (`None[7:-1]`). -/
def levelsOf : List Node → Except PyErr (List CiteLevel)
  | [] => .ok []
  | n :: r =>
    match n.get ['r', 'e', 'p', 'l', 'a', 'c', 'e', 'm', 'e', 'n', 't', 'P', 'a', 't', 't', 'e', 'r', 'n'] with
    | none => .error .typeError
    | some s =>
      match levelsOf r with
      | .error e => .error e
      | .ok ls => .ok ({ name := n.get ['n'], refsDecl := some (withoutFunction s) } :: ls)

/-- `Citation.ingest(resource, xpath=".//tei:cRefPattern")` of an element: _capitains_cts.py 934-956. The last
pattern is the top of the scheme; `citations[-1]` raises `IndexError` when there is none. -/
def ingestTei (n : Node) : Except PyErr (List CiteLevel) :=
  match levelsOf ((allNodesList n.kids).filter fun c => c.tag = ['t', 'e', 'i', ':', 'c', 'R', 'e', 'f', 'P', 'a', 't', 't', 'e', 'r', 'n']) with
  | .error e => .error e
  | .ok [] => .error .indexError
  | .ok ls => .ok ls.reverse

/-- `citation.is_set()` of the top of a scheme: _capitains_cts.py 874-880; a new `Citation()` is the scheme of one
level without name and refsDecl, as is the empty list here. -/
def citeIsSet (c : List CiteLevel) : Bool := (c.head?.bind CiteLevel.refsDecl).isSome

/-- The citation scheme of a text that is opened with a document: capitains/cts.py 471-488. `given` is the scheme
given to the constructor. -/
def findCRefPattern (given : List CiteLevel) (root : Node) : Except PyErr (List CiteLevel) :=
  if citeIsSet given then .ok given
  else
    match root.allNodes.filter fun c => c.tag = ['t', 'e', 'i', ':', 'r', 'e', 'f', 's', 'D', 'e', 'c', 'l'] ∧ c.get ['n'] = some ['C', 'T', 'S'] with
    | [] => .error .missingRefsDecl
    | r :: _ => ingestTei r

end Verif.Model
