import Verif.Model.Xml
import Verif.Model.Reference
import Verif.Model.RefsDecl
/-!
Local texts: MyCapytain/resources/texts/local/capitains/cts.py 53-288 (`getTextualNode`, `getReffs`,
`getValidReff`), on top of the string side of citations (Model/RefsDecl) and of the tree side (Model/Xml).
-/
namespace Verif.Model
open Verif.Py

/-! ### Reading XPath expressions

Nothing in this part comes from /repo: it is the syntax of the XPath expressions that are sent to lxml,
restricted to `/name` and `//name` steps with tests `[@a]`, `[@a='v']`, `[@a="v"]`. An expression outside this
fragment counts as an XPath error, although lxml accepts more. -/

/-- First characters of names. -/
def ncStart (c : Char) : Bool := isAsciiLetter c || c == '_' || 128 ≤ c.toNat

/-- Other characters of names. -/
def ncChar (c : Char) : Bool := ncStart c || isDigit c || c == '-' || c == '.'

/-- A name without prefix. -/
def ncName : Str → Bool
  | [] => false
  | c :: r => ncStart c && r.all ncChar

/-- A name, with or without prefix. -/
def qName (s : Str) : Bool :=
  match split ':' s with
  | [a] => ncName a
  | [a, b] => ncName a && ncName b
  | _ => false

/-- The name of a step: a name or `*`. -/
def stepName (s : Str) : Bool := s == ['*'] || qName s

/-- The end of a test with a value, after the opening quote `q`. -/
def parseValue (a : Str) (q : Char) (s : Str) : Option (ATest × Str) :=
  match s.dropWhile (· != q) with
  | _ :: ']' :: r => some (.eq a q (s.takeWhile (· != q)), r)
  | _ => none

/-- A test, after its `[@`. -/
def parseTest (s : Str) : Option (ATest × Str) :=
  let a := s.takeWhile fun c => c != ']' && c != '='
  if qName a then
    match s.dropWhile fun c => c != ']' && c != '=' with
    | ']' :: r => some (.has a, r)
    | '=' :: q :: r => if q = '\'' ∨ q = '"' then parseValue a q r else none
    | _ => none
  else none

/-- A sequence of tests; the number bounds their count. -/
def parseTests : Nat → Str → Option (List ATest × Str)
  | fuel + 1, '[' :: '@' :: r =>
    match parseTest r with
    | none => none
    | some (t, r2) =>
      match parseTests fuel r2 with
      | none => none
      | some (ts, r3) => some (t :: ts, r3)
  | _, s => some ([], s)

/-- Does the rest of a path begin with a second slash? -/
def takeSlash : Str → Bool × Str
  | '/' :: r => (true, r)
  | r => (false, r)

/-- A sequence of steps, each with its slashes; the number bounds their count. -/
def parseSteps : Nat → Str → Option (List Step)
  | _, [] => some []
  | fuel + 1, '/' :: r0 =>
    let r := (takeSlash r0).2
    let name := r.takeWhile fun c => c != '/' && c != '['
    if stepName name then
      match parseTests r.length (r.dropWhile fun c => c != '/' && c != '[') with
      | none => none
      | some (ts, r2) =>
        match parseSteps fuel r2 with
        | none => none
        | some ss => some (⟨(takeSlash r0).1, name, ts⟩ :: ss)
    else none
  | _, _ :: _ => none

/-- The document node above the document element, the context of absolute paths. -/
def docNode (root : Node) : Node := .mk [] [] [] [root] []

/-- The element at a position. -/
def at? : Node → List Nat → Option Node
  | n, [] => some n
  | n, i :: t =>
    match n.kids[i]? with
    | some c => at? c t
    | none => none

/-- `xml.xpath(s)` for an absolute path. -/
def evalXpath (root : Node) (s : Str) : Except PyErr (List Node) :=
  match parseSteps s.length s with
  | none => .error .xpathEval
  | some [] => .error .xpathEval
  | some p => .ok ((select (docNode root) p).filterMap (at? (docNode root)))

/-- A step of a list made by `normalizeXpath`: a leading slash marks a descendant step (xml.py 110-126). -/
def parseEntry (x : Str) : Option Step :=
  match parseSteps (x.length + 1) ('/' :: x) with
  | some [s] => some s
  | _ => none

/-- All steps of a list. -/
def parseEntries : List Str → Except PyErr (List Step)
  | [] => .ok []
  | x :: r =>
    match parseEntry x with
    | none => .error .xpathEval
    | some s =>
      match parseEntries r with
      | .error e => .error e
      | .ok ss => .ok (s :: ss)

/-! ### Texts -/

/-- A local text: document element, refsDecl of each citation level from the top, and the way lxml
compares elements. The citation scheme is a chain, as `Citation.ingest` builds it. -/
structure LocalText where
  root : Node
  decls : List Str
  same : Same

/-- `self.citation.root[item]`: _capitains_cts.py 802-805, on a chain. -/
def citationAt (decls : List Str) (item : Int) : Except PyErr Str :=
  if item > (decls.length : Int) - 1 then .error .keyError
  else match pyGet decls item with
    | some x => .ok x
    | none => .error .indexError

/-- `fill(passage=start).split("/")[2:]`, normalised: cts.py 86-87. -/
def pathEntries (filled : Str) : List Str := normalizeXpath ((split '/' filled).drop 2)

/-- `passageLoop` on two filled refsDecls: cts.py 86-96. -/
def passageOf (t : LocalText) (f1 f2 : Str) : Except PyErr Node :=
  match parseEntries (pathEntries f1) with
  | .error e => .error e
  | .ok p1 =>
    match parseEntries (pathEntries f2) with
    | .error e => .error e
    | .ok p2 => passageTree t.same t.root p1 p2

/-- Citations, fillings and tree for the component lists of start and end: cts.py 82-96. -/
def passageBetween (t : LocalText) (start stop : List Str) : Except PyErr Node :=
  match citationAt t.decls ((start.length : Int) - 1) with
  | .error e => .error e
  | .ok d1 =>
    match citationAt t.decls ((stop.length : Int) - 1) with
    | .error e => .error e
    | .ok d2 =>
      match fill d1 (.list (start.map some)) with
      | .error e => .error e
      | .ok f1 =>
        match fill d2 (.list (stop.map some)) with
        | .error e => .error e
        | .ok f2 => passageOf t f1 f2

/-- `getTextualNode(subreference)`: the XML tree of the passage (cts.py 53-109). -/
def getTextualNode (t : LocalText) (r : Ref) : Except PyErr Node :=
  if pdepth r.start > t.decls.length then .error .citationDepth
  else match r.stop with
    | none => passageBetween t (plist r.start) (plist r.start)
    | some e => passageBetween t (plist r.start) (plist e)

/-- The loop that looks for what start and end have in common: cts.py 199-209. -/
def commonLoop (endDepth : Nat) (endList : List Str) : Nat → List Str → Except PyErr (List Str)
  | _, [] => .ok []
  | i, part :: r =>
    if i ≤ endDepth then
      match endList[i]? with
      | none => .error .indexError
      | some e => if part = e then (part :: ·) <$> commonLoop endDepth endList (i + 1) r else .ok []
    else .ok []

/-- The level for a range reference: cts.py 214-219. -/
def rangeLevel (startDepth depth : Nat) : Option Int → Int
  | none => (startDepth + depth : Nat)
  | some l => if l = 1 then (startDepth + 1 : Nat) else if l = 0 then startDepth else l

/-- Where the search starts: tree, passages, level (cts.py 184-224). `depth` is the length of the passage. -/
def reffStart (t : LocalText) (level : Option Int) : Option Ref → Except PyErr (Node × List Str × Option Int)
  | none => .ok (t.root, [], level)
  | some r =>
    match r.stop with
    | none => .ok (t.root, plist r.start, if level = some 0 then none else level)
    | some e =>
      match getTextualNode t r with
      | .error e => .error e
      | .ok tree =>
        match commonLoop (pdepth e) (plist e) 0 (plist r.start) with
        | .error e => .error e
        | .ok common => .ok (tree, common, some (rangeLevel (pdepth r.start) common.length level))

/-- The level that is listed: cts.py 226-230. -/
def effLevel (level : Option Int) (hasRef : Bool) (depth : Nat) : Int :=
  if level.getD 1 ≤ depth ∧ hasRef then depth + 1 else level.getD 1

/-- The queries of a round: cts.py 243-253. -/
def queryAll (decls : List Str) (tree : Node) : List (List (Option Str)) →
    Except PyErr (List (List Node × List (Option Str) × Str))
  | [] => .ok []
  | refs :: r =>
    match decls[refs.length]? with
    | none => .error .indexError
    | some d =>
      match fill d (.list (refs ++ [none])) with
      | .error e => .error e
      | .ok f =>
        match evalXpath tree f with
        | .error e => .error e
        | .ok nodes =>
          match queryAll decls tree r with
          | .error e => .error e
          | .ok l => .ok ((nodes, refs, d) :: l)

/-- The identifiers of the nodes found by one query: cts.py 240-241, 254. Attribute names are modelled in
their prefixed form, so the replacement of `xml:` by the namespace is not needed. -/
def readNodes (refs : List (Option Str)) (d : Str) : List Node → Except PyErr (List (List (Option Str)))
  | [] => .ok []
  | n :: r =>
    match citationAttribute d with
    | .error e => .error e
    | .ok a =>
      match readNodes refs d r with
      | .error e => .error e
      | .ok l => .ok ((refs ++ [n.get a]) :: l)

/-- The identifiers of all nodes found in a round: cts.py 239-255. -/
def readAll : List (List Node × List (Option Str) × Str) → Except PyErr (List (List (Option Str)))
  | [] => .ok []
  | (nodes, refs, d) :: r =>
    match readNodes refs d nodes with
    | .error e => .error e
    | .ok l =>
      match readAll r with
      | .error e => .error e
      | .ok m => .ok (l ++ m)

/-- One round of the loop: cts.py 239-260. -/
def reffRound (decls : List Str) (tree : Node) (ps : List (List (Option Str))) :
    Except PyErr (List (List (Option Str))) :=
  match queryAll decls tree ps with
  | .error e => .error e
  | .ok qs =>
    match readAll qs with
    | .error e => .error e
    | .ok l => if l.isEmpty then .error .keyError else .ok l

/-- The loop: cts.py 238-260. -/
def reffRounds (decls : List Str) (tree : Node) : Nat → List (List (Option Str)) →
    Except PyErr (List (List (Option Str)))
  | 0, ps => .ok ps
  | n + 1, ps =>
    match reffRound decls tree ps with
    | .error e => .error e
    | .ok l => reffRounds decls tree n l

/-- The components of a passage, `None` being refused by `str.join`. -/
def allSome : List (Option Str) → Except PyErr (List Str)
  | [] => .ok []
  | none :: _ => .error .typeError
  | some s :: r =>
    match allSome r with
    | .error e => .error e
    | .ok l => .ok (s :: l)

/-- `[".".join(passage) for passage in passages]`: cts.py 262. -/
def joinAll : List (List (Option Str)) → Except PyErr (List Str)
  | [] => .ok []
  | p :: r =>
    match allSome p with
    | .error e => .error e
    | .ok l =>
      match joinAll r with
      | .error e => .error e
      | .ok m => .ok (join ['.'] l :: m)

/-- `[CtsReference(reff) for reff in passages]`: cts.py 284. -/
def mkRefs : List Str → Except PyErr (List (Option Ref))
  | [] => .ok []
  | s :: r =>
    match mkRef s with
    | .error e => .error e
    | .ok x =>
      match mkRefs r with
      | .error e => .error e
      | .ok l => .ok (x :: l)

/-- References made from the passages; the citation of the level is looked up last: cts.py 262, 283-287. -/
def finishReffs (decls : List Str) (level : Int) (ps : List (List (Option Str))) :
    Except PyErr (List (Option Ref)) :=
  match joinAll ps with
  | .error e => .error e
  | .ok ss =>
    match mkRefs ss with
    | .error e => .error e
    | .ok l =>
      match citationAt decls (level - 1) with
      | .error e => .error e
      | .ok _ => .ok l

/-- The search at a known level: cts.py 231-288. -/
def reffsAt (decls : List Str) (tree : Node) (passage : List Str) (level : Int) :
    Except PyErr (List (Option Ref)) :=
  if level > decls.length then .error .citationDepth
  else match reffRounds decls tree (level - passage.length).toNat [passage.map some] with
    | .error e => .error e
    | .ok ps => finishReffs decls level ps

/-- `getValidReff(level, reference)`: cts.py 167-288. -/
def getValidReff (t : LocalText) (level : Option Int) (ref : Option Ref) : Except PyErr (List (Option Ref)) :=
  match reffStart t level ref with
  | .error e => .error e
  | .ok (tree, passage, level) => reffsAt t.decls tree passage (effLevel level ref.isSome passage.length)

end Verif.Model
