import Verif.Model.Retriever
/-!
Addresses: `parse_uri` of MyCapytain/common/utils/_http.py, with what it uses of urllib.parse (CPython 3.11).
Not modelled: the checks of host names (brackets, characters that normalise to delimiters), the removal of control characters,
and schemes other than http, https and ftp, which are taken as unknown to urllib.
-/
namespace Verif.Model
open Verif.Py

/-- The result of `urlparse`. -/
structure Uri where
  scheme : Str
  netloc : Str
  path : Str
  params : Str
  query : Str
  fragment : Str
  deriving DecidableEq, Repr

/-- An ASCII letter. -/
def asciiLetter (c : Char) : Bool := (97 ≤ c.toNat && c.toNat ≤ 122) || (65 ≤ c.toNat && c.toNat ≤ 90)

/-- `c in scheme_chars`. -/
def schemeChar (c : Char) : Bool := asciiLetter c || isDigit c || c == '+' || c == '-' || c == '.'

/-- The schemes that `uses_relative`, `uses_netloc` and `uses_params` of urllib.parse have in common; see above. -/
def knownScheme (s : Str) : Bool := s ∈ [[], ['h', 't', 't', 'p'], ['h', 't', 't', 'p', 's'], ['f', 't', 'p']]

/-- The scheme before the first colon, and the rest; `dflt` when there is no scheme. It begins with a letter (an older Python does
not ask for that). -/
def cutScheme (dflt s : Str) : Str × Str :=
  let pre := s.takeWhile (· ≠ ':')
  if pre.length < s.length ∧ pre.head?.any asciiLetter ∧ pre.all schemeChar then (pre.map Char.toLower, s.drop (pre.length + 1))
  else (dflt, s)

/-- `c in '/?#'`. -/
def netlocEnd (c : Char) : Bool := c == '/' || c == '?' || c == '#'

/-- The host after two slashes (`_splitnetloc`), and the rest. -/
def cutNetloc (s : Str) : Str × Str :=
  if startsWith s ['/', '/'] then ((s.drop 2).takeWhile (!netlocEnd ·), (s.drop 2).dropWhile (!netlocEnd ·)) else ([], s)

/-- `s.split(c, 1)`, with an empty second part when `c` does not occur. -/
def cutAt (c : Char) (s : Str) : Str × Str := (s.takeWhile (· ≠ c), (s.dropWhile (· ≠ c)).drop 1)

/-- What comes after the last slash. -/
def afterSlash (s : Str) : Str := (s.reverse.takeWhile (· ≠ '/')).reverse

/-- What comes before, with the slash. -/
def uptoSlash (s : Str) : Str := (s.reverse.dropWhile (· ≠ '/')).reverse

/-- `_splitparams(url)`: the parameters after a semicolon in the last segment. -/
def cutParams (s : Str) : Str × Str :=
  if ';' ∈ afterSlash s then (uptoSlash s ++ (cutAt ';' (afterSlash s)).1, (cutAt ';' (afterSlash s)).2) else (s, [])

/-- `urlparse(url, scheme)` of urllib.parse. -/
def urlparse (url dflt : Str) : Uri :=
  let a := cutScheme dflt url
  let b := cutNetloc a.2
  let c := cutAt '#' b.2
  let d := cutAt '?' c.1
  let e := if knownScheme a.1 then cutParams d.1 else (d.1, [])
  ⟨a.1, b.1, e.1, e.2, d.2, c.2⟩

/-- `urlunparse(components)` of urllib.parse (CPython 3.11.10; earlier versions differ for a path that begins with two slashes and no
host). -/
def urlunparse (u : Uri) : Str :=
  let url := if u.params ≠ [] then u.path ++ [';'] ++ u.params else u.path
  let url :=
    if u.netloc ≠ [] ∨ (u.scheme ≠ [] ∧ knownScheme u.scheme) ∨ url.take 2 = ['/', '/'] then
      ['/', '/'] ++ u.netloc ++ (if url ≠ [] ∧ url.take 1 ≠ ['/'] then '/' :: url else url)
    else url
  let url := if u.scheme ≠ [] then u.scheme ++ [':'] ++ url else url
  let url := if u.query ≠ [] then url ++ ['?'] ++ u.query else url
  if u.fragment ≠ [] then url ++ ['#'] ++ u.fragment else url

/-- `segments[1:-1] = filter(None, segments[1:-1])` in `urljoin`. -/
def squeeze : List Str → List Str
  | [] => []
  | [x] => [x]
  | x :: y :: r => x :: ((y :: r).dropLast.filter (· ≠ []) ++ [(y :: r).getLast (by simp)])

/-- The loop over the segments in `urljoin`. -/
def resolveSegs : List Str → List Str → List Str
  | resolved, [] => resolved
  | resolved, seg :: rest =>
    if seg = ['.', '.'] then resolveSegs resolved.dropLast rest
    else if seg = ['.'] then resolveSegs resolved rest
    else resolveSegs (resolved ++ [seg]) rest

/-- The path that `urljoin` makes of the path of the base and that of the reference. -/
def joinPaths (bpath path : Str) : Str :=
  let parts := split '/' bpath
  let base := if parts.getLast? ≠ some [] then parts.dropLast else parts
  let segs := if path.take 1 = ['/'] then split '/' path else squeeze (base ++ split '/' path)
  let resolved := resolveSegs [] segs
  let resolved := if segs.getLast? = some ['.'] ∨ segs.getLast? = some ['.', '.'] then resolved ++ [[]] else resolved
  let p := join ['/'] resolved
  if p = [] then ['/'] else p

/-- `urljoin(base, url)` of urllib.parse. -/
def urljoin (base url : Str) : Str :=
  if base = [] then url
  else if url = [] then base
  else
    let b := urlparse base []
    let u := urlparse url b.scheme
    if u.scheme ≠ b.scheme ∨ knownScheme u.scheme = false then url
    else if u.netloc ≠ [] then urlunparse u
    else if u.path = [] ∧ u.params = [] then
      urlunparse ⟨u.scheme, b.netloc, b.path, b.params, if u.query = [] then b.query else u.query, u.fragment⟩
    else urlunparse ⟨u.scheme, b.netloc, joinPaths b.path u.path, u.params, u.query, u.fragment⟩

/-- A value more for a name, which comes last when it is new: how `parse_qs` fills its dictionary. -/
def addQueryValue (l : List (Str × List Str)) (p : Str × Str) : List (Str × List Str) :=
  match l with
  | [] => [(p.1, [p.2])]
  | q :: r => if q.1 = p.1 then (q.1, q.2 ++ [p.2]) :: r else q :: addQueryValue r p

/-- `parse_qs(query)` as a dictionary. -/
def queryDict (dec : Str → Str) (s : Str) : List (Str × List Str) := (queryPairs dec s).foldl addQueryValue []

/-- `parse_uri(uri, endpoint_uri)`: _http.py 31-45. -/
def parseUri (dec : Str → Str) (uri endpoint : Str) : Str × List (Str × List Str) :=
  let u := urlparse uri []
  (urljoin endpoint u.path, queryDict dec u.query)

/-- `data[key]`. -/
def entryGet (data : List (Str × Str)) (key : Str) : Except PyErr Str :=
  match data.find? fun p => p.1 == key with
  | some p => .ok p.2
  | none => .error .keyError

/-- The dictionary of routes: retrievers/dts/__init__.py 95-102. `data` is the answer of the entry point, with texts as values. -/
def dtsRoutes (dec : Str → Str) (data : List (Str × Str)) (endpoint : Str) :
    Except PyErr (List (Str × (Str × List (Str × List Str)))) :=
  match entryGet data ['c', 'o', 'l', 'l', 'e', 'c', 't', 'i', 'o', 'n', 's'] with
  | .error e => .error e
  | .ok c =>
    match entryGet data ['d', 'o', 'c', 'u', 'm', 'e', 'n', 't', 's'] with
    | .error e => .error e
    | .ok d =>
      match entryGet data ['n', 'a', 'v', 'i', 'g', 'a', 't', 'i', 'o', 'n'] with
      | .error e => .error e
      | .ok n =>
        .ok [(['c', 'o', 'l', 'l', 'e', 'c', 't', 'i', 'o', 'n', 's'], parseUri dec c endpoint), (['d', 'o', 'c', 'u', 'm', 'e', 'n', 't', 's'], parseUri dec d endpoint),
          (['n', 'a', 'v', 'i', 'g', 'a', 't', 'i', 'o', 'n'], parseUri dec n endpoint)]

end Verif.Model
