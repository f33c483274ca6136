import Verif.Model.Reference
/-!
Requests: MyCapytain/retrievers/cts5.py, retrievers/dts/__init__.py, common/utils/_http.py.

What `requests` and the network do is left out: a request is the list of its parameters, in the order of the dictionary.
-/
namespace Verif.Model
open Verif.Py

/-- `str(i)` for an integer. -/
def intStr (i : Int) : Str := if i < 0 then '-' :: natStr (-i).toNat else natStr i.toNat

/-- A value of a dictionary of parameters. `obj s` stands for any other object, with `str(obj) = s`. -/
inductive Val where
  | none
  | str (s : Str)
  | int (i : Int)
  | obj (s : Str)
  deriving DecidableEq, Repr

/-- `str(value)`. -/
def Val.text : Val → Str
  | .none => ['N','o','n','e']
  | .str s => s
  | .int i => intStr i
  | .obj s => s

/-- A string or `None`. -/
def Val.ofOption : Option Str → Val
  | some s => .str s
  | Option.none => .none

/-- A number or `None`. -/
def Val.ofInt : Option Int → Val
  | some i => .int i
  | Option.none => .none

/-! ### Names of parameters -/

/-- `inv`: cts5.py 51. -/
def kInv : Str := ['i','n','v']
/-- `urn`: cts5.py 71. -/
def kUrn : Str := ['u','r','n']
/-- `level`: cts5.py 90. -/
def kLevel : Str := ['l','e','v','e','l']
/-- `context`: cts5.py 153. -/
def kContext : Str := ['c','o','n','t','e','x','t']
/-- `request`: cts5.py 72. -/
def kRequest : Str := ['r','e','q','u','e','s','t']

/-! ### CTS: cts5.py -/

/-- The parameters that `call` sends: cts5.py 47-52. -/
def ctsCall (inventory : Option Str) (ps : List (Str × Val)) : List (Str × Str) :=
  let kept := (ps.filter fun p => p.2 ≠ .none).map fun p => (p.1, p.2.text)
  match inventory with
  | some i => if kInv ∈ kept.map (·.1) then kept else kept ++ [(kInv, i)]
  | none => kept

/-- `getCapabilities`: cts5.py 60-73. -/
def getCapabilities (d : Option Str) (inventory urn : Option Str) : List (Str × Str) :=
  ctsCall d [(kInv, .ofOption inventory), (kUrn, .ofOption urn), (kRequest, .str ['G','e','t','C','a','p','a','b','i','l','i','t','i','e','s'])]

/-- `getValidReff`: cts5.py 75-92. -/
def ctsValidReff (d : Option Str) (urn : Str) (inventory : Option Str) (level : Option Int) : List (Str × Str) :=
  ctsCall d [(kInv, .ofOption inventory), (kUrn, .str urn), (kLevel, .ofInt level),
    (kRequest, .str ['G','e','t','V','a','l','i','d','R','e','f','f'])]

/-- `getFirstUrn`: cts5.py 94-107. -/
def ctsFirstUrn (d : Option Str) (urn : Str) (inventory : Option Str) : List (Str × Str) :=
  ctsCall d [(kInv, .ofOption inventory), (kUrn, .str urn), (kRequest, .str ['G','e','t','F','i','r','s','t','U','r','n'])]

/-- `getPrevNextUrn`: cts5.py 109-122. -/
def ctsPrevNextUrn (d : Option Str) (urn : Str) (inventory : Option Str) : List (Str × Str) :=
  ctsCall d [(kInv, .ofOption inventory), (kUrn, .str urn), (kRequest, .str ['G','e','t','P','r','e','v','N','e','x','t','U','r','n'])]

/-- `getLabel`: cts5.py 124-137. -/
def ctsLabel (d : Option Str) (urn : Str) (inventory : Option Str) : List (Str × Str) :=
  ctsCall d [(kInv, .ofOption inventory), (kUrn, .str urn), (kRequest, .str ['G','e','t','L','a','b','e','l'])]

/-- `getPassage`: cts5.py 139-155. -/
def ctsPassage (d : Option Str) (urn : Str) (inventory : Option Str) (context : Option Int) : List (Str × Str) :=
  ctsCall d [(kInv, .ofOption inventory), (kUrn, .str urn), (kContext, .ofInt context),
    (kRequest, .str ['G','e','t','P','a','s','s','a','g','e'])]

/-- `getPassagePlus`: cts5.py 157-173. -/
def ctsPassagePlus (d : Option Str) (urn : Str) (inventory : Option Str) (context : Option Int) : List (Str × Str) :=
  ctsCall d [(kInv, .ofOption inventory), (kUrn, .str urn), (kContext, .ofInt context),
    (kRequest, .str ['G','e','t','P','a','s','s','a','g','e','P','l','u','s'])]

/-- The argument `subreference`: `None`, a string or a reference. -/
inductive SubArg where
  | none
  | text (s : Str)
  | ref (r : Ref)
  deriving DecidableEq, Repr

/-- `if subreference`: a reference is a pair, which is never empty. -/
def SubArg.truthy : SubArg → Bool
  | .none => false
  | .text s => !s.isEmpty
  | .ref _ => true

/-- `str(subreference)`. -/
def SubArg.str : SubArg → Str
  | .none => ['N','o','n','e']
  | .text s => s
  | .ref r => r.str

/-- `"{}:{}".format(textId, subreference)`. -/
def withSub (textId : Str) (s : SubArg) : Str := textId ++ ':' :: s.str

/-- `getTextualNode`: cts5.py 189-204. -/
def ctsTextualNode (d : Option Str) (textId : Str) (s : SubArg) (prevnext metadata : Bool) : List (Str × Str) :=
  let urn := if s.truthy then withSub textId s else textId
  if prevnext || metadata then ctsPassagePlus d urn none none else ctsPassage d urn none none

/-- `getSiblings`: cts5.py 206-214. -/
def ctsSiblings (d : Option Str) (textId : Str) (s : SubArg) : List (Str × Str) :=
  ctsPrevNextUrn d (withSub textId s) none

/-- The depth of the passage asked for: cts5.py 231-235. -/
def subDepth : SubArg → Except PyErr Nat
  | .ref r => .ok r.depth
  | .text s =>
    match mkRef s with
    | .ok (some r) => .ok r.depth
    | .ok none => .error .attributeError
    | .error e => .error e
  | .none => .error .attributeError

/-- `getReffs`: cts5.py 216-238. -/
def ctsReffs (d : Option Str) (textId : Str) (level : Option Int) (s : SubArg) : Except PyErr (List (Str × Str)) :=
  if s.truthy then
    match subDepth s with
    | .error e => .error e
    | .ok n =>
      match level with
      | none => .error .typeError
      | some l =>
        let depth := l + n
        .ok (ctsValidReff d (withSub textId s) none (some (if l ≠ 0 then max depth l else l)))
  else
    .ok (ctsValidReff d textId none level)

/-! ### DTS: retrievers/dts/__init__.py -/

/-- `defaults.get(key, None)`. -/
def lookupVal (l : List (Str × Val)) (k : Str) : Val :=
  match l.find? fun p => p.1 == k with
  | some p => p.2
  | none => .none

/-- `d[k] = v` on a dictionary. -/
def setKey {α : Type} : List (Str × α) → Str → α → List (Str × α)
  | [], k, v => [(k, v)]
  | (k', v') :: r, k, v => if k' = k then (k, v) :: r else (k', v') :: setKey r k v

/-- `d.update(other)`. -/
def updateKeys {α : Type} (d other : List (Str × α)) : List (Str × α) := other.foldl (fun acc p => setKey acc p.1 p.2) d

/-- The parameters that `call` sends: retrievers/dts/__init__.py 48-56. A string is a list of one string for
`requests`; `query` is `self.routes[route].query_dict`. -/
def dtsCall (query : List (Str × List Str)) (ps defaults : List (Str × Val)) : List (Str × List Str) :=
  let kept := (ps.filter fun p => p.2 ≠ .none ∧ p.2 ≠ lookupVal defaults p.1).map fun p => (p.1, [p.2.text])
  updateKeys kept query

/-- The argument `ref`: a `BaseReference` of two parts, or something else that is true or false. -/
inductive DtsRefArg where
  | none
  | ref (start stop : Val)
  | other (v : Val)
  deriving DecidableEq, Repr

/-- Truth value of a value; of other objects only a non-empty one is considered. -/
def Val.truthy : Val → Bool
  | .none => false
  | .str s => !s.isEmpty
  | .int i => i ≠ 0
  | .obj _ => true

/-- `ref`: retrievers/dts/__init__.py 27. -/
def kRef : Str := ['r','e','f']
/-- `start`: retrievers/dts/__init__.py 25. -/
def kStart : Str := ['s','t','a','r','t']
/-- `end`: retrievers/dts/__init__.py 25. -/
def kEnd : Str := ['e','n','d']
/-- `id`: retrievers/dts/__init__.py 117. -/
def kId : Str := ['i','d']
/-- `nav`: retrievers/dts/__init__.py 118. -/
def kNav : Str := ['n','a','v']
/-- `page`: retrievers/dts/__init__.py 119. -/
def kPage : Str := ['p','a','g','e']
/-- `groupBy`: retrievers/dts/__init__.py 146. -/
def kGroupBy : Str := ['g','r','o','u','p','B','y']
/-- `max`: retrievers/dts/__init__.py 147. -/
def kMax : Str := ['m','a','x']
/-- `exclude`: retrievers/dts/__init__.py 148. -/
def kExclude : Str := ['e','x','c','l','u','d','e']
/-- `children`: retrievers/dts/__init__.py 123. -/
def children : Str := ['c','h','i','l','d','r','e','n']

/-- `_parse_ref_parameters`: retrievers/dts/__init__.py 22-30. -/
def refParameters (ps : List (Str × Val)) : DtsRefArg → List (Str × Val)
  | .ref start stop =>
    if stop.truthy then setKey (setKey ps kStart start) kEnd stop else setKey ps kRef start
  | .other v => if v.truthy then setKey ps kRef v else ps
  | .none => ps

/-- `get_collection`: retrievers/dts/__init__.py 105-126. -/
def getCollection (query : List (Str × List Str)) (id : Option Str) (nav : Str) (page : Val) : List (Str × List Str) :=
  dtsCall query [(kId, .ofOption id), (kNav, .str nav), (kPage, page)] [(kId, .none), (kNav, .str children), (kPage, .int 1)]

/-- `get_navigation`: retrievers/dts/__init__.py 128-156. -/
def getNavigation (query : List (Str × List Str)) (id : Str) (level : Val) (ref : DtsRefArg) (groupBy max exclude page : Val) :
    List (Str × List Str) :=
  dtsCall query (refParameters [(kId, .str id), (kLevel, level), (kGroupBy, groupBy), (kMax, max), (kExclude, exclude), (kPage, page)] ref) []

/-- `get_document`: retrievers/dts/__init__.py 158-178. -/
def getDocument (query : List (Str × List Str)) (id : Str) (ref : DtsRefArg) : List (Str × List Str) :=
  dtsCall query (refParameters [(kId, .str id)] ref) []

/-- The requests of a retriever. -/
inductive DtsReq where
  | entry
  | get (route : Str) (params : List (Str × List Str))
  deriving DecidableEq, Repr

/-- A retriever: `_routes`, and the requests made so far. `Routes` gives for a route its address and its parameters. -/
structure DtsRetriever where
  routes : Option (List (Str × (Str × List (Str × List Str))))
  log : List DtsReq

/-- `routes`: retrievers/dts/__init__.py 76-103. `entry` is what the entry point answers; an empty dictionary cannot
be, for it always has the three routes. -/
def DtsRetriever.getRoutes (r : DtsRetriever) (entry : List (Str × (Str × List (Str × List Str)))) :
    DtsRetriever × List (Str × (Str × List (Str × List Str))) :=
  match r.routes with
  | some l => (r, l)
  | none => ({ routes := some entry, log := r.log ++ [.entry] }, entry)

/-- `call`: retrievers/dts/__init__.py 37-74: what is left of the retriever, and `KeyError` for an unknown route. -/
def DtsRetriever.call (r : DtsRetriever) (entry : List (Str × (Str × List (Str × List Str)))) (route : Str) (ps defaults : List (Str × Val)) :
    DtsRetriever × Except PyErr Unit :=
  let (r', l) := r.getRoutes entry
  match l.find? fun p => p.1 == route with
  | some (_, path, query) => ({ r' with log := r'.log ++ [.get path (dtsCall query ps defaults)] }, .ok ())
  | none => (r', .error .keyError)

/-! ### Links: common/utils/_http.py -/

/-- `parse_qs(s)`: pieces between `&` that have a `=` and something after it (an older Python also cuts at `;`); `dec` is the decoding of `+` and `%`. The
values of a name are collected in the order of first occurrence of the names. -/
def queryPairs (dec : Str → Str) (s : Str) : List (Str × Str) :=
  (split '&' s).filterMap fun piece =>
    match find '=' piece with
    | none => none
    | some i => if piece.drop (i + 1) = [] then none else some (dec (piece.take i), dec (piece.drop (i + 1)))

/-- `parse_qs(s).get(name, None)`: the values of a name, `none` when there are none. -/
def queryGet (dec : Str → Str) (s name : Str) : Option (List Str) :=
  match ((queryPairs dec s).filter fun p => p.1 == name).map (·.2) with
  | [] => none
  | vs => some vs

/-- A link of a `Link` header: its relation and its address. -/
structure Link where
  rel : Str
  href : Str
  deriving DecidableEq, Repr

/-- `_Navigation`: _http.py 7. -/
structure Navigation where
  prev : Option Str
  next : Option Str
  last : Option Str
  current : Option Str
  first : Option Str
  deriving DecidableEq, Repr

/-- The dictionary of links, of which the last one of a relation stays: _http.py 18-21. -/
def linkPages (dec : Str → Str) (links : List Link) (rel : Str) : Option (Option (List Str)) :=
  (links.reverse.find? fun l => l.rel == rel).map fun l => queryGet dec l.href kPage

/-- `links.get(rel, [None])[0]`: _http.py 22-28. -/
def linkPage (dec : Str → Str) (links : List Link) (rel : Str) : Except PyErr (Option Str) :=
  match linkPages dec links rel with
  | none => .ok none
  | some none => .error .typeError
  | some (some []) => .error .indexError
  | some (some (v :: _)) => .ok (some v)

/-- `previous`: _http.py 23. -/
def rPrevious : Str := ['p','r','e','v','i','o','u','s']
/-- `next`: _http.py 24. -/
def rNext : Str := ['n','e','x','t']
/-- `last`: _http.py 25. -/
def rLast : Str := ['l','a','s','t']
/-- `current`: _http.py 26. -/
def rCurrent : Str := ['c','u','r','r','e','n','t']
/-- `first`: _http.py 27. -/
def rFirst : Str := ['f','i','r','s','t']

/-- `parse_pagination`: _http.py 10-28. -/
def parsePagination (dec : Str → Str) (links : List Link) : Except PyErr Navigation :=
  match linkPage dec links rPrevious with
  | .error e => .error e
  | .ok prev =>
    match linkPage dec links rNext with
    | .error e => .error e
    | .ok next =>
      match linkPage dec links rLast with
      | .error e => .error e
      | .ok last =>
        match linkPage dec links rCurrent with
        | .error e => .error e
        | .ok current =>
          match linkPage dec links rFirst with
          | .error e => .error e
          | .ok first => .ok ⟨prev, next, last, current, first⟩

end Verif.Model
