import Verif.Model.Retriever
/-!
The DTS resolver and its collections: MyCapytain/resolvers/dts/api_v1.py, resources/collections/dts/_resolver.py,
resources/collections/dts/_base.py, common/reference/_base.py (reference sets).

A reply is the expanded JSON-LD that the code reads, field by field. Loops over page links carry a number of turns
(`fuel`); `none` says that they are not over after so many turns. Other metadata of members are left out.
-/
namespace Verif.Model
open Verif.Py

/-- `page=`: api_v1.py 29, _resolver.py 12. -/
def pageEq : Str := ['p','a','g','e','=']

/-- `re.compile("page=(\d+)").findall(s)[0]`: api_v1.py 29, 132-136, _resolver.py 12, 148-152. Only the ASCII digits are
digits here. -/
def regexPage : Str → Option Str
  | [] => none
  | c :: s =>
    if startsWith (c :: s) pageEq ∧ ((c :: s).drop 5).takeWhile isDigit ≠ [] then some (((c :: s).drop 5).takeWhile isDigit)
    else regexPage s

/-! ### References: api_v1.py -/

/-- A `DtsReference`: start, end and type; common/reference/_dts_1.py 11-37. -/
structure DtsRef where
  start : Str
  stop : Option Str
  type : Option Str
  deriving DecidableEq, Repr

/-- A member of a navigation reply. -/
structure NavMember where
  ref : Option Str
  start : Option Str
  stop : Option Str
  citeType : Option Str
  deriving DecidableEq, Repr

/-- A type that is empty is not set: common/reference/_dts_1.py 19-20. -/
def setType : Option Str → Option Str
  | some [] => none
  | t => t

/-- `_parse_ref`: api_v1.py 32-50. -/
def parseRef (m : NavMember) (default : Option Str) : Except PyErr DtsRef :=
  let type := setType (match m.citeType with | some t => some t | none => default)
  match m.ref with
  | some r => .ok ⟨r, none, type⟩
  | none =>
    match m.start, m.stop with
    | some a, some b => .ok ⟨a, some b, type⟩
    | _, _ => .error .emptyReference

/-- A navigation reply. -/
structure NavPage where
  level : Option Int
  citeType : Option Str
  members : List NavMember
  /-- `hydra:next` of the first `hydra:view`. -/
  next : Option Str
  deriving DecidableEq, Repr

/-- The list comprehension of api_v1.py 124-127. -/
def parseRefs (default : Option Str) : List NavMember → Except PyErr (List DtsRef)
  | [] => .ok []
  | m :: ms =>
    match parseRef m default with
    | .error e => .error e
    | .ok r =>
      match parseRefs default ms with
      | .error e => .error e
      | .ok rs => .ok (r :: rs)

/-- An item of a reference set. -/
inductive RefItem where
  | ref (r : DtsRef)
  | part (p : Option Str)
  deriving DecidableEq, Repr

/-- A `DtsReferenceSet`: its items, its level and the name of its citation. -/
structure DtsRefSet where
  items : List RefItem
  level : Option Int
  citation : Option Str
  deriving DecidableEq, Repr

/-- `BaseReferenceSet.__new__`: common/reference/_base.py 358-367: one reference alone is taken apart. -/
def mkRefSet (refs : List DtsRef) (level : Option Int) (citation : Option Str) : DtsRefSet :=
  match refs with
  | [r] => ⟨[.part (some r.start), .part r.stop], level, citation⟩
  | rs => ⟨rs.map .ref, level, citation⟩

/-- What `getReffs` is asked for. -/
structure NavQuery where
  textId : Str
  level : Val
  ref : DtsRefArg
  exclude : Val
  groupBy : Val

/-- The request of a page, the first one without a page number: api_v1.py 101-109. -/
def navRequest (query : List (Str × List Str)) (q : NavQuery) (page : Option Str) : List (Str × List Str) :=
  getNavigation query q.textId q.level q.ref q.groupBy .none q.exclude (.ofOption page)

/-- The loop of `getReffs`: api_v1.py 99-136. `serve` is what the endpoint answers to a request: an error when
the request raises one, `none` for an empty document. The requests made are returned with the outcome. -/
def reffsLoop (serve : List (Str × List Str) → Except PyErr (Option NavPage)) (query : List (Str × List Str)) (q : NavQuery) :
    Nat → Option Str → List DtsRef → Option (List (List (Str × List Str)) × Except PyErr (List DtsRef × Option Int × Option Str))
  | 0, _, _ => none
  | fuel + 1, page, refs =>
    let r := navRequest query q page
    match serve r with
    | .error e => some ([r], .error e)
    | .ok none => some ([r], .error .attributeError)
    | .ok (some data) =>
      match parseRefs data.citeType data.members with
      | .error e => some ([r], .error e)
      | .ok rs =>
        match data.next with
        | none => some ([r], .ok (refs ++ rs, data.level, data.citeType))
        | some link =>
          match regexPage link with
          | none => some ([r], .error .indexError)
          | some p =>
            match reffsLoop serve query q fuel (some p) (refs ++ rs) with
            | none => none
            | some (log, out) => some (r :: log, out)

/-- `getReffs`: api_v1.py 83-147. -/
def dtsReffs (serve : List (Str × List Str) → Except PyErr (Option NavPage)) (query : List (Str × List Str)) (q : NavQuery) (fuel : Nat) :
    Option (List (List (Str × List Str)) × Except PyErr DtsRefSet) :=
  match reffsLoop serve query q fuel none [] with
  | none => none
  | some (log, .error e) => some (log, .error e)
  | some (log, .ok (refs, level, citeType)) => some (log, .ok (mkRefSet refs level (setType citeType)))

end Verif.Model
